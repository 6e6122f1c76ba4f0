import Verif.Model.MakeArray

/-! # Property C116: the forms of `make_array` -/

namespace Utils.Props

open Utils.MakeArray

variable {τ : Type} [DecidableEq τ]

/-! ## What each call means -/

/-- `make_array<ts...>(args...)`: as many of the arguments as there are explicit types bind to
references to these. -/
def BindAll (L : Lang τ) (ts args : List τ) : Prop :=
  ts.length ≤ args.length ∧ ∀ (i : Nat) (t a : τ), ts[i]? = some t → args[i]? = some a → L.binds t a = true

/-- Explicit arguments `N, V` and possibly `CharT, Traits`, and one argument that is such a view, or that
converts to it if both are explicit. -/
def ViewCall (L : Lang τ) (ex : List (TArg τ)) (args : List τ) (n : Nat) (v : τ) : Prop :=
  ∃ a, args = [a] ∧
    ((ex = [.value n, .type v] ∧ ∃ c t, L.viewOf a = some (c, t)) ∨
     (∃ c, ex = [.value n, .type v, .type c] ∧ ∃ t, L.viewOf a = some (c, t)) ∨
     ∃ c t, ex = [.value n, .type v, .type c, .type t] ∧ L.toView c t a = true)

omit [DecidableEq τ] in
theorem packTypes_spec (L : Lang τ) : ∀ (ts args all : List τ),
    packTypes L (ts.map fun t => some (.type t)) args = some all ↔
      BindAll L ts args ∧ all = ts ++ args.drop ts.length
  | [], args, all => by simp [packTypes, BindAll, @eq_comm _ all]
  | t :: ts, [], all => by simp [packTypes, BindAll]
  | t :: ts, a :: args, all => by
    simp only [List.map_cons, packTypes]
    have ih := packTypes_spec L ts args
    by_cases hb : L.binds t a = true
    · rw [if_pos hb, Option.map_eq_some_iff]
      constructor
      · rintro ⟨r, hr, rfl⟩
        obtain ⟨⟨h1, h2⟩, rfl⟩ := (ih r).1 hr
        refine ⟨⟨by simpa using h1, ?_⟩, by simp⟩
        intro i t' a' ht ha
        cases i with
        | zero =>
          simp only [List.getElem?_cons_zero, Option.some.injEq] at ht ha
          rw [← ht, ← ha]
          exact hb
        | succ i =>
          simp only [List.getElem?_cons_succ] at ht ha
          exact h2 i t' a' ht ha
      · rintro ⟨⟨h1, h2⟩, rfl⟩
        refine ⟨ts ++ args.drop ts.length, (ih _).2 ⟨⟨by simpa using h1, ?_⟩, rfl⟩, by simp⟩
        intro i t' a' ht ha
        exact h2 (i + 1) t' a' (by simpa using ht) (by simpa using ha)
    · rw [if_neg hb]
      simp only [reduceCtorEq, false_iff]
      rintro ⟨⟨-, h2⟩, -⟩
      exact hb (h2 0 t a rfl rfl)

omit [DecidableEq τ] in
theorem assignPack_iff : ∀ {ex : List (TArg τ)} {l : List (Option (TArg τ))},
    assignPack ex = some l ↔
      ∃ ts : List τ, ex = ts.map .type ∧ l = ts.map fun t => some (.type t)
  | [], l => by
    simp only [assignPack, Option.some.injEq]
    constructor
    · rintro rfl
      exact ⟨[], rfl, rfl⟩
    · rintro ⟨ts, h, rfl⟩
      cases ts with
      | nil => rfl
      | cons => cases h
  | .value n :: ex, l => by
    simp only [assignPack, reduceCtorEq, false_iff]
    rintro ⟨ts, h, -⟩
    cases ts <;> cases h
  | .type t :: ex, l => by
    simp only [assignPack, Option.map_eq_some_iff]
    constructor
    · rintro ⟨r, hr, rfl⟩
      obtain ⟨ts, rfl, rfl⟩ := assignPack_iff.1 hr
      exact ⟨t :: ts, rfl, rfl⟩
    · rintro ⟨ts, h, rfl⟩
      cases ts with
      | nil => cases h
      | cons t' ts =>
        cases h
        exact ⟨_, assignPack_iff.2 ⟨ts, rfl, rfl⟩, rfl⟩

theorem viable_list (L : Lang τ) (ex : List (TArg τ)) (args : List τ) (m : Made τ) :
    viable L listForm ex args = some m ↔ ∃ ts e, ex = ts.map .type ∧ args ≠ [] ∧ BindAll L ts args ∧
      L.common (ts ++ args.drop ts.length) = some e ∧ m = .list e args.length := by
  unfold viable listForm
  simp only [assign, Option.bind_eq_bind, Option.bind_eq_some_iff, assignPack_iff]
  constructor
  · rintro ⟨_, ⟨ts, rfl, rfl⟩, all, hall, h⟩
    obtain ⟨hb, rfl⟩ := (packTypes_spec L ts args all).1 hall
    have hlen : (ts ++ args.drop ts.length).length = args.length := by
      rw [List.length_append, List.length_drop]
      have := hb.1
      omega
    split at h
    · cases h
    · next hne =>
      obtain ⟨e, he, hm⟩ := Option.bind_eq_some_iff.1 h
      refine ⟨ts, e, rfl, ?_, hb, he, ?_⟩
      · rintro rfl
        rw [List.isEmpty_iff] at hne
        exact hne (List.length_eq_zero_iff.1 hlen)
      · rw [hlen] at hm
        exact (Option.some.inj hm).symm
  · rintro ⟨ts, e, rfl, hne, hb, he, rfl⟩
    have hlen : (ts ++ args.drop ts.length).length = args.length := by
      rw [List.length_append, List.length_drop]
      have := hb.1
      omega
    refine ⟨_, ⟨ts, rfl, rfl⟩, _, (packTypes_spec L ts args _).2 ⟨hb, rfl⟩, ?_⟩
    rw [if_neg]
    · rw [he, hlen]
      rfl
    · intro h
      rw [List.isEmpty_iff] at h
      rw [h] at hlen
      exact hne (List.length_eq_zero_iff.1 hlen.symm)

theorem viable_empty (L : Lang τ) (ex : List (TArg τ)) (args : List τ) (m : Made τ) :
    viable L emptyForm ex args = some m ↔ ∃ t, ex = [.type t] ∧ args = [] ∧ m = .empty t := by
  unfold viable emptyForm
  match ex, args with
  | [], [] => simp [assign, deduceAll]
  | [], _ :: _ => simp [assign, deduceAll]
  | [.type t], [] => simp [assign, deduceAll, @eq_comm _ m]
  | [.type t], _ :: _ => simp [assign, deduceAll]
  | [.value n], _ => simp [assign]
  | .type _ :: _ :: _, _ => simp [assign]
  | .value _ :: _ :: _, _ => simp [assign]

theorem viable_fill (L : Lang τ) (ex : List (TArg τ)) (args : List τ) (m : Made τ) :
    viable L fillForm ex args = some m ↔ ∃ t n, ex = [.type t, .value n] ∧
      (args = [] ∨ ∃ a, args = [a] ∧ L.converts t a = true) ∧ m = .fill t n := by
  unfold viable fillForm
  match ex, args with
  | [], [] => simp [assign, deduceAll]
  | [], [a] => simp [assign, deduceAll, deduce, agree]
  | [], _ :: _ :: _ => simp [assign, deduceAll, deduce, agree]
  | [.type t], [] => simp [assign, deduceAll]
  | [.type t], [a] => cases h : L.converts t a <;> simp [assign, deduceAll, deduce, h]
  | [.type t], a :: _ :: _ => cases h : L.converts t a <;> simp [assign, deduceAll, deduce]
  | .value n :: _, _ => simp [assign]
  | [.type t, .value n], [] =>
    constructor
    · intro h
      cases h
      exact ⟨t, n, rfl, Or.inl rfl, rfl⟩
    · rintro ⟨_, _, h, -, rfl⟩
      cases h
      rfl
  | [.type t, .value n], [a] =>
    cases h : L.converts t a with
    | false =>
      simp only [assign, deduceAll, deduce]
      constructor
      · intro e
        simp [h] at e
      · rintro ⟨_, _, e, e' | ⟨_, e', e''⟩, rfl⟩
        · cases e'
        · cases e
          cases e'
          rw [h] at e''
          cases e''
    | true =>
      constructor
      · intro e
        simp [assign, deduceAll, deduce, h] at e
        exact ⟨t, n, rfl, Or.inr ⟨a, rfl, h⟩, e.symm⟩
      · rintro ⟨_, _, e, -, rfl⟩
        cases e
        simp [assign, deduceAll, deduce, h]
  | [.type t, .value n], a :: _ :: _ => cases h : L.converts t a <;> simp [assign, deduceAll, deduce]
  | .type t :: .type n :: _, _ => simp [assign]
  | .type t :: .value n :: _ :: _, _ => simp [assign]

theorem viable_view (L : Lang τ) (ex : List (TArg τ)) (args : List τ) (m : Made τ) :
    viable L viewForm ex args = some m ↔ ∃ n v, ViewCall L ex args n v ∧ m = .chars v n := by
  unfold viable viewForm ViewCall
  match ex, args with
  | .type _ :: _, _ => simp [assign]
  | .value _ :: .value _ :: _, _ => simp [assign]
  | .value _ :: .type _ :: .value _ :: _, _ => simp [assign]
  | .value _ :: .type _ :: .type _ :: .value _ :: _, _ => simp [assign]
  | .value _ :: .type _ :: .type _ :: .type _ :: _ :: _, _ => simp [assign]
  | [], [] => simp [assign, deduceAll]
  | [.value n], [] => simp [assign, deduceAll]
  | [.value n, .type v], [] => simp [assign, deduceAll]
  | [.value n, .type v, .type c], [] => simp [assign, deduceAll]
  | [.value n, .type v, .type c, .type t], [] => simp [assign, deduceAll]
  | [], a :: as =>
    cases as <;> cases h : L.viewOf a <;> simp [assign, deduceAll, deduce, agree, h]
  | [.value n], a :: as =>
    cases as <;> cases h : L.viewOf a <;> simp [assign, deduceAll, deduce, agree, h]
  | [.value n, .type v], [a] =>
    constructor
    · intro e
      cases h : L.viewOf a with
      | none => simp [assign, deduceAll, deduce, h] at e
      | some x =>
        simp [assign, deduceAll, deduce, agree, h] at e
        exact ⟨n, v, ⟨a, rfl, Or.inl ⟨rfl, x.1, x.2, h⟩⟩, e.symm⟩
    · rintro ⟨_, _, ⟨_, e', ⟨e, c, t, h⟩ | ⟨_, e, -⟩ | ⟨_, _, e, -⟩⟩, rfl⟩ <;> cases e <;> cases e'
      simp [assign, deduceAll, deduce, agree, h]
  | [.value n, .type v, .type c], [a] =>
    constructor
    · intro e
      cases h : L.viewOf a with
      | none => simp [assign, deduceAll, deduce, h] at e
      | some x =>
        by_cases hc : c = x.1
        · simp [assign, deduceAll, deduce, agree, h, hc] at e
          exact ⟨n, v, ⟨a, rfl, Or.inr (Or.inl ⟨c, rfl, x.2, by rw [h, hc]⟩)⟩, e.symm⟩
        · simp [assign, deduceAll, deduce, agree, h, hc] at e
    · rintro ⟨_, _, ⟨_, e', ⟨e, -⟩ | ⟨_, e, t, h⟩ | ⟨_, _, e, -⟩⟩, rfl⟩ <;> cases e <;> cases e'
      simp [assign, deduceAll, deduce, agree, h]
  | [.value n, .type v, .type c, .type t], [a] =>
    constructor
    · intro e
      cases h : L.toView c t a with
      | false => simp [assign, deduceAll, deduce, h] at e
      | true =>
        simp [assign, deduceAll, deduce, h] at e
        exact ⟨n, v, ⟨a, rfl, Or.inr (Or.inr ⟨c, t, rfl, h⟩)⟩, e.symm⟩
    · rintro ⟨_, _, ⟨_, e', ⟨e, -⟩ | ⟨_, e, -⟩ | ⟨_, _, e, h⟩⟩, rfl⟩ <;> cases e <;> cases e'
      simp [assign, deduceAll, deduce, h]
  | [.value n, .type v], a :: _ :: _ => simp [assign, deduceAll]
  | [.value n, .type v, .type c], a :: _ :: _ => simp [assign, deduceAll]
  | [.value n, .type v, .type c, .type t], a :: _ :: _ => simp [assign, deduceAll]

/-! ## C116 -/

/-- The four forms, by what is written in the call. -/
def Means (L : Lang τ) (ex : List (TArg τ)) (args : List τ) (m : Made τ) : Prop :=
  (∃ ts e, ex = ts.map .type ∧ args ≠ [] ∧ BindAll L ts args ∧
    L.common (ts ++ args.drop ts.length) = some e ∧ m = .list e args.length) ∨
  (∃ t, ex = [.type t] ∧ args = [] ∧ m = .empty t) ∨
  (∃ t n, ex = [.type t, .value n] ∧ (args = [] ∨ ∃ a, args = [a] ∧ L.converts t a = true) ∧
    m = .fill t n) ∨
  ∃ n v, ViewCall L ex args n v ∧ m = .chars v n

omit [DecidableEq τ] in
theorem types_ne {ts : List τ} {x : TArg τ} {n : Nat} (h : x = .value n) {l : List (TArg τ)}
    (hx : x ∈ l) : l ≠ ts.map .type := by
  rintro rfl
  subst h
  simp at hx

theorem candidates_cases (L : Lang τ) (ex : List (TArg τ)) (args : List τ) :
    candidates L ex args = [] ∧ (∀ m, ¬ Means L ex args m) ∨
    ∃ m, candidates L ex args = [m] ∧ ∀ m', Means L ex args m' ↔ m = m' := by
  have h1 := viable_list L ex args
  have h2 := viable_empty L ex args
  have h3 := viable_fill L ex args
  have h4 := viable_view L ex args
  have hm : ∀ m, Means L ex args m ↔ viable L listForm ex args = some m ∨
      viable L emptyForm ex args = some m ∨ viable L fillForm ex args = some m ∨
      viable L viewForm ex args = some m := by
    intro m
    rw [h1, h2, h3, h4]
    rfl
  have x12 : ∀ m m', viable L listForm ex args = some m → viable L emptyForm ex args = some m' →
      False := by
    intro m m' a b
    obtain ⟨_, _, -, hne, -⟩ := (h1 m).1 a
    obtain ⟨_, -, e, -⟩ := (h2 m').1 b
    exact hne e
  have x13 : ∀ m m', viable L listForm ex args = some m → viable L fillForm ex args = some m' →
      False := by
    intro m m' a b
    obtain ⟨_, _, e, -⟩ := (h1 m).1 a
    obtain ⟨_, n, e', -⟩ := (h3 m').1 b
    exact types_ne (x := .value n) rfl (by rw [e']; simp) e
  have x14 : ∀ m m', viable L listForm ex args = some m → viable L viewForm ex args = some m' →
      False := by
    intro m m' a b
    obtain ⟨_, _, e, -⟩ := (h1 m).1 a
    obtain ⟨n, _, ⟨_, -, ⟨e', -⟩ | ⟨_, e', -⟩ | ⟨_, _, e', -⟩⟩, -⟩ := (h4 m').1 b <;>
      exact types_ne (x := .value n) rfl (by rw [e']; simp) e
  have x23 : ∀ m m', viable L emptyForm ex args = some m → viable L fillForm ex args = some m' →
      False := by
    intro m m' a b
    obtain ⟨_, e, -⟩ := (h2 m).1 a
    obtain ⟨_, _, e', -⟩ := (h3 m').1 b
    rw [e] at e'
    cases e'
  have x24 : ∀ m m', viable L emptyForm ex args = some m → viable L viewForm ex args = some m' →
      False := by
    intro m m' a b
    obtain ⟨_, -, e, -⟩ := (h2 m).1 a
    obtain ⟨_, _, ⟨_, e', -⟩, -⟩ := (h4 m').1 b
    rw [e] at e'
    cases e'
  have x34 : ∀ m m', viable L fillForm ex args = some m → viable L viewForm ex args = some m' →
      False := by
    intro m m' a b
    obtain ⟨_, _, e, -⟩ := (h3 m).1 a
    obtain ⟨_, _, ⟨_, -, ⟨e', -⟩ | ⟨_, e', -⟩ | ⟨_, _, e', -⟩⟩, -⟩ := (h4 m').1 b <;>
      (rw [e] at e'; cases e')
  simp only [hm]
  unfold candidates
  clear h1 h2 h3 h4 hm
  revert x12 x13 x14 x23 x24 x34
  cases hv1 : viable L listForm ex args <;> cases hv2 : viable L emptyForm ex args <;>
    cases hv3 : viable L fillForm ex args <;> cases hv4 : viable L viewForm ex args <;>
    simp [hv1, hv2, hv3, hv4]

/-- No call of `make_array` is ambiguous: whatever is written, at most one of the four is viable. -/
theorem C116_unique (L : Lang τ) (ex : List (TArg τ)) (args : List τ) :
    (candidates L ex args).length ≤ 1 := by
  rcases candidates_cases L ex args with ⟨h, -⟩ | ⟨m, h, -⟩ <;> rw [h] <;> simp

/-- Exactly which calls are accepted, and as what. -/
theorem C116_iff (L : Lang τ) (ex : List (TArg τ)) (args : List τ) (m : Made τ) :
    makeArray L ex args = some m ↔ Means L ex args m := by
  unfold makeArray
  rcases candidates_cases L ex args with ⟨h, h'⟩ | ⟨m', h, h'⟩
  · rw [h]
    simp [h' m]
  · rw [h, h']
    simp

/-- With one type for every argument the array is one of their common type.  Missing from C116: fewer
types than arguments, variables as arguments, and things that only convert to a view. -/
theorem C116_typed_partial (L : Lang τ) (ts args : List τ) (e : τ) (hne : ts ≠ [])
    (hlen : args.length = ts.length)
    (hb : ∀ (i : Nat) (t a : τ), ts[i]? = some t → args[i]? = some a → L.binds t a = true)
    (hc : L.common ts = some e) :
    makeArray L (ts.map .type) args = some (.list e ts.length) := by
  rw [C116_iff]
  refine Or.inl ⟨ts, e, rfl, ?_, ⟨by omega, hb⟩, ?_, by rw [hlen]⟩
  · rintro rfl
    exact hne (List.length_eq_zero_iff.1 hlen.symm)
  · rw [← hlen, List.drop_length, List.append_nil]
    exact hc

/-- A few types: arguments that are variables have types ending in `&`. -/
def exLang : Lang String where
  common ts :=
    if ts.all (fun t => t == "char" || t == "char&") then some "char"
    else if ts.all (fun t => ["char", "int", "char&", "int&"].contains t) then some "int"
    else none
  binds t a := t == a || (t == "int" && (a == "char" || a == "char&")) || (t == "char" && a == "int")
  converts t a := ["char", "int"].contains t && ["char", "int", "char&", "int&"].contains a
  decay a := if a = "char&" then "char" else if a = "int&" then "int" else a
  viewOf a := if a = "string_view" || a = "string_view&" then some ("char", "traits") else none
  toView c _ a := c == "char" && (a == "string_view" || a == "string_view&" || a == "literal&")

example : makeArray exLang [.type "char"] ["int"] = some (.list "char" 1) ∧
    makeArray exLang [] ["char&", "int"] = some (.list "int" 2) ∧
    makeArray exLang [.type "int"] [] = some (.empty "int") ∧
    makeArray exLang [.type "int", .value 3] ["char&"] = some (.fill "int" 3) ∧
    makeArray exLang [.type "int", .value 3] [] = some (.fill "int" 3) ∧
    makeArray exLang [.value 3, .type "int"] ["string_view"] = some (.chars "int" 3) ∧
    makeArray exLang [] [] = none ∧
    exLang.binds "char" "int" = true ∧ exLang.common ["char"] = some "char" := by decide

/-- C116 is false: `make_array<char>('a', 300)` is an array of `int`, `make_array<int>(x)` does not
compile for a variable `int x` although `make_array<int>('a')` does, and `make_array<3, char>("abc")`
does not although `"abc"` converts to `std::string_view`. -/
theorem C116_counterexample :
    makeArray exLang [.type "char"] ["char", "int"] = some (.list "int" 2) ∧
    makeArray exLang [.type "int"] ["int&"] = none ∧
    makeArray exLang [.type "int"] ["char"] = some (.list "int" 1) ∧
    makeArray exLang [.value 3, .type "char"] ["literal&"] = none ∧
    exLang.toView "char" "traits" "literal&" = true := by decide

end Utils.Props
