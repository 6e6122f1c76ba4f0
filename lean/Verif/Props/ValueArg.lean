import Verif.Proofs.ValueArg
import Verif.Spec.Lists

/-!
# Properties C113, C114: references in value lists, products of lists of two kinds
-/

namespace Utils.Props

open Utils.Spec Utils.VA Utils.CP

variable {τ : Type} [DecidableEq τ]

/-! ## C113 -/

/-- Two elements of a `value_list` are taken for the same if and only if they are the same template
argument, provided the comparison tells references of one type apart; otherwise it either does not
compile or takes two objects for one. -/
theorem C113_iff (env : Nat → Entity) (a b : Arg τ) :
    VA.contains env a [b] = some (decide (a = b)) ↔ ToldApart env a b := by
  have : VA.contains env a [b] = isSameImpl env a b := by
    simp only [VA.contains]
    rcases isSameImpl env a b with _ | _ | _ <;> rfl
  rw [this]
  exact ⟨isSameImpl_only, isSameImpl_told⟩

private theorem count_told {env : Nat → Entity} {v : Arg τ} : ∀ {vs : List (Arg τ)},
    (∀ u ∈ vs, ToldApart env v u) → VA.countOf env v vs = some (vs.count v)
  | [], _ => rfl
  | u :: vs, h => by
    rw [VA.countOf, count_told fun x hx => h x (by simp [hx]), isSameImpl_told (h u (by simp)),
      List.count_cons]
    by_cases e : v = u
    · subst e
      simp
    · simp [e, Ne.symm e]

private theorem index_told {env : Nat → Entity} {v : Arg τ} : ∀ {vs : List (Arg τ)} (k : Nat),
    (∀ u ∈ vs, ToldApart env v u) →
    ∃ i, VA.indexOfImpl env v k vs = some (k + i) ∧ FirstIndex (· = v) vs i
  | [], k, _ => ⟨0, rfl, by simp [FirstIndex]⟩
  | u :: vs, k, h => by
    rw [VA.indexOfImpl, isSameImpl_told (h u (by simp))]
    by_cases e : v = u
    · subst e
      exact ⟨0, by simp, by simp [FirstIndex]⟩
    · obtain ⟨i, hi, h1, h2, h3⟩ := index_told (k + 1) fun x hx => h x (List.mem_cons_of_mem u hx)
      refine ⟨i + 1, ?_, by simpa using h1, by simpa using h2, ?_⟩
      · simp only [e, decide_false, Option.bind_eq_bind, Option.bind_some, hi]
        simp only [Bool.false_eq_true, if_false, Option.some.injEq]
        omega
      · intro j x hj hx
        cases j with
        | zero =>
          simp only [List.getElem?_cons_zero, Option.some.injEq] at hx
          rw [← hx]
          exact fun h => e h.symm
        | succ j => exact h3 j x (by omega) (by simpa using hx)

private theorem contains_told {env : Nat → Entity} {v : Arg τ} : ∀ {vs : List (Arg τ)},
    (∀ u ∈ vs, ToldApart env v u) → VA.contains env v vs = some (decide (v ∈ vs))
  | [], _ => by simp [VA.contains]
  | u :: vs, h => by
    rw [VA.contains, isSameImpl_told (h u (by simp))]
    by_cases e : v = u
    · simp [e]
    · simp [e, contains_told fun x hx => h x (List.mem_cons_of_mem u hx)]

private theorem allSame_told {env : Nat → Entity} {v : Arg τ} : ∀ {vs : List (Arg τ)},
    (∀ u ∈ vs, ToldApart env v u) → VA.allSame env v vs = some (decide (∀ u ∈ vs, u = v))
  | [], _ => by simp [VA.allSame]
  | u :: vs, h => by
    rw [VA.allSame, isSameImpl_told (h u (by simp))]
    by_cases e : v = u
    · subst e
      simp [allSame_told fun x hx => h x (List.mem_cons_of_mem v hx)]
    · simp [e, Ne.symm e]

private theorem anyTwice_told {env : Nat → Entity} {vs : List (Arg τ)} : ∀ {us : List (Arg τ)},
    (∀ a ∈ us, ∀ b ∈ vs, ToldApart env a b) →
    VA.anyTwice env vs us = some (decide (∃ u ∈ us, 1 < vs.count u))
  | [], _ => by simp [VA.anyTwice]
  | u :: us, h => by
    rw [VA.anyTwice, count_told (h u (by simp))]
    by_cases e : 1 < vs.count u
    · simp [e]
    · simp [e, anyTwice_told fun x hx => h x (List.mem_cons_of_mem u hx)]

/-- `count_of`, `contains` and `index_of` of an argument whose comparisons tell it apart: they compile,
and look for the same template argument. The full claim has no condition; `C113_iff` shows that it is
needed. -/
theorem C113_lookup_partial (env : Nat → Entity) (v : Arg τ) (vs : List (Arg τ))
    (h : ∀ u ∈ vs, ToldApart env v u) :
    VA.countOf env v vs = some (vs.count v) ∧ VA.contains env v vs = some (decide (v ∈ vs)) ∧
      ∃ i, VA.indexOf env v vs = some i ∧ FirstIndex (· = v) vs i := by
  refine ⟨count_told h, contains_told h, ?_⟩
  obtain ⟨i, e, hi⟩ := index_told 0 h
  exact ⟨i, by rw [VA.indexOf, e, Nat.zero_add], hi⟩

/-- Three objects, of which 0 and 1 are constants with the values 7 and 8, and two functions. -/
private def env5 : Nat → Entity := fun
  | 0 => .constant 7 | 1 => .constant 8 | 2 => .opaque | _ => .address

example : (∀ u ∈ [Arg.ref 1 0, .val 0 7, .ref 2 2, .ref 1 1], ToldApart env5 (Arg.ref 1 1) u) ∧
    VA.indexOf env5 (.ref 1 1) [Arg.ref 1 0, .val 0 7, .ref 2 2, .ref 1 1] = some 3 := by
  refine ⟨?_, by decide⟩
  intro u hu t x y e1 e2
  cases e1
  subst e2
  simp only [List.mem_cons, Arg.ref.injEq, List.not_mem_nil, or_false, reduceCtorEq, false_or] at hu
  rcases hu with ⟨-, rfl⟩ | ⟨h, -⟩ | ⟨-, rfl⟩
  · exact .inr ⟨8, 7, rfl, rfl, by decide⟩
  · cases h
  · exact .inr ⟨8, 8, rfl, rfl, fun _ => rfl⟩

/-- `is_same_v` and `contains_copies` of a list whose elements are told apart. -/
theorem C113_lists_partial (env : Nat → Entity) (vs : List (Arg τ))
    (h : ∀ a ∈ vs, ∀ b ∈ vs, ToldApart env a b) :
    VA.isSame env vs = some (decide (∀ a ∈ vs, ∀ b ∈ vs, a = b)) ∧
      VA.containsCopies env vs = some (decide (¬ vs.Nodup)) := by
  constructor
  · cases vs with
    | nil => simp [VA.isSame]
    | cons v vs =>
      rw [VA.isSame, allSame_told fun u hu => h v (by simp) u (List.mem_cons_of_mem v hu)]
      congr 1
      rw [decide_eq_decide]
      constructor
      · intro g
        have g' : ∀ u ∈ v :: vs, u = v := by
          intro u hu
          rcases List.mem_cons.1 hu with rfl | hu
          · rfl
          · exact g u hu
        exact fun a ha b hb => (g' a ha).trans (g' b hb).symm
      · exact fun g u hu => g u (List.mem_cons_of_mem v hu) v (by simp)
  · rw [VA.containsCopies, anyTwice_told h]
    congr 1
    rw [decide_eq_decide, List.nodup_iff_count_le_one]
    constructor
    · rintro ⟨u, -, hu⟩ g
      have := g u
      omega
    · intro g
      obtain ⟨u, hu⟩ := not_forall.1 g
      refine ⟨u, ?_, by omega⟩
      exact List.count_pos_iff.1 (by omega)

example : VA.containsCopies env5 [Arg.ref 1 3, .ref 1 4, .val 0 7, .ref 1 3] = some true ∧
    VA.isSame env5 [Arg.ref 1 4, .ref 1 4] = some true ∧
    VA.containsCopies env5 [Arg.ref 1 0, .ref 1 1, .val 1 7] = some false := by decide

/-- The full claim is false: two constants with the value 1 are taken for one object by every
function, and a list that holds a reference to a variable cannot be asked for it. -/
theorem C113_counterexample :
    let env : Nat → Entity := fun i => if i < 2 then .constant 1 else .opaque
    let a : Arg Nat := .ref 0 0
    let b : Arg Nat := .ref 0 1
    let x : Arg Nat := .ref 0 2
    (VA.indexOf env b [a, b] = some 0 ∧ VA.countOf env a [a, b] = some 2 ∧
      VA.contains env b [a] = some true ∧ VA.isSame env [a, b] = some true ∧
      VA.containsCopies env [a, b] = some true) ∧
    (VA.indexOf env x [x] = none ∧ VA.contains env x [x] = none ∧ VA.countOf env a [a, x] = none ∧
      VA.indexOf env a [a, x] = some 0) := by
  decide

/-! ## C114 -/

variable {α β : Type}

/-- `cartesian_product_t<Ls...>` compiles exactly when `ProductCompiles` says. -/
theorem C114_iff (isRef : β → Bool) (ls : List (Pack α β)) :
    (∃ r, productOf isRef ls = some r) ↔ ProductCompiles isRef ls := by
  constructor
  · rintro ⟨r, hr⟩
    have : 2 ≤ ls.length := by
      match ls, hr with
      | _ :: _ :: _, _ => simp
    obtain ⟨l', b, rfl⟩ : ∃ l' b, ls = l' ++ [b] :=
      ⟨ls.dropLast, ls.getLast (by rintro rfl; simp at this), (List.dropLast_append_getLast _).symm⟩
    obtain ⟨pre, a, rfl⟩ : ∃ pre a, l' = pre ++ [a] :=
      ⟨l'.dropLast, l'.getLast (by rintro rfl; simp at this), (List.dropLast_append_getLast _).symm⟩
    rw [List.append_assoc, List.singleton_append] at hr ⊢
    by_cases hc : Conds isRef pre a b
    · exact ⟨pre, a, b, rfl, hc⟩
    · rw [(productOf_conds a b pre).2 hc] at hr
      cases hr
  · rintro ⟨pre, a, b, rfl, hc⟩
    obtain ⟨r, hr, -⟩ := (productOf_conds a b pre).1 hc
    exact ⟨r, hr⟩

example : ProductCompiles (α := Nat) (β := Nat) (fun v => v == 9)
    [.values [1, 2], .types [5], .types []] :=
  ⟨[.values [1, 2]], .types [5], .types [], rfl, by simp [EmptyPack],
    by
      intro l hl k e v hv
      subst e
      simp only [List.mem_cons, Pack.values.injEq, reduceCtorEq, List.not_mem_nil, or_false] at hl
      subst hl
      simp only [List.mem_cons, List.not_mem_nil, or_false] at hv
      rcases hv with rfl | rfl <;> rfl,
    .inl ⟨_, _, rfl, rfl⟩, .inl (.inl rfl)⟩

/-- What it then is: for type lists alone, and for value lists alone, the list of all combinations in
lexicographic order; if the last list is empty, the empty list, whatever the kinds. -/
theorem C114_result (isRef : β → Bool) (ls : List (Pack α β)) (h : ProductCompiles isRef ls) :
    (∃ (tss : List (List α)) (r : List (List α)), ls = tss.map .types ∧
        productOf isRef ls = some (r.map .types) ∧ r.length = (tss.map List.length).prod ∧
        ∀ i, i < r.length → r[i]? = select tss (mixedRadix (tss.map List.length) i)) ∨
    (∃ (vss : List (List β)) (r : List (List β)), ls = vss.map .values ∧
        productOf isRef ls = some (r.map .values) ∧ r.length = (vss.map List.length).prod ∧
        ∀ i, i < r.length → r[i]? = select vss (mixedRadix (vss.map List.length) i)) ∨
    ((∃ l, ls.getLast? = some l ∧ EmptyPack l) ∧ productOf isRef ls = some []) := by
  obtain ⟨pre, a, b, rfl, h1, h2, h3, h4⟩ := h
  by_cases he : EmptyPack b
  · obtain ⟨r, e, hr, -⟩ := (productOf_conds a b pre).1 ⟨h1, h2, h3, h4⟩
    exact .inr (.inr ⟨⟨b, by simp, he⟩, by rw [e, hr.2 he]⟩)
  · have h4 := h4.resolve_left he
    have hall : ∀ l ∈ pre ++ [a, b], SameKind l b := by
      intro l hl
      rcases List.mem_append.1 hl with hl | hl
      · exact h4 l hl
      · simp only [List.mem_cons, List.not_mem_nil, or_false] at hl
        rcases hl with rfl | rfl
        · exact h3
        · exact sameKind_refl _
    have hlen : 2 ≤ (pre ++ [a, b]).length := by simp
    have hdrop : ∀ l ∈ (pre ++ [a, b]).dropLast, ¬ EmptyPack l := by
      rw [show pre ++ [a, b] = (pre ++ [a]) ++ [b] by simp, List.dropLast_concat]
      exact h1
    generalize pre ++ [a, b] = ls at h2 hall hlen hdrop ⊢
    cases b with
    | types m =>
      obtain ⟨tss, rfl⟩ : ∃ tss : List (List α), ls = tss.map .types := by
        clear h2 hlen hdrop
        induction ls with
        | nil => exact ⟨[], rfl⟩
        | cons l ls ih =>
          obtain ⟨tss, rfl⟩ := ih fun x hx => hall x (List.mem_cons_of_mem l hx)
          rcases hall l (by simp) with ⟨t, _, rfl, _⟩ | ⟨_, _, _, e⟩
          · exact ⟨t :: tss, rfl⟩
          · cases e
      have hne : ∀ l ∈ tss.dropLast, l ≠ [] := by
        rintro l hl rfl
        rw [← List.map_dropLast] at hdrop
        exact hdrop _ (List.mem_map.2 ⟨_, hl, rfl⟩) (.inl rfl)
      refine .inl ⟨tss, _, rfl, by rw [productOf_types, product_eq tss (by simpa using hlen) hne]; rfl,
        length_tuples tss, fun i hi => tuples_getElem? tss i (by rwa [length_tuples] at hi)⟩
    | values m =>
      obtain ⟨vss, rfl⟩ : ∃ vss : List (List β), ls = vss.map .values := by
        clear h2 hlen hdrop
        induction ls with
        | nil => exact ⟨[], rfl⟩
        | cons l ls ih =>
          obtain ⟨tss, rfl⟩ := ih fun x hx => hall x (List.mem_cons_of_mem l hx)
          rcases hall l (by simp) with ⟨_, _, _, e⟩ | ⟨t, _, rfl, _⟩
          · cases e
          · exact ⟨t :: tss, rfl⟩
      have hne : ∀ l ∈ vss.dropLast, l ≠ [] := by
        rintro l hl rfl
        rw [← List.map_dropLast] at hdrop
        exact hdrop _ (List.mem_map.2 ⟨_, hl, rfl⟩) (.inr rfl)
      refine .inr (.inl ⟨vss, _, rfl, by
        rw [productOf_values vss fun l hl => noRefs_iff.1 (h2 _ (List.mem_map.2 ⟨l, hl, rfl⟩)),
          product_eq vss (by simpa using hlen) hne]; rfl,
        length_tuples vss, fun i hi => tuples_getElem? vss i (by rwa [length_tuples] at hi)⟩)

example : productOf (fun v => v == 9) [.values [1, 2], .values [3, 4]] =
      some [Pack.values (α := Nat) [1, 3], .values [1, 4], .values [2, 3], .values [2, 4]] ∧
    productOf (fun v => v == 9) [.types [1], .types [3, 4], .types [5]] =
      some [Pack.types (β := Nat) [1, 3, 5], .types [1, 4, 5]] ∧
    productOf (fun v => v == 9) [.values [1, 2], .types [5], .types ([] : List Nat)] = some [] := by
  decide +kernel

/-- Value lists can be concatenated when they hold references, but not multiplied; and lists of two
kinds can be multiplied when the last one is empty only. -/
theorem C114_limits :
    let isRef : Nat → Bool := fun v => v == 9
    productOf (α := Nat) isRef [.values [1], .values [9]] = none ∧
    productOf (α := Nat) isRef [.values [9], .values []] = none ∧
    productOf isRef [.values [1], .types [2]] = none ∧
    productOf isRef [.values [1], .types [2], .types [3]] = none ∧
    productOf isRef [.values [1], .types [2], .types ([] : List Nat)] = some [] ∧
    productOf isRef [.types [2], .values []] = none := by
  decide +kernel

end Utils.Props
