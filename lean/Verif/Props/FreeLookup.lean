import Verif.Spec.FreeLookup

/-! # Property C134: the free function checkers see what a call sees -/

namespace Utils.Props

open Utils.Traits Utils.Lookup Utils.Spec

variable {τ : Type}

theorem ordinary_iff (d : Decl τ) : d.ordinary = true ↔ d.friendOf = none := by
  simp [Decl.ordinary]

theorem associated_iff (d : Decl τ) (a : Assoc) : d.associated a = true ↔ LedTo a d := by
  simp only [Decl.associated, LedTo, Bool.and_eq_true, List.contains_iff_mem, and_assoc]
  cases hf : d.fn <;> cases hc : d.friendOf <;> simp

theorem any_declared (ds : List (Decl τ)) (ns : List String) :
    (ds.any fun d => d.ordinary && d.ns = ns) = true ↔ ∃ d ∈ ds, d.friendOf = none ∧ d.ns = ns := by
  simp [List.any_eq_true, ordinary_iff]

theorem visibleIn_iff (ds : List (Decl τ)) : ∀ (scope ns : List String),
    visibleIn ds scope = some ns ↔ Nearest ds scope ns
  | [], ns => by
    unfold visibleIn Nearest
    by_cases h : ∃ d ∈ ds, d.friendOf = none ∧ d.ns = []
    · rw [if_pos ((any_declared ds []).2 h)]
      constructor
      · rintro ⟨⟩
        exact ⟨List.suffix_rfl, h, fun d _ _ hs => hs⟩
      · rintro ⟨hs, -, -⟩
        rw [List.suffix_nil.1 hs]
    · rw [if_neg fun h' => h ((any_declared ds []).1 h')]
      constructor
      · intro h'; cases h'
      · rintro ⟨hs, he, -⟩
        rw [List.suffix_nil.1 hs] at he
        exact absurd he h
  | s :: outer, ns => by
    unfold visibleIn
    by_cases h : ∃ d ∈ ds, d.friendOf = none ∧ d.ns = s :: outer
    · rw [if_pos ((any_declared ds _).2 h)]
      constructor
      · rintro ⟨⟩
        exact ⟨List.suffix_rfl, h, fun d _ _ hs => hs⟩
      · rintro ⟨hs, -, ha⟩
        obtain ⟨d, hd, h1, h2⟩ := h
        have := ha d hd h1 (by rw [h2]; exact List.suffix_rfl)
        rw [h2] at this
        rw [this.eq_of_length_le hs.length_le]
    · rw [if_neg fun h' => h ((any_declared ds _).1 h'), visibleIn_iff ds outer ns]
      constructor
      · rintro ⟨hs, he, ha⟩
        refine ⟨hs.trans (List.suffix_cons _ _), he, fun d hd h1 h2 => ?_⟩
        rcases List.suffix_cons_iff.1 h2 with e | e
        · exact absurd ⟨d, hd, h1, e⟩ h
        · exact ha d hd h1 e
      · rintro ⟨hs, he, ha⟩
        refine ⟨?_, he, fun d hd h1 h2 => ha d hd h1 (h2.trans (List.suffix_cons _ _))⟩
        rcases List.suffix_cons_iff.1 hs with e | e
        · rw [e] at he
          exact absurd he h
        · exact e

theorem adl_iff (ds : List (Decl τ)) (scope : List String) (written : Nat) :
    (!(ds.take written).any fun d => d.ordinary && some d.ns = visibleIn (ds.take written) scope && d.fn.isNone)
      = true ↔ OnlyFunctions ds scope written := by
  rw [Bool.not_eq_true', ← Bool.not_eq_true, List.any_eq_true]
  simp only [Bool.and_eq_true, ordinary_iff, decide_eq_true_eq, Option.isNone_iff_eq_none, OnlyFunctions]
  constructor
  · intro h ns hn d hd h1 h2 h3
    exact h ⟨d, hd, ⟨h1, by rw [h2]; exact ((visibleIn_iff _ _ _).2 hn).symm⟩, h3⟩
  · rintro h ⟨d, hd, ⟨h1, h2⟩, h3⟩
    exact h d.ns ((visibleIn_iff _ _ _).1 h2.symm) d hd h1 rfl h3

theorem between_iff (ds : List (Decl τ)) (i j : Nat) (d : Decl τ) :
    d ∈ (ds.drop i).take (j - i) ↔ Between ds i j d := by
  rw [List.mem_iff_getElem?]
  constructor
  · rintro ⟨k, hk⟩
    rw [List.getElem?_take] at hk
    split at hk
    · rw [List.getElem?_drop] at hk
      exact ⟨i + k, by omega, by omega, hk⟩
    · cases hk
  · rintro ⟨k, h1, h2, h3⟩
    refine ⟨k - i, ?_⟩
    rw [List.getElem?_take, if_pos (by omega), List.getElem?_drop, ← h3]
    congr 1
    omega

/-- Which declarations the checker means: those that were declared before the macro in the innermost namespace
around its `details`, and those, before or after, to which the arguments lead. -/
theorem C134_found {scope : List String} {ds : List (Decl τ)} {written used : Nat} {a : Assoc} {d : Decl τ}
    (h : written ≤ used) :
    d ∈ found scope ds written used a ↔
      (d ∈ ds.take written ∧ d.friendOf = none ∧ Nearest (ds.take written) scope d.ns) ∨
      (d ∈ ds.take used ∧ LedTo a d ∧ OnlyFunctions ds scope written) := by
  have hsplit : ds.take used = ds.take written ++ (ds.drop written).take (used - written) := by
    rw [← List.take_add]
    congr 1
    omega
  simp only [found, List.mem_append, List.mem_filter, Bool.or_eq_true, Bool.and_eq_true, ordinary_iff,
    decide_eq_true_eq, associated_iff, adl_iff, hsplit]
  rw [show (some d.ns = visibleIn (ds.take written) scope) ↔ Nearest (ds.take written) scope d.ns from
    eq_comm.trans (visibleIn_iff _ _ _)]
  constructor
  · rintro (⟨h1, ⟨h2, h3⟩ | ⟨h2, h3⟩⟩ | ⟨h1, h2, h3⟩)
    · exact Or.inl ⟨h1, h2, h3⟩
    · exact Or.inr ⟨Or.inl h1, h3, h2⟩
    · exact Or.inr ⟨Or.inr h1, h3, h2⟩
  · rintro (⟨h1, h2, h3⟩ | ⟨h1 | h1, h2, h3⟩)
    · exact Or.inl ⟨h1, Or.inl ⟨h2, h3⟩⟩
    · exact Or.inl ⟨h1, Or.inr ⟨h3, h2⟩⟩
    · exact Or.inr ⟨h1, h3, h2⟩

/-- A function of one `int` parameter. -/
def exIntFn : Fn Nat := { ret := 0, params := [0] }

/-- A function of one parameter of a class in namespace `lib`. -/
def exLibFn : Fn Nat := { ret := 0, params := [1] }

/-- `int` (0) has no associated namespace, class 1 has `lib`. -/
def exAssoc (args : List Nat) : Assoc := ⟨if 1 ∈ args then [["lib"]] else [], if 1 ∈ args then ["C"] else []⟩

/-- Overload resolution: a function with exactly these parameters, or anything that is no function. -/
def exResolve (ds : List (Decl Nat)) : Calls Nat := fun args =>
  if ds.any fun d => match d.fn with | some f => f.params = args | none => true then some (0, true) else none

/-- `NAME(int)` in `app`; here the macro; `NAME(C)` and a friend `NAME(C)` in `lib`, another `NAME(int)` in `app`. -/
def exDecls : List (Decl Nat) :=
  [⟨["app"], some exIntFn, none⟩, ⟨["lib"], some exLibFn, none⟩, ⟨["lib"], some exLibFn, some "C"⟩,
    ⟨["app"], some exIntFn, none⟩]

example : (⟨["lib"], some exLibFn, some "C"⟩ : Decl Nat) ∈ found ["details", "app"] exDecls 1 4 (exAssoc [1]) := by
  refine (C134_found (by decide)).2 (Or.inr ⟨by decide, ⟨by decide, by decide, by decide⟩, ?_⟩)
  intro ns hn d hd
  simp only [exDecls, List.take_succ_cons, List.take_zero, List.mem_singleton] at hd
  subst hd
  simp

/-- If nothing else is declared in `details` before the macro, and every declaration between the macro and the
place where the checker is asked that a call there would see is one to which the arguments lead, in a namespace
where there was one before, or is hidden by an earlier one, then the checkers answer for the call. -/
theorem found_same {scope : List String} {ds : List (Decl τ)} {written used : Nat} {a : Assoc}
    (h : written ≤ used)
    (hd : ∀ d ∈ ds.take written, d.friendOf = none → d.ns ≠ "details" :: scope)
    (hl : ∀ d, Between ds written used d → d.friendOf = none → d.ns <:+ scope →
      ∃ ns, Nearest (ds.take written) scope ns ∧ d.ns <:+ ns ∧ (d.ns = ns → LedTo a d ∧ OnlyFunctions ds scope written)) :
    found ("details" :: scope) ds written used a = found scope ds used used a := by
  have hsplit : ds.take used = ds.take written ++ (ds.drop written).take (used - written) := by
    rw [← List.take_add]
    congr 1
    omega
  have hv1 : visibleIn (ds.take written) ("details" :: scope) = visibleIn (ds.take written) scope := by
    rw [visibleIn, if_neg]
    intro h'
    obtain ⟨d, h1, h2, h3⟩ := (any_declared _ _).1 h'
    exact hd d h1 h2 h3
  have hnear : ∀ ns, Nearest (ds.take used) scope ns ↔ Nearest (ds.take written) scope ns := by
    intro ns
    constructor
    · rintro ⟨h1, ⟨d, h2, h3, h4⟩, h5⟩
      have hsub : ∀ d ∈ ds.take written, d ∈ ds.take used := fun d hd => by
        rw [hsplit]; exact List.mem_append_left _ hd
      refine ⟨h1, ?_, fun d hd => h5 d (hsub d hd)⟩
      rw [hsplit, List.mem_append, between_iff] at h2
      rcases h2 with h2 | h2
      · exact ⟨d, h2, h3, h4⟩
      · obtain ⟨ns', hn, hs, -⟩ := hl d h2 h3 (by rw [h4]; exact h1)
        obtain ⟨d', hd', e1, e2⟩ := hn.2.1
        have := h5 d' (hsub d' hd') e1 (by rw [e2]; exact hn.1)
        rw [e2] at this
        rw [h4] at hs
        have e : ns = ns' := hs.eq_of_length_le this.length_le
        exact ⟨d', hd', e1, e2.trans e.symm⟩
    · rintro ⟨h1, ⟨d, h2, h3, h4⟩, h5⟩
      refine ⟨h1, ⟨d, by rw [hsplit]; exact List.mem_append_left _ h2, h3, h4⟩, fun d' hd' e1 e2 => ?_⟩
      rw [hsplit, List.mem_append, between_iff] at hd'
      rcases hd' with hd' | hd'
      · exact h5 d' hd' e1 e2
      · obtain ⟨ns', hn, hs, -⟩ := hl d' hd' e1 e2
        obtain ⟨d'', hd'', f1, f2⟩ := hn.2.1
        have := h5 d'' hd'' f1 (by rw [f2]; exact hn.1)
        rw [f2] at this
        exact hs.trans this
  have hv2 : visibleIn (ds.take used) scope = visibleIn (ds.take written) scope := by
    apply Option.ext
    intro ns
    rw [visibleIn_iff, visibleIn_iff, hnear]
  have hadl : (!(ds.take used).any fun d => d.ordinary && some d.ns = visibleIn (ds.take written) scope && d.fn.isNone)
      = (!(ds.take written).any fun d => d.ordinary && some d.ns = visibleIn (ds.take written) scope && d.fn.isNone) := by
    rw [hsplit, List.any_append]
    suffices hs : (((ds.drop written).take (used - written)).any fun d =>
        d.ordinary && some d.ns = visibleIn (ds.take written) scope && d.fn.isNone) = false by rw [hs, Bool.or_false]
    rw [← Bool.not_eq_true, List.any_eq_true]
    rintro ⟨d, hd1, hd2⟩
    simp only [Bool.and_eq_true, ordinary_iff, decide_eq_true_eq, Option.isNone_iff_eq_none] at hd2
    have hn := (visibleIn_iff _ _ _).1 hd2.1.2.symm
    obtain ⟨ns', hn', hs, hx⟩ := hl d ((between_iff _ _ _ _).1 hd1) hd2.1.1 hn.1
    have e : d.ns = ns' := Option.some.inj (((visibleIn_iff _ _ _).2 hn).symm.trans ((visibleIn_iff _ _ _).2 hn'))
    exact (hx e).1.1 hd2.2
  unfold found
  simp only [hv1, hv2, hadl, Nat.sub_self, List.take_zero, List.filter_nil, List.append_nil]
  rw [hsplit, List.filter_append]
  congr 1
  refine List.filter_congr fun d hd1 => ?_
  have hb := (between_iff _ _ _ _).1 hd1
  cases ho : (d.ordinary && decide (some d.ns = visibleIn (ds.take written) scope)) with
  | false => rw [Bool.false_or]
  | true =>
    simp only [Bool.and_eq_true, ordinary_iff, decide_eq_true_eq] at ho
    have hn := (visibleIn_iff _ _ _).1 ho.2.symm
    obtain ⟨ns', hn', hs, hx⟩ := hl d hb ho.1 hn.1
    have e : d.ns = ns' := Option.some.inj (((visibleIn_iff _ _ _).2 hn).symm.trans ((visibleIn_iff _ _ _).2 hn'))
    obtain ⟨h1, h2⟩ := hx e
    rw [(associated_iff d a).2 h1, (adl_iff ds scope written).2 h2]
    rfl

theorem sameAnswers [DecidableEq τ] {nonesuch : τ} {call call' : Calls τ} {args : List τ} (e : call args = call' args) :
    SameAnswers nonesuch call call' args := by
  have e1 : returnT call args = returnT call' args := by rw [returnT, returnT, e]
  have e2 : noexceptReturnT call args = noexceptReturnT call' args := by rw [noexceptReturnT, noexceptReturnT, e]
  have d : ∀ {op op' : List τ → Option τ}, op args = op' args → detector nonesuch op args = detector nonesuch op' args := by
    intro op op' h
    rw [detector, detector, h]
  refine ⟨?_, ?_, fun r => ⟨?_, ?_⟩⟩
  · rw [isCallable, isCallable, isDetected, isDetected, d e1]
  · rw [isNoexceptCallable, isNoexceptCallable, isDetected, isDetected, d e2]
  · rw [isCallableR, isCallableR, isDetectedExact, isDetectedExact, detectedT, detectedT, d e1]
  · rw [isNoexceptCallableR, isNoexceptCallableR, isDetectedExact, isDetectedExact, detectedT, detectedT, d e2]

/-- **C134**, what holds: if the macro's `details` does not declare the name itself, and every function of that
name that a call would see and that is declared between the macro and the question is one to which the arguments
lead, beside earlier ones in the same namespace, or is hidden by an earlier one further in, then the checkers answer
for the call written at the place of the question.  Missing: later functions to which the arguments do not lead, and
names in `details`, for which it is false. -/
theorem C134_call_partial [DecidableEq τ] {nonesuch : τ} {resolve : List (Decl τ) → Calls τ} {assoc : List τ → Assoc}
    {scope : List String} {ds : List (Decl τ)} {written used : Nat} {args : List τ} (h : written ≤ used)
    (hd : ∀ d ∈ ds.take written, d.friendOf = none → d.ns ≠ "details" :: scope)
    (hl : ∀ d, Between ds written used d → d.friendOf = none → d.ns <:+ scope →
      ∃ ns, Nearest (ds.take written) scope ns ∧ d.ns <:+ ns ∧
        (d.ns = ns → LedTo (assoc args) d ∧ OnlyFunctions ds scope written)) :
    SameAnswers nonesuch (checkerCall resolve assoc scope ds written used) (plainCall resolve assoc scope ds used) args := by
  refine sameAnswers ?_
  rw [checkerCall, plainCall, found_same h hd hl]

/-- **C134**, the plain case: the macro behind all functions of the name that can be seen from its namespace. -/
theorem C134_all_before_partial [DecidableEq τ] {nonesuch : τ} {resolve : List (Decl τ) → Calls τ} {assoc : List τ → Assoc}
    {scope : List String} {ds : List (Decl τ)} {written used : Nat} {args : List τ} (h : written ≤ used)
    (hd : ∀ d ∈ ds.take written, d.friendOf = none → d.ns ≠ "details" :: scope)
    (hl : ∀ d, Between ds written used d → d.friendOf = none → ¬ d.ns <:+ scope) :
    SameAnswers nonesuch (checkerCall resolve assoc scope ds written used) (plainCall resolve assoc scope ds used) args :=
  C134_call_partial h hd fun d hb h1 h2 => absurd h2 (hl d hb h1)

example : isNameInvocable 9 exResolve exAssoc ["app"] exDecls 1 3 [1] = true ∧
    isNameInvocable 9 exResolve exAssoc ["app"] exDecls 1 3 [1] =
      isCallable 9 (plainCall exResolve exAssoc ["app"] exDecls 3) [1] := by
  refine ⟨by decide +kernel, (C134_all_before_partial (by decide) (by decide +kernel) ?_).1⟩
  rintro d ⟨k, h1, h2, h3⟩ hf
  have : k = 1 ∨ k = 2 := by omega
  rcases this with rfl | rfl <;> (simp only [exDecls] at h3; cases h3)
  · decide
  · cases hf

/-- If the arguments lead nowhere, as `int` does, the answer is settled at the macro: it does not matter where the
checker is asked and what is declared behind the macro. -/
theorem C134_settled [DecidableEq τ] {nonesuch : τ} {resolve : List (Decl τ) → Calls τ} {assoc : List τ → Assoc}
    {scope : List String} {ds ds' : List (Decl τ)} {written used used' : Nat} {args : List τ}
    (ha : (assoc args).namespaces = []) (hw : ds.take written = ds'.take written) :
    SameAnswers nonesuch (checkerCall resolve assoc scope ds written used)
      (checkerCall resolve assoc scope ds' written used') args := by
  have hno : ∀ d : Decl τ, d.associated (assoc args) = false := by
    intro d
    simp [Decl.associated, ha]
  refine sameAnswers ?_
  simp only [checkerCall, found, hno, Bool.and_false, hw]
  congr 2
  rw [List.filter_eq_nil_iff.2 (by simp), List.filter_eq_nil_iff.2 (by simp)]

example : isNameInvocable 9 exResolve exAssoc ["app"] exDecls 0 4 [0] =
    isNameInvocable 9 exResolve exAssoc ["app"] [] 0 0 [0] :=
  (C134_settled (nonesuch := 9) (resolve := exResolve) (assoc := exAssoc) (scope := ["app"]) (ds := exDecls) (ds' := [])
    (written := 0) (used := 4) (used' := 0) (args := [0]) (by decide) rfl).1

/-- What `details` declares before the macro hides all functions to which the arguments do not lead. -/
theorem C134_hidden {scope : List String} {ds : List (Decl τ)} {written used : Nat} {a : Assoc} {d d' : Decl τ}
    (h : written ≤ used) (hd : d ∈ ds.take written) (hf : d.friendOf = none) (hn : d.ns = "details" :: scope)
    (hm : d' ∈ found ("details" :: scope) ds written used a) : d'.ns = "details" :: scope ∨ LedTo a d' := by
  rcases (C134_found h).1 hm with ⟨h1, h2, h3⟩ | ⟨h1, h2, h3⟩
  · left
    have := h3.2.2 d hd hf (by rw [hn]; exact List.suffix_rfl)
    rw [hn] at this
    exact (this.eq_of_length_le h3.1.length_le).symm
  · exact Or.inr h2

example : (⟨["app"], some exIntFn, none⟩ : Decl Nat) ∉
    found ["details", "app"] [⟨["app"], some exIntFn, none⟩, ⟨["details", "app"], some exLibFn, none⟩] 2 2 (exAssoc [0]) := by
  intro h
  rcases C134_hidden (d := ⟨["details", "app"], some exLibFn, none⟩) (by decide) (by decide) rfl rfl h with h | h
  · exact absurd h (by decide)
  · exact absurd h.2.1 (by decide)

/-- The full claim is false.  A function of an `int` that is declared behind the macro is not seen, though it can be
called where the checker is asked; nor is one before the macro if `details` declares another of that name.  For
arguments of class type the answer depends on where the checker is asked. -/
theorem C134_counterexample :
    (isNameInvocable 9 exResolve exAssoc ["app"] exDecls 0 4 [0] = false ∧
      isCallable 9 (plainCall exResolve exAssoc ["app"] exDecls 4) [0] = true) ∧
    (isNameInvocable 9 exResolve exAssoc ["app"]
        [⟨["app"], some exIntFn, none⟩, ⟨["details", "app"], some exLibFn, none⟩] 2 2 [0] = false ∧
      isCallable 9 (plainCall exResolve exAssoc ["app"]
        [⟨["app"], some exIntFn, none⟩, ⟨["details", "app"], some exLibFn, none⟩] 2) [0] = true) ∧
    (isNameInvocable 9 exResolve exAssoc ["app"] exDecls 1 1 [1] = false ∧
      isNameInvocable 9 exResolve exAssoc ["app"] exDecls 1 2 [1] = true) := by
  refine ⟨⟨?_, ?_⟩, ⟨?_, ?_⟩, ⟨?_, ?_⟩⟩ <;> decide +kernel

end Utils.Props
