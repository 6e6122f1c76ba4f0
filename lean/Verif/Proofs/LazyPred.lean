import Verif.Model.LazyPred
import Verif.Spec.LazyPred
import Verif.Proofs.TypeList

/-!
# Proofs about predicates that do not compile for every type
-/

namespace Utils.LazyPredProofs

open Utils Utils.LazyPred Utils.Spec

variable {α : Type}

/-- The extension that is `b` wherever the predicate is ill-formed. -/
def fill (p : α → Option Bool) (b : Bool) (a : α) : Bool := (p a).getD b

theorem fill_extends (p : α → Option Bool) (b : Bool) : Extends p (fill p b) := by
  intro a c h
  simp [fill, h]

/-- The extension that is true at `x` only, among the elements where the predicate is ill-formed. -/
def fillAt [DecidableEq α] (p : α → Option Bool) (x : α) (a : α) : Bool := (p a).getD (decide (a = x))

theorem fillAt_extends [DecidableEq α] (p : α → Option Bool) (x : α) : Extends p (fillAt p x) := by
  intro a c h
  simp [fillAt, h]

/-! ## `index_of` -/

theorem indexOf_sound {p : α → Option Bool} {q : α → Bool} (hq : Extends p q) :
    ∀ {ts : List α} {i r : Nat}, indexOfImpl p i ts = some r → r = i + ts.findIdx q
  | [], i, r, h => by simpa [indexOfImpl] using h.symm
  | u :: v, i, r, h => by
    rw [indexOfImpl] at h
    cases hp : p u with
    | none => simp [hp] at h
    | some b =>
      have hb := hq u b hp
      cases b with
      | true => simp [hp] at h; simp [List.findIdx_cons, hb, h]
      | false =>
        simp only [hp] at h
        have := indexOf_sound hq h
        simp [List.findIdx_cons, hb]
        omega

theorem indexOf_none {p : α → Option Bool} :
    ∀ {ts : List α} {i : Nat}, indexOfImpl p i ts = none →
      ts.findIdx (fill p true) < ts.findIdx (fill p false)
  | [], i, h => by simp [indexOfImpl] at h
  | u :: v, i, h => by
    rw [indexOfImpl] at h
    cases hp : p u with
    | none => simp [List.findIdx_cons, fill, hp]
    | some b =>
      cases b with
      | true => simp [hp] at h
      | false =>
        simp only [hp] at h
        have := indexOf_none h
        simp [List.findIdx_cons, fill, hp] at *
        exact this

theorem indexOf_iff {p : α → Option Bool} {ts : List α} {r : Nat} :
    indexOf p ts = some r ↔ Determined p (fun q => ts.findIdx q) r := by
  constructor
  · intro h q hq
    have := indexOf_sound hq h
    simp only
    omega
  · intro h
    cases hi : indexOf p ts with
    | none =>
      have h1 := indexOf_none hi
      have h2 := h _ (fill_extends p true)
      have h3 := h _ (fill_extends p false)
      simp only at h2 h3
      omega
    | some s =>
      have h1 := indexOf_sound (fill_extends p true) hi
      have h2 := h _ (fill_extends p true)
      simp only at h2
      congr 1
      omega

/-- Which elements `index_of` asks about. -/
theorem indexOf_compiles {p : α → Option Bool} :
    ∀ {ts : List α} {i : Nat}, (indexOfImpl p i ts).isSome ↔
      ∀ k, (hk : k < ts.length) → (∀ j, (hj : j < k) → p (ts[j]'(by omega)) ≠ some true) → p ts[k] ≠ none
  | [], i => by simp [indexOfImpl]
  | u :: v, i => by
    rw [indexOfImpl]
    cases hp : p u with
    | none =>
      simp only [Option.isSome_none, Bool.false_eq_true, false_iff]
      intro h
      exact h 0 (by simp) (by intro j hj; omega) hp
    | some b =>
      cases b with
      | true =>
        simp only [Option.isSome_some, true_iff]
        intro k hk h
        cases k with
        | zero => simp [hp]
        | succ k => exact absurd hp (h 0 (by omega))
      | false =>
        simp only
        rw [indexOf_compiles]
        constructor
        · intro h k hk hj
          cases k with
          | zero => simp [hp]
          | succ k =>
            refine h k (by simpa using hk) fun j hjk => ?_
            simpa using hj (j + 1) (by omega)
        · intro h k hk hj
          refine h (k + 1) (by simpa using hk) fun j hjk => ?_
          cases j with
          | zero => simp [hp]
          | succ j => simpa using hj j (by omega)

/-! ## `at<I, Predicate>` -/

theorem at_sound {p : α → Option Bool} {q : α → Bool} (hq : Extends p q) :
    ∀ {ts : List α} {i : Nat} {r : α}, atWithPredicate p i ts = some r → (ts.filter q)[i]? = some r
  | [], i, r, h => by simp [atWithPredicate] at h
  | u :: v, i, r, h => by
    rw [atWithPredicate.eq_def] at h
    simp only at h
    cases hp : p u with
    | none => simp [hp] at h
    | some b =>
      have hb := hq u b hp
      cases b with
      | true =>
        cases i with
        | zero => simp [hp] at h; subst h; simp [hb]
        | succ i =>
          simp only [hp] at h
          simpa [hb] using at_sound hq h
      | false =>
        simp only [hp] at h
        simpa [hb] using at_sound hq h

/-- If `at` does not compile, some ill-formed element moves the answer. -/
theorem at_none [DecidableEq α] {p : α → Option Bool} :
    ∀ {ts : List α} {i : Nat} {r : α}, ts.Nodup → atWithPredicate p i ts = none →
      (ts.filter (fill p false))[i]? = some r →
      ∃ x, (ts.filter (fillAt p x))[i]? ≠ some r
  | [], i, r, _, h, hf => by simp at hf
  | u :: v, i, r, hn, h, hf => by
    rw [List.nodup_cons] at hn
    rw [atWithPredicate.eq_def] at h
    simp only at h
    cases hp : p u with
    | none =>
      refine ⟨u, ?_⟩
      have hfu : fill p false u = false := by simp [fill, hp]
      have hau : fillAt p u u = true := by simp [fillAt, hp]
      have hv : v.filter (fillAt p u) = v.filter (fill p false) := by
        apply List.filter_congr
        intro a ha
        have : a ≠ u := fun e => hn.1 (e ▸ ha)
        simp [fillAt, fill, this]
      rw [List.filter_cons_of_neg (by simp [hfu])] at hf
      rw [List.filter_cons_of_pos hau, hv]
      have hnd : (v.filter (fill p false)).Nodup := hn.2.filter _
      cases i with
      | zero =>
        intro e
        simp only [List.getElem?_cons_zero, Option.some.injEq] at e
        have hm := List.mem_of_getElem? hf
        exact hn.1 (e ▸ (List.mem_filter.1 hm).1)
      | succ i =>
        intro e
        simp only [List.getElem?_cons_succ] at e
        obtain ⟨h1, e1⟩ := List.getElem?_eq_some_iff.1 hf
        obtain ⟨h2, e2⟩ := List.getElem?_eq_some_iff.1 e
        have := (List.Nodup.getElem_inj_iff hnd (hi := h1) (hj := h2)).1 (e1.trans e2.symm)
        omega
    | some b =>
      have hne : ∀ x, fillAt p x u = b := fun x => fillAt_extends p x u b hp
      have hfe : fill p false u = b := fill_extends p false u b hp
      cases b with
      | true =>
        cases i with
        | zero => simp [hp] at h
        | succ i =>
          simp only [hp] at h
          rw [List.filter_cons_of_pos hfe] at hf
          obtain ⟨x, hx⟩ := at_none hn.2 h (by simpa using hf)
          refine ⟨x, ?_⟩
          rw [List.filter_cons_of_pos (hne x)]
          simpa using hx
      | false =>
        simp only [hp] at h
        rw [List.filter_cons_of_neg (by simp [hfe])] at hf
        obtain ⟨x, hx⟩ := at_none hn.2 h hf
        refine ⟨x, ?_⟩
        rw [List.filter_cons_of_neg (by simp [hne x])]
        exact hx

theorem at_iff {p : α → Option Bool} {ts : List α} {i : Nat} {r : α} (hn : ts.Nodup) :
    atWithPredicate p i ts = some r ↔ Determined p (fun q => (ts.filter q)[i]?) (some r) := by
  classical
  constructor
  · intro h q hq
    exact at_sound hq h
  · intro h
    cases ha : atWithPredicate p i ts with
    | none =>
      obtain ⟨x, hx⟩ := at_none hn ha (h _ (fill_extends p false))
      exact absurd (h _ (fillAt_extends p x)) hx
    | some s =>
      have h1 := at_sound (fill_extends p true) ha
      have h2 := h _ (fill_extends p true)
      simp only at h2
      exact h1.symm.trans h2

/-! ## The counts and the list -/

theorem countFold_eq {p : α → Option Bool} {q : α → Bool} (hq : Extends p q) :
    ∀ {ts : List α} {acc : Nat}, WellFormedOn p ts → countFold p acc ts = some (acc + ts.countP q)
  | [], acc, _ => by simp [countFold]
  | u :: v, acc, hw => by
    rw [countFold]
    cases hp : p u with
    | none => exact absurd hp (hw u (by simp))
    | some b =>
      have hb := hq u b hp
      simp only
      rw [countFold_eq hq fun t ht => hw t (by simp [ht])]
      cases b <;> simp [hb] ; omega

theorem countFold_wf {p : α → Option Bool} :
    ∀ {ts : List α} {acc r : Nat}, countFold p acc ts = some r → WellFormedOn p ts
  | [], _, _, _ => by simp [WellFormedOn]
  | u :: v, acc, r, h => by
    rw [countFold] at h
    cases hp : p u with
    | none => simp [hp] at h
    | some b =>
      simp only [hp] at h
      intro t ht
      rcases List.mem_cons.1 ht with rfl | ht
      · simp [hp]
      · exact countFold_wf h t ht

theorem count_mono {q q' : α → Bool} {ts : List α} (h : ∀ a, q a = true → q' a = true) :
    ts.countP q ≤ ts.countP q' := by
  apply List.countP_mono_left
  intro a _
  exact h a

theorem count_lt {p : α → Option Bool} :
    ∀ {ts : List α}, ¬ WellFormedOn p ts → ts.countP (fill p false) < ts.countP (fill p true)
  | [], h => absurd (by simp [WellFormedOn]) h
  | u :: v, h => by
    have hm : v.countP (fill p false) ≤ v.countP (fill p true) := by
      apply count_mono
      intro a ha
      cases hp : p a with
      | none => simp [fill, hp]
      | some b => simpa [fill, hp] using ha
    cases hp : p u with
    | none => 
      rw [List.countP_cons_of_neg (by simp [fill, hp]), List.countP_cons_of_pos (by simp [fill, hp])]
      omega
    | some b =>
      have : ¬ WellFormedOn p v := by
        intro hv
        apply h
        intro t ht
        rcases List.mem_cons.1 ht with rfl | ht
        · simp [hp]
        · exact hv t ht
      have := count_lt this
      simp only [List.countP_cons]
      have e : fill p false u = fill p true u := by simp [fill, hp]
      rw [e]
      omega

theorem count_iff {p : α → Option Bool} {ts : List α} {r : Nat} :
    countOfPredicateCompliant p ts = some r ↔ Determined p (fun q => ts.countP q) r := by
  constructor
  · intro h q hq
    have := countFold_eq (acc := 0) hq (countFold_wf h)
    unfold countOfPredicateCompliant at h
    rw [this] at h
    simpa using h
  · intro h
    have hw : WellFormedOn p ts := by
      apply Classical.byContradiction
      intro hn
      have := count_lt hn
      have h1 := h _ (fill_extends p false)
      have h2 := h _ (fill_extends p true)
      simp only at h1 h2
      omega
    have h1 := h _ (fill_extends p true)
    unfold countOfPredicateCompliant
    rw [countFold_eq (fill_extends p true) hw]
    simpa using h1

theorem contains_iff {p : α → Option Bool} {ts : List α} {r : Bool} :
    containsPredicateCompliant p ts = some r ↔
      WellFormedOn p ts ∧ (r = true ↔ ∃ t ∈ ts, p t = some true) := by
  unfold containsPredicateCompliant
  have key : ∀ hw : WellFormedOn p ts,
      (0 < ts.countP (fill p false) ↔ ∃ t ∈ ts, p t = some true) := by
    intro hw
    rw [List.countP_pos_iff]
    constructor
    · rintro ⟨a, ha, hf⟩
      refine ⟨a, ha, ?_⟩
      cases hp : p a with
      | none => exact absurd hp (hw a ha)
      | some b => simp [fill, hp] at hf; simp [hf]
    · rintro ⟨a, ha, hf⟩
      exact ⟨a, ha, by simp [fill, hf]⟩
  constructor
  · intro h
    simp only [Option.map_eq_some_iff] at h
    obtain ⟨n, hn, hr⟩ := h
    have hw := countFold_wf hn
    refine ⟨hw, ?_⟩
    have e := count_iff.1 hn _ (fill_extends p false)
    simp only at e
    rw [← key hw, e, ← hr]
    simp [Nat.pos_iff_ne_zero]
  · rintro ⟨hw, hr⟩
    have := countFold_eq (acc := 0) (fill_extends p false) hw
    rw [countOfPredicateCompliant, this]
    simp only [Nat.zero_add, Option.map_some, Option.some.injEq]
    rw [← key hw] at hr
    cases r with
    | true => simp at hr ⊢; exact hr
    | false =>
      have : ¬ 0 < ts.countP (fill p false) := fun h => absurd (hr.2 h) (by simp)
      have e : ts.countP (fill p false) = 0 := by omega
      simp only [e]
      rfl

theorem pieces_eq {p : α → Option Bool} {q : α → Bool} (hq : Extends p q) :
    ∀ {ts : List α}, WellFormedOn p ts → pieces p ts = some (ts.map fun t => if q t then [t] else [])
  | [], _ => rfl
  | u :: v, hw => by
    rw [pieces]
    cases hp : p u with
    | none => exact absurd hp (hw u (by simp))
    | some b =>
      rw [pieces_eq hq fun t ht => hw t (by simp [ht])]
      simp [hq u b hp]

theorem pieces_wf {p : α → Option Bool} :
    ∀ {ts : List α} {ps : List (List α)}, pieces p ts = some ps → WellFormedOn p ts
  | [], _, _ => by simp [WellFormedOn]
  | u :: v, ps, h => by
    rw [pieces] at h
    cases hp : p u with
    | none => simp [hp] at h
    | some b =>
      cases hv : pieces p v with
      | none => simp [hp, hv] at h
      | some rest =>
        intro t ht
        rcases List.mem_cons.1 ht with rfl | ht
        · simp [hp]
        · exact pieces_wf hv t ht

theorem list_eq {p : α → Option Bool} {q : α → Bool} {ts : List α} (hq : Extends p q)
    (hw : WellFormedOn p ts) : listOfPredicateCompliant p ts = some (ts.filter q) := by
  rw [← TL.listOfPredicateCompliant_eq, listOfPredicateCompliant, TL.listOfPredicateCompliant, pieces_eq hq hw]
  rfl

theorem list_wf {p : α → Option Bool} {ts r : List α} (h : listOfPredicateCompliant p ts = some r) :
    WellFormedOn p ts := by
  unfold listOfPredicateCompliant at h
  by_cases h0 : ts.length = 0
  · simp [List.length_eq_zero_iff.1 h0, WellFormedOn]
  · rw [if_neg h0] at h
    cases hp : pieces p ts with
    | none => simp [hp] at h
    | some ps => exact pieces_wf hp

theorem list_iff {p : α → Option Bool} {ts r : List α} :
    listOfPredicateCompliant p ts = some r ↔ Determined p (fun q => ts.filter q) r := by
  constructor
  · intro h q hq
    have := list_eq hq (list_wf h)
    rw [h] at this
    exact (Option.some.inj this).symm
  · intro h
    have hw : WellFormedOn p ts := by
      apply Classical.byContradiction
      intro hn
      have h1 := h _ (fill_extends p false)
      have h2 := h _ (fill_extends p true)
      have := count_lt hn
      rw [List.countP_eq_length_filter, List.countP_eq_length_filter] at this
      simp only at h1 h2
      rw [h1, h2] at this
      omega
    rw [list_eq (fill_extends p true) hw]
    exact congrArg some (h _ (fill_extends p true))

/-! ## Total predicates -/

theorem indexOf_total (p : α → Bool) : ∀ (ts : List α) (i : Nat),
    indexOfImpl (fun t => some (p t)) i ts = some (TL.indexOfImpl p i ts)
  | [], _ => rfl
  | u :: v, i => by
    rw [indexOfImpl, TL.indexOfImpl]
    cases hp : p u with
    | true => simp
    | false => simp [indexOf_total p v]

theorem at_total (p : α → Bool) : ∀ (ts : List α) (i : Nat),
    atWithPredicate (fun t => some (p t)) i ts = TL.atWithPredicate p i ts
  | [], i => by cases i <;> rfl
  | u :: v, i => by
    rw [atWithPredicate.eq_def]
    cases i <;> cases hp : p u <;> simp [TL.atWithPredicate, hp, at_total p v]

theorem count_total (p : α → Bool) : ∀ (ts : List α) (acc : Nat),
    countFold (fun t => some (p t)) acc ts = some (ts.foldl (fun acc u => acc + (if p u then 1 else 0)) acc)
  | [], _ => rfl
  | u :: v, acc => by
    rw [countFold, List.foldl_cons]
    simp only
    rw [count_total p v]
    cases p u <;> rfl

theorem total_agrees (p : α → Bool) (ts : List α) (i : Nat) :
    indexOf (fun t => some (p t)) ts = some (TL.indexOf p ts) ∧
      atWithPredicate (fun t => some (p t)) i ts = TL.atWithPredicate p i ts ∧
      countOfPredicateCompliant (fun t => some (p t)) ts = some (TL.countOfPredicateCompliant p ts) ∧
      containsPredicateCompliant (fun t => some (p t)) ts = some (TL.containsPredicateCompliant p ts) ∧
      listOfPredicateCompliant (fun t => some (p t)) ts = TL.listOfPredicateCompliant p ts := by
  refine ⟨indexOf_total p ts 0, at_total p ts i, count_total p ts 0, ?_, ?_⟩
  · rw [containsPredicateCompliant, countOfPredicateCompliant, count_total]
    rfl
  · rw [TL.listOfPredicateCompliant_eq]
    exact list_eq (fun a b h => Option.some.inj h) (by simp [WellFormedOn])

end Utils.LazyPredProofs
