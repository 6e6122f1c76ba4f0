import Verif.Proofs.LazyPred

/-!
# C130: a query of a `type_list` compiles whenever its answer is settled

The full claim: every query with a predicate (`index_of`, `at`, `count_of_predicate_compliant`,
`contains_predicate_compliant`, `list_of_predicate_compliant`) compiles, with the right answer, exactly if the
elements for which the predicate is well-formed settle the answer.  It fails for
`contains_predicate_compliant`, which counts when it could stop, and, where a type occurs twice, for `at`.
-/

namespace Utils.Props

open Utils Utils.LazyPred Utils.Spec Utils.LazyPredProofs

variable {α : Type}

/-- A predicate that is true of 1, false of 0 and ill-formed for everything else. -/
def pPart : Nat → Option Bool
  | 0 => some false
  | 1 => some true
  | _ => none

/-- **C130**: `index_of` compiles exactly if the predicate settles which element is the first compliant one, and
gives its index (the length of the list if there is none). -/
theorem C130_index_of {p : α → Option Bool} {ts : List α} {r : Nat} :
    indexOf p ts = some r ↔ Determined p (fun q => ts.findIdx q) r :=
  indexOf_iff

/-- **C130**: in other words, `index_of` asks about the elements up to the first compliant one and no others. -/
theorem C130_index_of_asks {p : α → Option Bool} {ts : List α} :
    (indexOf p ts).isSome ↔
      ∀ k, (hk : k < ts.length) → (∀ j, (hj : j < k) → p (ts[j]'(by omega)) ≠ some true) → p ts[k] ≠ none :=
  indexOf_compiles

example : indexOf pPart [0, 0, 1, 7, 1] = some 2 := by decide
example : Determined pPart (fun q => [0, 0, 1, 7, 1].findIdx q) 2 := C130_index_of.1 (by decide)
example : indexOf pPart [0, 7, 1] = none := by decide

/-- **C130**: `at<I, Predicate>` is right when it compiles: then every extension of the predicate has the same
`I`-th compliant element. -/
theorem C130_at_right {p : α → Option Bool} {ts : List α} {i : Nat} {r : α}
    (h : atWithPredicate p i ts = some r) : Determined p (fun q => (ts.filter q)[i]?) (some r) :=
  fun _ hq => at_sound hq h

/-- **C130**, partial: in a list without copies `at<I, Predicate>` compiles exactly if the predicate settles
which element is the `I`-th compliant one. Missing: lists with copies (`C130_at_copies`). -/
theorem C130_at_partial {p : α → Option Bool} {ts : List α} {i : Nat} {r : α} (hn : ts.Nodup) :
    atWithPredicate p i ts = some r ↔ Determined p (fun q => (ts.filter q)[i]?) (some r) :=
  at_iff hn

example : atWithPredicate pPart 0 [0, 1, 7] = some 1 := by decide
example : ¬ Determined pPart (fun q => ([0, 1, 7].filter q)[1]?) (some 7) := fun h =>
  absurd ((C130_at_partial (by decide)).2 h) (by decide)

/-- **C130**: with copies, the answer of `at` can be settled although it does not compile. -/
theorem C130_at_copies :
    Determined pPart (fun q => ([7, 1, 1].filter q)[1]?) (some 1) ∧ atWithPredicate pPart 1 [7, 1, 1] = none := by
  refine ⟨fun q hq => ?_, by decide⟩
  have h1 : q 1 = true := hq 1 true rfl
  cases h7 : q 7 <;> simp [h1, h7]

/-- **C130**: `count_of_predicate_compliant` compiles exactly if the predicate settles the number, and gives it. -/
theorem C130_count {p : α → Option Bool} {ts : List α} {r : Nat} :
    countOfPredicateCompliant p ts = some r ↔ Determined p (fun q => ts.countP q) r :=
  count_iff

example : countOfPredicateCompliant pPart [1, 0, 1] = some 2 ∧ countOfPredicateCompliant pPart [1, 7] = none := by
  decide

/-- **C130**: `list_of_predicate_compliant` compiles exactly if the predicate settles the list, and gives it. -/
theorem C130_list_of {p : α → Option Bool} {ts r : List α} :
    listOfPredicateCompliant p ts = some r ↔ Determined p (fun q => ts.filter q) r :=
  list_iff

example : listOfPredicateCompliant pPart [1, 0, 1] = some [1, 1] :=
  by simp [listOfPredicateCompliant, pieces, pPart, TL.concatenate]
example : ¬ Determined pPart (fun q => [1, 7].filter q) [1] := fun h =>
  absurd (C130_list_of.2 h) (by simp [listOfPredicateCompliant, pieces, pPart])

/-- **C130**, partial: `contains_predicate_compliant` compiles exactly if the predicate is well-formed for every
element, and then tells whether some element is compliant. Missing: the lists with a compliant element and one
for which the predicate is ill-formed (`C130_contains_counterexample`). -/
theorem C130_contains_partial {p : α → Option Bool} {ts : List α} {r : Bool} :
    containsPredicateCompliant p ts = some r ↔
      WellFormedOn p ts ∧ (r = true ↔ ∃ t ∈ ts, p t = some true) :=
  contains_iff

example : containsPredicateCompliant pPart [0, 1] = some true := by decide
example : containsPredicateCompliant pPart [0, 0] = some false := by decide

/-- **C130**: a list with a compliant element contains one whatever the predicate is elsewhere, but the query
does not compile; `index_of` would have answered. -/
theorem C130_contains_counterexample :
    Determined pPart (fun q => [1, 7].any q) true ∧ containsPredicateCompliant pPart [1, 7] = none ∧
      indexOf pPart [1, 7] = some 0 := by
  refine ⟨fun q hq => ?_, by decide, by decide⟩
  have h1 : q 1 = true := hq 1 true rfl
  simp [h1]

/-- **C130**: where the predicate is well-formed for every type, the queries are those of C23 and C26. -/
theorem C130_total (p : α → Bool) (ts : List α) (i : Nat) :
    indexOf (fun t => some (p t)) ts = some (TL.indexOf p ts) ∧
      atWithPredicate (fun t => some (p t)) i ts = TL.atWithPredicate p i ts ∧
      countOfPredicateCompliant (fun t => some (p t)) ts = some (TL.countOfPredicateCompliant p ts) ∧
      containsPredicateCompliant (fun t => some (p t)) ts = some (TL.containsPredicateCompliant p ts) ∧
      listOfPredicateCompliant (fun t => some (p t)) ts = TL.listOfPredicateCompliant p ts :=
  total_agrees p ts i

end Utils.Props
