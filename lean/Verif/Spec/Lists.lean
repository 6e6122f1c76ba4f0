import Mathlib.Data.List.Forall2

/-!
# Specifications about lists, independent of the model
-/

namespace Utils.Spec

/-- `i` is the least index of `l` at which `P` holds, or the length of `l` if there is none. -/
def FirstIndex {α : Type} (P : α → Prop) (l : List α) (i : Nat) : Prop :=
  i ≤ l.length ∧ (∀ x, l[i]? = some x → P x) ∧ ∀ j x, j < i → l[j]? = some x → ¬ P x

/-- The digits of `i` in the mixed radix `rs`, most significant first. -/
def mixedRadix : List Nat → Nat → List Nat
  | [], _ => []
  | _ :: rs, i => i / rs.prod :: mixedRadix rs (i % rs.prod)

/-- Pick element `d` of each list; `none` if some index is out of range or the lengths differ. -/
def select {α : Type} : List (List α) → List Nat → Option (List α)
  | [], [] => some []
  | l :: ls, d :: ds => do
    let x ← l[d]?
    let xs ← select ls ds
    pure (x :: xs)
  | _, _ => none

/-- `tup` takes its `j`-th component from the `j`-th list. -/
def OneOfEach {α : Type} (ls : List (List α)) (tup : List α) : Prop :=
  List.Forall₂ (fun x l => x ∈ l) tup ls

end Utils.Spec
