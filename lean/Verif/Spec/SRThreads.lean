import Verif.Model.SRThreads

/-! # What threads that share a simple_resource rely on -/

namespace Utils.SR

/-- All that the threads hold, newest first. -/
def SRShared.pieces (w : SRShared) : List (Nat × Nat) := w.live.map (·.2)

/-- The calls in the order in which they returned. -/
def SRShared.calls (w : SRShared) : List Op := w.log.reverse.map (·.2)

/-- The kind of a call: what it asks for, or `none` for a deallocation. -/
def Op.kind : Op → Option (Nat × Nat)
  | .alloc size align => some (size, align)
  | .free _ => none

/-- Nobody but thread `i` is inside `allocate_impl`. -/
def SRAlone (w : SRShared) (i : Nat) : Prop :=
  ∀ j t, j ≠ i → w.threads[j]? = some t → t.phase = .start

instance (w : SRShared) (i : Nat) : Decidable (SRAlone w i) :=
  decidable_of_iff (((List.range w.threads.length).all fun j =>
      j == i || (w.threads[j]?.all fun t => t.phase == .start)) = true) (by
    rw [List.all_eq_true]
    constructor
    · intro h j t hj ht
      have := h j (List.mem_range.2 (List.getElem?_eq_some_iff.1 ht).1)
      simpa [ht, hj] using this
    · intro h j _
      by_cases hji : j = i
      · simp [hji]
      · cases ht : w.threads[j]? with
        | none => simp
        | some t => simp [h j t hji ht])

/-- The clients put a mutex around every call: when it is the turn of thread `i`, it goes on unless another
thread holds the mutex. -/
def srLockedStep (p : Params) (w : SRShared) (i : Nat) : Outcome SRShared :=
  if SRAlone w i then srStep p w i else pure w

/-- The threads take turns as the schedule says, with the mutex. -/
def srLockedRun (p : Params) : SRShared → List Nat → Outcome SRShared
  | w, [] => .ok w
  | w, i :: is => do
    let w ← srLockedStep p w i
    srLockedRun p w is

/-- The bookkeeping never changes while another thread is inside `allocate_impl`. -/
def SRUndisturbed (p : Params) : SRShared → List Nat → Prop
  | _, [] => True
  | w, i :: is => ∀ w', srStep p w i = .ok w' → (w'.st ≠ w.st → SRAlone w i) ∧ SRUndisturbed p w' is

end Utils.SR
