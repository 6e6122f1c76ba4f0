import Verif.Model.MonoThreads

/-! # What threads that share a resource rely on -/

namespace Utils.Res

open Utils.Spec

/-- What the threads were given, newest first. -/
def SharedMono.pieces (w : SharedMono) : List Grant := (w.log.map (·.2)).filter fun g => g.ptr ≠ 0

/-- The requests in the order in which the calls returned. -/
def SharedMono.calls (w : SharedMono) : List MonoOp := w.log.reverse.map fun x => .alloc x.2.size x.2.align

/-- What all threads rely on. -/
structure SharedSound (w : SharedMono) : Prop where
  aligned : ∀ g ∈ w.pieces, g.align ∣ g.ptr
  inside : ∀ g ∈ w.pieces, w.res.data ≤ g.ptr ∧ g.ptr + g.size ≤ w.res.data + w.res.size
  apart : w.pieces.Pairwise fun g h => g.ptr + g.size ≤ h.ptr ∨ h.ptr + h.size ≤ g.ptr

/-- `next_` never changes while another thread is inside `allocate_impl`.  A mutex around every call sees to
that; calls that are refused may still overlap. -/
def Undisturbed (debug : Bool) : SharedMono → List Nat → Prop
  | _, [] => True
  | w, i :: is => ∀ w', sharedStep debug w i = .ok w' →
      (w'.res.next ≠ w.res.next → ∀ j t, j ≠ i → w.threads[j]? = some t → t.phase = .start) ∧
      Undisturbed debug w' is

/-- Nobody but thread `i` is inside `allocate_impl`. -/
def lockFree (w : SharedMono) (i : Nat) : Bool :=
  (List.range w.threads.length).all fun j => j == i || (w.threads[j]?.any fun t => t.phase == .start)

/-- The clients put a mutex around every call: when it is the turn of thread `i`, it goes on unless another
thread holds the mutex. -/
def lockedStep (debug : Bool) (w : SharedMono) (i : Nat) : Outcome SharedMono :=
  if lockFree w i then sharedStep debug w i else pure w

/-- The threads take turns as the schedule says, with the mutex. -/
def lockedRun (debug : Bool) : SharedMono → List Nat → Outcome SharedMono
  | w, [] => .ok w
  | w, i :: is => do
    let w ← lockedStep debug w i
    lockedRun debug w is

/-- Sizes up to `PTRDIFF_MAX`, alignments powers of two up to `2^62`. -/
def SaneRequest (r : Nat × Nat) : Prop := r.1 < 2 ^ 63 ∧ IsPow2 r.2 ∧ r.2 ≤ 2 ^ 62

end Utils.Res
