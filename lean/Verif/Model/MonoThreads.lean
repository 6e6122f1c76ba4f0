import Verif.Spec.Resources

/-!
# A monotonic_buffer_resource that several threads use at once

`allocate_impl` reads `next_` twice and writes it once, without any synchronisation.  For the language a
schedule in which one thread writes while another is between its accesses is a data race.  The model gives
such a schedule the mildest meaning it can have: the accesses of all threads happen one after another, each
at once.  What goes wrong here therefore goes wrong on any machine; what is proved of racing schedules
(`C136_inside`) holds for machines that keep to the order.

There is no upstream, and `release` is not called.
-/

namespace Utils.Res

open Utils.Bits

/-- Where a thread is in `allocate_impl`, with its local variables,
/repo/sources/include/utils/memory/monotonic_buffer_resource.h 61-91. -/
inductive CallPhase
  /-- before the first access, line 74 -/
  | start
  /-- `skip` is computed, line 74; `next_` will be read again -/
  | skipped (skip : Nat)
  /-- `supposed_result` is computed, line 75 -/
  | placed (supposed : Nat)
  deriving DecidableEq

/-- What a thread does with one access to `next_`: it goes on, or returns from `allocate_impl`.
monotonic_buffer_resource.h 64-82; the members `data_` and `size_` never change. -/
def callStep (debug : Bool) (m : Mono) (size align : Nat) : CallPhase → Outcome (Mono × (CallPhase ⊕ Nat))
  | .start =>
    if size = 0 then pure (m, .inr 0)
    else do
      cassert debug (isPowerOf2 (BitVec.ofNat 64 align))
      if m.data ≠ 0 then do
        let skip ← skipToAlign debug (BitVec.ofNat 64 m.next) (BitVec.ofNat 64 align)
        pure (m, .inl (.skipped skip.toNat))
      else pure (m, .inr 0)
  | .skipped skip => pure (m, .inl (.placed ((m.next + skip) % 2 ^ 64)))
  | .placed supposed =>
    if (supposed + size) % 2 ^ 64 ≤ (m.data + m.size) % 2 ^ 64 then
      pure ({ m with next := (supposed + size) % 2 ^ 64 }, .inr supposed)
    else pure (m, .inr 0)

/-- A thread: the requests (size, alignment) it has still to make or is making, and where it is. -/
structure MonoThread where
  todo : List (Nat × Nat)
  phase : CallPhase := .start
  deriving DecidableEq

/-- The resource, the threads, and the calls that have returned, with the thread that made them, newest
first (`ptr = 0`: the request was refused). -/
structure SharedMono where
  res : Mono
  threads : List MonoThread
  log : List (Nat × Grant)
  deriving DecidableEq

/-- Thread `i` takes a step. -/
def sharedStep (debug : Bool) (w : SharedMono) (i : Nat) : Outcome SharedMono :=
  match w.threads[i]? with
  | none => pure w
  | some ⟨[], _⟩ => pure w
  | some ⟨(size, align) :: rest, phase⟩ => do
    let (m, r) ← callStep debug w.res size align phase
    match r with
    | .inl phase => pure ⟨m, w.threads.set i ⟨(size, align) :: rest, phase⟩, w.log⟩
    | .inr ptr => pure ⟨m, w.threads.set i ⟨rest, .start⟩, (i, ⟨ptr, size, align⟩) :: w.log⟩

/-- The threads take turns as the schedule says. -/
def sharedRun (debug : Bool) : SharedMono → List Nat → Outcome SharedMono
  | w, [] => .ok w
  | w, i :: is => do
    let w ← sharedStep debug w i
    sharedRun debug w is

/-- Threads with these programs share a new resource. -/
def sharedStart (buffer bytes : Nat) (programs : List (List (Nat × Nat))) : SharedMono :=
  ⟨Mono.make buffer bytes, programs.map fun p => ⟨p, .start⟩, []⟩

end Utils.Res
