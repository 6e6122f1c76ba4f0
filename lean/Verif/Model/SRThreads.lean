import Verif.Spec.SRHistory

/-!
# A simple_resource that several threads use at once

`simple_resource` has no synchronisation.  As in Model/MonoThreads.lean, schedules that are data races for the
language are given a mild meaning: what a thread does between two looks at the list of regions happens at once, and
so does a deallocation.  What goes wrong here goes wrong with finer steps too.

There is no upstream, and `release` is not called.
-/

namespace Utils.SR

open Utils.Bits

/-- Where a thread is in `allocate_impl`, with its local variables,
/repo/sources/include/utils/memory/simple_resource.h 283-332. -/
inductive AllocPhase
  /-- before the first access -/
  | start
  /-- at the beginning of the loop body of `apply` with this `i`, line 398 -/
  | looking (i : Nat)
  /-- the region `i` fits, `pointer` is computed, `allocate_blocks` will be called, line 315 -/
  | found (i pointer : Nat)
  deriving DecidableEq

/-- The end of `allocate_impl` without upstream, simple_resource.h 323-331. -/
def allocReturn (p : Params) (s : State) (pointer : Nat) : Outcome (State × (AllocPhase ⊕ Nat)) := do
  let al ← isAligned p.debug (BitVec.ofNat 64 pointer) (BitVec.ofNat 64 p.blockSize)
  cassert p.debug al
  pure (s, .inr pointer)

/-- What a thread does in one go: it looks at one region, or takes the one it has found.  It goes on, or returns from
`allocate_impl`.  simple_resource.h 283-331, 394-409. -/
def allocStep (p : Params) (s : State) (size align : Nat) : AllocPhase → Outcome (State × (AllocPhase ⊕ Nat))
  | .start =>
    if size = 0 then pure (s, .inr 0)
    else do
      cassert p.debug (isPowerOf2 (BitVec.ofNat 64 align))
      if s.data ≠ 0 then do
        let c ← ctz64 p.debug (BitVec.ofNat 64 s.data)
        let b ← CVal.shl ⟨.int, 1⟩ c
        let m ← maxAlignmentInsideBlock p.debug (BitVec.ofInt 64 b.val)
          (BitVec.ofNat 64 (s.blockCount * p.blockSize))
        if align ≤ m.toNat then pure (s, .inl (.looking 0)) else allocReturn p s 0
      else allocReturn p s 0
  | .looking i => do
    checkIdx p s i
    let c ← isFree p s i
    if c then
      let blockSize ← blockSizeInBytes p s i
      let blockPointer ← blockIndexToPointer p s i
      let skip ← skipToAlign p.debug (BitVec.ofNat 64 blockPointer) (BitVec.ofNat 64 align)
      if (skip.toNat + size) % 2 ^ 64 ≤ blockSize then
        pure (s, .inl (.found i ((blockPointer + skip.toNat) % 2 ^ 64)))
      else
        let nx ← nextAt p s i
        if nx ≠ 0 then pure (s, .inl (.looking 1)) else allocReturn p s 0
    else if s.next i ≠ 0 then pure (s, .inl (.looking (s.next i))) else allocReturn p s 0
  | .found i pointer => do
    let s ← allocateBlocks p s i pointer size
    allocReturn p s pointer

/-- A thread: the calls it has still to make or is making, and where it is.  `.free k` gives back the `k`-th of the
allocations that it holds itself, newest first. -/
structure SRThread where
  todo : List Op
  phase : AllocPhase := .start
  deriving DecidableEq

/-- The resource, the threads, the live allocations with their owners, newest first, and the calls that have
returned, newest first; there `.free j` counts in the list of all live allocations. -/
structure SRShared where
  st : State
  threads : List SRThread
  live : List (Nat × Nat × Nat)
  log : List (Nat × Op)

/-- The place of the `k`-th allocation of thread `i` in the list of all; behind the end if there is none. -/
def ownPlace (live : List (Nat × Nat × Nat)) (i k : Nat) : Nat :=
  (((List.range live.length).filter fun j => live[j]?.any fun x => x.1 == i)[k]?).getD live.length

/-- Thread `i` takes a step. -/
def srStep (p : Params) (w : SRShared) (i : Nat) : Outcome SRShared :=
  match w.threads[i]? with
  | none => pure w
  | some ⟨[], _⟩ => pure w
  | some ⟨.alloc size align :: rest, phase⟩ => do
    let (s, r) ← allocStep p w.st size align phase
    match r with
    | .inl phase => pure ⟨s, w.threads.set i ⟨.alloc size align :: rest, phase⟩, w.live, w.log⟩
    | .inr ptr =>
      pure ⟨s, w.threads.set i ⟨rest, .start⟩, if ptr = 0 then w.live else (i, ptr, size) :: w.live,
        (i, .alloc size align) :: w.log⟩
  | some ⟨.free k :: rest, _⟩ =>
    let j := ownPlace w.live i k
    match w.live[j]? with
    | none => pure ⟨w.st, w.threads.set i ⟨rest, .start⟩, w.live, (i, .free j) :: w.log⟩
    | some x => do
      let (s, _) ← deallocate p none w.st () x.2.1
      pure ⟨s, w.threads.set i ⟨rest, .start⟩, w.live.eraseIdx j, (i, .free j) :: w.log⟩

/-- The threads take turns as the schedule says. -/
def srRun (p : Params) : SRShared → List Nat → Outcome SRShared
  | w, [] => .ok w
  | w, i :: is => do
    let w ← srStep p w i
    srRun p w is

/-- Threads with these programs share a resource. -/
def srStart (s : State) (programs : List (List Op)) : SRShared :=
  ⟨s, programs.map fun l => ⟨l, .start⟩, [], []⟩

end Utils.SR
