import Verif.Spec.SimpleResource

/-!
# Clients of `simple_resource`

A client calls `allocate` and `deallocate` in any order and remembers what it was given.
-/

namespace Utils.SR

/-- The resource, its upstream, and the allocations the client still holds: address and requested
size of each, newest first. -/
structure World (σ : Type) where
  st : State
  up : σ
  live : List (Nat × Nat)

/-- What a client does. -/
inductive Op
  /-- ask for `size` bytes aligned to `align` -/
  | alloc (size align : Nat)
  /-- give back the allocation at position `i` of its list -/
  | free (i : Nat)
  deriving DecidableEq

variable {σ : Type}

/-- `allocate`, remembering a non-null result. -/
def doAlloc (p : Params) (up : Option (Upstream σ)) (fuel : Nat) (w : World σ) (size align : Nat) :
    Outcome (World σ) := do
  let (ptr, st, u) ← allocate p up fuel w.st w.up size align
  pure ⟨st, u, if ptr = 0 then w.live else (ptr, size) :: w.live⟩

/-- `deallocate` of a live allocation, forgetting it. -/
def doFree (p : Params) (up : Option (Upstream σ)) (w : World σ) (i : Nat) : Outcome (World σ) :=
  match w.live[i]? with
  | none => pure w
  | some x => do
    let (st, u) ← deallocate p up w.st w.up x.1
    pure ⟨st, u, w.live.eraseIdx i⟩

/-- One call.  The loop of `allocate` is given `fuel` iterations. -/
def step (p : Params) (up : Option (Upstream σ)) (fuel : Nat) (w : World σ) : Op → Outcome (World σ)
  | .alloc size align => doAlloc p up fuel w size align
  | .free i => doFree p up w i

/-- A history. -/
def run (p : Params) (up : Option (Upstream σ)) (fuel : Nat) :
    World σ → List Op → Outcome (World σ)
  | w, [] => .ok w
  | w, op :: ops => do
    let w ← step p up fuel w op
    run p up fuel w ops

/-- The address lies in the managed area. -/
def inArea (p : Params) (s : State) (ptr : Nat) : Bool :=
  decide (s.data ≤ ptr) && decide (ptr < s.data + s.blockCount * p.blockSize)

/-- The live allocations served from the managed area. -/
def localLive (p : Params) (w : World σ) : List (Nat × Nat) :=
  w.live.filter fun x => inArea p w.st x.1

/-- The byte ranges of two allocations have no byte in common. -/
def Apart (x y : Nat × Nat) : Prop := x.1 + x.2 ≤ y.1 ∨ y.1 + y.2 ≤ x.1

/-- What the client relies on: the allocations served from the area lie inside it and do not
overlap. -/
structure Sound (p : Params) (w : World σ) : Prop where
  inside : ∀ x ∈ localLive p w, x.1 + x.2 ≤ w.st.data + w.st.blockCount * p.blockSize
  apart : (localLive p w).Pairwise Apart

/-- A well-behaved upstream: null, or an address that is aligned to `BlockSize` and not inside the
managed area. -/
def UpstreamOK (p : Params) (s : State) (up : Option (Upstream σ)) : Prop :=
  ∀ U, up = some U → ∀ u size align,
    (U.alloc u size align).1 < 2 ^ 64 ∧ p.blockSize ∣ (U.alloc u size align).1 ∧
    inArea p s (U.alloc u size align).1 = false

/-- An upstream that never hands out an address inside the managed area. -/
def UpstreamApart (p : Params) (s : State) (up : Option (Upstream σ)) : Prop :=
  ∀ U, up = some U → ∀ u size align, inArea p s (U.alloc u size align).1 = false

/-- The arguments are values of `std::size_t`. -/
def SizeT : Op → Prop
  | .alloc size align => size < 2 ^ 64 ∧ align < 2 ^ 64
  | .free _ => True

/-- The answer of the upstream resource; null if there is none. -/
def askUpstream (up : Option (Upstream σ)) (u : σ) (size align : Nat) : Nat × σ :=
  match up with
  | none => (0, u)
  | some U => U.alloc u size align

/-- The invariant of the bookkeeping with respect to the client: the regions in use are exactly the
local live allocations, each taking `size / BlockSize + 1` blocks. -/
structure Tracks (p : Params) (up : Option (Upstream σ)) (w : World σ) (rs : List Region) : Prop where
  placed : Placed p w.st
  small : Small p w.st
  tiled : Tiled w.st rs
  links : LinksForward w.st
  live : ((localLive p w).map fun x => (x.1, x.2 / p.blockSize + 1)).Perm
    ((busyRuns 0 rs).map fun r => (w.st.data + r.1 * p.blockSize, r.2))
  ptrs : ∀ x ∈ w.live, x.1 < 2 ^ 64 ∧ x.1 ≠ 0 ∧ p.blockSize ∣ x.1
  routed : up = none → ∀ x ∈ w.live, inArea p w.st x.1 = true

/-- A fresh resource over `bytes` bytes at address `buffer`, with a managed area that is small
enough for `Small` and does not touch the end of the address space. -/
structure Fresh (p : Params) (buffer bytes : Nat) (s : State) : Prop where
  made : create p buffer bytes = .ok s
  buffer : buffer + bytes ≤ 2 ^ 64
  area : s.data ≠ 0
  noWrap : s.data + p.maxBlocks * p.blockSize < 2 ^ 64
  small : Small p s

/-- A call made to an upstream resource. -/
inductive Call
  | alloc (size align : Nat)
  | dealloc (ptr : Nat)
  deriving DecidableEq

/-- An upstream resource that writes down the calls it receives. -/
def logged (U : Upstream σ) : Upstream (σ × List Call) where
  alloc u size align :=
    ((U.alloc u.1 size align).1, (U.alloc u.1 size align).2, u.2 ++ [.alloc size align])
  dealloc u ptr := (U.dealloc u.1 ptr, u.2 ++ [.dealloc ptr])

/-- Every call of the history satisfies `A` in the state in which it is made. -/
def Along (p : Params) (up : Option (Upstream σ)) (fuel : Nat) (A : World σ → Op → Prop) :
    World σ → List Op → Prop
  | _, [] => True
  | w, op :: ops => A w op ∧ ∀ w', step p up fuel w op = .ok w' → Along p up fuel A w' ops

/-- A call whose scan goes right. -/
def SafeOp (p : Params) (w : World σ) : Op → Prop
  | .alloc size align => Request size align ∧ ∀ rs, Tiled w.st rs → SafeScan p w.st size align rs
  | .free _ => True

/-! ## Ideal allocators

An ideal allocator looks only at the live allocations inside the area to decide where the next one
goes; `none` sends the request upstream. -/

/-- One call on an ideal allocator that keeps the client's list and the upstream. -/
def idealStep (place : List (Nat × Nat) → Nat → Option Nat) (area : Nat → Bool)
    (up : Option (Upstream σ)) (x : List (Nat × Nat) × σ) : Op → List (Nat × Nat) × σ
  | .alloc size align =>
    match place (x.1.filter fun y => area y.1) size with
    | some ptr => ((ptr, size) :: x.1, x.2)
    | none =>
      let r := askUpstream up x.2 size align
      (if r.1 = 0 then x.1 else (r.1, size) :: x.1, r.2)
  | .free i =>
    match x.1[i]? with
    | none => x
    | some y =>
      (x.1.eraseIdx i,
        match up with
        | none => x.2
        | some U => if area y.1 then x.2 else U.dealloc x.2 y.1)

/-- A pool of `slots` slots of `slotSize` bytes starting at `data`: the lowest slot at which no
live allocation starts. -/
def poolPlace (data slots slotSize : Nat) (live : List (Nat × Nat)) (_size : Nat) : Option Nat :=
  ((List.range slots).map fun k => data + k * slotSize).find? fun a =>
    !(live.any fun y => y.1 == a)

/-- Blocks taken by live allocations. -/
def used (p : Params) (live : List (Nat × Nat)) : Nat :=
  (live.map fun x => x.2 / p.blockSize + 1).sum

/-- A stack of blocks starting at `data`: the next allocation starts right above the live ones, and
needs at least one byte to spare. -/
def stackPlace (p : Params) (data n : Nat) (live : List (Nat × Nat)) (size : Nat) : Option Nat :=
  if size < (n - used p live) * p.blockSize then some (data + used p live * p.blockSize) else none

/-- Pool usage with slots of `b` blocks: every request takes `b` blocks at an alignment that every
slot has.  A request of a whole number of blocks is allowed unless the blocks left over at the end
of the area would fit it exactly. -/
def PoolOp (p : Params) (s : State) (b : Nat) : Op → Prop
  | .alloc size align => Request size align ∧ size / p.blockSize + 1 = b ∧
      align ∣ s.data ∧ align ∣ b * p.blockSize ∧
      (size % p.blockSize ≠ 0 ∨ s.blockCount % b ≠ b - 1)
  | .free _ => True

/-- Stack usage: alignments up to `BlockSize`, no request fills the area to its last byte, and of
the allocations served from the area only the newest one is given back. -/
def StackOp (p : Params) (w : World σ) : Op → Prop
  | .alloc size align => Request size align ∧ align ≤ p.blockSize ∧
      size ≠ (w.st.blockCount - used p (localLive p w)) * p.blockSize
  | .free i => ∀ x, w.live[i]? = some x → inArea p w.st x.1 = true →
      ∀ y ∈ w.live.take i, inArea p w.st y.1 = false

/-- The allocations that the client holds from the area lie without a gap at its start: none ends behind
the blocks they take together. -/
def NoHoles (p : Params) (w : World σ) : Prop :=
  ∀ x ∈ localLive p w, x.1 + (x.2 / p.blockSize + 1) * p.blockSize ≤
    w.st.data + used p (localLive p w) * p.blockSize

/-- Arena usage: requests are made only when there is no hole, with alignments up to `BlockSize`, and do
not fill the area to its last byte; what is held may be given back in any order. -/
def ArenaOp (p : Params) (w : World σ) : Op → Prop
  | .alloc size align => Request size align ∧ align ≤ p.blockSize ∧ NoHoles p w ∧
      size ≠ (w.st.blockCount - used p (localLive p w)) * p.blockSize
  | .free _ => True

end Utils.SR
