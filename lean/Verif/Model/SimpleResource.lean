import Verif.Model.Bits

/-!
# `utils::memory::simple_resource`

/repo/sources/include/utils/memory/simple_resource.h.

* Addresses and sizes are natural numbers; every `std::size_t`/pointer operation that can wrap is
  reduced modulo `2^64` explicitly.  Pointer arithmetic and comparison outside the buffer is treated
  as arithmetic on addresses (formally it is undefined).
* `BIndex` values are natural numbers; every conversion to `BIndex` is a reduction modulo `2^width`.
* The arrays `infos_` and `in_use_` are total functions; an access at an index that is not below
  `MaxBlockCount` is `ub`.
* The upstream resource is an arbitrary state machine.
* The text printed before an abort is in Model/Diagnostics.lean; here printing it is always defined.
-/

namespace Utils.SR

open Utils Utils.Bits

/-- Template arguments and build mode. -/
structure Params where
  /-- `MaxBlockCount` -/
  maxBlocks : Nat
  /-- `BlockSize` -/
  blockSize : Nat
  /-- `assert` is active (no `NDEBUG`) -/
  debug : Bool
  deriving DecidableEq

/-- Width of `BIndex`, simple_resource.h 150; 0 if the type does not exist. -/
def Params.width (p : Params) : Nat :=
  (uintFromNbits (bitsCount (BitVec.ofNat 64 (p.maxBlocks - 1)))).getD 0

/-- Conversion to `BIndex`. -/
def Params.trunc (p : Params) (x : Nat) : Nat := x % 2 ^ p.width

/-- `kMaxResourceSize`, simple_resource.h 167. -/
def Params.maxResourceSize (p : Params) : Nat := p.blockSize * p.maxBlocks % 2 ^ 64

/-- The data members, simple_resource.h 549-555, without `upstream_`. -/
structure State where
  data : Nat
  blockCount : Nat
  prev : Nat → Nat
  next : Nat → Nat
  inUse : Nat → Bool
  freeCount : Nat
  busyCount : Nat

/-- Assignment to one element of an array. -/
def upd {β : Type} (f : Nat → β) (i : Nat) (v : β) : Nat → β := fun j => if j = i then v else f j

/-- `details::origin_and_block_count`, simple_resource.h 109-134 (136-141 passes the array bounds).
`BlockSize` is a power of two (`static_assert`, 113), so the assertion inside `skip_to_align` holds;
its outcome is kept. -/
def originAndBlockCount (p : Params) (buffer size : Nat) : Outcome (Nat × Nat) :=
  if buffer ≠ 0 ∧ size ≠ 0 then do
    let skip ← skipToAlign p.debug (BitVec.ofNat 64 buffer) (BitVec.ofNat 64 p.blockSize)
    if skip.toNat < size then
      let count := (size - skip.toNat) / p.blockSize
      if count > 0 then pure ((buffer + skip.toNat) % 2 ^ 64, count) else pure (0, 0)
    else pure (0, 0)
  else pure (0, 0)

/-- The private constructor, simple_resource.h 272-281, with the member initialisers 549-555. -/
def construct (p : Params) (origin : Nat × Nat) : State where
  data := origin.1
  blockCount := min origin.2 p.maxBlocks
  prev := fun _ => 0
  next := fun _ => 0
  inUse := fun _ => false
  freeCount := 1
  busyCount := 0

/-- The public constructors, simple_resource.h 180-207 (the upstream is kept outside `State`). -/
def create (p : Params) (buffer size : Nat) : Outcome State := do
  let o ← originAndBlockCount p buffer size
  pure (construct p o)

/-- The check common to all accesses through `at`, `in_use`, `set_in_use`, `reset_in_use`,
simple_resource.h 221-225, 231-235, 531-547: an assertion, then an array access. -/
def checkIdx (p : Params) (s : State) (i : Nat) : Outcome Unit := do
  cassert p.debug (decide (i < s.blockCount))
  if i < p.maxBlocks then pure () else .ub

/-- `at(i).prev_index()`, simple_resource.h 156, 531-535. -/
def prevAt (p : Params) (s : State) (i : Nat) : Outcome Nat := do
  checkIdx p s i
  pure (s.prev i)

/-- `at(i).next_index()`, simple_resource.h 158, 531-535. -/
def nextAt (p : Params) (s : State) (i : Nat) : Outcome Nat := do
  checkIdx p s i
  pure (s.next i)

/-- `in_use(i)`, simple_resource.h 231-235. -/
def inUseAt (p : Params) (s : State) (i : Nat) : Outcome Bool := do
  checkIdx p s i
  pure (s.inUse i)

/-- `set_in_use` / `reset_in_use`, simple_resource.h 537-547. -/
def setInUse (p : Params) (s : State) (i : Nat) (v : Bool) : Outcome State := do
  checkIdx p s i
  pure { s with inUse := upd s.inUse i v }

/-- `set_prev`, simple_resource.h 497-504. -/
def setPrev (p : Params) (s : State) (i pv : Nat) : Outcome State := do
  cassert p.debug (decide (i < s.blockCount))
  if pv < i ∨ pv = 0 then
    checkIdx p s i
    pure { s with prev := upd s.prev i pv }
  else pure s

/-- `set_next`, simple_resource.h 506-513. -/
def setNext (p : Params) (s : State) (i nx : Nat) : Outcome State := do
  cassert p.debug (decide (nx < s.blockCount))
  if i < nx ∨ nx = 0 then
    checkIdx p s i
    pure { s with next := upd s.next i nx }
  else pure s

/-- `set_prev_next`, simple_resource.h 515-529. -/
def setPrevNext (p : Params) (s : State) (i pv nx : Nat) : Outcome State := do
  cassert p.debug (decide (i < s.blockCount))
  cassert p.debug (decide (nx < s.blockCount))
  checkIdx p s i
  let s := if pv < i ∨ pv = 0 then { s with prev := upd s.prev i pv } else s
  pure (if i < nx ∨ nx = 0 then { s with next := upd s.next i nx } else s)

/-- `++` on `std::size_t`. -/
def inc64 (x : Nat) : Nat := if x = 2 ^ 64 - 1 then 0 else x + 1
/-- `--` (or `- 1`) on `std::size_t`. -/
def dec64 (x : Nat) : Nat := if x = 0 then 2 ^ 64 - 1 else x - 1

/-- `++free_count_`. -/
def incFree (s : State) : State := { s with freeCount := inc64 s.freeCount }
/-- `--free_count_`. -/
def decFree (s : State) : State := { s with freeCount := dec64 s.freeCount }
/-- `++busy_count_`. -/
def incBusy (s : State) : State := { s with busyCount := inc64 s.busyCount }
/-- `--busy_count_`. -/
def decBusy (s : State) : State := { s with busyCount := dec64 s.busyCount }

/-- `details::allocate_not_matched`, simple_resource.h 22-49. -/
def allocateNotMatched (p : Params) (s : State) (freeFirst first last freeLast : Nat) :
    Outcome State := do
  cassert p.debug (decide (freeFirst < first))
  cassert p.debug (decide (first ≤ last))
  cassert p.debug (decide (last < freeLast))
  let s ← setInUse p s first true
  let next := p.trunc (last + 1)
  checkIdx p s freeFirst
  let s ← setPrevNext p s first freeFirst next
  let s ← setPrevNext p s next first (s.next freeFirst)
  let s ← setPrev p s (s.next freeFirst) next
  let s ← setNext p s freeFirst first
  pure (incBusy (incFree s))

/-- `details::allocate_begin_matched`, simple_resource.h 51-73. -/
def allocateBeginMatched (p : Params) (s : State) (freeFirst last freeLast : Nat) :
    Outcome State := do
  cassert p.debug (decide (freeFirst ≤ last))
  cassert p.debug (decide (last < freeLast))
  let s ← setInUse p s freeFirst true
  let next := p.trunc (last + 1)
  checkIdx p s freeFirst
  let s ← setPrevNext p s next freeFirst (s.next freeFirst)
  let s ← setPrev p s (s.next freeFirst) next
  let s ← setNext p s freeFirst next
  pure (incBusy s)

/-- `details::allocate_end_matched`, simple_resource.h 75-97. -/
def allocateEndMatched (p : Params) (s : State) (freeFirst first freeLast : Nat) :
    Outcome State := do
  cassert p.debug (decide (freeFirst < first))
  cassert p.debug (decide (first ≤ freeLast))
  let s ← setInUse p s first true
  let next := p.trunc
    (if freeLast < dec64 s.blockCount then freeLast + 1 else 0)
  checkIdx p s freeFirst
  let s ← setPrevNext p s first freeFirst next
  let s ← setPrev p s (s.next freeFirst) first
  let s ← setNext p s freeFirst first
  pure (incBusy s)

/-- `details::allocate_matched`, simple_resource.h 99-107. -/
def allocateMatched (p : Params) (s : State) (freeFirst : Nat) : Outcome State := do
  cassert p.debug (decide (freeFirst < s.blockCount))
  let s ← setInUse p s freeFirst true
  pure (incBusy (decFree s))

/-- `pointer_to_block_index`, simple_resource.h 446-455. -/
def pointerToBlockIndex (p : Params) (s : State) (ptr : Nat) : Outcome Nat := do
  cassert p.debug (decide (s.data ≤ ptr))
  cassert p.debug (decide (ptr < (s.data + p.maxResourceSize) % 2 ^ 64))
  pure (p.trunc ((ptr + (2 ^ 64 - s.data)) % 2 ^ 64 / p.blockSize))

/-- `block_index_to_pointer`, simple_resource.h 457-461. -/
def blockIndexToPointer (p : Params) (s : State) (i : Nat) : Outcome Nat := do
  cassert p.debug (decide (i < s.blockCount))
  pure ((s.data + i * p.blockSize) % 2 ^ 64)

/-- `block_size_in_bytes` with `block_size`, simple_resource.h 241-255. -/
def blockSizeInBytes (p : Params) (s : State) (i : Nat) : Outcome Nat := do
  let nx ← nextAt p s i
  let nx := if nx = 0 then s.blockCount else nx
  pure ((nx + (2 ^ 64 - i)) % 2 ^ 64 * p.blockSize % 2 ^ 64)

/-- `size()`, simple_resource.h 257. -/
def size (p : Params) (s : State) : Nat := p.blockSize * s.blockCount % 2 ^ 64

/-- `allocate_blocks`, simple_resource.h 412-444. -/
def allocateBlocks (p : Params) (s : State) (freeRegion ptr size : Nat) : Outcome State := do
  let first ← pointerToBlockIndex p s ptr
  let last ← pointerToBlockIndex p s ((ptr + size) % 2 ^ 64)
  let afterFree ← nextAt p s freeRegion
  let lastOfFree :=
    if afterFree ≠ 0 then afterFree - 1 else p.trunc (dec64 s.blockCount)
  if freeRegion = first then
    if last ≠ lastOfFree then allocateBeginMatched p s freeRegion last lastOfFree
    else allocateMatched p s freeRegion
  else
    if last ≠ lastOfFree then allocateNotMatched p s freeRegion first last lastOfFree
    else allocateEndMatched p s freeRegion first last

/-- `apply`, simple_resource.h 392-410.  The predicate and the action are the two lambdas.  The
action returns `bool`, which is converted to `BIndex`, that is to 0 or 1 (lines 305, 217, 403).
`β` is what the action accumulates in captured references. -/
def applyLoop (p : Params) {β : Type} (pred : State → Nat → Outcome Bool)
    (act : State → β → Nat → Outcome (State × β × Bool)) :
    Nat → State → β → Nat → Outcome (State × β)
  | 0, _, _, _ => .outOfFuel
  | fuel + 1, s, b, i => do
    checkIdx p s i
    let c ← pred s i
    if c then
      let (s, b, r) ← act s b i
      let i := if r then 1 else 0
      if i ≠ 0 then applyLoop p pred act fuel s b i else pure (s, b)
    else
      let i := s.next i
      if i ≠ 0 then applyLoop p pred act fuel s b i else pure (s, b)

/-- The predicate of the scan, simple_resource.h 302-303. -/
def isFree (p : Params) (s : State) (i : Nat) : Outcome Bool := do
  let u ← inUseAt p s i
  pure (!u)

/-- The action of the scan, simple_resource.h 304-319; accumulates `pointer` (0 is `nullptr`).
The address `block_pointer + skip` cannot be null when `skip` came from a non-wrapping alignment. -/
def tryRegion (p : Params) (size align : Nat) (s : State) (pointer i : Nat) :
    Outcome (State × Nat × Bool) := do
  let blockSize ← blockSizeInBytes p s i
  let blockPointer ← blockIndexToPointer p s i
  let skip ← skipToAlign p.debug (BitVec.ofNat 64 blockPointer) (BitVec.ofNat 64 align)
  if (skip.toNat + size) % 2 ^ 64 ≤ blockSize then
    let pointer := (blockPointer + skip.toNat) % 2 ^ 64
    let s ← allocateBlocks p s i pointer size
    pure (s, pointer, false)
  else
    let nx ← nextAt p s i
    pure (s, pointer, decide (nx ≠ 0))

/-- The scan, simple_resource.h 302-319. -/
def scan (p : Params) (fuel : Nat) (s : State) (size align : Nat) : Outcome (State × Nat) :=
  applyLoop p (isFree p) (tryRegion p size align) fuel s 0 0

/-- The part of `allocate_impl` that works on the buffer, simple_resource.h 294-321.
`1 << ctz(data_)` is an `int` shift converted to `std::size_t`. -/
def allocateLocal (p : Params) (fuel : Nat) (s : State) (size align : Nat) :
    Outcome (State × Nat) :=
  if s.data ≠ 0 then do
    let c ← ctz64 p.debug (BitVec.ofNat 64 s.data)
    let b ← CVal.shl ⟨.int, 1⟩ c
    let m ← maxAlignmentInsideBlock p.debug (BitVec.ofInt 64 b.val)
      (BitVec.ofNat 64 (s.blockCount * p.blockSize))
    if align ≤ m.toNat then scan p fuel s size align else pure (s, 0)
  else pure (s, 0)

/-- An upstream resource: an arbitrary state machine.  `alloc` is `upstream_->allocate(size, align)`
(0 is `nullptr`), `dealloc` is `upstream_->deallocate(ptr)`. -/
structure Upstream (σ : Type) where
  alloc : σ → Nat → Nat → Nat × σ
  dealloc : σ → Nat → σ

/-- `allocate_impl`, simple_resource.h 283-332.  `up = none` is a null `upstream_`. -/
def allocate {σ : Type} (p : Params) (up : Option (Upstream σ)) (fuel : Nat) (s : State) (u : σ)
    (size align : Nat) : Outcome (Nat × State × σ) :=
  if size = 0 then pure (0, s, u)
  else do
    cassert p.debug (isPowerOf2 (BitVec.ofNat 64 align))
    let (s, pointer) ← allocateLocal p fuel s size align
    let (pointer, u) :=
      match up with
      | some U => if pointer = 0 then U.alloc u size align else (pointer, u)
      | none => (pointer, u)
    let al ← isAligned p.debug (BitVec.ofNat 64 pointer) (BitVec.ofNat 64 p.blockSize)
    cassert p.debug al
    pure (pointer, s, u)

/-- The second half of the assertion in simple_resource.h 471; `in_use` is evaluated in debug builds
only. -/
def assertNotInUse (p : Params) (s : State) (i : Nat) : Outcome Unit :=
  if p.debug then do
    let u ← inUseAt p s i
    cassert p.debug (!u)
  else pure ()

/-- `merge_if_both_not_in_use`, simple_resource.h 463-486.  The assertion of line 471 is
`!in_use(left) || !in_use(right)`: it can only fail when the left region is in use. -/
def mergeIfBothNotInUse (p : Params) (s : State) (left right : Nat) : Outcome (State × Nat) :=
  if left = right ∨ right = 0 then pure (s, left)
  else do
    cassert p.debug (decide (left < right))
    let ul ← inUseAt p s left
    if ul = false then
      let ur ← inUseAt p s right
      if ur = false then
        cassert p.debug (decide (s.freeCount > 0))
        checkIdx p s right
        let s ← setPrev p s (s.next right) left
        let s ← setNext p s left (s.next right)
        pure (decFree s, left)
      else pure (s, left)
    else
      assertNotInUse p s right
      pure (s, right)

/-- `merge_adjacent_blocks`, simple_resource.h 488-495 (`info` is a reference: `next_index()` is
read after the first merge). -/
def mergeAdjacentBlocks (p : Params) (s : State) (i : Nat) : Outcome (State × Nat) := do
  checkIdx p s i
  let u ← inUseAt p s i
  cassert p.debug (!u)
  let (s, merged) ← mergeIfBothNotInUse p s (s.prev i) i
  mergeIfBothNotInUse p s merged (s.next i)

/-- `deallocate_blocks`, simple_resource.h 375-390. -/
def deallocateBlocks (p : Params) (s : State) (i : Nat) : Outcome (State × Nat) := do
  cassert p.debug (decide (i < s.blockCount))
  let u ← inUseAt p s i
  abortIf (!u)
  let s ← setInUse p s i false
  cassert p.debug (decide (s.busyCount > 0))
  let s := decBusy s
  cassert p.debug (decide (s.freeCount < 2 ^ 64 - 1))
  let s := incFree s
  mergeAdjacentBlocks p s i

/-- `deallocate_impl`, simple_resource.h 334-373. -/
def deallocate {σ : Type} (p : Params) (up : Option (Upstream σ)) (s : State) (u : σ) (ptr : Nat) :
    Outcome (State × σ) :=
  if ptr = 0 then pure (s, u)
  else do
    let al ← isAligned p.debug (BitVec.ofNat 64 ptr) (BitVec.ofNat 64 p.blockSize)
    abortIf (!al)
    if s.data ≤ ptr ∧ ptr < (s.data + size p s) % 2 ^ 64 then
      let i ← pointerToBlockIndex p s ptr
      let (s, _) ← deallocateBlocks p s i
      pure (s, u)
    else
      match up with
      | some U => pure (s, U.dealloc u ptr)
      | none =>
        abortIf (decide (ptr < s.data))
        abortIf (decide ((s.data + size p s) % 2 ^ 64 ≤ ptr))
        pure (s, u)

/-- The action of `release`, simple_resource.h 217-218. -/
def releaseRegion (p : Params) (s : State) (_ : Unit) (i : Nat) :
    Outcome (State × Unit × Bool) := do
  let (s, merged) ← deallocateBlocks p s i
  let nx ← nextAt p s merged
  pure (s, (), decide (nx ≠ 0))

/-- `release`, simple_resource.h 214-219. -/
def release (p : Params) (fuel : Nat) (s : State) : Outcome State := do
  let (s, _) ← applyLoop p (inUseAt p) (releaseRegion p) fuel s () 0
  pure s

/-- The destructor, simple_resource.h 169-176. -/
def destroy (s : State) : Outcome Unit := abortIf (decide (s.busyCount ≠ 0))

end Utils.SR
