import Verif.Model.SimpleResource

/-!
# The unit tests of `simple_resource`, run on the model

/repo/tests/src/simple_resource_tests.cpp, test by test.  These are tests, not proofs: they check that
the model behaves as the repository says the code behaves.  Every test ends with what the fixture does
afterwards: `release` and the destructor.
-/

namespace Utils.Tests

open Utils Utils.SR

/-- `utils::memory::simple_resource<32, 8>` in a build with assertions. -/
def p32 : Params := ⟨32, 8, true⟩

/-- The buffer `data_` (256 bytes); tests assume all 32 blocks fit, so it is aligned to 8. -/
def buffer : Nat := 4096

/-- `utils::memory::system_resource()` as upstream: far away and aligned. -/
def heap : Upstream Unit := ⟨fun u _ _ => (2 ^ 40, u), fun u _ => u⟩

/-- `resource.allocate(size, 1)`. -/
def alloc (s : State) (size : Nat) : Outcome (Nat × State) := do
  let (ptr, s, _) ← allocate p32 (some heap) 100 s () size 1
  pure (ptr, s)

/-- `resource.deallocate(ptr)`. -/
def dealloc (s : State) (ptr : Nat) : Outcome State := do
  let (s, _) ← deallocate p32 (some heap) s () ptr
  pure s

/-- `resource.deallocate(allocated_pointers[i])`. -/
def deallocBlock (s : State) (i : Nat) : Outcome State := dealloc s (buffer + 8 * i)

/-- The end of every test: the destructor of the fixture calls `release`, then the resource is
destroyed. -/
def finish (s : State) : Outcome Unit := do
  let s ← release p32 2000 s
  destroy s

/-- A check. -/
def expect (c : Bool) : Outcome Unit := if c then .ok () else .aborted

/-- `is_in_order`, lines 20-26. -/
def inOrder (s : State) (i j : Nat) : Bool := s.next i = j && s.prev j = i

/-- `block_size(i)`, simple_resource.h 241-248. -/
def sizeOf (s : State) (i : Nat) : Nat := (if s.next i = 0 then s.blockCount else s.next i) - i

/-- Nothing is recorded: lines 165-172. -/
def pristine (s : State) : Bool :=
  s.freeCount = 1 && s.busyCount = 0 &&
  (List.range 32).all fun i => !s.inUse i && s.prev i = 0 && s.next i = 0

/-- `n` times `allocate(1, 1)`, each returning the next block. -/
def fill (s : State) : Nat → Nat → Outcome State
  | _, 0 => .ok s
  | i, n + 1 => do
    let (ptr, s) ← alloc s 1
    expect (ptr = buffer + 8 * i)
    fill s (i + 1) n

/-- Giving back the listed blocks. -/
def giveBack (s : State) : List Nat → Outcome State
  | [] => .ok s
  | i :: l => do
    let s ← deallocBlock s i
    giveBack s l

/-- The fixtures `FreeRegionBase`, lines 42-63: all blocks allocated, then `first … last` given back;
the fixture for the whole resource allocates nothing. -/
def freeRegion (first last : Nat) : Outcome State := do
  let s ← create p32 buffer 256
  if last - first + 1 = 32 then pure s
  else do
    let s ← fill s 0 32
    giveBack s ((List.range (last - first + 1)).map (first + ·))

/-! Lines 139-161. -/

example : originAndBlockCount ⟨32, 4, true⟩ 0 10 = .ok (0, 0) := by decide +kernel
example : originAndBlockCount ⟨32, 4, true⟩ 4096 0 = .ok (0, 0) := by decide +kernel
example : originAndBlockCount ⟨32, 4, true⟩ 0 0 = .ok (0, 0) := by decide +kernel

/-! `DefaultConstructed`, `AllocateZeroBytes`, `AllocateDeallocate1Char`, lines 163-219. -/

example : (do
    let s ← create p32 buffer 256
    expect (pristine s)
    finish s) = .ok () := by decide +kernel

example : (do
    let s ← create p32 buffer 256
    let (_, s) ← alloc s 0
    expect (pristine s)
    finish s) = .ok () := by decide +kernel

example : (do
    let s ← create p32 buffer 256
    let (ptr, s) ← alloc s 1
    expect (ptr ≠ 0 && s.freeCount = 1 && s.busyCount = 1)
    expect (s.inUse 0 && s.prev 0 = 0 && s.next 0 = 1)
    expect (!s.inUse 1 && s.prev 1 = 0 && s.next 1 = 0)
    let s ← dealloc s ptr
    expect (pristine s)
    finish s) = .ok () := by decide +kernel

/-! `AllocateDeallocate32CharsInReverseOrder`, lines 221-296. -/

/-- The first loop, lines 223-257. -/
def fillChecked (s : State) : Nat → Nat → Outcome State
  | _, 0 => .ok s
  | i, n + 1 => do
    expect (!s.inUse i && s.prev 0 = 0 && s.next 31 = 0)
    let (ptr, s) ← alloc s 1
    expect (s.prev 0 = 0 && s.next 31 = 0 && ptr ≠ 0)
    expect (s.freeCount = (if i < 31 then 1 else 0) && s.busyCount = i + 1 && s.inUse i)
    expect (s.prev i = i - 1 && s.next i = (if i < 31 then i + 1 else 0))
    fillChecked s (i + 1) n

/-- The last loop, lines 264-294, from the last block down. -/
def emptyReverse (s : State) : Nat → Outcome State
  | 0 => .ok s
  | i + 1 => do
    expect (s.freeCount = (if i < 31 then 1 else 0) && s.busyCount = i + 1 && s.inUse i)
    expect (s.prev 0 = 0 && s.next 31 = 0)
    let s ← deallocBlock s i
    expect (s.prev 0 = 0 && s.next 31 = 0)
    expect (s.freeCount = 1 && s.busyCount = i && !s.inUse i)
    expect (s.prev i = i - 1 && s.next i = 0)
    emptyReverse s i

example : (do
    let s ← create p32 buffer 256
    let s ← fillChecked s 0 32
    expect ((List.range 32).all s.inUse)
    let s ← emptyReverse s 32
    finish s) = .ok () := by decide +kernel

/-! `AllocateDeallocate32CharsInStraightOrder`, lines 298-372. -/

/-- The last loop, lines 333-370, from the first block up. -/
def emptyStraight (s : State) : Nat → Nat → Outcome State
  | _, 0 => .ok s
  | i, n + 1 => do
    expect (s.freeCount = (if i = 0 then 0 else 1) && s.busyCount = 32 - i && s.inUse i)
    expect (s.prev i = 0 && s.next i = (if i < 31 then i + 1 else 0))
    expect (s.prev 0 = 0 && s.next 31 = 0)
    let s ← deallocBlock s i
    expect (s.prev 0 = 0 && s.next 31 = 0)
    expect (s.freeCount = 1 && s.busyCount = 32 - i - 1 && !s.inUse i)
    expect (s.prev i = 0 && s.next i = (if i < 31 then i + 1 else 0))
    emptyStraight s (i + 1) n

example : (do
    let s ← create p32 buffer 256
    let s ← fillChecked s 0 32
    expect ((List.range 32).all s.inUse)
    let s ← emptyStraight s 0 32
    finish s) = .ok () := by decide +kernel

/-! `Deallocate8CharsInCustomOrder`, `DeallocateAndAllocateAgainOneChar`, lines 374-465. -/

example : (do
    let s ← create p32 buffer 256
    let s ← fill s 0 32
    expect (s.freeCount = 0 && s.busyCount = 32)
    let s ← deallocBlock s 2
    expect (inOrder s 1 2 && inOrder s 2 3 && s.freeCount = 1 && s.busyCount = 31)
    let s ← deallocBlock s 4
    expect (inOrder s 3 4 && inOrder s 4 5 && s.freeCount = 2 && s.busyCount = 30)
    let s ← deallocBlock s 3
    expect (inOrder s 1 2 && inOrder s 2 5 && s.freeCount = 1 && s.busyCount = 29)
    let s ← deallocBlock s 5
    expect (s.freeCount = 1 && s.busyCount = 28)
    let s ← deallocBlock s 7
    expect (s.freeCount = 2 && s.busyCount = 27)
    let s ← deallocBlock s 10
    expect (s.freeCount = 3 && s.busyCount = 26)
    let s ← deallocBlock s 13
    expect (s.freeCount = 4 && s.busyCount = 25)
    let s ← deallocBlock s 16
    expect (s.freeCount = 5 && s.busyCount = 24)
    finish s) = .ok () := by decide +kernel

example : (do
    let s ← create p32 buffer 256
    let s ← fill s 0 32
    expect (s.freeCount = 0 && s.busyCount = 32)
    let s ← deallocBlock s 2
    expect (inOrder s 1 2 && inOrder s 2 3 && s.freeCount = 1 && s.busyCount = 31)
    let (ptr, s) ← alloc s 1
    expect (ptr ≠ 0 && s.freeCount = 0 && s.busyCount = 32)
    finish s) = .ok () := by decide +kernel

/-! The four ways to carve up a free region, lines 467-747: at the beginning (0-14), in the middle
(5-19), at the end (10-31) and as the whole resource (0-31).  `follows` is false where the region ends
with the resource; the tests then do not look at the block behind it. -/

def carveBegin (first last : Nat) (follows : Bool) : Outcome Unit := do
  let s ← freeRegion first last
  let count := last - first + 1
  let t ← allocateBeginMatched p32 s first (last - 3) last
  expect (t.freeCount = s.freeCount && t.busyCount = s.busyCount + 1)
  expect (t.inUse first && !t.inUse (last - 3 + 1) && inOrder t first (last - 3 + 1))
  expect (!follows || inOrder t (last - 3 + 1) (last + 1))
  expect (sizeOf t first = count - 3)
  finish t

def carveMiddle (first last : Nat) (follows : Bool) : Outcome Unit := do
  let s ← freeRegion first last
  let count := last - first + 1
  let t ← allocateNotMatched p32 s first (first + 2) (last - 3) last
  expect (t.freeCount = s.freeCount + 1 && t.busyCount = s.busyCount + 1)
  expect (!t.inUse first && t.inUse (first + 2) && !t.inUse (last - 3 + 1))
  expect (inOrder t first (first + 2) && inOrder t (first + 2) (last - 3 + 1))
  expect (!follows || inOrder t (last - 3 + 1) (last + 1))
  expect (sizeOf t (first + 2) = count - 5)
  finish t

def carveEnd (first last : Nat) (follows : Bool) : Outcome Unit := do
  let s ← freeRegion first last
  let count := last - first + 1
  let t ← allocateEndMatched p32 s first (first + 2) last
  expect (t.freeCount = s.freeCount && t.busyCount = s.busyCount + 1)
  expect (!t.inUse first && t.inUse (first + 2) && inOrder t first (first + 2))
  expect (!follows || inOrder t (first + 2) (last + 1))
  expect (sizeOf t (first + 2) = count - 2)
  finish t

def carveAll (first last : Nat) (follows : Bool) : Outcome Unit := do
  let s ← freeRegion first last
  let count := last - first + 1
  let t ← allocateMatched p32 s first
  expect (t.freeCount = s.freeCount - 1 && t.busyCount = s.busyCount + 1 && t.inUse first)
  expect (!follows || inOrder t first (last + 1))
  expect (sizeOf t first = count)
  finish t

example : carveBegin 0 14 true = .ok () := by decide +kernel
example : carveMiddle 0 14 true = .ok () := by decide +kernel
example : carveEnd 0 14 true = .ok () := by decide +kernel
example : carveAll 0 14 true = .ok () := by decide +kernel
example : carveBegin 5 19 true = .ok () := by decide +kernel
example : carveMiddle 5 19 true = .ok () := by decide +kernel
example : carveEnd 5 19 true = .ok () := by decide +kernel
example : carveAll 5 19 true = .ok () := by decide +kernel
example : carveBegin 10 31 false = .ok () := by decide +kernel
example : carveMiddle 10 31 false = .ok () := by decide +kernel
example : carveEnd 10 31 false = .ok () := by decide +kernel
example : carveAll 10 31 false = .ok () := by decide +kernel
example : carveBegin 0 31 false = .ok () := by decide +kernel
example : carveMiddle 0 31 false = .ok () := by decide +kernel
example : carveEnd 0 31 false = .ok () := by decide +kernel
example : carveAll 0 31 false = .ok () := by decide +kernel

/-! `AllocateTooBigPieceOfMemory`, lines 749-764. -/

example : (do
    let s ← freeRegion 0 31
    let (ptr, t) ← alloc s (size p32 s + 1)
    expect (ptr ≠ 0)
    let t ← dealloc t ptr
    expect (t.freeCount = s.freeCount && t.busyCount = s.busyCount && !t.inUse 0)
    expect (sizeOf t 0 = 32)
    finish t) = .ok () := by decide +kernel

/-! The death tests, lines 766-853: the call aborts. -/

example : (do
    let s ← create p32 buffer 256
    let (_, s) ← alloc s 1
    destroy s) = .aborted := by decide +kernel
example : (do
    let s ← create p32 buffer 256
    let (s, _) ← deallocate p32 (none : Option (Upstream Unit)) s () (buffer - 8)
    pure s.busyCount) = .aborted := by decide +kernel
example : (do
    let s ← create p32 buffer 256
    let (s, _) ← deallocate p32 (none : Option (Upstream Unit)) s () (buffer + size p32 s)
    pure s.busyCount) = .aborted := by decide +kernel
example : (do
    let s ← create p32 buffer 256
    let s ← dealloc s (buffer + 1)
    pure s.busyCount) = .aborted := by decide +kernel
example : (do
    let s ← create p32 buffer 256
    let (s, _) ← deallocate p32 (none : Option (Upstream Unit)) s () buffer
    pure s.busyCount) = .aborted := by decide +kernel

end Utils.Tests
