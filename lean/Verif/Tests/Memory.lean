import Verif.Model.Bits
import Verif.Model.Memory
import Verif.Model.Objects

/-!
# The unit tests of `memory.h`, `memvcmp` and the timer, run on the model

/repo/tests/src/memory_tests.cpp, memvcmp_tests.cpp and timer_tests.cpp.  These are tests, not proofs:
they check that the model behaves as the repository says the code behaves.
-/

namespace Utils.Tests

open Utils Utils.Bits Utils.Memory

/-- An array holding these bytes at address 1000, and zeroes at 2000 to 2015. -/
def array (bytes : List UInt8) : Mem := fun a =>
  if 2000 ≤ a ∧ a < 2016 then some 0
  else if 1000 ≤ a then bytes[a - 1000]? else none

/-- The bytes at an address afterwards. -/
def bytesAt (a n : Nat) (r : Outcome Mem) : Outcome (List UInt8) := do
  let m ← r
  loadBytes m a n

/-- `get_alignment` for the pointers 1 to 150, memory_tests.cpp 69-79. -/
example : (List.range 150).all (fun i =>
    getAlignment true (BitVec.ofNat 64 (i + 1))
      == (craftedCtz true (BitVec.ofNat 64 (i + 1))).map fun c => BitVec.ofNat 64 (2 ^ c)) := by
  decide +kernel

/-! `secure_zero_memory`, 81-139. -/

example : bytesAt 1000 256 (secureZeroMemory (array (List.replicate 256 10)) 1000 256)
    = .ok (List.replicate 256 0) := by decide +kernel
example : (secureZeroMemorySafe (array []) 0 0).map (·.1) = .ok (-1) := by decide +kernel
example : (secureZeroMemorySafe (array (List.replicate 16 10)) 1000 0).map (·.1) = .ok (-2) := by
  decide +kernel
example : (secureZeroMemorySafe (array (List.replicate 256 10)) 1000 256).map (·.1) = .ok 0 := by
  decide +kernel
example : bytesAt 1000 256
    ((secureZeroMemorySafe (array (List.replicate 256 10)) 1000 256).map (·.2))
    = .ok (List.replicate 256 0) := by decide +kernel
example : bytesAt 1000 64 (secureZeroMemory (array (List.replicate 64 25)) 1000 64)
    = .ok (List.replicate 64 0) := by decide +kernel

/-! `memmove`, 141-175: ten bytes five places to the front, at run time and in a constant expression. -/

example : [false, true].map (fun constEval => bytesAt 1000 16 ((memmove constEval
      (array [0, 1, 2, 3, 4, 5, 6, 7, 8, 9, 10, 11, 12, 13, 14, 15]) 1000 1005 10).map (·.2)))
    = [.ok [5, 6, 7, 8, 9, 10, 11, 12, 13, 14, 10, 11, 12, 13, 14, 15],
       .ok [5, 6, 7, 8, 9, 10, 11, 12, 13, 14, 10, 11, 12, 13, 14, 15]] := by decide +kernel

/-! `memcpy`, 201-355: typed and untyped, at run time and in a constant expression (which only the
typed ones reach). -/

example : [(false, some (ByteTy.byte, ByteTy.char)), (true, some (.byte, .char)), (false, none)].map (fun c =>
      bytesAt 2000 16 (memcpy true c.1 c.2
        (array [1, 2, 3, 4, 5, 6, 7, 8, 9, 10, 11, 12, 13, 14, 15, 16]) 2000 1000 16))
    = List.replicate 3 (.ok [1, 2, 3, 4, 5, 6, 7, 8, 9, 10, 11, 12, 13, 14, 15, 16]) := by
  decide +kernel

/-! memvcmp_tests.cpp. -/

example : memvcmp (array (List.replicate 10 0)) 1000 0 10 = .ok true := by decide +kernel
example : memvcmp (array []) 0 0 0 = .ok false := by decide +kernel
example : memvcmp (array []) 0 0 10 = .ok false := by decide +kernel
example : memvcmp (array [0]) 1000 0 1 = .ok true := by decide +kernel

/-! timer_tests.cpp 22-42: a moved timer keeps its starting point, and so does the source. -/

open Utils.Objects in
example : (moveConstruct [some (Timer.make 17 ⟨0, 0⟩), none] 1 0).map
    (·.map Timer.start) = [some 17, some 17] := by decide +kernel

end Utils.Tests
