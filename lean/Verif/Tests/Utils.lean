import Verif.Model.Arrays
import Verif.Model.Bits
import Verif.Model.Diagnostics
import Verif.Model.Types

/-!
# The unit tests of `utils.h`, run on the model

/repo/tests/src/utils_tests.cpp, clz_tests.cpp and ctz_tests.cpp.  These are tests, not proofs: they
check that the model behaves as the repository says the code behaves.
-/

namespace Utils.Tests

open Utils Utils.Bits Utils.Arrays Utils.Types

/-! Arrays, utils_tests.cpp 16-127. -/

/-- Elements that copies and moves leave alone. -/
def plain : Elem Nat := ⟨id, fun x => (x, x)⟩

example : makeArrayFromSv true id 0 ([] : List Char) = .ok [] := by decide
example : makeArrayFromSv true id 1 "f".toList = .ok ['f'] := by decide
example : makeArrayFromSv true id 8 "10101111".toList
    = .ok ['1', '0', '1', '0', '1', '1', '1', '1'] := by decide
example : makeArrayFromSv true Char.toNat 8 "10101111".toList
    = .ok [49, 48, 49, 48, 49, 49, 49, 49] := by decide
example : makeArrayFill plain 0 10 = [] := by decide
example : makeArrayFill plain 5 10 = [10, 10, 10, 10, 10] := by decide
example : makeZeroArray plain 0 10 = [0, 0, 0, 0, 0, 0, 0, 0, 0, 0] := by decide

/-! `nbits_occupied`, 129-183. -/

example : nbitsOccupied (0 : BitVec 8) = 0 := by decide +kernel
example : nbitsOccupied (3 : BitVec 8) = 2 := by decide +kernel
example : nbitsOccupied (35 : BitVec 8) = 6 := by decide +kernel
example : nbitsOccupied (250 : BitVec 8) = 8 := by decide +kernel
example : nbitsOccupied (2505 : BitVec 32) = 12 := by decide +kernel
example : nbitsOccupied (0b00000000000000000010100111001001 : BitVec 32) = 14 := by decide +kernel
example : nbitsOccupied (0b00000001111111111000000000000000 : BitVec 32) = 25 := by decide +kernel

/-! `is_power_of_2`, 185-204: the value and the answer. -/

example : (
  [(0, false), (1, true), (2, true), (3, false), (4, true), (5, false), (6, false), (7, false),
   (8, true), (9, false), (11, false), (12, false), (13, false), (14, false), (15, false),
   (16, true), (17, false), (143390, false), (65536, true)] : List (Nat × Bool)).all
    (fun c => isPowerOf2 (BitVec.ofNat 64 c.1) == c.2) := by decide +kernel

/-! `skip_to_align<T>`, 206-276: the alignment of `T`, the pointer and the answer. -/

example : (
  [(1, 0, 0), (1, 1, 0), (1, 2, 0), (1, 0, 0), (1, 1, 0), (1, 2, 0), (2, 0, 0), (2, 1, 1),
   (2, 2, 0), (2, 3, 1), (2, 4, 0), (4, 0, 0), (4, 1, 3), (4, 2, 2), (4, 3, 1), (4, 4, 0),
   (4, 5, 3), (8, 0, 0), (8, 1, 7), (8, 2, 6), (8, 3, 5), (8, 4, 4), (8, 5, 3), (8, 6, 2),
   (8, 7, 1), (8, 8, 0), (8, 9, 7), (8, 10, 6), (8, 11, 5)] : List (Nat × Nat × Nat)).all
    (fun c => skipToAlign true (BitVec.ofNat 64 c.2.1) (BitVec.ofNat 64 c.1)
      = .ok (BitVec.ofNat 64 c.2.2)) := by decide +kernel

/-! `next_multiple_of<Pow2>` on `int`, 278-312: the power, the value and the answer. -/

example : (
  [(8, 0, 0), (8, 1, 8), (8, 2, 8), (8, 3, 8), (8, 4, 8), (8, 5, 8), (8, 6, 8), (8, 7, 8),
   (8, 8, 8), (8, 9, 16), (16, 0, 0), (16, 1, 16), (16, 2, 16), (16, 3, 16), (16, 4, 16),
   (16, 5, 16), (16, 6, 16), (16, 7, 16), (16, 8, 16), (16, 9, 16), (16, 10, 16), (16, 11, 16),
   (16, 12, 16), (16, 13, 16), (16, 14, 16), (16, 15, 16), (16, 16, 16), (16, 17, 32)] : List (Nat × Int × Int)).all
    (fun c => nextMultipleOfT .int c.1 c.2.1 = .ok c.2.2) := by decide +kernel

/-! `is_ref_wrapper`, `unwrap_reference`, 314-335. -/

open CxxTy in
example : isRefWrapper (int false false .int) = false := by decide
open CxxTy in
example : isRefWrapper (refWrapper false false (int false false .char)) = true := by decide

open CxxTy in
example : isRefWrapper (refWrapper false false (int true false .int)) = true := by decide
open CxxTy in
example : unwrapReference (ptr false false (int false false .int))
    = ptr false false (int false false .int) := by decide
open CxxTy in
example : unwrapReference (refWrapper false false (ptr false false (int false false .int)))
    = lref (ptr false false (int false false .int)) := by decide
open CxxTy in
example : unwrapReference (refWrapper false false (int true false .int))
    = lref (int true false .int) := by decide

/-! `is_aligned<T>`, 337-350: for `std::int16_t`, an address, and the address 1 and 2 further. -/

example : isAligned true (4096#64) (2#64) = .ok true := by decide +kernel
example : isAligned true (4097#64) (2#64) = .ok false := by decide +kernel
example : isAligned true (4098#64) (2#64) = .ok true := by decide +kernel
example : isAligned true (4096#64) (8#64) = .ok true := by decide +kernel

/-! `max_alignment_inside_block`, 352-398: alignment, size and the answer. -/

example : (
  [(1, 1, 1), (1, 2, 2), (1, 3, 2), (1, 4, 4), (1, 5, 4), (1, 6, 4), (1, 7, 4), (1, 8, 8),
   (2, 1, 2), (2, 2, 2), (2, 3, 4), (2, 4, 4), (2, 5, 4), (2, 6, 4), (2, 7, 8), (2, 8, 8),
   (4, 1, 4), (4, 2, 4), (4, 3, 4), (4, 4, 4), (4, 5, 8), (4, 6, 8), (4, 7, 8), (4, 8, 8),
   (4, 9, 8), (4, 10, 8), (4, 11, 8), (4, 12, 8), (4, 13, 16), (8, 1, 8), (8, 2, 8), (8, 3, 8),
   (8, 4, 8), (8, 5, 8), (8, 6, 8), (8, 7, 8), (8, 8, 8), (8, 9, 16)] : List (Nat × Nat × Nat)).all
    (fun c => maxAlignmentInsideBlock true (BitVec.ofNat 64 c.1) (BitVec.ofNat 64 c.2.1)
      = .ok (BitVec.ofNat 64 c.2.2)) := by decide +kernel

/-! `greatest_divisor_that_is_power_of_2`, 400-419. -/

example : greatestDivisorPow2 .uchar 0 = .ok 128 := by decide +kernel
example : (
  [(1, 1), (2, 2), (3, 1), (4, 4), (5, 1), (6, 2), (7, 1), (8, 8), (9, 1), (10, 2), (11, 1),
   (12, 4)] : List (Int × Int)).all
    (fun c => greatestDivisorPow2 .uint c.1 = .ok c.2) := by decide +kernel

/-! `abort_if`, 421-499: aborts iff the condition holds. -/

example : abortIf true = .aborted := by decide
example : abortIf false = .ok () := by decide

/-- No pointers here. -/
def noPtr : Nat → List Char := fun _ => []

example : Diag.abortIf noPtr true none [] = .aborts [] := by decide
example : Diag.abortIf noPtr true (some "abort message".toList) [] =
    .aborts "abort message".toList := by decide +kernel
example : Diag.abortIf noPtr true (some "abort with code: %d".toList) [.pass .int 5] =
    .aborts "abort with code: 5".toList := by decide +kernel
example : Diag.abortIf noPtr false none [] = .returns := by decide
example : Diag.abortIf noPtr false (some "abort message".toList) [] = .returns := by decide
example : Diag.abortIf noPtr false (some "abort with code: %d".toList) [.pass .int 5] = .returns := by
  decide
example : Diag.abortIfMacro noPtr ⟨"u.cpp".toList, 451, "F".toList⟩ true none =
    .aborts "[ERROR]\nfile: u.cpp\nline: 451\nfunc: F".toList := by decide +kernel
example : Diag.abortIfMacro noPtr ⟨"u.cpp".toList, 457, "F".toList⟩ true (some ("abort message".toList, [])) =
    .aborts "[ERROR]\nfile: u.cpp\nline: 457\nfunc: Fabort message".toList := by decide +kernel
example : Diag.abortIfMacro noPtr ⟨"u.cpp".toList, 464, "F".toList⟩ true
      (some ("abort message %d".toList, [.pass .int 5])) =
    .aborts "[ERROR]\nfile: u.cpp\nline: 464\nfunc: Fabort message 5".toList := by decide +kernel

/-! `is_uint`, `is_equal_sizes`, `is_uint_or_byte`, 501-532 and 716-726. -/

open CTy in
example : [bool, schar, int].all (fun t => !CxxTy.isUInt (.int false false t)) = true := by decide
open CTy in
example : [uchar, ushort, uint, ulong].all (fun t => CxxTy.isUInt (.int false false t)) = true := by
  decide
example : isEqualSizes [] = true := by decide
example : isEqualSizes [1] = true := by decide
example : isEqualSizes [1, 1] = true := by decide
example : isEqualSizes [4, 4] = true := by decide
example : isEqualSizes [1, 1, 1] = true := by decide
example : isEqualSizes [1, 1, 1, 1] = true := by decide
example : isEqualSizes [1, 1, 1, 1, 2] = false := by decide
example : isEqualSizes [1, 8] = false := by decide
open CTy in
example : [uchar, ushort, uint, ulong].all
    (fun t => CxxTy.isUIntOrByte (.int false false t)) = true := by decide
example : CxxTy.isUIntOrByte (.byte false false) = true := by decide
example : CxxTy.isUIntOrByte (.int false false .int) = false := by decide

/-! `div`, `div_as`, 534-669: 10 / 3 in every combination of types, at run time and in a constant
expression, and the type of the result. -/

open CTy in
example : [int, long, llong, schar].all (fun t => divRun true t 10 t 3 = .ok (3, 1)) := by
  decide +kernel
example : divRun true .char 10 .int 3 = .ok (3, 1) := by decide +kernel
example : divAs false true .ushort .ulong 10 .int 3 = .ok (3, 1) := by decide +kernel
example : divRun true .ulong 10 .int 3 = .ok (3, 1) := by decide +kernel
open CTy in
example : [int, long, llong, schar].all (fun t => divConst true t 10 t 3 = .ok (3, 1)) := by
  decide +kernel
open CTy in
example : [int, long, llong, schar].all (fun t => common t t == t) := by decide +kernel
example : CTy.common .char .int = .int := by decide
example : CTy.common .ulong .int = .ulong := by decide

/-! clz_tests.cpp and ctz_tests.cpp: width, value and the answer of `clz`/`ctz` and of
`crafted_clz`/`crafted_ctz`. -/

example : (
  [(8, 0x85, 0), (8, 0x24, 2), (8, 0x18, 3), (8, 0x1, 7), (16, 0x8505, 0), (16, 0x2404, 2),
   (16, 0x1888, 3), (16, 0x180, 7), (16, 0x1, 15), (32, 0x85050505, 0), (32, 0x24040404, 2),
   (32, 0x18888888, 3), (32, 0x1808080, 7), (32, 0x18000, 15), (32, 0x1, 31),
   (64, 0x8505050505050505, 0), (64, 0x2404040404040404, 2), (64, 0x1888888888888888, 3),
   (64, 0x180808080808080, 7), (64, 0x1800080008000, 15), (64, 0x180000000, 31), (64, 0x1, 63),
   (64, 0x100, 55)] : List (Nat × Nat × Nat)).all
    (fun c => clz .builtin gccLP64 true (c.1 / 8) (BitVec.ofNat _ c.2.1) = some (.ok c.2.2)
      && craftedClz true (BitVec.ofNat c.1 c.2.1) = .ok c.2.2) := by
  decide +kernel

example : (
  [(8, 0x5, 0), (8, 0x4, 2), (8, 0x88, 3), (8, 0x80, 7), (16, 0x505, 0), (16, 0x404, 2),
   (16, 0x8888, 3), (16, 0x8080, 7), (16, 0x8000, 15), (32, 0x5050505, 0), (32, 0x4040404, 2),
   (32, 0x88888888, 3), (32, 0x80808080, 7), (32, 0x80008000, 15), (32, 0x80000000, 31),
   (64, 0x505050505050505, 0), (64, 0x404040404040404, 2), (64, 0x8888888888888888, 3),
   (64, 0x8080808080808080, 7), (64, 0x8000800080008000, 15), (64, 0x8000000080000000, 31),
   (64, 0x8000000000000000, 63), (64, 0x8080000000000000, 55)] : List (Nat × Nat × Nat)).all
    (fun c => ctz .builtin gccLP64 true (c.1 / 8) (BitVec.ofNat _ c.2.1) = some (.ok c.2.2)
      && craftedCtz true (BitVec.ofNat c.1 c.2.1) = .ok c.2.2) := by
  decide +kernel

end Utils.Tests
