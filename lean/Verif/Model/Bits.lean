import Verif.Model.CInt
import Verif.Model.TypeList

/-!
# Bit and integer helpers

/repo/sources/include/utils/common.h, clz.h, ctz.h, details/cxz.h, memory/memory.h (`get_alignment`).

`std::size_t` and `std::uintptr_t` values are `BitVec w` (the library is used at `w = 64`; nothing
below depends on it unless `64` is written).  Pointers are the integers `reinterpret_cast` gives.
Functions on a template type `T` that mix `T` with `int` by integral promotion use `CVal`.
-/

namespace Utils.Bits

variable {w : Nat}

/-- `is_power_of_2`, common.h 378-381. -/
def isPowerOf2 (v : BitVec w) : Bool := v != 0#w && (v &&& (v - 1#w)) == 0#w

/-- `next_multiple_of(aMultiple, aValue)`, common.h 383-388. -/
def nextMultipleOf (debug : Bool) (m v : BitVec w) : Outcome (BitVec w) := do
  cassert debug (isPowerOf2 m)
  pure ((v + m - 1#w) &&& -m)

/-- `next_multiple_of<PowOf2, U>(aValue)`, common.h 390-395, for an integer type `U = t` and `PowOf2`
a power of two (the `enable_if`), of type `std::size_t`.  The operators work in the promoted type,
the result is converted to `U` by the return. -/
def nextMultipleOfT (t : CTy) (pow2 : Nat) (v : Int) : Outcome Int := do
  let a : CVal := ⟨t, v⟩
  let s ← CVal.add a (CVal.cast t ⟨.ulong, (pow2 : Int) - 1⟩)
  let n ← CVal.neg (CVal.cast t ⟨.ulong, pow2⟩)
  pure (t.conv (CVal.band s n).val)

/-- `skip_to_align(aPtr, aAlignment)`, common.h 397-403 (the overload for a type, 405-411, passes
`alignof(T)`). -/
def skipToAlign (debug : Bool) (p a : BitVec w) : Outcome (BitVec w) := do
  cassert debug (isPowerOf2 a)
  let n ← nextMultipleOf debug a p
  pure (n - p)

/-- `is_aligned(aPtr, aAlignment)`, common.h 432-436 (438-443 passes `alignof(T)`). -/
def isAligned (debug : Bool) (p a : BitVec w) : Outcome Bool := do
  cassert debug (isPowerOf2 a)
  pure ((p &&& (a - 1#w)) == 0#w)

/-- `greatest_divisor_that_is_power_of_2`, common.h 370-376, for the unsigned type `t`. -/
def greatestDivisorPow2 (t : CTy) (v : Int) : Outcome Int := do
  let a : CVal := ⟨t, v⟩
  if a.truthy then
    let d ← CVal.sub a ⟨.int, 1⟩
    pure (t.conv (CVal.band a (CVal.bnot d)).val)
  else
    let r ← CVal.shl (CVal.cast t ⟨.int, 1⟩) (t.sizeof * 8 - 1)
    pure (t.conv r.val)

/-- `bits_count`, common.h 354-357; the result is converted to `uint8_t` at every level. -/
def bitsCount (v : BitVec 64) : Nat :=
  if h : v = 0#64 then 0 else (1 + bitsCount (v >>> 1)) % 256
  termination_by v.toNat
  decreasing_by
    have h1 : v.toNat ≠ 0 := fun h0 => h (BitVec.eq_of_toNat_eq (by simpa using h0))
    simp only [BitVec.toNat_ushiftRight, Nat.shiftRight_eq_div_pow]
    omega

/-- `nbits_occupied`, common.h 632-646: the `while` loop.  `vCopy >>= 1` on a narrow type promotes
to `int`, shifts a non-negative value and converts back, which is the logical shift. -/
def nbitsOccupiedLoop (v : BitVec w) (n : Nat) : Nat :=
  if h : v = 0#w then n else nbitsOccupiedLoop (v >>> 1) (n + 1)
  termination_by v.toNat
  decreasing_by
    have h1 : v.toNat ≠ 0 := fun h0 => h (BitVec.eq_of_toNat_eq (by simpa using h0))
    simp only [BitVec.toNat_ushiftRight, Nat.shiftRight_eq_div_pow]
    omega

/-- `nbits_occupied`, common.h 632-646. -/
def nbitsOccupied (v : BitVec w) : Nat := nbitsOccupiedLoop v 0

/-- `numBitSet`, common.h 184-188: the fold `(... + ((aValue >> I) & 1))`. -/
def numBitSet (v : BitVec 8) (idx : List Nat) : Nat :=
  (idx.foldl (fun acc i => acc + ((v >>> i) &&& 1#8).toNat) 0) % 256

/-- `getNumBits`, common.h 190-194. -/
def getNumBits (v : BitVec 8) : Nat := numBitSet v (List.range 8)

/-- `kNumBitsTable`, common.h 196-208, 352. -/
def numBitsTable : List Nat := (List.range 256).map fun i => getNumBits (BitVec.ofNat 8 i)

/-- `max_alignment_inside_block`, common.h 413-430.  `bits_count(value) - 1` is computed in `int`
and converted to `std::size_t`; `1 << msb` is an `int` shift, converted to `std::size_t`. -/
def maxAlignmentInsideBlock (debug : Bool) (al size : BitVec 64) : Outcome (BitVec 64) := do
  cassert debug (isPowerOf2 al)
  cassert debug (decide (size > 0#64))
  let value := al + size - 1#64
  let msb := (CTy.conv .ulong ((bitsCount value : Int) - 1)).toNat
  let r ← CVal.shl ⟨.int, 1⟩ msb
  pure (BitVec.ofInt 64 r.val)

/-- `uint_from_nbits`, common.h 462-501: width of the chosen type, `none` for a failed
`static_assert`. -/
def uintFromNbits (n : Nat) : Option Nat :=
  if n > 0 ∧ n ≤ 8 then some 8
  else if n > 8 ∧ n ≤ 16 then some 16
  else if n > 16 ∧ n ≤ 32 then some 32
  else if n > 32 ∧ n ≤ 64 then some 64
  else none

/-- `uint_from_nbytes_t`, common.h 503-504; an argument that does not fit `uint8_t` is a narrowing
conversion and does not compile. -/
def uintFromNbytes (n : Nat) : Option Nat := if n * 8 < 256 then uintFromNbits (n * 8) else none

/-- The widths of `uint_fast8_t`, `uint_fast16_t`, `uint_fast32_t` and `uint_fast64_t`, which the platform
chooses. -/
structure FastWidths where
  fast8 : Nat
  fast16 : Nat
  fast32 : Nat
  fast64 : Nat

/-- `fast_uint_from_nbits`, common.h 514-553: width of the chosen type. -/
def fastUintFromNbits (F : FastWidths) (n : Nat) : Option Nat :=
  if n > 0 ∧ n ≤ 8 then some F.fast8
  else if n > 8 ∧ n ≤ 16 then some F.fast16
  else if n > 16 ∧ n ≤ 32 then some F.fast32
  else if n > 32 ∧ n ≤ 64 then some F.fast64
  else none

/-- `fast_uint_from_nbytes_t`, common.h 555-557, and `FastUInt`, 688-689, which passes a `std::size_t`
on; arguments that do not fit `uint8_t` do not compile. -/
def fastUintFromNbytes (F : FastWidths) (n : Nat) : Option Nat :=
  if n < 256 then
    if n * 8 < 256 then fastUintFromNbits F (n * 8) else none
  else none

/-- `enum_properties<T>::SerializeT`, common.h 506-512, from the value of `T::Count`. -/
def serializeWidth (count : BitVec 64) : Option Nat := uintFromNbits (bitsCount count)

/-- `num_bits<T>()`, common.h 559-569, for `bool` or a type of the given `sizeof`. -/
def numBits (isBool : Bool) (size : Nat) : Nat := if isBool then 1 else 8 * size

/-- `sum_size<Ts...>()`, common.h 625-630, for types given as (is `bool`, `sizeof`); the unary fold
over an empty pack does not compile. -/
def sumSize (ts : List (Bool × Nat)) : Option Nat :=
  match ts with
  | [] => none
  | ts =>
    let bits := (ts.map fun t => numBits t.1 t.2).sum
    some (bits / 8 + (if bits % 8 ≠ 0 then 1 else 0))

/-- `shift_right`, common.h 763-773. -/
def shiftRight (debug : Bool) (t : CTy) (v : Int) (n : Nat) : Outcome Int := do
  cassert debug (decide (n < t.sizeof * 8))
  let r ← CVal.shr ⟨t, v⟩ n
  pure (t.conv r.val)

/-- `shift_left`, common.h 775-785. -/
def shiftLeft (debug : Bool) (t : CTy) (v : Int) (n : Nat) : Outcome Int := do
  cassert debug (decide (n < t.sizeof * 8))
  let r ← CVal.shl ⟨t, v⟩ n
  pure (t.conv r.val)

/-- `div`, constant-evaluated branch, common.h 590-600.  (A failed `assert` in a constant
expression is a compile error; it is reported as `assertFailed`.) -/
def divConst (debug : Bool) (tn : CTy) (n : Int) (td : CTy) (d : Int) : Outcome (Int × Int) := do
  cassert debug (d != 0)
  let t := CTy.common tn td
  let a := CVal.cast t ⟨tn, n⟩
  let b := CVal.cast t ⟨td, d⟩
  let q ← CVal.div a b
  let r ← CVal.rem a b
  pure (t.conv q.val, t.conv r.val)

/-- `work_t` of `div`, common.h 603-607: `common_type_t<type, int, long, long long>` if it is one of
`int`, `long`, `long long`, otherwise `long long`. -/
def divWorkType (t : CTy) : CTy :=
  let c := CTy.common (CTy.common (CTy.common t .int) .long) .llong
  if c = .int ∨ c = .long ∨ c = .llong then c else .llong

/-- `div`, run-time branch, common.h 601-613; `std::div` is `/` and `%` at `work_t`. -/
def divRun (debug : Bool) (tn : CTy) (n : Int) (td : CTy) (d : Int) : Outcome (Int × Int) := do
  cassert debug (d != 0)
  let t := CTy.common tn td
  let wt := divWorkType t
  let a := CVal.cast wt ⟨tn, n⟩
  let b := CVal.cast wt ⟨td, d⟩
  let q ← CVal.div a b
  let r ← CVal.rem a b
  pure (t.conv q.val, t.conv r.val)

/-- `div_as<R>`, common.h 616-623: both operands converted to `R` first.  `const` selects the
constant-evaluated branch of `div`. -/
def divAs (const debug : Bool) (tr tn : CTy) (n : Int) (td : CTy) (d : Int) :
    Outcome (Int × Int) :=
  let n' := (CVal.cast tr ⟨tn, n⟩).val
  let d' := (CVal.cast tr ⟨td, d⟩).val
  if const then divConst debug tr n' tr d' else divRun debug tr n' tr d'

/-! ## Counting zeros -/

/-- `details::crafted_clz`, the loop, clz.h 22-25.  Narrow types: `to_test` is never negative, so the
promoted `&` and `>>=` are the ones of `T`. -/
def craftedClzLoop (v test : BitVec w) (c : Nat) : Nat :=
  if c < w - 1 ∧ (v &&& test) = 0#w then craftedClzLoop v (test >>> 1) (c + 1) else c
  termination_by w - c

/-- `details::crafted_clz`, clz.h 17-27. -/
def craftedClz (debug : Bool) (v : BitVec w) : Outcome Nat := do
  cassert debug (decide (v > 0#w))
  pure (craftedClzLoop v (1#w <<< (w - 1)) 0)

/-- `details::crafted_ctz`, the loop, ctz.h 22-24. -/
def craftedCtzLoop (v : BitVec w) (c : Nat) : Nat :=
  if c < w - 1 ∧ (v &&& 1#w) = 0#w then craftedCtzLoop (v >>> 1) (c + 1) else c
  termination_by w - c

/-- `details::crafted_ctz`, ctz.h 17-26. -/
def craftedCtz (debug : Bool) (v : BitVec w) : Outcome Nat := do
  cassert debug (decide (v > 0#w))
  pure (craftedCtzLoop v 0)

/-- Index of the highest one bit, counted from bit `n - 1` downwards: the documented result of
`_BitScanReverse` (external; trusted contract). -/
def highestBit (v : Nat) : Nat → Nat
  | 0 => 0
  | n + 1 => if v.testBit n then n else highestBit v n

/-- Index of the lowest one bit from bit `i` upwards, searching `n` bits: the documented result of
`_BitScanForward` and `__builtin_ctz` (external; trusted contract). -/
def lowestBit (v : Nat) (i : Nat) : Nat → Nat
  | 0 => i
  | n + 1 => if v.testBit i then i else lowestBit v (i + 1) n

/-- Which of the implementations of `calc_clz` / `calc_ctz` is compiled in. -/
inductive Impl where
  /-- `__builtin_clz*` / `__builtin_ctz*`, clz.h 93-109, ctz.h 90-106 (file lines). -/
  | builtin
  /-- MSVC at run time: `_BitScanReverse*` / `_BitScanForward*`, clz.h 41-44, 66-69. -/
  | bitScan
  /-- MSVC in constant expressions, clz.h 35-38, 60-63. -/
  | crafted
  deriving DecidableEq

/-- `details::calc_clz<supported_t>` on a supported type of `w` bits, clz.h 29-134.
`__builtin_clz(0)` is undefined; `_BitScanReverse` at 0 leaves its result undefined. -/
def calcClz (impl : Impl) (debug : Bool) (v : BitVec w) : Outcome Nat := do
  cassert debug (decide (v > 0#w))
  match impl with
  | .builtin => if v = 0#w then .ub else pure (w - 1 - highestBit v.toNat w)
  | .bitScan => if v = 0#w then .ub else pure (w - highestBit v.toNat w - 1)
  | .crafted => craftedClz debug v

/-- `details::calc_ctz<supported_t>` on a supported type of `w` bits, ctz.h 28-131. -/
def calcCtz (impl : Impl) (debug : Bool) (v : BitVec w) : Outcome Nat := do
  cassert debug (decide (v > 0#w))
  match impl with
  | .builtin => if v = 0#w then .ub else pure (lowestBit v.toNat 0 w)
  | .bitScan => if v = 0#w then .ub else pure (lowestBit v.toNat 0 w)
  | .crafted => craftedCtz debug v

/-- A type for which the platform has an intrinsic: its spelling and its `sizeof`. -/
structure Supported where
  name : String
  size : Nat
  deriving DecidableEq

/-- `supported_clz_types` (= `supported_ctz_types`), GCC/Clang on LP64: clz.h 113-114. -/
def gccLP64 : List Supported :=
  [⟨"unsigned int", 4⟩, ⟨"unsigned long", 8⟩, ⟨"unsigned long long", 8⟩]
/-- The same list on a 32-bit GCC/Clang target. -/
def gccILP32 : List Supported :=
  [⟨"unsigned int", 4⟩, ⟨"unsigned long", 4⟩, ⟨"unsigned long long", 8⟩]
/-- MSVC, 64-bit target: clz.h 75. -/
def msvc64 : List Supported := [⟨"unsigned long", 4⟩, ⟨"unsigned __int64", 8⟩]
/-- MSVC, 32-bit target: clz.h 88. -/
def msvc32 : List Supported := [⟨"unsigned long", 4⟩]

/-- `is_equal_sizes<U, T>`, common.h 84-87, through `value_list<sizeof(U), sizeof(T)>::is_same`
(both values have type `std::size_t`, written `()`). -/
def isEqualSizes (sizes : List Nat) : Bool :=
  VL.isSame (sizes.map fun (s : Nat) => (⟨(), (s : Int)⟩ : VL.TVal Unit))

/-- `details::less_eq_pred<T, IntT>`, details/cxz.h 8-11: `sizeof(IntT) <= sizeof(T)`. -/
def lessEqPred (sizeT sizeIntT : Nat) : Bool := decide (sizeIntT ≤ sizeT)

/-- The type dispatch of `clz` and `ctz`, clz.h 141-172, ctz.h 138-164: the `sizeof` of the type whose
intrinsic is called, `none` if no branch compiles.  `size` is `sizeof(T)`. -/
def dispatch (supported : List Supported) (size : Nat) : Option Nat := do
  let sorted ← TL.sortAscending Supported.size supported
  let equal ← TL.listOfPredicateCompliant (fun u => isEqualSizes [u.size, size]) sorted
  if equal.length ≠ 0 then
    let u ← TL.atImpl 0 equal
    pure u.size
  else
    let i := TL.indexOf (fun u => lessEqPred u.size size) sorted
    if i < sorted.length then
      let u ← TL.atImpl i sorted
      pure u.size
    else none

/-- `clz`, clz.h 138-175, for a value of an unsigned type of `size` bytes.
The result of the intrinsic minus the difference in bits (0 when the sizes agree), as an integer. -/
def clz (impl : Impl) (supported : List Supported) (debug : Bool) (size : Nat)
    (v : BitVec (8 * size)) : Option (Outcome Int) := do
  let s ← dispatch supported size
  pure do
    let c ← calcClz impl debug (v.zeroExtend (8 * s))
    pure ((c : Int) - ((s - size) * 8 : Nat))

/-- `ctz`, ctz.h 135-166. -/
def ctz (impl : Impl) (supported : List Supported) (debug : Bool) (size : Nat)
    (v : BitVec (8 * size)) : Option (Outcome Nat) := do
  let s ← dispatch supported size
  pure (calcCtz impl debug (v.zeroExtend (8 * s)))

/-- `utils::ctz(std::uintptr_t)` on GCC/Clang LP64, as used by memory.h and simple_resource.h. -/
def ctz64 (debug : Bool) (v : BitVec 64) : Outcome Nat := calcCtz .builtin debug v

/-- `memory::get_alignment`, memory/memory.h 113-119. -/
def getAlignment (debug : Bool) (p : BitVec 64) : Outcome (BitVec 64) := do
  cassert debug (p != 0#64)
  let power ← ctz64 debug p
  -- `std::size_t{1} << power`
  if power < 64 then pure (1#64 <<< power) else .ub

end Utils.Bits
