import Verif.Model.Outcome

/-!
# The C++17 integer types and their arithmetic on an LP64 platform

This is the language semantics the arithmetic helpers of /repo rely on (not a part of /repo):
integral promotion, the usual arithmetic conversions, wrap-around of unsigned types,
undefined behaviour on signed overflow and on bad shifts.
-/

namespace Utils

/-- The standard integer types (the extended and wide character types are left out). -/
inductive CTy where
  | bool | char | schar | uchar | short | ushort | int | uint | long | ulong | llong | ullong
  deriving DecidableEq, Repr

namespace CTy

/-- Number of value bits including the sign bit; `bool` has the single bit it can hold. -/
def width : CTy → Nat
  | bool => 1
  | char | schar | uchar => 8
  | short | ushort => 16
  | int | uint => 32
  | long | ulong | llong | ullong => 64

/-- `std::is_signed_v`; plain `char` is signed (x86-64 ABI). -/
def signed : CTy → Bool
  | char | schar | short | int | long | llong => true
  | bool | uchar | ushort | uint | ulong | ullong => false

/-- `sizeof`. -/
def sizeof : CTy → Nat
  | bool | char | schar | uchar => 1
  | short | ushort => 2
  | int | uint => 4
  | long | ulong | llong | ullong => 8

/-- `std::is_unsigned_v<T> && !std::is_same_v<T, bool>`. -/
def isUInt (t : CTy) : Bool := !t.signed && t != .bool

/-- Smallest value. -/
def minVal (t : CTy) : Int := if t.signed then -(2 ^ (t.width - 1) : Int) else 0

/-- Largest value. -/
def maxVal (t : CTy) : Int :=
  if t.signed then (2 ^ (t.width - 1) : Int) - 1 else (2 ^ t.width : Int) - 1

/-- `v` is a value of type `t`. -/
def InRange (t : CTy) (v : Int) : Prop := t.minVal ≤ v ∧ v ≤ t.maxVal

instance (t : CTy) (v : Int) : Decidable (t.InRange v) := by
  unfold InRange; infer_instance

/-- Value of a bit pattern read at type `t`. -/
def ofBits (t : CTy) {w : Nat} (b : BitVec w) : Int :=
  if t.signed then b.toInt else (b.toNat : Int)

/-- Integral conversion of the value `v` to type `t`: modulo `2^width`, and "non-zero" for `bool`.
Conversion to a signed type that cannot hold the value is implementation-defined in C++17;
all the compilers in question reduce modulo `2^width`. -/
def conv (t : CTy) (v : Int) : Int :=
  if t = .bool then (if v = 0 then 0 else 1)
  else t.ofBits (BitVec.ofInt t.width v)

/-- Integral promotion. -/
def promote : CTy → CTy
  | bool | char | schar | uchar | short | ushort => int
  | t => t

/-- Conversion rank after promotion. -/
def rank : CTy → Nat
  | int | uint => 0
  | long | ulong => 1
  | llong | ullong => 2
  | _ => 0

/-- The unsigned counterpart of a promoted type. -/
def toUnsigned : CTy → CTy
  | int => uint
  | long => ulong
  | llong => ullong
  | t => t

/-- The usual arithmetic conversions ([expr.arith.conv]). -/
def usual (a b : CTy) : CTy :=
  let a := a.promote
  let b := b.promote
  if a = b then a
  else if a.signed = b.signed then (if a.rank < b.rank then b else a)
  else
    let u := if a.signed then b else a
    let s := if a.signed then a else b
    if s.rank ≤ u.rank then u
    else if u.width < s.width then s
    else s.toUnsigned

/-- `std::common_type_t<A, B>`: the type itself when both agree, otherwise the usual conversions. -/
def common (a b : CTy) : CTy := if a = b then a else usual a b

end CTy

/-- A typed integer value. -/
structure CVal where
  ty : CTy
  val : Int
  deriving DecidableEq, Repr

namespace CVal

/-- `static_cast<t>(x)`. -/
def cast (t : CTy) (x : CVal) : CVal := ⟨t, t.conv x.val⟩

/-- The value in a condition. -/
def truthy (x : CVal) : Bool := x.val != 0

/-- Result of an arithmetic operator at (promoted) type `t` whose exact result is `v`:
wraps if unsigned, undefined if signed and unrepresentable. -/
def arith (t : CTy) (v : Int) : Outcome CVal :=
  if t.signed then (if t.InRange v then .ok ⟨t, v⟩ else .ub)
  else .ok ⟨t, t.conv v⟩

/-- `a + b`. -/
def add (a b : CVal) : Outcome CVal :=
  let t := CTy.usual a.ty b.ty
  arith t (t.conv a.val + t.conv b.val)

/-- `a - b`. -/
def sub (a b : CVal) : Outcome CVal :=
  let t := CTy.usual a.ty b.ty
  arith t (t.conv a.val - t.conv b.val)

/-- `-a`. -/
def neg (a : CVal) : Outcome CVal :=
  let t := a.ty.promote
  arith t (-(t.conv a.val))

/-- `a / b`: truncation toward zero; undefined for a zero divisor or an unrepresentable quotient. -/
def div (a b : CVal) : Outcome CVal :=
  let t := CTy.usual a.ty b.ty
  if t.conv b.val = 0 then .ub else arith t (Int.tdiv (t.conv a.val) (t.conv b.val))

/-- `a % b`: remainder with the sign of the dividend; undefined whenever `a / b` is. -/
def rem (a b : CVal) : Outcome CVal :=
  let t := CTy.usual a.ty b.ty
  if t.conv b.val = 0 then .ub
  else do
    let _ ← arith t (Int.tdiv (t.conv a.val) (t.conv b.val))
    arith t (Int.tmod (t.conv a.val) (t.conv b.val))

/-- `~a`. -/
def bnot (a : CVal) : CVal :=
  let t := a.ty.promote
  ⟨t, t.ofBits (~~~ (BitVec.ofInt t.width (t.conv a.val)))⟩

/-- `a & b`. -/
def band (a b : CVal) : CVal :=
  let t := CTy.usual a.ty b.ty
  ⟨t, t.ofBits (BitVec.ofInt t.width (t.conv a.val) &&& BitVec.ofInt t.width (t.conv b.val))⟩

/-- `a << n`, C++17 [expr.shift]/2: undefined if `n` is not below the width of the promoted type,
or if that type is signed and `a` is negative or `a * 2^n` does not fit the corresponding
unsigned type; a result that fits only the unsigned type is converted back. -/
def shl (a : CVal) (n : Nat) : Outcome CVal :=
  let t := a.ty.promote
  let v := t.conv a.val
  if t.width ≤ n then .ub
  else if t.signed then
    if v < 0 ∨ t.toUnsigned.maxVal < v * 2 ^ n then .ub else .ok ⟨t, t.conv (v * 2 ^ n)⟩
  else .ok ⟨t, t.conv (v * 2 ^ n)⟩

/-- `a >> n`, C++17 [expr.shift]/3: undefined if `n` is not below the width of the promoted type;
for negative values the (implementation-defined) arithmetic shift. -/
def shr (a : CVal) (n : Nat) : Outcome CVal :=
  let t := a.ty.promote
  let v := t.conv a.val
  if t.width ≤ n then .ub else .ok ⟨t, v / 2 ^ n⟩

end CVal
end Utils
