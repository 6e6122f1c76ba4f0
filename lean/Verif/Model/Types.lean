import Verif.Model.Arrays

/-!
# C++ types and the type traits of common.h

`CxxTy` has the types the traits of common.h tell apart.  Simplifications: one kind of class, of
floating-point type and of enumeration each, told apart by a number; function types and pointers to
members are left out (no trait here looks at them); a reference to a reference, which the language
collapses, is not formed.
-/

namespace Utils.Types

/-- A C++ type; `c` and `v` are the top-level `const` and `volatile`. -/
inductive CxxTy
  | int (c v : Bool) (t : CTy)
  /-- `std::byte` -/
  | byte (c v : Bool)
  | float (c v : Bool) (id : Nat)
  | enum (c v : Bool) (id : Nat)
  | cls (c v : Bool) (id : Nat)
  | ptr (c v : Bool) (to : CxxTy)
  /-- `T[n]` -/
  | array (t : CxxTy) (n : Nat)
  /-- `std::array<T, n>` -/
  | stdArray (c v : Bool) (t : CxxTy) (n : Nat)
  /-- `std::reference_wrapper<T>` -/
  | refWrapper (c v : Bool) (t : CxxTy)
  | lref (t : CxxTy)
  | rref (t : CxxTy)
  deriving DecidableEq, Repr

namespace CxxTy

/-! ## The standard's traits -/

/-- `std::remove_reference_t`. -/
def removeReference : CxxTy → CxxTy
  | lref t => t
  | rref t => t
  | t => t

/-- `std::remove_cv_t`; on an array the qualifiers of the elements are the array's. -/
def removeCv : CxxTy → CxxTy
  | int _ _ t => int false false t
  | byte _ _ => byte false false
  | float _ _ n => float false false n
  | enum _ _ n => enum false false n
  | cls _ _ n => cls false false n
  | ptr _ _ t => ptr false false t
  | array t n => array t.removeCv n
  | stdArray _ _ t n => stdArray false false t n
  | refWrapper _ _ t => refWrapper false false t
  | lref t => lref t
  | rref t => rref t

/-- `std::decay_t`. -/
def decay (t : CxxTy) : CxxTy :=
  match t.removeReference with
  | array e _ => ptr false false e
  | u => u.removeCv

/-- `std::is_unsigned`: of the integer types, whatever their qualifiers. -/
def isUnsigned : CxxTy → Bool
  | int _ _ t => !t.signed
  | _ => false

/-- `std::tuple_size_v`; the other tuple-like types are left out. -/
def tupleSize : CxxTy → Option Nat
  | stdArray _ _ _ n => some n
  | _ => none

/-- `typename T::value_type`; of the types here only `std::array` has it. -/
def valueType : CxxTy → Option CxxTy
  | stdArray _ _ t _ => some t
  | _ => none

/-! ## common.h -/

/-- `is_uint`, common.h 65-73. -/
def isUInt (t : CxxTy) : Bool := t.isUnsigned && !(t == int false false .bool)

/-- `is_uint_or_byte`, common.h 75-82. -/
def isUIntOrByte (t : CxxTy) : Bool := t.isUInt || t == byte false false

/-- `is_std_array`, common.h 100-108: the primary template and the specialisation for
`std::array<DataT, Size>`, which a qualified type does not match. -/
def isStdArrayStruct : CxxTy → Bool
  | stdArray false false _ _ => true
  | _ => false

/-- `is_std_array_v`, common.h 110-111. -/
def isStdArray (t : CxxTy) : Bool := isStdArrayStruct t.decay

/-- `remove_cvref_t`, common.h 113-120. -/
def removeCvref (t : CxxTy) : CxxTy := t.removeReference.removeCv

/-- `std_array_size_v`, common.h 122-124. -/
def stdArraySize (t : CxxTy) : Option Nat := t.decay.tupleSize

/-- `std_array_data_t`, common.h 126-127. -/
def stdArrayData (t : CxxTy) : Option CxxTy := t.decay.valueType

/-- `is_same_data_std_arrays`, common.h 129-132; naming a `value_type` that does not exist does not
compile, also behind `&&`. -/
def isSameDataStdArrays (a b : CxxTy) : Option Bool := do
  let x ← a.stdArrayData
  let y ← b.stdArrayData
  pure (a.isStdArray && b.isStdArray && x == y)

/-- `std_array_sizes_sum`, common.h 134-136: `(0 + ... + std_array_size_v<Arrays>)`. -/
def stdArraySizesSum (ts : List CxxTy) : Option Nat :=
  ts.foldl (fun s t => do
    let s ← s
    let n ← t.stdArraySize
    pure (s + n)) (some 0)

/-- Type of `details::concatenate_2_arrays`, common.h 140-149: `enable_if_t` first, then the type. -/
def concat2Type (a b : CxxTy) : Option CxxTy := do
  let same ← isSameDataStdArrays a b
  if same then
    let d ← a.stdArrayData
    let n ← stdArraySizesSum [a, b]
    pure (stdArray false false d n)
  else none

/-- Type of `details::concatenate_arrays`, common.h 151-169, `none` if the call or its body does not
compile.  The first overload gives a reference, of which only the type referred to matters; in the
second the declared type has to be that of the result of the recursive call (no two different
`std::array`s convert into each other). -/
def concatDetailsType (a : CxxTy) : List CxxTy → Option CxxTy
  | [] => if a.isStdArray then some a.removeCvref else none
  | b :: rest => do
    let d ← a.stdArrayData
    let n ← stdArraySizesSum (a :: b :: rest)
    let c ← concat2Type a b
    let r ← concatDetailsType c rest
    if r = stdArray false false d n then pure r else none

/-- Type of `concatenate_arrays`, common.h 211-219. -/
def concatType (a : CxxTy) (rest : List CxxTy) : Option CxxTy := do
  let d ← a.stdArrayData
  let n ← stdArraySizesSum (a :: rest)
  let r ← concatDetailsType a rest
  if r = stdArray false false d n then pure r else none

/-- `is_ref_wrapper_v`, common.h 735-746. -/
def isRefWrapper : CxxTy → Bool
  | refWrapper false false _ => true
  | _ => false

/-- `unwrap_reference_t`, common.h 748-761; `T&` for a reference `T` collapses. -/
def unwrapReference : CxxTy → CxxTy
  | refWrapper false false t => lref t
  | t => t

end CxxTy

/-! ## concatenate_arrays: copies and moves -/

open Utils.Arrays

/-- How an array is passed to `concatenate_arrays`. -/
inductive Cat
  /-- an lvalue, or a const object -/
  | copied
  /-- a non-const rvalue -/
  | moved
  deriving DecidableEq

/-- `std::get<i>(std::forward<A>(aArray))...` used to construct elements: the constructed elements and
what is left in the array.  common.h 147-148. -/
def takeAll {α : Type} (E : Elem α) (k : Cat) (a : List α) : List α × List α :=
  match k with
  | .copied => (a.map E.copy, a)
  | .moved => (a.map fun x => (E.move x).1, a.map fun x => (E.move x).2)

/-- `details::concatenate_arrays`, common.h 151-169, on distinct objects: the result and what is left
in every argument.  `concatenate_2_arrays` constructs a new array from the first two, which is passed
on as an rvalue; a single array is returned by reference and the caller's result is constructed
from it. -/
def concatObjects {α : Type} (E : Elem α) (k : Cat) (a : List α) :
    List (Cat × List α) → List α × List (List α)
  | [] =>
    let (x, a') := takeAll E k a
    (x, [a'])
  | (j, b) :: rest =>
    let (x, a') := takeAll E k a
    let (y, b') := takeAll E j b
    let (r, left) := concatObjects E .moved (x ++ y) rest
    (r, a' :: b' :: left.tail)

/-! ## make_array(args...) -/

/-- `std::common_type_t<T...>` of integer types: from the left, two at a time. -/
def commonAll : List CTy → Option CTy
  | [] => none
  | t :: ts => some (ts.foldl CTy.common t)

/-- Converting a value that is no constant expression from one integer type to another inside braces
is narrowing unless the target has all values of the source type ([dcl.init.list]). -/
def narrowing (source target : CTy) : Bool :=
  decide (source.minVal < target.minVal ∨ target.maxVal < source.maxVal)

/-- `make_array(aArgs...)` for integer arguments, common.h 221-226: the element type, whether the braces
contain a narrowing conversion (then the program is ill-formed; some compilers only warn), and the
converted elements. -/
def makeArrayOf (args : List CVal) : Option (CTy × Bool × List Int) := do
  let t ← commonAll (args.map CVal.ty)
  pure (t, args.any fun x => narrowing x.ty t, args.map fun x => t.conv x.val)

end Utils.Types
