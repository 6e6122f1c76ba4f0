import Verif.Model.Arrays
import Verif.Model.Bits

/-!
# `make_array_from_range` with an explicit element type; `sum_size` of qualified types

/repo/sources/include/utils/common.h 281-312 and 559-569, 625-630.
-/

namespace Utils.Arrays

/-- An arithmetic type given for `CommonT`: an integer type or a floating one. -/
inductive Target
  | integer (u : CTy)
  | floating

/-- Is `CommonT{currentValue}` a narrowing conversion?  `currentValue` is a variable of type `t`, so it is
no constant expression: the conversion is narrowing to a floating type, and to an integer type that
cannot represent all values of `t`.  A braced narrowing conversion does not compile. -/
def narrows (t : CTy) : Target → Bool
  | .integer u => !(decide (u.minVal ≤ t.minVal) && decide (t.maxVal ≤ u.maxVal))
  | .floating => true

/-- The loop that fills the result, common.h 306-310, with `v = CommonT{currentValue}`. -/
def fillRangeAs (u : CTy) : (n : Nat) → (x step : CVal) → Outcome (List CVal)
  | 0, _, _ => .ok []
  | n + 1, x, step => do
    let y ← addAssign x step
    let l ← fillRangeAs u n y step
    pure (x.cast u :: l)

/-- `make_array_from_range<Begin, End, Step, CommonT>()`, common.h 281-312; `none`: the body does not
compile.  `CommonT` is not used in `is_valid_range` (269-272) nor in `step_count` (291-302). -/
def makeArrayFromRangeAs (fuel : Nat) (c : Target) (t : CTy) (b e : Int) (step : CVal) :
    Option (Outcome (List CVal)) :=
  if narrows t c then none
  else
    match c with
    | .floating => none
    | .integer u => some do
      let lo : CVal := ⟨t, min b e⟩
      let hi : CVal := ⟨t, max b e⟩
      let valid ← isValidRange lo hi step
      if valid then do
        let n ← stepCount fuel lo hi step
        fillRangeAs u n ⟨t, b⟩ step
      else .assertFailed

end Utils.Arrays

namespace Utils.Bits

/-- An unqualified type: `bool`, another object type with its `sizeof`, or one without (`void`, functions,
incomplete types). -/
inductive Bare
  | bool
  | object (size : Nat)
  | unsized
  deriving DecidableEq

/-- A type as a template argument: qualifiers, and whether it is a reference to that. -/
structure QTy where
  bare : Bare
  isConst : Bool := false
  isVolatile : Bool := false
  isRef : Bool := false
  deriving DecidableEq

/-- `sizeof(T)`: of a reference, that of the type referred to. -/
def QTy.sizeof (t : QTy) : Option Nat :=
  match t.bare with
  | .bool => some 1
  | .object n => some n
  | .unsized => none

/-- `num_bits<T>()`, common.h 559-569: the explicit specialisation is for `bool` itself. -/
def numBitsOf (t : QTy) : Option Nat :=
  if t = { bare := .bool } then some 1 else t.sizeof.map (8 * ·)

/-- The fold `(num_bits<Ts>() + ...)`, common.h 628; over an empty pack it does not compile. -/
def foldBits : List QTy → Option Nat
  | [] => none
  | [t] => numBitsOf t
  | t :: ts => do
    let a ← numBitsOf t
    let b ← foldBits ts
    pure (a + b)

/-- `sum_size<Ts...>()`, common.h 625-630. -/
def sumSizeOf (ts : List QTy) : Option Nat :=
  (foldBits ts).map fun bits => bits / 8 + (if bits % 8 ≠ 0 then 1 else 0)

end Utils.Bits
