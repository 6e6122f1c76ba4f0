import Verif.Model.CInt

/-!
# `div_t{a, b}`

Class template argument deduction for the aggregate `div_t`, common.h 571-586, and the initialisation
that follows.  Arguments of types that are not integral are not modelled (both guides then fail and
nothing compiles).
-/

namespace Utils

/-- An argument: its type without references and qualifiers, its value, and whether it is a constant
expression. -/
structure DivArg where
  ty : CTy
  val : Int
  const : Bool
  deriving DecidableEq, Repr

/-- The type that is deduced.  The guide with two parameters of one type, common.h 579-580, applies if
the types agree, and then it is more specialised than the other; the other, 582-585, gives
`std::common_type_t`. -/
def divTDeduce (a b : CTy) : CTy := if a = b then a else CTy.common a b

/-- Initialisation of a member of type `t` inside braces: narrowing is an error ([dcl.init.list]), that
is, a type that cannot hold all values of the type of the argument, unless the argument is a constant
expression and its value fits. -/
def braceInit (t : CTy) (a : DivArg) : Option Int :=
  if (t.minVal ≤ a.ty.minVal ∧ a.ty.maxVal ≤ t.maxVal) ∨ (a.const = true ∧ t.InRange a.val) then
    some (t.conv a.val)
  else none

/-- `div_t{a, b}`, common.h 571-586: type of the members, `quot`, `rem`; `none` if it does not
compile. -/
def divT (a b : DivArg) : Option (CTy × Int × Int) := do
  let t := divTDeduce a.ty b.ty
  let q ← braceInit t a
  let r ← braceInit t b
  pure (t, q, r)

end Utils
