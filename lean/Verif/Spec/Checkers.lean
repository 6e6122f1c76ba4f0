import Verif.Model.Checkers

/-! # Specification for C98: how the checkers are named -/

namespace Utils.Spec

open Utils.Traits

/-- The qualifiers spelled as an ending of a name: first `const`, then `volatile`, the reference and
`noexcept`. -/
def ending (q : Quals) : String :=
  (if q.isConst then "_const" else "") ++ (if q.isVolatile then "_volatile" else "") ++
  (match q.ref with | .none => "" | .lvalue => "_ref" | .rvalue => "_rref") ++
  (if q.isNoexcept then "_noexcept" else "")

/-- The checker for methods named `method` with the qualifiers `q`. -/
def checkerName (method : String) (q : Quals) : String := "has_invocable_r_" ++ method ++ ending q ++ "_v"

/-- The checker for static methods named `method`, `noexcept` or not. -/
def staticCheckerName (method : String) (isNoexcept : Bool) : String :=
  "has_static_invocable_r_" ++ method ++ (if isNoexcept then "_noexcept" else "") ++ "_v"

end Utils.Spec
