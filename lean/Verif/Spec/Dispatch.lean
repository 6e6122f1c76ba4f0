import Verif.Model.Dispatch

/-! # Specification for C101: whose functions an object has -/

namespace Utils.Spec

open Utils.Dispatch

/-- The object whose functions object `i` has, read off the history from its end: if the last step
assigned to `i`, it is what the right-hand side had before; the steps are given latest first. -/
def origin : List Op → Nat → Nat
  | [], i => i
  | .call _ :: past, i => origin past i
  | .assign a b :: past, i => if i = a then origin past b else origin past i

/-- `static_cast` of object `i` to the class that the constructor of object `k` uses is defined. -/
def Fitting (O : Objects) (i k : Nat) : Prop := O.isA (O.cls i) (O.impl (O.cls k)) = true

end Utils.Spec
