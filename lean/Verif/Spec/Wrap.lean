import Verif.Model.Wrap

/-! # Specification for C103: the same initialisation or assignment of a plain `T` -/

namespace Utils.Spec

open Utils.Wrap

/-- Whether a `T` can be made (`assign` false) or assigned from another one: what is no class can, and a
class if it has the constructor or assignment. -/
def able (T : Wrapped) (assign move : Bool) : Bool :=
  !T.isClass ||
    (if assign then (if move then T.moveAssign else T.copyAssign)
    else if move then T.moveCtor else T.copyCtor)

/-- Moving is for rvalues that are not constant. -/
def transfers (T : Wrapped) (f : Form) (isConst isRvalue : Bool) : Option Effect :=
  if able T (f == .assign) (isRvalue && !isConst) then some (if isRvalue && !isConst then .move else .copy) else none

/-- What `T t(e)`, `T t = e` and `t = e` do, where an argument of type `fast_pimpl` stands for the `T`
inside. -/
def plainDoes (T : Wrapped) (f : Form) : Arg → Option Effect
  | .value c r | .derived c r | .pimpl c r => transfers T f c r
  | .converts byUser =>
    if T.isClass && !byUser then none
    else if f = .assign then (if able T true true then some .viaTemporary else none)
    else some .construct
  | .braces =>
    if T.isClass && !T.default then none
    else if f = .copyInit ∨ !T.isClass then some .construct
    else if able T (f == .assign) true then some .viaTemporary else none

end Utils.Spec
