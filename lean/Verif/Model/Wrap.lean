/-!
# Which constructor or assignment of `fast_pimpl` is called

/repo/sources/include/utils/fast_pimpl.h 23-84.  Overload resolution for one argument, with the parts of
[over.ics.rank] that it needs: the rank of the conversion, `T &&` before `const T &` for rvalues, and
user-defined conversions that can be compared only if they use the same function.  `T` has the
constructors and assignments of a value type and is not made from a `fast_pimpl`; a default constructor of
`T` is not `explicit`.
-/

namespace Utils.Wrap

/-- What matters of `T`: is it a class, can a `T` be made without arguments, and
`std::is_copy_constructible_v<T>`, `std::is_move_constructible_v<T>`, `std::is_copy_assignable_v<T>`,
`std::is_move_assignable_v<T>`.  The five are taken to hold if `T` is no class. -/
structure Wrapped where
  isClass : Bool
  default : Bool
  copyCtor : Bool
  moveCtor : Bool
  copyAssign : Bool
  moveAssign : Bool

/-- An argument. -/
inductive Arg
  /-- of type `T` -/
  | value (isConst isRvalue : Bool)
  /-- of a class derived from `T` -/
  | derived (isConst isRvalue : Bool)
  /-- of type `fast_pimpl` -/
  | pimpl (isConst isRvalue : Bool)
  /-- of another type that converts to `T`, by a user-defined conversion or, if `T` is no class, by a
  standard conversion -/
  | converts (byUser : Bool)
  /-- `{}` -/
  | braces
  deriving DecidableEq

/-- The forms of initialisation and assignment: `fast_pimpl p(e)`, `fast_pimpl p = e` and `p = e`. -/
inductive Form
  | direct
  | copyInit
  | assign
  deriving DecidableEq

/-- The parameter types: `const T &` (41, 65), `T &&` (53, 79), `const fast_pimpl &` (35, 58),
`fast_pimpl &&` (47, 72) and `forwarding_constructor` (29, with no further arguments). -/
inductive Param
  | constT
  | rvalueT
  | constPimpl
  | rvaluePimpl
  | tag
  deriving DecidableEq

/-- The functions that make user-defined conversions. -/
inductive Via
  | conversionToT
  | makeT
  | makePimpl
  | makeTag
  deriving DecidableEq

/-- An implicit conversion sequence: an identity, another standard conversion, or a user-defined one; and
whether the parameter is an rvalue reference. -/
structure Seq where
  std : Bool
  via : Option Via
  rref : Bool
  deriving DecidableEq

/-- [over.ics.rank]: standard conversions before user-defined ones, an identity before another standard
conversion, then `&&` before `const &`; different user-defined conversions are not ordered. -/
def Seq.better (a b : Seq) : Bool :=
  match a.via, b.via with
  | none, some _ => true
  | some _, none => false
  | none, none => (!a.std && b.std) || (a.std == b.std && a.rref && !b.rref)
  | some f, some g => f == g && a.rref && !b.rref

/-- The conversion of an argument to a parameter; `none` if there is none.  `nested` is false where
user-defined conversions are not considered, [over.best.ics] 4. -/
def conv (T : Wrapped) (nested : Bool) : Arg → Param → Option Seq
  | .value _ _, .constT => some ⟨false, none, false⟩
  | .value c r, .rvalueT => if !c && r then some ⟨false, none, true⟩ else none
  | .value _ _, .constPimpl => if nested then some ⟨false, some .makePimpl, false⟩ else none
  | .value _ _, .rvaluePimpl => if nested then some ⟨false, some .makePimpl, true⟩ else none
  | .derived _ _, .constT => some ⟨true, none, false⟩
  | .derived c r, .rvalueT => if !c && r then some ⟨true, none, true⟩ else none
  | .derived _ _, .constPimpl => if nested then some ⟨false, some .makePimpl, false⟩ else none
  | .derived _ _, .rvaluePimpl => if nested then some ⟨false, some .makePimpl, true⟩ else none
  | .pimpl _ _, .constPimpl => some ⟨false, none, false⟩
  | .pimpl c r, .rvaluePimpl => if !c && r then some ⟨false, none, true⟩ else none
  | .converts true, .constT => if nested then some ⟨false, some .conversionToT, false⟩ else none
  | .converts true, .rvalueT => if nested then some ⟨false, some .conversionToT, true⟩ else none
  | .converts false, .constT => if T.isClass then none else some ⟨true, none, false⟩
  | .converts false, .rvalueT => if T.isClass then none else some ⟨true, none, true⟩
  | .converts false, .constPimpl =>
    if nested && !T.isClass then some ⟨false, some .makePimpl, false⟩ else none
  | .converts false, .rvaluePimpl =>
    if nested && !T.isClass then some ⟨false, some .makePimpl, true⟩ else none
  | .braces, .constT =>
    if !T.isClass then some ⟨false, none, false⟩
    else if T.default then some ⟨false, some .makeT, false⟩ else none
  | .braces, .rvalueT =>
    if !T.isClass then some ⟨false, none, true⟩
    else if T.default then some ⟨false, some .makeT, true⟩ else none
  | .braces, .constPimpl => some ⟨false, some .makePimpl, false⟩
  | .braces, .rvaluePimpl => some ⟨false, some .makePimpl, true⟩
  | .braces, .tag => some ⟨false, some .makeTag, false⟩
  | _, _ => none

/-- The functions that are considered: the constructors, 28-56, of which the one with the tag is
`explicit`, or the assignments, 58-84. -/
def candidates : Form → List Param
  | .direct => [.tag, .constPimpl, .constT, .rvaluePimpl, .rvalueT]
  | .copyInit => [.constPimpl, .constT, .rvaluePimpl, .rvalueT]
  | .assign => [.constPimpl, .constT, .rvaluePimpl, .rvalueT]

/-- The best viable function; `none` if there is none. -/
def pick (viable : List (Param × Seq)) : Option Param :=
  match viable.filter fun x => viable.all fun y => x.1 == y.1 || x.2.better y.2 with
  | [x] => some x.1
  | _ => none

/-- Overload resolution. -/
def resolve (T : Wrapped) (f : Form) (a : Arg) : Option Param :=
  pick ((candidates f).filterMap fun p => (conv T (f != .copyInit) a p).map fun s => (p, s))

/-- What happens to the `T`. -/
inductive Effect
  /-- it is made in place -/
  | construct
  /-- it is copied from the argument -/
  | copy
  /-- it is moved from the argument -/
  | move
  /-- it is moved from a temporary `T` made from the argument -/
  | viaTemporary
  deriving DecidableEq

/-- Does the expression in the body compile (`T(...)`, 37, 43, 49, 55, or `get() = ...`, 61, 68, 75, 82)? -/
def Wrapped.can (T : Wrapped) (f : Form) (move : Bool) : Bool :=
  !T.isClass ||
    match f, move with
    | .assign, false => T.copyAssign
    | .assign, true => T.moveAssign
    | _, false => T.copyCtor
    | _, true => T.moveCtor

/-- Can a `T` be made without arguments? -/
def Wrapped.canDefault (T : Wrapped) : Bool := !T.isClass || T.default

/-- Is there an object of the caller that is copied or moved, or a temporary? -/
def Arg.isObject : Arg → Bool
  | .value _ _ | .derived _ _ | .pimpl _ _ => true
  | .converts _ | .braces => false

/-- Initialisation or assignment of a `fast_pimpl`; `none` if it does not compile.  `fast_pimpl p = {}` is
the default constructor, 23-26, [dcl.init.list]; a `fast_pimpl` made from `{}` for a parameter needs it
too. -/
def pimplDoes (T : Wrapped) (f : Form) (a : Arg) : Option Effect :=
  if f = .copyInit ∧ a = .braces then if T.canDefault then some .construct else none
  else
    match resolve T f a with
    | some .constT => if T.can f false then some .copy else none
    | some .rvalueT =>
      if T.can f true then some (if a.isObject then .move else .viaTemporary) else none
    | some .constPimpl => if T.can f false then some .copy else none
    | some .rvaluePimpl =>
      if !T.can f true then none
      else if a.isObject then some .move
      else if T.canDefault then some .viaTemporary else none
    | some .tag => if T.canDefault then some .construct else none
    | none => none

end Utils.Wrap
