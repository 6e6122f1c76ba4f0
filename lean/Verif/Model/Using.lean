import Verif.Model.FunctionTraits

/-!
# Member checkers and using-declarations

A class `T` may declare functions `NAME` itself and bring in those of its base classes with
`using B::NAME;`.  What the method checkers of /repo/sources/include/utils/function_traits.h make of it: the
rules of the language they rely on, [namespace.udecl] and [conv.mem], are spelled out here.  Arguments are of
exactly the parameter types, as in `overloadedCall`; no templates.
-/

namespace Utils.Traits

variable {τ : Type}

/-- How `B` is a base class of `T`. -/
structure BaseOf where
  /-- everybody may convert a `T *` to `B *` -/
  isPublic : Bool := true
  /-- `T` has one subobject of class `B` -/
  once : Bool := true
  isVirtual : Bool := false
  deriving DecidableEq

/-- `using B::NAME;` in a class: its access, the base class, and the functions (static or not) of that name
in it. -/
structure UsingDecl (τ : Type) where
  isPublic : Bool
  base : BaseOf
  fns : List (Bool × Fn τ)

/-- What a class says about `NAME`: functions of its own (public or not, static or not) and
using-declarations. -/
structure UsingClass (τ : Type) where
  own : List (Bool × Bool × Fn τ)
  usings : List (UsingDecl τ)

/-- A function that `T::NAME` may mean; `base`: the class it is a member of, if not `T` itself. -/
structure Candidate (τ : Type) where
  isPublic : Bool
  isStatic : Bool
  fn : Fn τ
  base : Option BaseOf
  deriving DecidableEq

/-- The same parameters and qualifiers; results and `noexcept` do not matter. -/
def sameSignature [DecidableEq τ] (f g : Fn τ) : Bool :=
  decide (f.params = g.params ∧ f.ellipsis = g.ellipsis ∧ f.q.isConst = g.q.isConst ∧
    f.q.isVolatile = g.q.isVolatile ∧ f.q.ref = g.q.ref)

/-- The functions that `T::NAME` may mean: what a using-declaration brings in is hidden by a function of `T`
with the same signature, [namespace.udecl] 15. -/
def candidates [DecidableEq τ] (c : UsingClass τ) : List (Candidate τ) :=
  c.own.map (fun x => ⟨x.1, x.2.1, x.2.2, none⟩) ++
  c.usings.flatMap fun u =>
    (u.fns.filter fun x => !c.own.any fun y => sameSignature y.2.2 x.2).map
      fun x => ⟨u.isPublic, x.1, x.2, some u.base⟩

/-- Does `R (B::*)(Args...)` convert to `R (T::*)(Args...)`?  [conv.mem] 2. -/
def BaseOf.pointerConverts (b : BaseOf) : Bool := b.isPublic && b.once && !b.isVirtual

/-- `has_invocable_r_NAME...<R, T, Args...>`, function_traits.h 189-208: `&T::NAME` is chosen by the type of the
function, whatever class it is a member of ([over.over]), then checked for access, then converted. -/
def hasInvocableRUsing [DecidableEq τ] (c : UsingClass τ) (target : Fn τ) : Bool :=
  match (candidates c).filter fun x => !x.isStatic && pointerConvertible x.fn target with
  | [x] => x.isPublic && x.base.all (·.pointerConverts)
  | _ => false

/-- `has_static_invocable_r_NAME[_noexcept]<R, T, Args...>`, function_traits.h 258-262 and 275-286: the address of a
static function is a plain pointer. -/
def hasStaticInvocableRUsing [DecidableEq τ] (c : UsingClass τ) (target : Fn τ) : Bool :=
  match (candidates c).filter fun x => x.isStatic && pointerConvertible x.fn target with
  | [x] => x.isPublic
  | _ => false

/-- `std::declval<T>().NAME(std::declval<Args>()...)`, function_traits.h 215-222.  What using-declarations bring in
takes part as if it were a member of `T` ([namespace.udecl] 16); the function that is selected has to be
public in `T`, and the object has to have one subobject for it.  A static function is neither better nor worse
than another because of the object. -/
def callUsing [DecidableEq τ] (c : UsingClass τ) (o : Object) : Calls τ := fun args =>
  let viable := (candidates c).filter fun x => x.fn.params = args && (x.isStatic || accepts x.fn.q o)
  match viable.filter fun x => viable.all fun y =>
      y = x || (!x.isStatic && !y.isStatic && betterObject x.fn.q y.fn.q) with
  | [x] =>
    if x.isPublic && (x.isStatic || x.base.all (·.once)) then some (x.fn.ret, x.fn.q.isNoexcept) else none
  | _ => none

end Utils.Traits
