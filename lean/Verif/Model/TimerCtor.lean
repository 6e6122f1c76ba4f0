import Verif.Model.FunctionTraits

/-!
# Which callables the constructor of `timer` takes

/repo/sources/include/utils/timer.h 17-48, 88-113 and 166-167.  Only whether `timer(f)` compiles is modelled
here; what the timer does with the callable is in `Model/Objects.lean`.  A class has one call operator
with one parameter (overload sets are in `Model/TimerOverload.lean`); default arguments are not modelled, nor are bodies of generic
callables that do not compile for one of the two argument types.  A pointer has 8 bytes and alignment 8.
-/

namespace Utils.TimerCtor

open Utils.Traits

/-- How a callable takes its argument. -/
inductive Param
  /-- `duration`, by value or constant reference -/
  | duration
  /-- `const timer &` -/
  | constTimer
  /-- `timer &` -/
  | timerRef
  /-- `timer` -/
  | timer
  /-- `timer &&` -/
  | timerRRef
  /-- `const T &` for any `T` -/
  | anything
  /-- a type that neither converts to -/
  | other
  deriving DecidableEq

/-- Can the parameter be initialised from a `duration`?  The constructor of `timer`, timer.h 88-92, is
not `explicit` and its `enable_if` excludes only `timer` itself, so a `duration` converts to a
temporary `timer`. -/
def Param.fromDuration : Param → Bool
  | .duration | .constTimer | .timer | .timerRRef | .anything => true
  | .timerRef | .other => false

/-- Can it be initialised from a `const timer` lvalue?  Copying is deleted, timer.h 116, and there is
no conversion to `duration`. -/
def Param.fromConstTimer : Param → Bool
  | .constTimer | .anything => true
  | .duration | .timerRef | .timer | .timerRRef | .other => false

/-- A function type of one parameter. -/
structure FnTy where
  param : Param
  returnsVoid : Bool
  isNoexcept : Bool
  deriving DecidableEq

/-- A class with a call operator: its qualifiers and parameter, the layout of the class, and whether
it can be constructed from an expression of its type. -/
structure Functor where
  q : Quals
  param : Param
  size : Nat
  align : Nat
  constructible : Object → Bool

/-- The argument of the constructor: a function by name, a pointer to a function, an expression of
class type, or a pointer to a member of `duration` (`true`) or of another class (`false`). -/
inductive Arg
  | function (f : FnTy)
  | pointer (f : FnTy)
  | object (c : Functor) (o : Object)
  | member (ofDuration : Bool)

/-- `std::is_invocable_r_v<void, Callable, duration>`, timer.h 30 and 102.  `std::invoke` also applies
pointers to members, so one to a member of `duration` without parameters passes. -/
def checked : Arg → Bool
  | .function f | .pointer f => f.param.fromDuration
  | .object c o => accepts c.q o && c.param.fromDuration
  | .member ofDuration => ofDuration

/-- The type that is stored. -/
inductive Stored
  | function
  | pointer (f : FnTy)
  | object (c : Functor)
  | member

/-- `std::is_same_v<Callable, callback_ref_t>`, timer.h 20 and 28: `void (&)(const timer &) noexcept`. -/
def isCallbackRef : Arg → Bool
  | .function f => decide (f = ⟨.constTimer, true, true⟩)
  | _ => false

/-- `std::remove_cv_t<std::remove_reference_t<Callable>>`, timer.h 31: functions stay functions. -/
def removeCvref : Arg → Stored
  | .function _ => .function
  | .pointer f => .pointer f
  | .object c _ => .object c
  | .member _ => .member

/-- `storable_t`, timer.h 24-35.  Both arguments of `std::conditional_t` are formed, so the
`std::enable_if_t` of the second also applies to a `callback_ref_t`. -/
def storable (a : Arg) : Option Stored :=
  if checked a then
    some (if isCallbackRef a then .pointer ⟨.constTimer, true, true⟩ else removeCvref a)
  else none

/-- `sizeof` and `alignof`, timer.h 100-101.  There are none of a function type.  (Compilers that have
them as an extension still reject the `new` of a function type in line 110.)  A pointer to a member
function has 16 bytes, one to a data member 8; the smaller is used. -/
def layout : Stored → Option (Nat × Nat)
  | .function => none
  | .pointer _ => some (8, 8)
  | .object c => some (c.size, c.align)
  | .member => some (8, 8)

/-- The call in `call_finish_callback`, timer.h 37-48: the stored object, as an lvalue that is not
const, with a `const timer &`.  Line 41 is a plain call, which pointers to members do not have. -/
def finishes : Stored → Bool
  | .function => true
  | .pointer f => f.param.fromConstTimer
  | .object c => accepts c.q { lvalue := true } && c.param.fromConstTimer
  | .member => false

/-- `new (...) stored_callback_t(...)`, timer.h 103-112. -/
def placed : Arg → Stored → Bool
  | .object c o, .object _ => c.constructible o
  | _, _ => true

/-- Does `timer(a)` compile?  timer.h 88-113, with the `static_assert`s of 100-102; `maxAlign` and `maxSize` are the
template parameters, both 8 for `utils::timer`, 166-167. -/
def accepted (maxAlign maxSize : Nat) (a : Arg) : Bool :=
  match storable a with
  | none => false
  | some t =>
    match layout t with
    | none => false
    | some (size, align) =>
      finishes t && decide (align ≤ maxAlign) && decide (size ≤ maxSize) && checked a && placed a t

end Utils.TimerCtor
