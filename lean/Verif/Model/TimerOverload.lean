import Verif.Model.TimerCtor

/-!
# Callables of `timer` with several call operators

/repo/sources/include/utils/timer.h 17-48 and 88-113, as in `Model/TimerCtor.lean`, for an object whose class has
any number of call operators, each with one parameter.  Which of them is meant is decided twice, by
`std::is_invocable_r_v<void, FinishCallback, duration>` (30 and 102) and by the call in line 41.  The rules are
[over.match.best] and [over.ics.rank] of C++17.  Not modelled: default arguments, conversions of the class to
pointers to functions, templates other than `const T &`, and call operators from base classes.
-/

namespace Utils.TimerCtor

open Utils.Traits

/-- A call operator: its qualifiers and its parameter.  `Param.anything` is a template, the others are not. -/
structure CallOp where
  q : Quals
  param : Param
  deriving DecidableEq

/-- What a call operator is given: the `duration` of timer.h 30 and 102, or the `const timer` of line 41. -/
inductive Given
  | duration
  | constTimer
  deriving DecidableEq

/-- Is the operator a candidate for the argument?  For a parameter `timer`, copying counts although it is
deleted (timer.h 116). -/
def Param.candidate : Given → Param → Bool
  | .duration, p => p.fromDuration
  | .constTimer, p => p.fromConstTimer || p = .timer

/-- Is the first the better conversion of the argument?  A `duration` is better taken as it is than as a
temporary `timer`, and the temporary better by `&&` than by `const &`; between these and `timer` by value there
is no order.  A `const timer` is converted by none. -/
def closer : Given → Param → Param → Bool
  | .duration, .duration, .constTimer | .duration, .duration, .timer | .duration, .duration, .timerRRef
  | .duration, .anything, .constTimer | .duration, .anything, .timer | .duration, .anything, .timerRRef
  | .duration, .timerRRef, .constTimer => true
  | _, _, _ => false

/-- [over.match.best] for the object and the argument: no conversion is worse, and one is better or only the
other operator is a template. -/
def betterOp (given : Given) (f g : CallOp) : Bool :=
  !betterObject g.q f.q && !closer given g.param f.param &&
    (betterObject f.q g.q || closer given f.param g.param || (f.param != .anything && g.param = .anything))

/-- The operator that the language selects: the candidate that is better than all others. -/
def resolve (ops : List CallOp) (given : Given) (o : Object) : Option CallOp :=
  let viable := ops.filter fun f => accepts f.q o && f.param.candidate given
  match viable.filter fun f => viable.all fun g => g = f || betterOp given f g with
  | [f] => some f
  | _ => none

/-- A class with call operators: they, the layout of the class, and whether it can be constructed from an
expression of its type. -/
structure Overloaded where
  ops : List CallOp
  size : Nat
  align : Nat
  constructible : Object → Bool

/-- The call operator that runs when the timer ends, timer.h 37-48: that of the stored object, as an lvalue that
is not const, for a `const timer &`.  `timer` by value may be selected, but is deleted. -/
def runs (ops : List CallOp) : Option CallOp :=
  (resolve ops .constTimer { lvalue := true }).filter fun f => f.param.fromConstTimer

/-- Does `timer(a)` compile for an expression of the class?  timer.h 88-113: the `enable_if` of line 30 (the same
condition as line 102), the call of line 41, the layout (100-101) and the `new` (110). -/
def acceptedOverloaded (maxAlign maxSize : Nat) (c : Overloaded) (o : Object) : Bool :=
  (resolve c.ops .duration o).isSome && (runs c.ops).isSome &&
    decide (c.align ≤ maxAlign) && decide (c.size ≤ maxSize) && c.constructible o

end Utils.TimerCtor
