import Verif.Model.TimerCtor

/-! # Specification for C97: what a timer can store and call -/

namespace Utils.Spec

open Utils.Traits Utils.TimerCtor

/-- Parameters a running timer, which is passed as `const timer &`, can be given to. -/
def TakesTimer (p : Param) : Prop := p = .constTimer ∨ p = .anything

/-- A copy of the callable (for a function, a pointer to it) can be made from the argument, fits into
the timer, and can be called with the timer. -/
def Suits (maxAlign maxSize : Nat) : Arg → Prop
  | .function f | .pointer f => TakesTimer f.param ∧ 8 ≤ maxAlign ∧ 8 ≤ maxSize
  | .object c o => TakesTimer c.param ∧ c.q.ref ≠ .rvalue ∧
      c.constructible o = true ∧ c.align ≤ maxAlign ∧ c.size ≤ maxSize
  | .member _ => False

/-- What the constructor asks for beyond that: a function given by name has exactly the type
`void (const timer &) noexcept`; an object can be called in the form in which it is passed, although
that form is never called. -/
def Peculiar : Arg → Prop
  | .function f => f.param = .constTimer ∧ f.returnsVoid = true ∧ f.isNoexcept = true
  | .pointer _ => True
  | .object c o => (o.isConst = true → c.q.isConst = true) ∧
      (o.isVolatile = true → c.q.isVolatile = true) ∧
      (o.lvalue = false → c.q.ref = .lvalue → c.q.isConst = true ∧ c.q.isVolatile = false)
  | .member _ => True

/-- The parameter of a callable. -/
def paramOf : Arg → Option Param
  | .function f | .pointer f => some f.param
  | .object c _ => some c.param
  | .member _ => none

end Utils.Spec
