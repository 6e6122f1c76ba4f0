import Verif.Spec.TimerCtor
import Verif.Model.TimerOverload

/-! # Specification for C133: callables with several call operators -/

namespace Utils.Spec

open Utils.Traits Utils.TimerCtor

/-- `q` has some of the `const` and `volatile` of `q'` and not all. -/
def FewerCv (q q' : Quals) : Prop :=
  (q.isConst = true → q'.isConst = true) ∧ (q.isVolatile = true → q'.isVolatile = true) ∧
    ¬ (q.isConst = q'.isConst ∧ q.isVolatile = q'.isVolatile)

/-- The operator that the language calls on a stored object, which is an lvalue without `const`, for the timer:
it takes a timer, is not for rvalues, and every other operator that takes a timer, even by value, and is not for
rvalues has more `const` or `volatile`, or not less and is a template while this one is none. -/
def Runs (ops : List CallOp) (f : CallOp) : Prop :=
  (f ∈ ops ∧ TakesTimer f.param ∧ f.q.ref ≠ .rvalue) ∧
  ∀ g ∈ ops, TakesTimer g.param ∨ g.param = .timer → g.q.ref ≠ .rvalue → g ≠ f →
    FewerCv f.q g.q ∨ (¬ FewerCv g.q f.q ∧ f.param ≠ .anything ∧ g.param = .anything)

/-- The operator can be called on the object. -/
def UsableOn (q : Quals) (o : Object) : Prop :=
  (o.isConst = true → q.isConst = true) ∧ (o.isVolatile = true → q.isVolatile = true) ∧
  (o.lvalue = true → q.ref ≠ .rvalue) ∧
  (o.lvalue = false → q.ref = .lvalue → q.isConst = true ∧ q.isVolatile = false)

/-- The object goes better to a method qualified `q` than to one qualified `q'`. -/
def NearerObject (q q' : Quals) : Prop :=
  (q.ref = .rvalue ∧ q'.ref = .lvalue) ∨ (¬ (q.ref = .lvalue ∧ q'.ref = .rvalue) ∧ FewerCv q q')

/-- The parameter takes a `duration` as it is. -/
def Direct (p : Param) : Prop := p = .duration ∨ p = .anything

/-- A `duration` goes better to `p` than to `p'`. -/
def NearerDuration (p p' : Param) : Prop :=
  (Direct p ∧ (p' = .constTimer ∨ p' = .timer ∨ p' = .timerRRef)) ∨ (p = .timerRRef ∧ p' = .constTimer)

/-- The operator that the language calls on the object for a `duration`. -/
def Probed (ops : List CallOp) (o : Object) (f : CallOp) : Prop :=
  (f ∈ ops ∧ UsableOn f.q o ∧ f.param ≠ .timerRef ∧ f.param ≠ .other) ∧
  ∀ g ∈ ops, UsableOn g.q o → g.param ≠ .timerRef → g.param ≠ .other → g ≠ f →
    ¬ NearerObject g.q f.q ∧ ¬ NearerDuration g.param f.param ∧
    (NearerObject f.q g.q ∨ NearerDuration f.param g.param ∨ (f.param ≠ .anything ∧ g.param = .anything))

/-- A copy of the object can be made and fits into the timer. -/
def Fits (maxAlign maxSize : Nat) (c : Overloaded) (o : Object) : Prop :=
  c.align ≤ maxAlign ∧ c.size ≤ maxSize ∧ c.constructible o = true

end Utils.Spec
