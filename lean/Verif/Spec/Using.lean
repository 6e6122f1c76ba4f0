import Verif.Model.Using
import Verif.Spec.TimerOverload

/-! # Using-declarations, for C137 -/

namespace Utils.Spec

open Utils.Traits

variable {τ : Type}

/-- They differ at most in the result and in `noexcept`. -/
def SameSignature (f g : Fn τ) : Prop :=
  f.params = g.params ∧ f.ellipsis = g.ellipsis ∧
  { f.q with isNoexcept := false } = { g.q with isNoexcept := false }

/-- `x` is a function of `c`, or brought in by a using-declaration and not hidden by one of `c`. -/
inductive Offers (c : UsingClass τ) : Candidate τ → Prop
  | own {pub st f} (h : (pub, st, f) ∈ c.own) : Offers c ⟨pub, st, f, none⟩
  | used {u st f} (h : u ∈ c.usings) (hf : (st, f) ∈ u.fns)
      (hidden : ∀ pub st' g, (pub, st', g) ∈ c.own → ¬ SameSignature g f) :
      Offers c ⟨u.isPublic, st, f, some u.base⟩

/-- No two functions of `c` have the same signature, and no two that are brought in. -/
structure Distinct (c : UsingClass τ) : Prop where
  own : c.own.Pairwise fun x y => ¬ SameSignature x.2.2 y.2.2
  used : (c.usings.flatMap (·.fns)).Pairwise fun x y => ¬ SameSignature x.2 y.2

/-- The function can be called on the object with these arguments. -/
def Viable (o : Object) (args : List τ) (x : Candidate τ) : Prop :=
  x.fn.params = args ∧ (x.isStatic = true ∨ UsableOn x.fn.q o)

/-- The function that the language selects for the call: the object goes better to it than to all others. -/
def Selected (c : UsingClass τ) (o : Object) (args : List τ) (x : Candidate τ) : Prop :=
  Offers c x ∧ Viable o args x ∧
  ∀ y, Offers c y → Viable o args y → y ≠ x →
    x.isStatic = false ∧ y.isStatic = false ∧ NearerObject x.fn.q y.fn.q

end Utils.Spec
