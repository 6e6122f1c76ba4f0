import Verif.Spec.TimerCtor

/-! # Property C97: the constructor of `timer` takes the callables it can store and call -/

namespace Utils.Props

open Utils.Traits Utils.TimerCtor Utils.Spec

/-- A class like a lambda that captures one pointer, with the given call operator. -/
def lambdaLike (q : Quals) (p : Param) : Functor := ⟨q, p, 8, 8, fun _ => true⟩

/-- The constructor compiles exactly for the callables that can be stored and called and that meet its
two further demands. -/
theorem C97_exact (maxAlign maxSize : Nat) (a : Arg) :
    accepted maxAlign maxSize a = true ↔ Suits maxAlign maxSize a ∧ Peculiar a := by
  cases a with
  | function f =>
    obtain ⟨p, v, n⟩ := f
    cases p <;> cases v <;> cases n <;>
      simp [accepted, storable, checked, isCallbackRef, removeCvref, layout, finishes, placed, Suits,
        Peculiar, TakesTimer, Param.fromDuration, Param.fromConstTimer]
  | pointer f =>
    obtain ⟨p, v, n⟩ := f
    cases p <;>
      simp [accepted, storable, checked, isCallbackRef, removeCvref, layout, finishes, placed, Suits,
        Peculiar, TakesTimer, Param.fromDuration, Param.fromConstTimer]
  | member b =>
    cases b <;>
      simp [accepted, storable, checked, isCallbackRef, removeCvref, layout, finishes, Suits]
  | object c o =>
    obtain ⟨⟨qc, qv, qr, qn⟩, p, size, align, con⟩ := c
    obtain ⟨oc, ov, ol⟩ := o
    cases p <;> cases qr <;> cases qc <;> cases qv <;> cases oc <;> cases ov <;> cases ol <;>
      simp [accepted, storable, checked, isCallbackRef, removeCvref, layout, finishes, placed, Suits,
        Peculiar, TakesTimer, Param.fromDuration, Param.fromConstTimer, accepts] <;>
      (constructor <;> rintro h <;> simp_all)

example : accepted 8 8 (.object (lambdaLike { isConst := true } .constTimer) {}) = true :=
  (C97_exact ..).2 ⟨⟨.inl rfl, by decide, rfl, by decide, by decide⟩,
    ⟨fun _ => rfl, by decide, by decide⟩⟩

/-- Whatever is accepted can be stored and called. -/
theorem C97_sound {maxAlign maxSize : Nat} {a : Arg} (h : accepted maxAlign maxSize a = true) :
    Suits maxAlign maxSize a :=
  ((C97_exact ..).1 h).1

example : Suits 8 8 (.function ⟨.constTimer, true, true⟩) := C97_sound (by decide)

/-- The converse, which is false in general, for pointers to functions, and for objects that are
passed without `const` and `volatile` and whose call operator has no reference qualifier or that are
passed as lvalues.  Missing: functions given by name that are not `noexcept` or return something,
constant objects with a call operator that is not, and rvalues whose call operator is qualified `&`;
`C97_exact` says which of them are accepted. -/
theorem C97_complete_partial {maxAlign maxSize : Nat} {a : Arg} (h : Suits maxAlign maxSize a)
    (hf : ∀ f, a ≠ .function f)
    (ho : ∀ c o, a = .object c o →
      o.isConst = false ∧ o.isVolatile = false ∧ (o.lvalue = true ∨ c.q.ref = .none)) :
    accepted maxAlign maxSize a = true := by
  refine (C97_exact ..).2 ⟨h, ?_⟩
  cases a with
  | function f => exact absurd rfl (hf f)
  | pointer f => trivial
  | member b => trivial
  | object c o =>
    obtain ⟨h1, h2, h3⟩ := ho c o rfl
    refine ⟨fun e => by simp [h1] at e, fun e => by simp [h2] at e, fun e e' => ?_⟩
    rcases h3 with h3 | h3
    · simp [h3] at e
    · simp [h3] at e'

example : accepted 8 16 (.object ⟨{ ref := .lvalue }, .anything, 16, 4, fun _ => true⟩
    { lvalue := true }) = true :=
  C97_complete_partial ⟨.inr rfl, by decide, rfl, by decide, by decide⟩ (by intro f h; cases h)
    (by intro c o h; cases h; exact ⟨rfl, rfl, .inl rfl⟩)

/-- Every callable is checked with a `duration`, but one that takes a `duration` and no timer is never
accepted, however large the timer is. -/
theorem C97_duration_only {maxAlign maxSize : Nat} {a : Arg} (h : paramOf a = some .duration) :
    accepted maxAlign maxSize a = false := by
  refine Bool.eq_false_iff.2 fun e => ?_
  have hs := C97_sound e
  cases a with
  | function f | pointer f =>
    have hp : f.param = .duration := Option.some.inj h
    rcases hs.1 with h1 | h1 <;> rw [hp] at h1 <;> cases h1
  | object c o =>
    have hp : c.param = .duration := Option.some.inj h
    rcases hs.1 with h1 | h1 <;> rw [hp] at h1 <;> cases h1
  | member b => cases h

example : checked (.object (lambdaLike { isConst := true } .duration) {}) = true ∧
    accepted 8 8 (.object (lambdaLike { isConst := true } .duration) {}) = false :=
  ⟨rfl, C97_duration_only rfl⟩

/-- The converse of `C97_sound` fails: a function that is not `noexcept` is accepted through a pointer
but not by name, a temporary whose call operator is qualified `&` is not accepted although the stored
copy is an lvalue, and neither is a constant object whose call operator is not `const` although the
stored copy is not constant. -/
theorem C97_counterexample :
    (Suits 8 8 (.function ⟨.constTimer, true, false⟩) ∧
      accepted 8 8 (.function ⟨.constTimer, true, false⟩) = false ∧
      accepted 8 8 (.pointer ⟨.constTimer, true, false⟩) = true) ∧
    (Suits 8 8 (.object (lambdaLike { ref := .lvalue } .constTimer) {}) ∧
      accepted 8 8 (.object (lambdaLike { ref := .lvalue } .constTimer) {}) = false) ∧
    (Suits 8 8 (.object (lambdaLike {} .constTimer) { isConst := true, lvalue := true }) ∧
      accepted 8 8 (.object (lambdaLike {} .constTimer) { isConst := true, lvalue := true })
        = false) :=
  ⟨⟨⟨.inl rfl, by decide, by decide⟩, by decide, by decide⟩,
    ⟨⟨.inl rfl, by decide, rfl, by decide, by decide⟩, by decide⟩,
    ⟨⟨.inl rfl, by decide, rfl, by decide, by decide⟩, by decide⟩⟩

end Utils.Props
