import Verif.Spec.Wrap

/-! # Property C103: a `fast_pimpl` can be initialised and assigned like the `T` inside -/

namespace Utils.Props

open Utils.Wrap Utils.Spec

/-- C103 for arguments that are objects, of type `T`, of a class derived from `T` or of type `fast_pimpl`,
whatever their value category and whatever `T` can do: it compiles iff it does for a `T`, and the `T` is
copied or moved in the same cases. -/
theorem C103_objects (T : Wrapped) (f : Form) (a : Arg) (h : a.isObject = true) :
    pimplDoes T f a = plainDoes T f a := by
  obtain ⟨t1, t2, t3, t4, t5, t6⟩ := T
  cases a with
  | value c r => cases f <;> cases t1 <;> cases c <;> cases r <;> rfl
  | derived c r => cases f <;> cases t1 <;> cases c <;> cases r <;> rfl
  | pimpl c r => cases f <;> cases t1 <;> cases t4 <;> cases t6 <;> cases c <;> cases r <;> rfl
  | converts b => cases h
  | braces => cases h

/-- A class with all operations. -/
def fullClass : Wrapped := ⟨true, true, true, true, true, true⟩

example : pimplDoes fullClass .assign (.value true true) = some .copy ∧
    pimplDoes fullClass .direct (.pimpl false true) = some .move ∧
    pimplDoes ⟨true, true, false, true, false, true⟩ .copyInit (.value false false) = none := by decide

/-- C103, exactly: what compiles for a `T` compiles for a `fast_pimpl` except `fast_pimpl p = e` and, if
`T` cannot be moved, `fast_pimpl p(e)`, when `e` needs a user-defined conversion, and `p({})` and `p = {}`
when `T` is a class. -/
theorem C103_iff (T : Wrapped) (f : Form) (a : Arg) :
    (pimplDoes T f a).isSome ↔ (plainDoes T f a).isSome ∧
      ¬ (a = .converts true ∧ (f = .copyInit ∨ (f = .direct ∧ T.isClass = true ∧ T.moveCtor = false))) ∧
      ¬ (a = .braces ∧ T.isClass = true ∧ f ≠ .copyInit) := by
  obtain ⟨t1, t2, t3, t4, t5, t6⟩ := T
  cases f <;> cases a <;> (try rename_i c r; cases c <;> cases r) <;> (try rename_i c; cases c) <;>
    cases t1 <;> cases t2 <;> cases t3 <;> cases t4 <;> cases t5 <;> cases t6 <;> decide

/-- C103 without those cases. -/
theorem C103_transparent_partial (T : Wrapped) (f : Form) (a : Arg)
    (h1 : a = .converts true → f = .assign ∨ (f = .direct ∧ (T.isClass = true → T.moveCtor = true)))
    (h2 : a = .braces → T.isClass = true → f = .copyInit) :
    (pimplDoes T f a).isSome = (plainDoes T f a).isSome := by
  rw [Bool.eq_iff_iff, C103_iff]
  refine ⟨fun h => h.1, fun h => ⟨h, ?_, fun ⟨e, hc, hf⟩ => hf (h2 e hc)⟩⟩
  rintro ⟨e, h⟩
  rcases h1 e with rfl | ⟨rfl, h'⟩
  · rcases h with h | h
    · cases h
    · cases h.1
  · rcases h with h | h
    · cases h
    · rw [h' h.2.1] at h; cases h.2.2

/-- `fast_pimpl<std::string> p("x")`, `p = "x"` and `fast_pimpl<std::string> p = {}` meet the conditions. -/
example : (pimplDoes fullClass .direct (.converts true)).isSome ∧
    (pimplDoes fullClass .assign (.converts true)).isSome ∧
    (pimplDoes fullClass .copyInit .braces).isSome := by decide

/-- C103 fails for a class like `std::string`: `fast_pimpl<std::string> p = "x"` and `p = {}` do not
compile, although they do for a `std::string`. -/
theorem C103_counterexample :
    pimplDoes fullClass .copyInit (.converts true) = none ∧
      (plainDoes fullClass .copyInit (.converts true)).isSome ∧
      pimplDoes fullClass .assign .braces = none ∧
      (plainDoes fullClass .assign .braces).isSome := by decide

/-- What needs a user-defined conversion goes through a temporary `T`: one more move than a `T` needs that
is made from it.  What needs a standard conversion also does. -/
theorem C103_temporary (T : Wrapped) :
    pimplDoes T .direct (.converts true) = (if T.isClass = true ∧ T.moveCtor = false then none else some .viaTemporary) ∧
      plainDoes T .direct (.converts true) = some .construct ∧
      ∀ f, pimplDoes T f (.converts false) = if T.isClass then none else some .viaTemporary := by
  obtain ⟨t1, t2, t3, t4, t5, t6⟩ := T
  refine ⟨?_, ?_, fun f => by cases t1 <;> cases f <;> rfl⟩
  · cases t1 <;> cases t4 <;> rfl
  · cases t1 <;> rfl

example : pimplDoes fullClass .direct (.converts true) = some .viaTemporary := by decide

end Utils.Props
