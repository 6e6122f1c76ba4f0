import Verif.Spec.Ctors

/-! # Property C99: the constructors of the resources do what their arguments mean -/

namespace Utils.Props

open Utils.Ctors Utils.Spec

/-- C99, `simple_resource`, every list of arguments but `(array, 0)`: the call compiles iff the
arguments mean something, and the resource gets what they mean. -/
theorem C99_simple_partial (d : Nat) (args : List Arg) (h : ∀ addr n, args ≠ [.array addr n, .zero]) :
    made simpleCtors d args = intended d args := by
  match args with
  | [] => rfl
  | [a] => cases a <;> rfl
  | [a, b] => cases a <;> cases b <;> first | rfl | exact absurd rfl (h _ _)
  | [a, b, c] => cases a <;> cases b <;> cases c <;> rfl
  | a :: b :: c :: e :: l => simp [made, resolve, Overload.pick, simpleCtors, ranks, intended]

/-- C99, `monotonic_buffer_resource`, the same. -/
theorem C99_mono_partial (d : Nat) (args : List Arg) (h : ∀ addr n, args ≠ [.array addr n, .zero]) :
    made monoCtors d args = intended d args := by
  match args with
  | [] => rfl
  | [a] => cases a <;> rfl
  | [a, b] => cases a <;> cases b <;> first | rfl | exact absurd rfl (h _ _)
  | [a, b, c] => cases a <;> cases b <;> cases c <;> rfl
  | a :: b :: c :: e :: l => simp [made, resolve, Overload.pick, monoCtors, ranks, intended]

/-- An array of 64 bytes with an upstream of class `simple_resource`; a pointer without upstream. -/
example : made simpleCtors 7 [.array 4096 64, .derived 9] = some (4096, 64, 9) ∧
    made monoCtors 7 [.pointer 4096, .int 64] = some (4096, 64, 7) := by decide

/-- C99 fails for an array and a literal `0`: the constructors of pointer and size win, so the resource
gets no byte of the array and the default upstream, where `nullptr` instead of `0` gives it all bytes
and no upstream. -/
theorem C99_literal_zero (d addr n : Nat) :
    made simpleCtors d [.array addr n, .zero] = some (addr, 0, d) ∧
      made monoCtors d [.array addr n, .zero] = some (addr, 0, d) ∧
      intended d [.array addr n, .zero] = some (addr, n, 0) ∧
      made simpleCtors d [.array addr n, .null] = some (addr, n, 0) ∧
      made monoCtors d [.array addr n, .null] = some (addr, n, 0) :=
  ⟨rfl, rfl, rfl, rfl, rfl⟩

/-- The two answers differ for every array that has a byte. -/
theorem C99_counterexample : ∃ args, made simpleCtors 7 args ≠ intended 7 args ∧
    made monoCtors 7 args ≠ intended 7 args :=
  ⟨[.array 4096 64, .zero], by decide, by decide⟩

/-- C99: both resources can be made from the same arguments with the same meaning, `(array, 0)`
included. -/
theorem C99_alike (d : Nat) (args : List Arg) : made simpleCtors d args = made monoCtors d args := by
  by_cases h : ∃ addr n, args = [.array addr n, .zero]
  · obtain ⟨addr, n, rfl⟩ := h
    rfl
  · have h' : ∀ addr n, args ≠ [.array addr n, .zero] := fun addr n e => h ⟨addr, n, e⟩
    rw [C99_simple_partial d args h', C99_mono_partial d args h']

example : made simpleCtors 7 [.null, .zero, .zero] = made monoCtors 7 [.null, .zero, .zero] ∧
    made monoCtors 7 [.null, .zero, .zero] = some (0, 0, 0) := by decide

end Utils.Props
