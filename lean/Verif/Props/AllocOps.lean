import Verif.Model.AllocOps

/-! # Property C100: comparing and converting allocators -/

namespace Utils.Props

open Utils.AllocOps

/-- The resource an operand stands for. -/
def resourceOf : Operand → Nat
  | .alloc _ r => r
  | .resource r => r
  | .null => 0

/-- Allocators of two different value types. -/
def Mixed (x y : Operand) : Prop := ∃ T U r s, x = .alloc T r ∧ y = .alloc U s ∧ T ≠ U

/-- An allocator. -/
def IsAlloc (x : Operand) : Prop := ∃ T r, x = .alloc T r

theorem eq_same (T r s : Nat) : eq (.alloc T r) (.alloc T s) = some (Res.allocatorEq r s) := by
  simp [eq, valueTypes, templateCandidates, Overload.pick, Overload.better, rank, friendEq, convert,
    List.zipIdx, List.eraseDups_cons]

theorem eq_mixed {T U : Nat} (r s : Nat) (h : T ≠ U) : eq (.alloc T r) (.alloc U s) = none := by
  have h' : ¬ U = T := fun e => h e.symm
  simp [eq, valueTypes, templateCandidates, Overload.pick, Overload.better, rank, friendEq, convert,
    List.zipIdx, List.eraseDups_cons, h, h']

theorem ne_same (T r s : Nat) :
    ne (.alloc T r) (.alloc T s) = some ((Res.allocatorEq r s).map not) := by
  simp [ne, valueTypes, Overload.pick, Overload.better, rank, convert, List.zipIdx,
    List.eraseDups_cons, eq_same]

theorem ne_mixed {T U : Nat} (r s : Nat) (h : T ≠ U) : ne (.alloc T r) (.alloc U s) = none := by
  have h' : ¬ U = T := fun e => h e.symm
  simp [ne, valueTypes, Overload.pick, Overload.better, rank, convert, List.zipIdx,
    List.eraseDups_cons, h, h', eq_mixed]

theorem eq_ne_plain {x y : Operand} (hA : IsAlloc x ∨ IsAlloc y) (hm : ¬ Mixed x y) :
    eq x y = some (Res.allocatorEq (resourceOf x) (resourceOf y)) ∧
      ne x y = some ((Res.allocatorEq (resourceOf x) (resourceOf y)).map not) := by
  match x, y with
  | .alloc T r, .alloc U s =>
    have h : T = U := Classical.byContradiction fun h => hm ⟨T, U, r, s, rfl, rfl, h⟩
    subst h
    exact ⟨eq_same T r s, ne_same T r s⟩
  | .alloc T r, .resource s | .alloc T r, .null | .resource r, .alloc T s | .null, .alloc T s =>
    constructor <;>
      simp [eq, ne, valueTypes, templateCandidates, Overload.pick, Overload.better, rank, friendEq,
        convert, List.zipIdx, List.eraseDups_cons, resourceOf]
  | .resource _, .resource _ | .resource _, .null | .null, .resource _ | .null, .null =>
    exact absurd hA (by rintro (⟨_, _, h⟩ | ⟨_, _, h⟩) <;> cases h)

/-- C100: allocators of one value type compare equal iff they use the same resource, also with a
pointer to a resource on either side; `!=` is the opposite.  Comparing with a null resource, `nullptr`
included, is undefined.  Missing: allocators of two value types (`C100_mixed`). -/
theorem C100_equal_partial {x y : Operand} (hA : IsAlloc x ∨ IsAlloc y) (hm : ¬ Mixed x y) :
    (resourceOf x ≠ 0 → resourceOf y ≠ 0 → ∃ b : Bool, eq x y = some (.ok b) ∧
      ne x y = some (.ok !b) ∧ (b = true ↔ resourceOf x = resourceOf y)) ∧
    (resourceOf x = 0 ∨ resourceOf y = 0 → eq x y = some .ub ∧ ne x y = some .ub) := by
  obtain ⟨h1, h2⟩ := eq_ne_plain hA hm
  rw [h1, h2]
  constructor
  · intro hx hy
    exact ⟨resourceOf x == resourceOf y, by simp [Res.allocatorEq, hx, hy],
      by simp [Res.allocatorEq, hx, hy, Outcome.map, Outcome.bind], by simp⟩
  · intro h
    simp [Res.allocatorEq, h, Outcome.map, Outcome.bind]

/-- Two allocators of `int` on one resource; an allocator and a pointer to another resource. -/
example : eq (.alloc 4 100) (.alloc 4 100) = some (.ok true) ∧
    ne (.alloc 4 100) (.resource 200) = some (.ok true) ∧
    (IsAlloc (.alloc 4 100) ∨ IsAlloc (.resource 200)) ∧ ¬ Mixed (.alloc 4 100) (.resource 200) :=
  ⟨by decide, by decide, .inl ⟨4, 100, rfl⟩, by rintro ⟨_, _, _, _, _, h, _⟩; cases h⟩

/-- C100, exactly when a comparison compiles: the value types are the same, if there are two. -/
theorem C100_mixed {x y : Operand} (hA : IsAlloc x ∨ IsAlloc y) :
    ((eq x y).isSome ↔ ¬ Mixed x y) ∧ ((ne x y).isSome ↔ ¬ Mixed x y) := by
  by_cases hm : Mixed x y
  · obtain ⟨T, U, r, s, rfl, rfl, h⟩ := id hm
    simp [eq_mixed r s h, ne_mixed r s h, hm]
  · obtain ⟨h1, h2⟩ := eq_ne_plain hA hm
    simp [h1, h2, hm]

example : Mixed (.alloc 4 100) (.alloc 8 100) ∧ eq (.alloc 4 100) (.alloc 8 100) = none :=
  ⟨⟨4, 8, 100, 100, rfl, rfl, by decide⟩, by decide⟩

/-- C100: an allocator made from another one, or from a pointer, uses that resource; it cannot be made
from an allocator of another value type. -/
theorem C100_convert (S : Nat) (x : Operand) (r : Nat) :
    convert S x = some r ↔ r = resourceOf x ∧ ∀ T s, x = .alloc T s → T = S := by
  match x with
  | .alloc T s =>
    simp only [convert, resourceOf, Operand.alloc.injEq]
    constructor
    · intro h
      split at h
      · next e => exact ⟨(Option.some.inj h).symm, fun _ _ h' => h'.1 ▸ e⟩
      · cases h
    · rintro ⟨rfl, h⟩
      rw [if_pos (h T r ⟨rfl, rfl⟩)]
  | .resource _ => simp [convert, resourceOf, eq_comm]
  | .null => simp [convert, resourceOf, eq_comm]

example : convert 4 (.alloc 4 100) = some 100 ∧ convert 8 (.alloc 4 100) = none := by decide

/-- C100 fails for two value types: two allocators on one resource cannot be compared, and neither can
be made from the other. -/
theorem C100_counterexample : eq (.alloc 4 100) (.alloc 8 100) = none ∧
    ne (.alloc 4 100) (.alloc 8 100) = none ∧ convert 4 (.alloc 8 100) = none ∧
    convert 8 (.alloc 4 100) = none := by decide

/-- C100: `==` does not depend on the order of the operands. -/
theorem C100_symmetric {x y : Operand} (hA : IsAlloc x ∨ IsAlloc y) : eq x y = eq y x := by
  by_cases hm : Mixed x y
  · obtain ⟨T, U, r, s, rfl, rfl, h⟩ := hm
    rw [eq_mixed r s h, eq_mixed s r (Ne.symm h)]
  · have hm' : ¬ Mixed y x := fun ⟨T, U, r, s, h1, h2, h⟩ => hm ⟨U, T, s, r, h2, h1, Ne.symm h⟩
    rw [(eq_ne_plain hA hm).1, (eq_ne_plain hA.symm hm').1]
    simp only [Res.allocatorEq, or_comm]
    rcases Nat.decEq (resourceOf x) (resourceOf y) with h | h
    · have h' : resourceOf y ≠ resourceOf x := fun e => h e.symm
      simp [beq_eq_false_iff_ne.2 h, beq_eq_false_iff_ne.2 h']
    · rw [h]

example : eq (.resource 100) (.alloc 4 100) = some (.ok true) := by decide

end Utils.Props
