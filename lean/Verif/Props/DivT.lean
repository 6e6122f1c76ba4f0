import Verif.Model.DivT
import Verif.Proofs.CInt

/-! # `div_t{a, b}` (C106) -/

namespace Utils

/-- Whether the values of a signed and of an unsigned type cannot both be held by the type C++ converts
them to: the unsigned one is at least as wide, and not narrower than `int`. -/
def SignsClash (s u : CTy) : Prop := s.signed = true ∧ u.signed = false ∧ s.width ≤ u.width ∧ 32 ≤ u.width

instance (s u : CTy) : Decidable (SignsClash s u) := by unfold SignsClash; infer_instance

theorem braceInit_keeps {t : CTy} {a : DivArg} {v : Int} (ha : a.ty.InRange a.val)
    (h : braceInit t a = some v) : v = a.val := by
  unfold braceInit at h
  split at h
  · rename_i hc
    have hr : t.InRange a.val := by
      rcases hc with ⟨h1, h2⟩ | ⟨-, h⟩
      · exact ⟨Int.le_trans h1 ha.1, Int.le_trans ha.2 h2⟩
      · exact h
    rw [← Option.some.inj h, CTy.conv_eq_self hr]
  · cases h

/-- `div_t{a, b}`, if it compiles, holds the values of `a` and `b` at their common type. -/
theorem C106_keeps {a b : DivArg} {t : CTy} {q r : Int} (ha : a.ty.InRange a.val)
    (hb : b.ty.InRange b.val) (h : divT a b = some (t, q, r)) :
    t = CTy.common a.ty b.ty ∧ q = a.val ∧ r = b.val := by
  unfold divT at h
  simp only [Option.bind_eq_bind, Option.bind_eq_some_iff, Option.pure_def, Option.some.injEq,
    Prod.mk.injEq] at h
  obtain ⟨x, hx, y, hy, rfl, rfl, rfl⟩ := h
  refine ⟨?_, braceInit_keeps ha hx, braceInit_keeps hb hy⟩
  unfold divTDeduce CTy.common
  split <;> rfl

theorem braceInit_some {t : CTy} {a : DivArg} : (braceInit t a).isSome = true ↔
    (t.minVal ≤ a.ty.minVal ∧ a.ty.maxVal ≤ t.maxVal) ∨ (a.const = true ∧ t.InRange a.val) := by
  unfold braceInit
  split <;> simp_all

theorem fits_iff {ta tb : CTy} {v : Int} {c : Prop} (h : ta.InRange v) :
    (((divTDeduce ta tb).minVal ≤ ta.minVal ∧ ta.maxVal ≤ (divTDeduce ta tb).maxVal) ∨
      (c ∧ (divTDeduce ta tb).InRange v)) ↔ (SignsClash ta tb → c ∧ 0 ≤ v) := by
  unfold CTy.InRange at *
  cases ta <;> cases tb <;> simp [divTDeduce, CTy.common, CTy.usual, CTy.promote, CTy.minVal, CTy.maxVal,
    CTy.signed, CTy.width, CTy.rank, CTy.toUnsigned, SignsClash] at h ⊢ <;> (intros; omega)

theorem deduce_comm (a b : CTy) : (divTDeduce a b).minVal = (divTDeduce b a).minVal ∧
    (divTDeduce a b).maxVal = (divTDeduce b a).maxVal := by
  cases a <;> cases b <;> decide

/-- It compiles iff, where a signed type meets an unsigned one that is at least as wide (and not narrower
than `int`), the signed argument is a constant expression and not negative. -/
theorem C106_iff {a b : DivArg} (ha : a.ty.InRange a.val) (hb : b.ty.InRange b.val) :
    (divT a b).isSome = true ↔
      (SignsClash a.ty b.ty → a.const = true ∧ 0 ≤ a.val) ∧
      (SignsClash b.ty a.ty → b.const = true ∧ 0 ≤ b.val) := by
  have key : (divT a b).isSome = true ↔ (braceInit (divTDeduce a.ty b.ty) a).isSome = true ∧
      (braceInit (divTDeduce a.ty b.ty) b).isSome = true := by
    unfold divT
    cases h1 : braceInit (divTDeduce a.ty b.ty) a <;> cases h2 : braceInit (divTDeduce a.ty b.ty) b <;>
      simp [h1, h2]
  obtain ⟨h1, h2⟩ := deduce_comm a.ty b.ty
  rw [key, braceInit_some, braceInit_some, fits_iff ha, ← fits_iff (c := b.const = true) hb]
  unfold CTy.InRange
  rw [h1, h2]

/-- For arguments of one type, and for signed or unsigned arguments only, it compiles and keeps the
values. -/
theorem C106_keeps_partial {a b : DivArg} (ha : a.ty.InRange a.val) (hb : b.ty.InRange b.val)
    (hs : a.ty.signed = b.ty.signed) :
    divT a b = some (CTy.common a.ty b.ty, a.val, b.val) := by
  have h := (C106_iff ha hb).2 ⟨fun h => absurd hs (by rw [h.1, h.2.1]; decide),
    fun h => absurd hs (by rw [h.1, h.2.1]; decide)⟩
  obtain ⟨⟨t, q, r⟩, e⟩ := Option.isSome_iff_exists.1 h
  obtain ⟨rfl, rfl, rfl⟩ := C106_keeps ha hb e
  exact e

/-- Two variables, `int` and `unsigned`: an error. -/
theorem C106_counterexample : divT ⟨.int, 7, false⟩ ⟨.uint, 2, false⟩ = none := by decide

/-- Literals of different types; one `signed char` that is negative and a `long`. -/
example : divT ⟨.int, 7, true⟩ ⟨.uint, 2, true⟩ = some (.uint, 7, 2) ∧
    divT ⟨.schar, -7, false⟩ ⟨.long, 2, false⟩ = some (.long, -7, 2) ∧
    divT ⟨.ushort, 7, false⟩ ⟨.ushort, 2, false⟩ = some (.ushort, 7, 2) ∧
    divT ⟨.ushort, 7, false⟩ ⟨.short, -2, false⟩ = some (.int, 7, -2) ∧
    divT ⟨.int, -7, true⟩ ⟨.ulong, 2, true⟩ = none := by decide

end Utils
