import Verif.Model.CInt
import Mathlib.Tactic.Ring

/-! # Lemmas about the C integer semantics -/

namespace Utils.CTy

theorem width_le (t : CTy) : 1 ≤ t.width ∧ t.width ≤ 64 := by cases t <;> decide

theorem inRange_iff (t : CTy) (v : Int) : t.InRange v ↔ t.minVal ≤ v ∧ v ≤ t.maxVal := Iff.rfl

/-- Conversion to a type that can hold the value does not change it. -/
theorem conv_eq_self {t : CTy} {v : Int} (h : t.InRange v) : t.conv v = v := by
  unfold InRange minVal maxVal at h
  cases t <;> simp [conv, ofBits, signed, width, BitVec.toInt_ofInt, BitVec.toNat_ofInt,
    Int.bmod_def] at h ⊢ <;> omega

/-- Conversion to an unsigned type other than `bool` is reduction modulo `2^width`. -/
theorem conv_unsigned {t : CTy} (ht : t.isUInt) (v : Int) : t.conv v = v % 2 ^ t.width := by
  cases t <;> simp_all [conv, ofBits, signed, isUInt, width, BitVec.toNat_ofInt] <;> omega

theorem conv_inRange (t : CTy) (v : Int) : t.InRange (t.conv v) := by
  unfold InRange minVal maxVal
  cases t <;> simp [conv, ofBits, signed, width, BitVec.toInt_ofInt, BitVec.toNat_ofInt,
    Int.bmod_def] <;> omega

theorem inRange_unsigned {t : CTy} (ht : t.isUInt) {v : Int} :
    t.InRange v ↔ 0 ≤ v ∧ v < 2 ^ t.width := by
  cases t <;> simp_all [InRange, minVal, maxVal, signed, isUInt, width] <;> omega

theorem sizeof_mul_eight {t : CTy} (ht : t ≠ .bool) : t.sizeof * 8 = t.width := by
  cases t <;> first | rfl | contradiction

end Utils.CTy
