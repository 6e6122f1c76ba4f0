import Verif.Proofs.BitsMore

/-!
Helper lemmas for the exact conditions of `div` (C15).
-/

namespace Utils.Bits
open Utils Utils.Spec

/-- How the values of the first operand type lie in the common type. -/
theorem common_left (tn td : CTy) :
    ((CTy.common tn td).signed = true → (CTy.common tn td).minVal ≤ tn.minVal) ∧
    tn.maxVal ≤ (CTy.common tn td).maxVal ∧
    ((CTy.common tn td).signed = false → (CTy.common tn td).minVal = 0 ∧
      (tn.minVal = 0 ∨ td.minVal = 0)) := by
  cases tn <;> cases td <;> decide

/-- How the values of the second operand type lie in the common type. -/
theorem common_right (tn td : CTy) :
    ((CTy.common tn td).signed = true → (CTy.common tn td).minVal ≤ td.minVal) ∧
    td.maxVal ≤ (CTy.common tn td).maxVal := by
  cases tn <;> cases td <;> decide

/-- A common type that cannot hold a negative operand is not narrower than `int`. -/
theorem common_wide (tn td : CTy) (h : (CTy.common tn td).signed = false) (hd : td.minVal < 0) :
    (CTy.common tn td).isUInt = true ∧
    CTy.usual (CTy.common tn td) (CTy.common tn td) = CTy.common tn td ∧
    (CTy.common tn td).maxVal = 2 ^ (CTy.common tn td).width - 1 ∧
    -td.minVal ≤ 2 ^ ((CTy.common tn td).width - 1) ∧ 1 ≤ (CTy.common tn td).width := by
  revert h hd
  cases tn <;> cases td <;> decide

/-- Operands above `2^63` make the common type a 64-bit unsigned type. -/
theorem common_huge_left (tn td : CTy) (h : 2 ^ 63 ≤ tn.maxVal) :
    (CTy.common tn td).minVal = 0 ∧ (CTy.common tn td).maxVal = 2 ^ 64 - 1 ∧
      (CTy.common tn td).isUInt = true ∧ (CTy.common tn td).width = 64 ∧ tn.maxVal = 2 ^ 64 - 1 ∧
      tn.minVal = 0 := by
  revert h
  cases tn <;> cases td <;> decide

theorem common_huge_right (tn td : CTy) (h : 2 ^ 63 ≤ td.maxVal) :
    (CTy.common tn td).minVal = 0 ∧ (CTy.common tn td).maxVal = 2 ^ 64 - 1 ∧
      (CTy.common tn td).isUInt = true ∧ (CTy.common tn td).width = 64 ∧ td.maxVal = 2 ^ 64 - 1 ∧
      td.minVal = 0 := by
  revert h
  cases tn <;> cases td <;> decide

/-- No type goes below `-2^63` or beyond `2^64 - 1`. -/
theorem ty_bounds (t : CTy) : -2 ^ 63 ≤ t.minVal ∧ t.maxVal ≤ 2 ^ 64 - 1 ∧ t.minVal ≤ 0 ∧
    (t.signed = false → t.minVal = 0) ∧ (t.signed = true → t.minVal = -t.maxVal - 1) := by
  cases t <;> decide

/-- `conv` to `long long` of a value from `2^63` on. -/
theorem conv_llong_huge {n : Int} (h1 : 2 ^ 63 ≤ n) (h2 : n ≤ 2 ^ 64 - 1) :
    CTy.conv .llong n = n - 2 ^ 64 := by
  simp [CTy.conv, CTy.ofBits, CTy.signed, CTy.width, BitVec.toInt_ofInt, Int.bmod_def]
  omega

theorem llong_inRange {n : Int} : CTy.llong.InRange n ↔ -2 ^ 63 ≤ n ∧ n < 2 ^ 63 := by
  simp only [CTy.InRange, CTy.minVal, CTy.maxVal, CTy.signed, CTy.width, if_true]
  omega

/-- Truncating division has one result. -/
theorem truncDiv_unique {n d q r q' r' : Int} (h : TruncDiv n d q r) (h' : TruncDiv n d q' r') :
    q = q' ∧ r = r' := by
  obtain ⟨h1, h2, h3, h4⟩ := h
  obtain ⟨g1, g2, g3, g4⟩ := h'
  have hm : (q - q') * d = r' - r := by rw [Int.sub_mul]; omega
  have hq : q = q' := by
    by_contra hne
    have hle : 1 ≤ (q - q').natAbs := by omega
    have hab : (q - q').natAbs * d.natAbs = (r' - r).natAbs := by rw [← Int.natAbs_mul, hm]
    have := Nat.mul_le_mul_right d.natAbs hle
    omega
  subst hq
  omega

/-- What the two operators give at `long long`. -/
theorem divRem_llong {t : CTy} {a b : Int} (ha : CTy.llong.InRange a) (hb : CTy.llong.InRange b)
    (hb0 : b ≠ 0) (hov : ¬ (a = -2 ^ 63 ∧ b = -1)) :
    (do
      let q ← CVal.div ⟨.llong, a⟩ ⟨.llong, b⟩
      let m ← CVal.rem ⟨.llong, a⟩ ⟨.llong, b⟩
      pure (t.conv q.val, t.conv m.val) : Outcome (Int × Int))
      = .ok (t.conv (Int.tdiv a b), t.conv (Int.tmod a b)) := by
  obtain ⟨hq, hm⟩ := tdiv_inRange ha hb0
    (by rintro ⟨-, h1, h2⟩; exact hov ⟨by rw [h1]; decide, h2⟩) hb
  simp only [CVal.div, CVal.rem, show CTy.usual .llong .llong = .llong by decide,
    CTy.conv_eq_self ha, CTy.conv_eq_self hb, hb0, if_false, CVal.arith,
    show CTy.signed .llong = true by decide, if_true, hq, hm, Outcome.ok_bind, Outcome.pure_eq]

end Utils.Bits
