import Verif.Model.Bits
import Verif.Spec.Arith
import Verif.Proofs.CInt

/-! # Lemmas about the bit helpers -/

namespace Utils.Bits

open Utils.Spec

/-! ## `Nat` facts -/

theorem land_neg_pow {w k x : Nat} (hk : k ≤ w) (hx : x < 2 ^ w) :
    x &&& (2 ^ w - 2 ^ k) = x / 2 ^ k * 2 ^ k := by
  apply Nat.eq_of_testBit_eq
  intro i
  have h1 : 0 < 2 ^ k := Nat.two_pow_pos k
  have hkw : 2 ^ k ≤ 2 ^ w := Nat.pow_le_pow_right (by decide) hk
  have : 2 ^ w - 2 ^ k = 2 ^ w - ((2 ^ k - 1) + 1) := by omega
  rw [Nat.testBit_and, this, Nat.testBit_two_pow_sub_succ (by omega), Nat.testBit_mul_two_pow,
    Nat.testBit_two_pow_sub_one]
  by_cases hki : k ≤ i
  · have h2 : ¬ i < k := by omega
    simp only [h2, hki, Nat.testBit_div_two_pow, decide_true, decide_false, Bool.not_false,
      Bool.and_true, Bool.true_and]
    rw [Nat.sub_add_cancel hki]
    by_cases hiw : i < w
    · simp [hiw]
    · have : x < 2 ^ i := Nat.lt_of_lt_of_le hx (Nat.pow_le_pow_right (by decide) (by omega))
      simp [hiw, Nat.testBit_lt_two_pow this]
  · have : i < k := by omega
    simp [this, hki]

theorem exists_pow_mul_odd (v : Nat) (hv : v ≠ 0) : ∃ k m, v = 2 ^ k * (2 * m + 1) := by
  induction v using Nat.strongRecOn with
  | ind v ih =>
    by_cases h : v % 2 = 1
    · exact ⟨0, v / 2, by simp; omega⟩
    · obtain ⟨k, m, hkm⟩ := ih (v / 2) (by omega) (by omega)
      refine ⟨k + 1, m, ?_⟩
      have : v = 2 * (v / 2) := by omega
      rw [this, hkm, Nat.pow_succ]
      ring

theorem land_neg_self {w v k m : Nat} (hv : v < 2 ^ w) (h : v = 2 ^ k * (2 * m + 1)) :
    v &&& (2 ^ w - v) = 2 ^ k := by
  have hk1 : 0 < 2 ^ k := Nat.two_pow_pos k
  have hv0 : 0 < v := by rw [h]; exact Nat.mul_pos hk1 (by omega)
  apply Nat.eq_of_testBit_eq
  intro i
  have e1 : 2 ^ w - v = 2 ^ w - ((v - 1) + 1) := by omega
  have e2 : v - 1 = 2 ^ k * (2 * m) + (2 ^ k - 1) := by
    rw [h, Nat.mul_add]; omega
  have e3 : v = 2 ^ k * (2 * m + 1) + 0 := by omega
  rw [Nat.testBit_and, e1, Nat.testBit_two_pow_sub_succ (by omega), e2,
    Nat.testBit_two_pow_mul_add _ (by omega : 2 ^ k - 1 < 2 ^ k)]
  conv_lhs => rw [e3]
  rw [Nat.testBit_two_pow_mul_add _ (by omega : 0 < 2 ^ k), Nat.testBit_two_pow]
  have hkw : k < w := by
    apply Nat.lt_of_not_le
    intro hwk
    have : 2 ^ w ≤ 2 ^ k := Nat.pow_le_pow_right (by decide) hwk
    have : 2 ^ k ≤ v := by rw [h]; exact Nat.le_mul_of_pos_right _ (by omega)
    omega
  by_cases hik : i < k
  · have : k ≠ i := by omega
    simp [hik, this]
  · simp only [hik, if_false]
    by_cases hek : k = i
    · subst hek
      simp [hkw]
    · obtain ⟨d, hd⟩ : ∃ d, i - k = d + 1 := ⟨i - k - 1, by omega⟩
      have h1 : (2 * m + 1) / 2 = m := by omega
      have h2 : (2 * m) / 2 = m := by omega
      rw [hd, Nat.testBit_succ, Nat.testBit_succ, h1, h2]
      simp only [hek, decide_false, Bool.and_eq_false_imp]
      cases m.testBit d <;> simp

theorem pow2_dvd_of {k m e : Nat} (h : 2 ^ e ∣ 2 ^ k * (2 * m + 1)) : e ≤ k := by
  apply Nat.le_of_not_lt
  intro hlt
  have h1 : 2 ^ (k + 1) ∣ 2 ^ k * (2 * m + 1) :=
    Nat.dvd_trans (Nat.pow_dvd_pow 2 (by omega)) h
  rw [Nat.pow_succ] at h1
  have h2 : 2 ∣ 2 * m + 1 := Nat.dvd_of_mul_dvd_mul_left (Nat.two_pow_pos k) h1
  omega

theorem greatestPow2Divisor_of {v k m : Nat} (h : v = 2 ^ k * (2 * m + 1)) :
    GreatestPow2Divisor v (2 ^ k) := by
  refine ⟨⟨k, rfl⟩, ⟨2 * m + 1, h⟩, ?_⟩
  rintro e ⟨j, rfl⟩ hd
  rw [h] at hd
  exact Nat.pow_le_pow_right (by decide) (pow2_dvd_of hd)

/-! ## Powers of two -/

theorem isPowerOf2_iff {w : Nat} (v : BitVec w) :
    isPowerOf2 v = true ↔ ∃ k, k < w ∧ v.toNat = 2 ^ k := by
  unfold isPowerOf2
  by_cases h0 : v = 0#w
  · subst h0
    simp only [bne_self_eq_false, Bool.false_and, Bool.false_eq_true, BitVec.toNat_ofNat,
      Nat.zero_mod, false_iff, not_exists, not_and]
    intro k _ hk
    have := Nat.two_pow_pos k
    omega
  · have hn : v.toNat ≠ 0 := fun h => h0 (BitVec.eq_of_toNat_eq (by simpa using h))
    have hlt := v.isLt
    have hw : 0 < w := by
      apply Nat.pos_of_ne_zero
      rintro rfl
      simp at hlt
      omega
    have hsub : (v - 1#w).toNat = v.toNat - 1 := by
      rw [BitVec.toNat_sub, BitVec.toNat_ofNat,
        Nat.mod_eq_of_lt (a := 1) (by have := Nat.lt_two_pow_self (n := w); omega)]
      have : 2 ^ w - 1 + v.toNat = (v.toNat - 1) + 2 ^ w := by omega
      rw [this, Nat.add_mod_right, Nat.mod_eq_of_lt (by omega)]
    have hz : ((v &&& (v - 1#w)) == 0#w) = true ↔ v.toNat &&& (v.toNat - 1) = 0 := by
      rw [beq_iff_eq, BitVec.toNat_eq, BitVec.toNat_and, hsub]
      simp
    rw [Bool.and_eq_true, hz, Nat.and_sub_one_eq_zero_iff_isPowerOfTwo hn]
    constructor
    · rintro ⟨-, k, hk⟩
      refine ⟨k, ?_, hk⟩
      apply Nat.lt_of_not_le
      intro hwk
      have : 2 ^ w ≤ 2 ^ k := Nat.pow_le_pow_right (by decide) hwk
      omega
    · rintro ⟨k, -, hk⟩
      exact ⟨by simpa using h0, k, hk⟩

theorem isPowerOf2_of {w k : Nat} {v : BitVec w} (hk : k < w) (hv : v.toNat = 2 ^ k) :
    isPowerOf2 v = true := (isPowerOf2_iff v).2 ⟨k, hk, hv⟩

/-! ## `next_multiple_of` -/

theorem toNat_land_neg {w k : Nat} {m x : BitVec w} (hk : k < w) (hm : m.toNat = 2 ^ k) :
    (x &&& -m).toNat = x.toNat / 2 ^ k * 2 ^ k := by
  have hkw : 2 ^ k < 2 ^ w := Nat.pow_lt_pow_right (by decide) hk
  have h1 : 0 < 2 ^ k := Nat.two_pow_pos k
  rw [BitVec.toNat_and, BitVec.toNat_neg, hm, Nat.mod_eq_of_lt (by omega : 2 ^ w - 2 ^ k < 2 ^ w),
    land_neg_pow (Nat.le_of_lt hk) x.isLt]

/-- `(v + m - 1) / m * m` rounds up. -/
theorem leastMultiple_round {m v : Nat} (hm : 0 < m) :
    LeastMultiple m v ((v + (m - 1)) / m * m) := by
  have hdm := Nat.div_add_mod (v + (m - 1)) m
  have hml := Nat.mod_lt (v + (m - 1)) hm
  rw [Nat.mul_comm] at hdm
  refine ⟨⟨(v + (m - 1)) / m, by rw [Nat.mul_comm]⟩, by omega, ?_⟩
  rintro s ⟨c, rfl⟩ hs
  apply Nat.le_of_not_lt
  intro hlt
  have h3 : m * c + m ≤ (v + (m - 1)) / m * m := by
    have : c < (v + (m - 1)) / m := by
      rw [Nat.mul_comm] at hlt
      exact Nat.lt_of_mul_lt_mul_right hlt
    calc m * c + m = (c + 1) * m := by ring
      _ ≤ _ := Nat.mul_le_mul_right _ this
  omega

theorem leastMultiple_unique {m v r s : Nat} (h1 : LeastMultiple m v r)
    (h2 : LeastMultiple m v s) : r = s :=
  Nat.le_antisymm (h1.2.2 s h2.1 h2.2.1) (h2.2.2 r h1.1 h1.2.1)

/-- The rounding expression on words, in closed form. -/
theorem nextMultipleOf_toNat {w k : Nat} {m v : BitVec w} (hk : k < w) (hm : m.toNat = 2 ^ k) :
    ((v + m - 1#w) &&& -m).toNat = ((v.toNat + (2 ^ k - 1)) / 2 ^ k * 2 ^ k) % 2 ^ w := by
  have h1 : 0 < 2 ^ k := Nat.two_pow_pos k
  have hkw : 2 ^ k < 2 ^ w := Nat.pow_lt_pow_right (by decide) hk
  have hvl := v.isLt
  have hsum : (v + m - 1#w).toNat = (v.toNat + (2 ^ k - 1)) % 2 ^ w := by
    rw [BitVec.toNat_sub, BitVec.toNat_add, hm, BitVec.toNat_ofNat,
      Nat.mod_eq_of_lt (a := 1) (by omega), Nat.add_mod_mod,
      (by omega : 2 ^ w - 1 + (v.toNat + 2 ^ k) = v.toNat + (2 ^ k - 1) + 2 ^ w),
      Nat.add_mod_right]
  rw [toNat_land_neg hk hm, hsum]
  obtain ⟨j, rfl⟩ : ∃ j, w = k + j := ⟨w - k, by omega⟩
  rw [Nat.pow_add, Nat.mod_mul_right_div_self, Nat.mul_comm (2 ^ k) (2 ^ j),
    Nat.mul_mod_mul_right]


/-! ## `skip_to_align` and `is_aligned` -/

/-- Distance to the next multiple of `2^k`. -/
def skipNat (p a : Nat) : Nat := (a - p % a) % a

theorem skipNat_lt {p a : Nat} (ha : 0 < a) : skipNat p a < a := Nat.mod_lt _ ha

theorem skipNat_dvd {p a : Nat} (ha : 0 < a) : a ∣ p + skipNat p a := by
  unfold skipNat
  have h := Nat.mod_lt p ha
  have hd := Nat.div_add_mod p a
  by_cases h0 : p % a = 0
  · rw [h0, Nat.sub_zero, Nat.mod_self, Nat.add_zero]
    exact Nat.dvd_of_mod_eq_zero h0
  · rw [Nat.mod_eq_of_lt (by omega : a - p % a < a)]
    exact ⟨p / a + 1, by rw [Nat.mul_add]; omega⟩

theorem skipNat_least {p a d : Nat} (ha : 0 < a) (hd : a ∣ p + d) : skipNat p a ≤ d := by
  apply Nat.le_of_not_lt
  intro hlt
  have h1 := skipNat_dvd (p := p) ha
  have h2 := skipNat_lt (p := p) ha
  have h3 : a ∣ skipNat p a - d := by
    have := Nat.dvd_sub h1 hd
    rwa [(by omega : p + skipNat p a - (p + d) = skipNat p a - d)] at this
  have := Nat.le_of_dvd (by omega) h3
  omega

theorem skipNat_eq_round {p a : Nat} (ha : 0 < a) :
    (p + (a - 1)) / a * a = p + skipNat p a := by
  apply leastMultiple_unique (leastMultiple_round (v := p) ha)
  refine ⟨skipNat_dvd ha, Nat.le_add_right _ _, ?_⟩
  intro s hs hps
  obtain ⟨d, rfl⟩ := Nat.exists_eq_add_of_le hps
  have := skipNat_least ha hs
  omega

theorem skipToAlign_eq {w k : Nat} {p a : BitVec w} (debug : Bool) (hk : k < w)
    (ha : a.toNat = 2 ^ k) :
    skipToAlign debug p a = .ok (BitVec.ofNat w (skipNat p.toNat (2 ^ k))) := by
  have h1 : 0 < 2 ^ k := Nat.two_pow_pos k
  have hkw : 2 ^ k < 2 ^ w := Nat.pow_lt_pow_right (by decide) hk
  have hpl := p.isLt
  unfold skipToAlign nextMultipleOf
  simp only [isPowerOf2_of hk ha, cassert_true, Outcome.ok_bind, Outcome.pure_eq]
  congr 1
  apply BitVec.eq_of_toNat_eq
  have hs := skipNat_lt (p := p.toNat) h1
  rw [BitVec.toNat_sub, nextMultipleOf_toNat hk ha, skipNat_eq_round h1, BitVec.toNat_ofNat,
    Nat.add_mod_mod, Nat.mod_eq_of_lt (a := skipNat _ _) (by omega),
    (by omega : 2 ^ w - p.toNat + (p.toNat + skipNat p.toNat (2 ^ k))
      = skipNat p.toNat (2 ^ k) + 2 ^ w), Nat.add_mod_right, Nat.mod_eq_of_lt (by omega)]

theorem isAligned_eq {w k : Nat} {p a : BitVec w} (debug : Bool) (hk : k < w)
    (ha : a.toNat = 2 ^ k) :
    isAligned debug p a = .ok (decide (2 ^ k ∣ p.toNat)) := by
  have h1 : 0 < 2 ^ k := Nat.two_pow_pos k
  have hkw : 2 ^ k < 2 ^ w := Nat.pow_lt_pow_right (by decide) hk
  unfold isAligned
  simp only [isPowerOf2_of hk ha, cassert_true, Outcome.ok_bind, Outcome.pure_eq]
  congr 1
  have hsub : (a - 1#w).toNat = 2 ^ k - 1 := by
    rw [BitVec.toNat_sub, BitVec.toNat_ofNat, ha, Nat.mod_eq_of_lt (a := 1) (by omega),
      (by omega : 2 ^ w - 1 + 2 ^ k = (2 ^ k - 1) + 2 ^ w), Nat.add_mod_right,
      Nat.mod_eq_of_lt (by omega)]
  rw [Bool.eq_iff_iff, beq_iff_eq, BitVec.toNat_eq, BitVec.toNat_and, hsub,
    Nat.and_two_pow_sub_one_eq_mod, decide_eq_true_iff, BitVec.toNat_ofNat, Nat.zero_mod]
  exact (Nat.dvd_iff_mod_eq_zero ..).symm

end Utils.Bits
