import Verif.Proofs.BitsC
import Mathlib.Data.Nat.Bitwise

/-! # Rounding up to a power of two, on signed types -/

namespace Utils.Bits

/-- Masking with `-2^k` rounds down to a multiple of `2^k`, also for negative values. -/
theorem ofInt_and_neg {W k : Nat} (hk : k < W) (s : Int) :
    BitVec.ofInt W s &&& BitVec.ofInt W (-(2 ^ k)) = BitVec.ofInt W (s / 2 ^ k * 2 ^ k) := by
  have hW := pow_pos_int W
  have hp := pow_pos_int k
  have e : BitVec.ofInt W s = BitVec.ofInt W (s % 2 ^ W) := by
    apply BitVec.eq_of_toNat_eq
    rw [BitVec.toNat_ofInt, BitVec.toNat_ofInt]
    have : ((2 ^ W : Nat) : Int) = 2 ^ W := by norm_num
    rw [this, Int.emod_emod_of_dvd _ (Int.dvd_refl _)]
  have hr := Int.emod_nonneg s (by omega : (2 ^ W : Int) ≠ 0)
  have hr' := Int.emod_lt_of_pos s hW
  apply BitVec.eq_of_toNat_eq
  rw [e, toNat_and_ofInt hk hr hr' rfl, BitVec.toNat_ofInt]
  have hc : ((2 ^ W : Nat) : Int) = 2 ^ W := by norm_num
  have hck : ((2 ^ k : Nat) : Int) = 2 ^ k := by norm_num
  rw [hc]
  obtain ⟨j, hj⟩ : ∃ j, W = k + j := ⟨W - k, by omega⟩
  have e1 : s / 2 ^ k * 2 ^ k = s % 2 ^ W / 2 ^ k * 2 ^ k + 2 ^ W * (s / 2 ^ W) := by
    have h1 : s = s % 2 ^ W + 2 ^ k * (2 ^ j * (s / 2 ^ W)) := by
      have := Int.emod_add_mul_ediv s (2 ^ W)
      rw [← mul_assoc, ← pow_add, ← hj]
      omega
    have h2 : s / 2 ^ k = s % 2 ^ W / 2 ^ k + 2 ^ j * (s / 2 ^ W) := by
      conv => lhs; rw [h1]
      rw [Int.add_mul_ediv_left _ _ (by omega)]
    rw [h2, add_mul]
    have h5 : (2 : Int) ^ W = 2 ^ k * 2 ^ j := by rw [hj, pow_add]
    generalize s / 2 ^ W = q
    rw [h5]
    ring
  have h3 := Int.ediv_mul_le (s % 2 ^ W) (by omega : (2 ^ k : Int) ≠ 0)
  have h4 : 0 ≤ s % 2 ^ W / 2 ^ k * 2 ^ k := by
    exact Int.mul_nonneg (Int.ediv_nonneg hr (by omega)) (by omega)
  rw [e1, Int.add_mul_emod_self_left, Int.emod_eq_of_lt h4 (by omega)]
  obtain ⟨n, hn⟩ : ∃ n : Nat, s % 2 ^ W = n := ⟨(s % 2 ^ W).toNat, by omega⟩
  rw [hn, Int.toNat_natCast, ← hck, ← Int.natCast_ediv, ← Int.natCast_mul, Int.toNat_natCast]

theorem ofBits_ofInt {t : CTy} (hb : t ≠ .bool) {x : Int} (h : t.InRange x) :
    t.ofBits (BitVec.ofInt t.width x) = x := by
  have := CTy.conv_eq_self h
  rwa [CTy.conv, if_neg hb] at this

theorem usual_self (t : CTy) : CTy.usual t t = t.promote := by cases t <;> decide

/-- The values of a type are values of the type it is promoted to. -/
theorem inRange_promote {t : CTy} {v : Int} (h : t.InRange v) : t.promote.InRange v := by
  cases t <;> simp [CTy.InRange, CTy.minVal, CTy.maxVal, CTy.signed, CTy.width, CTy.promote] at h ⊢ <;>
    omega

theorem promote_facts {t : CTy} (ht : t.signed = true) :
    t.promote.signed = true ∧ t.promote ≠ .bool ∧ t.promote.promote = t.promote ∧ t ≠ .bool ∧
      t.width ≤ t.promote.width ∧ 0 < t.width := by
  cases t <;> revert ht <;> decide

theorem inRange_signed {t : CTy} (ht : t.signed = true) {v : Int} :
    t.InRange v ↔ -(2 ^ (t.width - 1)) ≤ v ∧ v < 2 ^ (t.width - 1) := by
  unfold CTy.InRange CTy.minVal CTy.maxVal
  rw [if_pos ht, if_pos ht]
  omega

/-- `next_multiple_of<2^k, U>`, closed form, for a signed `U` that holds `2^k`. -/
theorem nextMultipleOfT_signed {t : CTy} (ht : t.signed = true) {k : Nat} (hk : k < t.width - 1) {v : Int}
    (hv : t.InRange v) :
    nextMultipleOfT t (2 ^ k) v =
      if t.promote.InRange (v + (2 ^ k - 1)) then
        .ok (t.conv ((v + (2 ^ k - 1)) / 2 ^ k * 2 ^ k)) else .ub := by
  obtain ⟨hs, hnb, hpp, hb, hle, hw⟩ := promote_facts ht
  have hp := pow_pos_int k
  have hpw := pow_le_of_lt hk
  have hck : ((2 ^ k : Nat) : Int) = 2 ^ k := by norm_num
  have rk : t.InRange (2 ^ k) := (inRange_signed ht).2 (by omega)
  have rk1 : t.InRange (2 ^ k - 1) := (inRange_signed ht).2 (by omega)
  have rn : t.InRange (-(2 ^ k)) := (inRange_signed ht).2 (by omega)
  unfold nextMultipleOfT
  simp only [CVal.cast, hck, CTy.conv_eq_self rk, CTy.conv_eq_self rk1]
  simp only [CVal.add, CVal.neg, usual_self, CTy.conv_eq_self (inRange_promote hv),
    CTy.conv_eq_self (inRange_promote rk), CTy.conv_eq_self (inRange_promote rk1), CVal.arith, hs, if_true,
    inRange_promote rn, Outcome.ok_bind]
  by_cases hr : t.promote.InRange (v + (2 ^ k - 1))
  · simp only [hr, if_true, Outcome.ok_bind, Outcome.pure_eq]
    rw [band_eq (t := t.promote) (by rw [usual_self, hpp])]
    simp only [CTy.conv_eq_self hr, CTy.conv_eq_self (inRange_promote rn)]
    rw [ofInt_and_neg (by omega), ofBits_ofInt hnb]
    rw [inRange_signed hs] at hr ⊢
    have h1 := Int.ediv_mul_le (v + (2 ^ k - 1)) (by omega : (2 ^ k : Int) ≠ 0)
    have h2 := Int.lt_ediv_add_one_mul_self (v + (2 ^ k - 1)) hp
    rw [add_mul, one_mul] at h2
    have h3 := (inRange_signed hs).1 (inRange_promote hv)
    omega
  · simp only [hr, if_false]
    rfl

theorem conv_pow_big {t : CTy} (hb : t ≠ .bool) {k : Nat} (hk : t.width ≤ k) :
    t.conv (2 ^ k) = 0 ∧ t.conv (2 ^ k - 1) = t.conv (-1) := by
  obtain ⟨c, hc⟩ : (2 ^ t.width : Int) ∣ 2 ^ k := by
    exact_mod_cast Nat.pow_dvd_pow 2 hk
  have hW : ((2 ^ t.width : Nat) : Int) = 2 ^ t.width := by norm_num
  unfold CTy.conv
  rw [if_neg hb, if_neg hb, if_neg hb]
  constructor
  · have : BitVec.ofInt t.width (2 ^ k) = 0#t.width := by
      apply BitVec.eq_of_toNat_eq
      rw [BitVec.toNat_ofInt, hW, hc, Int.mul_emod_right]
      simp
    rw [this]
    simp [CTy.ofBits]
  · congr 1
    apply BitVec.eq_of_toNat_eq
    rw [BitVec.toNat_ofInt, BitVec.toNat_ofInt, hW, hc]
    congr 1
    rw [sub_eq_add_neg, add_comm, Int.add_mul_emod_self_left]

/-- `next_multiple_of<2^k, U>` for a signed `U` with at most `k` bits. -/
theorem nextMultipleOfT_signed_big {t : CTy} (ht : t.signed = true) {k : Nat} (hk : t.width ≤ k) {v : Int}
    (hv : t.InRange v) :
    nextMultipleOfT t (2 ^ k) v = if t.promote.InRange (v - 1) then .ok 0 else .ub := by
  obtain ⟨hs, hnb, hpp, hb, hle, hw⟩ := promote_facts ht
  have hck : ((2 ^ k : Nat) : Int) = 2 ^ k := by norm_num
  have hp := pow_pos_int (t.width - 1)
  have r1 : t.InRange (-1) := (inRange_signed ht).2 (by omega)
  obtain ⟨e1, e2⟩ := conv_pow_big hb hk
  rw [CTy.conv_eq_self r1] at e2
  have hneg : CVal.neg ⟨t, 0⟩ = .ok ⟨t.promote, 0⟩ := by cases t <;> decide
  unfold nextMultipleOfT
  simp only [CVal.cast, hck, e1, e2, hneg]
  simp only [CVal.add, usual_self, CTy.conv_eq_self (inRange_promote hv),
    CTy.conv_eq_self (inRange_promote r1), CVal.arith, hs, if_true, ← sub_eq_add_neg]
  by_cases hr : t.promote.InRange (v - 1)
  · simp only [hr, if_true, Outcome.ok_bind, Outcome.pure_eq, band_zero, conv_zero]
  · simp only [hr, if_false]
    rfl

theorem ofInt_and_pow {W k : Nat} (hk : k < W) {x : Int} (hx : 0 ≤ x) (hx' : x < 2 ^ (k + 1)) :
    BitVec.ofInt W x &&& BitVec.ofInt W (2 ^ k) = BitVec.ofInt W (if x < 2 ^ k then 0 else 2 ^ k) := by
  obtain ⟨n, rfl⟩ : ∃ n : Nat, x = n := ⟨x.toNat, by omega⟩
  have hn : n < 2 ^ (k + 1) := by exact_mod_cast hx'
  have e : (2 ^ k : Int) = ((2 ^ k : Nat) : Int) := by norm_num
  have hkW : 2 ^ k < 2 ^ W := Nat.pow_lt_pow_right (by decide) hk
  have hnW : n < 2 ^ W := Nat.lt_of_lt_of_le hn (Nat.pow_le_pow_right (by decide) hk)
  rw [e]
  have h0 : (0 : Int) = ((0 : Nat) : Int) := rfl
  rw [BitVec.ofInt_natCast, BitVec.ofInt_natCast]
  apply BitVec.eq_of_toNat_eq
  rw [BitVec.toNat_and, BitVec.toNat_ofNat, BitVec.toNat_ofNat, Nat.mod_eq_of_lt hnW, Nat.mod_eq_of_lt hkW,
    Nat.and_comm, Nat.two_pow_and]
  by_cases h : n < 2 ^ k
  · rw [if_pos (by exact_mod_cast h), Nat.testBit_lt_two_pow h]
    simp
  · rw [if_neg (by exact_mod_cast h), BitVec.ofInt_natCast, BitVec.toNat_ofNat, Nat.mod_eq_of_lt hkW]
    have hd : n / 2 ^ k = 1 := by
      have h1 : n / 2 ^ k < 2 := by
        rw [Nat.div_lt_iff_lt_mul (Nat.two_pow_pos k), ← Nat.pow_succ']
        exact hn
      have h2 : 1 ≤ n / 2 ^ k := by
        rw [Nat.le_div_iff_mul_le (Nat.two_pow_pos k)]
        omega
      omega
    rw [Nat.testBit_eq_decide_div_mod_eq, hd]
    simp

/-- `next_multiple_of<2^k, U>` for a signed `U` narrower than `int` in which `2^k` is one too large. -/
theorem nextMultipleOfT_signed_edge {t : CTy} (ht : t.signed = true) (hn : t.promote ≠ t) {v : Int}
    (hv : t.InRange v) :
    nextMultipleOfT t (2 ^ (t.width - 1)) v
      = .ok (if v = t.minVal then t.minVal else if v ≤ 0 then 0 else t.minVal) := by
  have hw : t.promote = .int := by cases t <;> revert ht hn <;> decide
  have hnat : ((2 ^ (t.width - 1) : Nat) : Int) = 2 ^ (t.width - 1) := by norm_num
  have hc1 : t.conv (2 ^ (t.width - 1)) = -(2 ^ (t.width - 1)) := by
    cases t <;> revert ht <;> decide
  have hc2 : t.conv (2 ^ (t.width - 1) - 1) = 2 ^ (t.width - 1) - 1 := by
    cases t <;> revert ht <;> decide
  have hneg : CVal.neg ⟨t, -(2 ^ (t.width - 1))⟩ = .ok ⟨.int, 2 ^ (t.width - 1)⟩ := by
    cases t <;> revert ht hn <;> decide
  have hci : CTy.conv .int (2 ^ (t.width - 1) - 1) = 2 ^ (t.width - 1) - 1 := by
    cases t <;> revert ht hn <;> decide
  have hcp : CTy.conv .int (2 ^ (t.width - 1)) = 2 ^ (t.width - 1) := by
    cases t <;> revert ht hn <;> decide
  have hmin : t.minVal = -(2 ^ (t.width - 1)) := by simp [CTy.minVal, ht]
  have hv' := (inRange_signed ht).1 hv
  have hwl : t.width ≤ 16 ∧ 0 < t.width := by cases t <;> revert ht hn <;> decide
  have hpl : (2 ^ (t.width - 1) : Int) ≤ 2 ^ 15 := by
    exact_mod_cast Nat.pow_le_pow_right (by decide : 0 < 2) (by omega : t.width - 1 ≤ 15)
  have hp := pow_pos_int (t.width - 1)
  have hvi : CTy.conv .int v = v := by
    have := inRange_promote hv
    rw [hw] at this
    exact CTy.conv_eq_self this
  have hr : CTy.InRange .int (v + (2 ^ (t.width - 1) - 1)) := by
    rw [inRange_signed rfl, show CTy.int.width - 1 = 31 from rfl]
    omega
  unfold nextMultipleOfT
  simp only [CVal.cast, hnat, hc1, hc2, hneg]
  simp only [CVal.add, usual_self, hw, hvi, hci, CVal.arith, CTy.signed, if_true, hr, Outcome.ok_bind,
    Outcome.pure_eq]
  rw [band_eq (t := .int) rfl]
  simp only [CTy.conv_eq_self hr, hcp]
  by_cases h1 : v = t.minVal
  · rw [if_pos h1, h1, hmin]
    cases t <;> revert ht hn <;> decide
  · rw [if_neg h1, ofInt_and_pow (by rw [show CTy.int.width = 32 from rfl]; omega) (by omega) (by rw [pow_succ]; omega)]
    by_cases h2 : v ≤ 0
    · rw [if_pos h2, if_pos (by omega)]
      cases t <;> revert ht hn <;> decide
    · rw [if_neg h2, if_neg (by omega), hmin]
      cases t <;> revert ht hn <;> decide

/-- For `int` and wider types negating the converted power overflows. -/
theorem nextMultipleOfT_signed_edge_wide {t : CTy} (ht : t.signed = true) (hn : t.promote = t) (v : Int) :
    nextMultipleOfT t (2 ^ (t.width - 1)) v = .ub := by
  have hnat : ((2 ^ (t.width - 1) : Nat) : Int) = 2 ^ (t.width - 1) := by norm_num
  have hneg : CVal.neg (CVal.cast t ⟨.ulong, 2 ^ (t.width - 1)⟩) = .ub := by
    cases t <;> revert ht hn <;> decide
  unfold nextMultipleOfT
  simp only [hnat, hneg]
  simp only [CVal.add, CVal.arith]
  split
  · split <;> rfl
  · rfl

end Utils.Bits
