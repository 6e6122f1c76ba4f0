import Verif.Proofs.Bits

/-! # Lemmas about the bit helpers on C types -/

namespace Utils.Bits

open Utils.Spec

/-- `a & -2^k` on bit patterns of width `W`, when `b` is congruent to `-2^k`. -/
theorem toNat_and_ofInt {W k : Nat} (hk : k < W) {a b : Int} (ha : 0 ≤ a) (ha' : a < 2 ^ W)
    (hb : b % 2 ^ W = (-(2 ^ k : Int)) % 2 ^ W) :
    (BitVec.ofInt W a &&& BitVec.ofInt W b).toNat = a.toNat / 2 ^ k * 2 ^ k := by
  have hkw : 2 ^ k < 2 ^ W := Nat.pow_lt_pow_right (by decide) hk
  have e1 : BitVec.ofInt W b = -(BitVec.ofNat W (2 ^ k)) := by
    apply BitVec.eq_of_toNat_eq
    rw [BitVec.toNat_ofInt, BitVec.toNat_neg, BitVec.toNat_ofNat, Nat.mod_eq_of_lt hkw]
    have h2 : ((2 ^ W : Nat) : Int) = 2 ^ W := by norm_num
    have h3 : ((2 ^ k : Nat) : Int) = 2 ^ k := by norm_num
    rw [h2, hb]
    have h1 : (0 : Int) < 2 ^ k := by rw [← h3]; exact_mod_cast Nat.two_pow_pos k
    have hkw' : (2 ^ k : Int) < 2 ^ W := by rw [← h2, ← h3]; exact_mod_cast hkw
    have h4 : (-(2 ^ k : Int)) % 2 ^ W = 2 ^ W - 2 ^ k := by
      rw [← Int.add_emod_right, Int.emod_eq_of_lt (by omega) (by omega)]
      omega
    rw [h4, Nat.mod_eq_of_lt (by have := Nat.two_pow_pos k; omega)]
    omega
  rw [e1, toNat_land_neg hk (by rw [BitVec.toNat_ofNat, Nat.mod_eq_of_lt hkw])]
  congr 2
  rw [BitVec.toNat_ofInt]
  have h2 : ((2 ^ W : Nat) : Int) = 2 ^ W := by norm_num
  rw [h2, Int.emod_eq_of_lt ha ha']


theorem ofBits_eq_toNat {t : CTy} {W : Nat} {x : BitVec W} (h : t.signed = true → 2 * x.toNat < 2 ^ W) :
    t.ofBits x = (x.toNat : Int) := by
  unfold CTy.ofBits
  split
  · next hs => exact BitVec.toInt_eq_toNat_of_lt (h hs)
  · rfl

theorem pow_le_of_lt {k n : Nat} (h : k < n) : (2 ^ k : Int) * 2 ≤ 2 ^ n := by
  have : 2 ^ (k + 1) ≤ 2 ^ n := Nat.pow_le_pow_right (by decide) h
  rw [Nat.pow_succ] at this
  exact_mod_cast this

theorem pow_pos_int (k : Nat) : (0 : Int) < 2 ^ k := by exact_mod_cast Nat.two_pow_pos k

theorem band_eq {a b : CVal} {t : CTy} (h : CTy.usual a.ty b.ty = t) :
    CVal.band a b = ⟨t, t.ofBits
      (BitVec.ofInt t.width (t.conv a.val) &&& BitVec.ofInt t.width (t.conv b.val))⟩ := by
  subst h; rfl

theorem bnot_eq {a : CVal} {t : CTy} (h : a.ty.promote = t) :
    CVal.bnot a = ⟨t, t.ofBits (~~~ (BitVec.ofInt t.width (t.conv a.val)))⟩ := by
  subst h; rfl

/-- `next_multiple_of<2^k, U>`, closed form, for a power of two that fits `U`. -/
theorem nextMultipleOfT_eq {t : CTy} (ht : t.isUInt = true) {k : Nat} (hk : k < t.width) {v : Int}
    (hv : t.InRange v) :
    nextMultipleOfT t (2 ^ k) v
      = .ok ((((v.toNat + (2 ^ k - 1)) / 2 ^ k * 2 ^ k) % 2 ^ t.width : Nat) : Int) := by
  rw [CTy.inRange_unsigned ht] at hv
  have hk64 : k < 64 := by have := (CTy.width_le t).2; omega
  have hp := pow_pos_int k
  have hpw := pow_le_of_lt hk
  have hc1 : t.conv ((2 ^ k : Nat) : Int) = 2 ^ k := by
    have : ((2 ^ k : Nat) : Int) = 2 ^ k := by norm_num
    rw [this]
    exact CTy.conv_eq_self ((CTy.inRange_unsigned ht).2 ⟨by omega, by omega⟩)
  have hc2 : t.conv (((2 ^ k : Nat) : Int) - 1) = 2 ^ k - 1 := by
    have : ((2 ^ k : Nat) : Int) = 2 ^ k := by norm_num
    rw [this]
    exact CTy.conv_eq_self ((CTy.inRange_unsigned ht).2 ⟨by omega, by omega⟩)
  unfold nextMultipleOfT
  simp only [CVal.cast, hc1, hc2]
  -- narrow types are promoted to `int`, the others stay
  have key : ∀ (W : Nat) (t' : CTy), CTy.usual t t = t' → t.promote = t' → CTy.usual t' t' = t' →
      t'.width = W → k < W → t ≠ .bool →
      ((t'.signed = true ∧ t' ≠ .bool ∧ (2 ^ t.width : Int) * 4 ≤ 2 ^ W) ∨ t' = t) →
      (do
        let s ← CVal.add ⟨t, v⟩ ⟨t, 2 ^ k - 1⟩
        let n ← CVal.neg ⟨t, 2 ^ k⟩
        pure (t.conv (CVal.band s n).val) : Outcome Int)
      = .ok ((((v.toNat + (2 ^ k - 1)) / 2 ^ k * 2 ^ k) % 2 ^ t.width : Nat) : Int) := by
    intro W t' hu hpr hu' hW hkW htb hcase
    have hWp := pow_pos_int W
    rcases hcase with ⟨hs, hnb, hle⟩ | hsame
    · have hmin : t'.minVal = -(2 ^ (W - 1)) := by simp [CTy.minVal, hs, hW]
      have hmax : t'.maxVal = 2 ^ (W - 1) - 1 := by simp [CTy.maxVal, hs, hW]
      have h2W : (2 : Int) ^ W = 2 * 2 ^ (W - 1) := by
        rw [← pow_succ']; congr 1; omega
      have hin : ∀ x : Int, -(2 ^ (W - 1)) ≤ x → x < 2 ^ (W - 1) → t'.InRange x := by
        intro x h1 h2; unfold CTy.InRange; rw [hmin, hmax]; omega
      have e1 : t'.conv v = v := CTy.conv_eq_self (hin _ (by omega) (by omega))
      have e2 : t'.conv (2 ^ k - 1) = 2 ^ k - 1 := CTy.conv_eq_self (hin _ (by omega) (by omega))
      have e3 : t'.conv (2 ^ k) = 2 ^ k := CTy.conv_eq_self (hin _ (by omega) (by omega))
      have r1 : t'.InRange (v + (2 ^ k - 1)) := hin _ (by omega) (by omega)
      have r2 : t'.InRange (-(2 ^ k)) := hin _ (by omega) (by omega)
      simp only [CVal.add, CVal.neg, hu, hpr, e1, e2, e3, CVal.arith, hs, if_true, r1, r2,
        Outcome.ok_bind, band_eq (a := ⟨t', _⟩) (b := ⟨t', _⟩) hu', CTy.conv_eq_self r1, CTy.conv_eq_self r2,
        Outcome.pure_eq]
      have hb := toNat_and_ofInt (W := t'.width) (k := k) (a := v + (2 ^ k - 1)) (b := -(2 ^ k))
        (by omega) (by omega) (by rw [hW]; omega) rfl
      have hnat : (v + (2 ^ k - 1)).toNat = v.toNat + (2 ^ k - 1) := by
        have h3 : ((2 ^ k : Nat) : Int) = 2 ^ k := by norm_num
        have := Nat.two_pow_pos k
        omega
      rw [hnat] at hb
      have hle2 : (v.toNat + (2 ^ k - 1)) / 2 ^ k * 2 ^ k ≤ v.toNat + (2 ^ k - 1) :=
        Nat.div_mul_le_self _ _
      have hsm : 2 * ((v.toNat + (2 ^ k - 1)) / 2 ^ k * 2 ^ k) < 2 ^ t'.width := by
        have h3 : ((2 ^ k : Nat) : Int) = 2 ^ k := by norm_num
        have h4 : ((2 ^ t'.width : Nat) : Int) = 2 ^ t'.width := by norm_num
        rw [hW] at h4 ⊢
        omega
      rw [ofBits_eq_toNat (fun _ => by rw [hb]; exact hsm), hb, CTy.conv_unsigned ht]
      norm_cast
    · subst hsame
      have hns : t'.signed = false := by
        simp [CTy.isUInt] at ht; exact ht.1
      have e1 : t'.conv v = v :=
        CTy.conv_eq_self ((CTy.inRange_unsigned ht).2 ⟨by omega, by omega⟩)
      have e2 : t'.conv (2 ^ k - 1) = 2 ^ k - 1 :=
        CTy.conv_eq_self ((CTy.inRange_unsigned ht).2 ⟨by omega, by omega⟩)
      have e3 : t'.conv (2 ^ k) = 2 ^ k :=
        CTy.conv_eq_self ((CTy.inRange_unsigned ht).2 ⟨by omega, by omega⟩)
      have e4 : ∀ x, t'.conv (t'.conv x) = t'.conv x := fun x =>
        CTy.conv_eq_self (CTy.conv_inRange _ _)
      simp only [CVal.add, CVal.neg, hu, hpr, e1, e2, e3, CVal.arith, hns,
        Outcome.ok_bind, band_eq (a := ⟨t', _⟩) (b := ⟨t', _⟩) hu', e4, Outcome.pure_eq, Bool.false_eq_true, if_false]
      rw [CTy.conv_unsigned ht (v + _), CTy.conv_unsigned ht (-(2 ^ k))]
      have hpos := pow_pos_int t'.width
      have hb := toNat_and_ofInt (W := t'.width) (k := k) (a := (v + (2 ^ k - 1)) % 2 ^ t'.width)
        (b := -(2 ^ k) % 2 ^ t'.width)
        (by omega) (Int.emod_nonneg _ (by omega)) (Int.emod_lt_of_pos _ hpos)
        (Int.emod_emod_of_dvd _ (Int.dvd_refl _))
      rw [ofBits_eq_toNat (fun h => by rw [hns] at h; cases h), hb, CTy.conv_unsigned ht]
      have hnat : ((v + (2 ^ k - 1)) % 2 ^ t'.width).toNat
          = (v.toNat + (2 ^ k - 1)) % 2 ^ t'.width := by
        have h3 : ((2 ^ k : Nat) : Int) = 2 ^ k := by norm_num
        have := Nat.two_pow_pos k
        have h5 : v + (2 ^ k - 1) = ((v.toNat + (2 ^ k - 1) : Nat) : Int) := by omega
        rw [h5]
        have h6 : (2 ^ t'.width : Int) = ((2 ^ t'.width : Nat) : Int) := by norm_num
        rw [h6, ← Int.natCast_emod, Int.toNat_natCast]
      rw [hnat]
      have : ((v.toNat + (2 ^ k - 1)) % 2 ^ t'.width) / 2 ^ k * 2 ^ k
          = ((v.toNat + (2 ^ k - 1)) / 2 ^ k * 2 ^ k) % 2 ^ t'.width := by
        obtain ⟨j, hj⟩ : ∃ j, t'.width = k + j := ⟨t'.width - k, by omega⟩
        rw [hj, Nat.pow_add, Nat.mod_mul_right_div_self, Nat.mul_comm (2 ^ k) (2 ^ j),
          Nat.mul_mod_mul_right]
      rw [this]
      norm_cast
      rw [Nat.mod_mod]
  cases t
  case uchar => exact key 32 .int (by decide) (by decide) (by decide) (by decide)
                  (by simp [CTy.width] at hk; omega) (by decide) (Or.inl (by decide))
  case ushort => exact key 32 .int (by decide) (by decide) (by decide) (by decide)
                  (by simp [CTy.width] at hk; omega) (by decide) (Or.inl (by decide))
  case uint => exact key 32 .uint (by decide) (by decide) (by decide) (by decide)
                  (by simpa [CTy.width] using hk) (by decide) (Or.inr rfl)
  case ulong => exact key 64 .ulong (by decide) (by decide) (by decide) (by decide)
                  (by simpa [CTy.width] using hk) (by decide) (Or.inr rfl)
  case ullong => exact key 64 .ullong (by decide) (by decide) (by decide) (by decide)
                  (by simpa [CTy.width] using hk) (by decide) (Or.inr rfl)
  all_goals exact absurd ht (by decide)


theorem conv_zero (t : CTy) : t.conv 0 = 0 := by cases t <;> decide

theorem band_zero (a : CVal) (t : CTy) : (CVal.band a ⟨t, 0⟩).val = 0 := by
  rw [band_eq (t := CTy.usual a.ty t) rfl]
  simp [conv_zero, CTy.ofBits]

/-- `next_multiple_of<2^k, U>` when `2^k` does not fit `U`: always 0. -/
theorem nextMultipleOfT_big {t : CTy} (ht : t.isUInt = true) {k : Nat} (hk : t.width ≤ k)
    {v : Int} (hv : t.InRange v) : nextMultipleOfT t (2 ^ k) v = .ok 0 := by
  rw [CTy.inRange_unsigned ht] at hv
  have hc1 : t.conv ((2 ^ k : Nat) : Int) = 0 := by
    rw [CTy.conv_unsigned ht]
    apply Int.emod_eq_zero_of_dvd
    have := Nat.pow_dvd_pow 2 hk
    exact_mod_cast this
  have hc2 : t.conv (((2 ^ k : Nat) : Int) - 1) = 2 ^ t.width - 1 := by
    rw [CTy.conv_unsigned ht]
    obtain ⟨c, hc⟩ : (2 ^ t.width : Int) ∣ ((2 ^ k : Nat) : Int) := by
      exact_mod_cast Nat.pow_dvd_pow 2 hk
    have := pow_pos_int t.width
    have e : ((2 ^ k : Nat) : Int) - 1 = (2 ^ t.width - 1) + 2 ^ t.width * (c - 1) := by
      rw [hc]; ring
    rw [e, Int.add_mul_emod_self_left, Int.emod_eq_of_lt (by omega) (by omega)]
  unfold nextMultipleOfT
  simp only [CVal.cast, hc1, hc2]
  have hneg : CVal.neg ⟨t, 0⟩ = .ok ⟨t.promote, 0⟩ := by
    cases t <;> decide
  rw [hneg]
  have hadd : ∃ s, CVal.add ⟨t, v⟩ ⟨t, 2 ^ t.width - 1⟩ = .ok s := by
    cases t
    case uchar =>
      have e1 : CTy.conv .int v = v := CTy.conv_eq_self (by
        simp [CTy.width] at hv; simp [CTy.InRange, CTy.minVal, CTy.maxVal, CTy.signed, CTy.width]
        omega)
      have r1 : CTy.InRange .int (v + 255) := by
        simp [CTy.width] at hv; simp [CTy.InRange, CTy.minVal, CTy.maxVal, CTy.signed, CTy.width]
        omega
      simp [CVal.add, CTy.usual, CTy.promote, CVal.arith, CTy.signed, e1, r1, CTy.width,
        show CTy.conv .int 255 = 255 by decide]
    case ushort =>
      have e1 : CTy.conv .int v = v := CTy.conv_eq_self (by
        simp [CTy.width] at hv; simp [CTy.InRange, CTy.minVal, CTy.maxVal, CTy.signed, CTy.width]
        omega)
      have r1 : CTy.InRange .int (v + 65535) := by
        simp [CTy.width] at hv; simp [CTy.InRange, CTy.minVal, CTy.maxVal, CTy.signed, CTy.width]
        omega
      simp [CVal.add, CTy.usual, CTy.promote, CVal.arith, CTy.signed, e1, r1, CTy.width,
        show CTy.conv .int 65535 = 65535 by decide]
    case uint => simp [CVal.add, CTy.usual, CTy.promote, CVal.arith, CTy.signed]
    case ulong => simp [CVal.add, CTy.usual, CTy.promote, CVal.arith, CTy.signed]
    case ullong => simp [CVal.add, CTy.usual, CTy.promote, CVal.arith, CTy.signed]
    all_goals exact absurd ht (by decide)
  obtain ⟨s, hs⟩ := hadd
  rw [hs]
  simp only [Outcome.ok_bind, band_zero, conv_zero, Outcome.pure_eq]

/-! ## `greatest_divisor_that_is_power_of_2` -/

theorem ofInt_conv_ofBits {t : CTy} (x : BitVec t.width) :
    BitVec.ofInt t.width (t.conv (t.ofBits x)) = x := by
  have hr : t.InRange (t.ofBits x) := by
    have h1 := x.isLt
    have h2 := BitVec.le_toInt x
    have h3 := BitVec.toInt_lt (x := x)
    unfold CTy.InRange CTy.minVal CTy.maxVal CTy.ofBits
    split
    · omega
    · constructor
      · omega
      · have : ((2 ^ t.width : Nat) : Int) = 2 ^ t.width := by norm_num
        omega
  rw [CTy.conv_eq_self hr]
  unfold CTy.ofBits
  split
  · exact BitVec.ofInt_toInt
  · apply BitVec.eq_of_toNat_eq
    rw [BitVec.toNat_ofInt]
    have := x.isLt
    rw [← Int.natCast_emod, Int.toNat_natCast, Nat.mod_eq_of_lt this]

theorem greatestDivisorPow2_eq {t : CTy} (ht : t.isUInt = true) {v : Int} (hv : t.InRange v)
    {k m : Nat} (hkm : v = ((2 ^ k * (2 * m + 1) : Nat) : Int)) :
    greatestDivisorPow2 t v = .ok (2 ^ k) := by
  rw [CTy.inRange_unsigned ht] at hv
  have hv1 : 1 ≤ v := by
    have : 0 < 2 ^ k * (2 * m + 1) := Nat.mul_pos (Nat.two_pow_pos k) (by omega)
    omega
  have hkv : (2 ^ k : Int) ≤ v := by
    rw [hkm]
    have : 2 ^ k ≤ 2 ^ k * (2 * m + 1) := Nat.le_mul_of_pos_right _ (by omega)
    exact_mod_cast this
  have key : ∀ t' : CTy, CTy.usual t .int = t' → t'.promote = t' → CTy.usual t t' = t' →
      t' ≠ .bool →
      (2 * 2 ^ t.width ≤ (2 ^ t'.width : Int) ∧ t'.signed = true ∨ t' = t) →
      greatestDivisorPow2 t v = .ok (2 ^ k) := by
    intro t' hu hp hu' hb hcase
    have hin : ∀ x : Int, 0 ≤ x → x < 2 ^ t.width → t'.InRange x := by
      intro x h1 h2
      rcases hcase with ⟨h3, h4⟩ | rfl
      · unfold CTy.InRange CTy.minVal CTy.maxVal
        simp only [h4, if_true]
        have h5 : (2 : Int) ^ t'.width = 2 * 2 ^ (t'.width - 1) := by
          rw [← pow_succ']; congr 1; have := (CTy.width_le t').1; omega
        have := pow_pos_int (t'.width - 1)
        omega
      · exact (CTy.inRange_unsigned ht).2 ⟨h1, h2⟩
    have ecv : t'.conv v = v := CTy.conv_eq_self (hin v hv.1 hv.2)
    have ec1 : t'.conv 1 = 1 := CTy.conv_eq_self (hin 1 (by omega) (by
      have := pow_le_of_lt (k := 0) (n := t.width) (CTy.width_le t).1; omega))
    have ecd : t'.conv (v - 1) = v - 1 := CTy.conv_eq_self (hin _ (by omega) (by omega))
    have har : CVal.arith t' (v - 1) = .ok ⟨t', v - 1⟩ := by
      unfold CVal.arith
      rw [ecd]
      split
      · rw [if_pos (hin _ (by omega) (by omega))]
      · rfl
    have htr : (CVal.truthy ⟨t, v⟩) = true := by simp [CVal.truthy]; omega
    have hWle : (2 ^ t.width : Int) ≤ 2 ^ t'.width := by
      rcases hcase with ⟨h3, _⟩ | rfl
      · have := pow_pos_int t.width; omega
      · exact Int.le_refl _
    unfold greatestDivisorPow2
    simp only [htr, if_true, CVal.sub, hu, ecv, ec1, har, Outcome.ok_bind, bnot_eq (a := ⟨t', _⟩) hp,
      ecd, Outcome.pure_eq]
    rw [band_eq (a := ⟨t, v⟩) (b := ⟨t', _⟩) hu']
    simp only [ecv, ofInt_conv_ofBits]
    have hnat : (BitVec.ofInt t'.width v &&& ~~~ (BitVec.ofInt t'.width (v - 1))).toNat = 2 ^ k := by
      have hW : ((2 ^ t'.width : Nat) : Int) = 2 ^ t'.width := by norm_num
      have hlt : v.toNat < 2 ^ t'.width := by omega
      have hvt : v.toNat = 2 ^ k * (2 * m + 1) := by omega
      rw [BitVec.toNat_and, BitVec.toNat_not, BitVec.toNat_ofInt, BitVec.toNat_ofInt, hW,
        Int.emod_eq_of_lt (by omega) (by omega), Int.emod_eq_of_lt (by omega) (by omega),
        (by omega : 2 ^ t'.width - 1 - (v - 1).toNat = 2 ^ t'.width - v.toNat)]
      exact land_neg_self hlt hvt
    rw [ofBits_eq_toNat, hnat]
    · have : ((2 ^ k : Nat) : Int) = 2 ^ k := by norm_num
      rw [this, CTy.conv_eq_self ((CTy.inRange_unsigned ht).2 ⟨Int.le_of_lt (pow_pos_int k), by omega⟩)]
    · intro hs
      rw [hnat]
      rcases hcase with ⟨h3, _⟩ | rfl
      · have : ((2 ^ k : Nat) : Int) = 2 ^ k := by norm_num
        have : ((2 ^ t'.width : Nat) : Int) = 2 ^ t'.width := by norm_num
        omega
      · simp [CTy.isUInt] at ht
        rw [ht.1] at hs
        cases hs
  cases t
  case uchar => exact key .int (by decide) (by decide) (by decide) (by decide) (by decide)
  case ushort => exact key .int (by decide) (by decide) (by decide) (by decide) (by decide)
  case uint => exact key .uint (by decide) (by decide) (by decide) (by decide) (by decide)
  case ulong => exact key .ulong (by decide) (by decide) (by decide) (by decide) (by decide)
  case ullong => exact key .ullong (by decide) (by decide) (by decide) (by decide) (by decide)
  all_goals exact absurd ht (by decide)

theorem greatestDivisorPow2_zero {t : CTy} (ht : t.isUInt = true) :
    greatestDivisorPow2 t 0 = .ok (2 ^ (t.width - 1)) := by
  cases t
  case uchar => decide
  case ushort => decide
  case uint => decide
  case ulong => decide
  case ullong => decide
  all_goals exact absurd ht (by decide)

end Utils.Bits
