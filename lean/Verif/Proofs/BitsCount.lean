import Verif.Proofs.BitsC

/-! # Bit lengths, leading and trailing zeros -/

namespace Utils.Bits

open Utils.Spec

theorem bitLength_zero : BitLength 0 0 := ⟨by decide, fun _ _ => Nat.zero_le _⟩

theorem bitLength_succ {n b : Nat} (hn : n ≠ 0) (h : BitLength (n / 2) b) :
    BitLength n (b + 1) := by
  obtain ⟨h1, h2⟩ := h
  refine ⟨by rw [Nat.pow_succ]; omega, ?_⟩
  intro c hc
  cases c with
  | zero => simp at hc; omega
  | succ c =>
    have := h2 c (by rw [Nat.pow_succ] at hc; omega)
    omega

theorem bitLength_unique {n b c : Nat} (h1 : BitLength n b) (h2 : BitLength n c) : b = c :=
  Nat.le_antisymm (h1.2 c h2.1) (h2.2 b h1.1)

theorem bitsCount_bitLength (v : BitVec 64) : BitLength v.toNat (bitsCount v) := by
  induction v using bitsCount.induct with
  | case1 =>
    rw [bitsCount, dif_pos rfl]
    exact bitLength_zero
  | case2 v h ih =>
    have h1 : v.toNat ≠ 0 := fun h0 => h (BitVec.eq_of_toNat_eq (by simpa using h0))
    rw [bitsCount, dif_neg h]
    rw [BitVec.toNat_ushiftRight, Nat.shiftRight_eq_div_pow, Nat.pow_one] at ih
    have hs := bitLength_succ h1 ih
    have hle : bitsCount (v >>> 1) + 1 ≤ 64 := hs.2 64 v.isLt
    rw [Nat.mod_eq_of_lt (by omega), Nat.add_comm]
    exact hs

theorem bitsCount_le (v : BitVec 64) : bitsCount v ≤ 64 :=
  (bitsCount_bitLength v).2 64 v.isLt

theorem nbitsOccupiedLoop_bitLength {w : Nat} (v : BitVec w) (n : Nat) :
    ∃ b, BitLength v.toNat b ∧ nbitsOccupiedLoop v n = n + b := by
  induction v, n using nbitsOccupiedLoop.induct with
  | case1 n => exact ⟨0, by simpa using bitLength_zero, by rw [nbitsOccupiedLoop, dif_pos rfl]; rfl⟩
  | case2 v n h ih =>
    have h1 : v.toNat ≠ 0 := fun h0 => h (BitVec.eq_of_toNat_eq (by simpa using h0))
    obtain ⟨b, hb, he⟩ := ih
    rw [BitVec.toNat_ushiftRight, Nat.shiftRight_eq_div_pow, Nat.pow_one] at hb
    exact ⟨b + 1, bitLength_succ h1 hb, by rw [nbitsOccupiedLoop, dif_neg h, he]; omega⟩

theorem nbitsOccupied_bitLength {w : Nat} (v : BitVec w) :
    BitLength v.toNat (nbitsOccupied v) := by
  obtain ⟨b, hb, he⟩ := nbitsOccupiedLoop_bitLength v 0
  unfold nbitsOccupied
  rw [he, Nat.zero_add]
  exact hb

/-! ## Leading zeros -/

theorem testBit_top {v n : Nat} (h : v < 2 ^ (n + 1)) : v.testBit n = decide (2 ^ n ≤ v) := by
  rw [Nat.testBit_eq_decide_div_mod_eq]
  congr 1
  rw [eq_iff_iff]
  have hp := Nat.two_pow_pos n
  rw [Nat.pow_succ] at h
  have h2 : v / 2 ^ n < 2 := Nat.div_lt_of_lt_mul (by omega)
  constructor
  · intro h3
    have h4 : 1 ≤ v / 2 ^ n := by
      generalize v / 2 ^ n = q at *
      omega
    have := (Nat.le_div_iff_mul_le hp).1 h4
    omega
  · intro h3
    have : 1 ≤ v / 2 ^ n := (Nat.le_div_iff_mul_le hp).2 (by omega)
    omega

theorem highestBit_spec {v : Nat} (hv : v ≠ 0) (n : Nat) (h : v < 2 ^ n) :
    highestBit v n < n ∧ 2 ^ highestBit v n ≤ v ∧ v < 2 ^ (highestBit v n + 1) := by
  induction n with
  | zero => simp at h; omega
  | succ n ih =>
    rw [highestBit, testBit_top h]
    by_cases hc : 2 ^ n ≤ v
    · simp only [hc, decide_true, if_true]
      exact ⟨by omega, trivial, h⟩
    · simp only [hc, decide_false, Bool.false_eq_true, if_false]
      obtain ⟨h1, h2, h3⟩ := ih (by omega)
      exact ⟨by omega, h2, h3⟩

theorem leadingZeros_unique {w v c d : Nat} (h1 : LeadingZeros w v c) (h2 : LeadingZeros w v d) :
    c = d := by
  have aux : ∀ c d, LeadingZeros w v c → LeadingZeros w v d → c ≤ d := by
    intro c d h1 h2
    apply Nat.le_of_not_lt
    intro hlt
    have h3 : 2 ^ (w - c) ≤ 2 ^ (w - 1 - d) := Nat.pow_le_pow_right (by decide) (by
      have := h1.1; omega)
    have := h1.2.2
    have := h2.2.1
    omega
  exact Nat.le_antisymm (aux c d h1 h2) (aux d c h2 h1)

theorem trailingZeros_unique {v c d : Nat} (h1 : TrailingZeros v c) (h2 : TrailingZeros v d) :
    c = d := by
  have aux : ∀ c d, TrailingZeros v c → TrailingZeros v d → c ≤ d := by
    intro c d h1 h2
    apply Nat.le_of_not_lt
    intro hlt
    exact h2.2 (Nat.dvd_trans (Nat.pow_dvd_pow 2 (by omega)) h1.1)
  exact Nat.le_antisymm (aux c d h1 h2) (aux d c h2 h1)

theorem toNat_ne_zero {w : Nat} {v : BitVec w} (h : v ≠ 0#w) : v.toNat ≠ 0 :=
  fun h0 => h (BitVec.eq_of_toNat_eq (by simpa using h0))

theorem gt_zero_of_ne {w : Nat} {v : BitVec w} (h : v ≠ 0#w) : decide (v > 0#w) = true := by
  rw [decide_eq_true_iff, gt_iff_lt, BitVec.lt_def]
  have := toNat_ne_zero h
  simp
  omega

theorem land_one_shl {w i : Nat} (_hi : i < w) (v t : BitVec w) (ht : t.toNat = 2 ^ i) :
    (v &&& t) = 0#w ↔ v.toNat.testBit i = false := by
  rw [BitVec.toNat_eq, BitVec.toNat_and, ht, BitVec.toNat_ofNat, Nat.zero_mod]
  constructor
  · intro h
    have h2 := congrArg (fun n => n.testBit i) h
    simpa [Nat.testBit_and, Nat.testBit_two_pow] using h2
  · intro h
    apply Nat.eq_of_testBit_eq
    intro j
    rw [Nat.testBit_and, Nat.testBit_two_pow, Nat.zero_testBit]
    by_cases hij : i = j
    · subst hij; simp [h]
    · simp [hij]

theorem craftedClzLoop_spec {w : Nat} {v : BitVec w} (hv : v ≠ 0#w) (test : BitVec w) (c : Nat)
    (hc : c < w) (ht : test.toNat = 2 ^ (w - 1 - c)) (hlt : v.toNat < 2 ^ (w - c)) :
    LeadingZeros w v.toNat (craftedClzLoop v test c) := by
  induction test, c using craftedClzLoop.induct v with
  | case1 test c h ih =>
    rw [craftedClzLoop, if_pos h]
    have hz := (land_one_shl (by omega) v test ht).1 h.2
    have e : w - c = (w - 1 - c) + 1 := by omega
    rw [e] at hlt
    rw [testBit_top hlt, decide_eq_false_iff_not] at hz
    apply ih (by omega)
    · rw [BitVec.toNat_ushiftRight, ht, Nat.shiftRight_eq_div_pow]
      have e2 : w - 1 - c = (w - 1 - (c + 1)) + 1 := by omega
      rw [e2, Nat.pow_succ, Nat.pow_one]
      omega
    · have e2 : w - (c + 1) = w - 1 - c := by omega
      rw [e2]; omega
  | case2 test c h =>
    rw [craftedClzLoop, if_neg h]
    refine ⟨hc, ?_, hlt⟩
    by_cases hc1 : c < w - 1
    · have hz : ¬ (v &&& test) = 0#w := fun hz => h ⟨hc1, hz⟩
      rw [land_one_shl (by omega) v test ht, Bool.not_eq_false] at hz
      have e : w - c = (w - 1 - c) + 1 := by omega
      rw [e] at hlt
      rw [testBit_top hlt, decide_eq_true_iff] at hz
      exact hz
    · have : w - 1 - c = 0 := by omega
      rw [this]
      have := toNat_ne_zero hv
      simp
      omega

theorem calcClz_spec {w : Nat} (impl : Impl) (debug : Bool) {v : BitVec w} (hv : v ≠ 0#w) :
    ∃ c, calcClz impl debug v = .ok c ∧ LeadingZeros w v.toNat c := by
  have hn := toNat_ne_zero hv
  obtain ⟨h1, h2, h3⟩ := highestBit_spec hn w v.isLt
  have hlz : LeadingZeros w v.toNat (w - 1 - highestBit v.toNat w) := by
    refine ⟨by omega, ?_, ?_⟩
    · rw [(by omega : w - 1 - (w - 1 - highestBit v.toNat w) = highestBit v.toNat w)]; exact h2
    · rw [(by omega : w - (w - 1 - highestBit v.toNat w) = highestBit v.toNat w + 1)]; exact h3
  unfold calcClz
  rw [gt_zero_of_ne hv, cassert_true, Outcome.ok_bind]
  cases impl with
  | builtin => exact ⟨_, by simp only [hv, if_false]; rfl, hlz⟩
  | bitScan =>
    refine ⟨w - highestBit v.toNat w - 1, by simp only [hv, if_false]; rfl, ?_⟩
    rwa [(by omega : w - highestBit v.toNat w - 1 = w - 1 - highestBit v.toNat w)]
  | crafted =>
    have hw : 0 < w := by omega
    refine ⟨_, by simp only [craftedClz, gt_zero_of_ne hv, cassert_true, Outcome.ok_bind]; rfl, ?_⟩
    apply craftedClzLoop_spec hv _ 0 hw
    · rw [BitVec.toNat_shiftLeft, BitVec.toNat_ofNat, Nat.shiftLeft_eq]
      have h2 : 2 ^ (w - 1) < 2 ^ w := Nat.pow_lt_pow_right (by decide) (by omega)
      have := Nat.two_pow_pos (w - 1)
      rw [Nat.mod_eq_of_lt (a := 1) (by omega), Nat.one_mul, Nat.mod_eq_of_lt h2, Nat.sub_zero]
    · rw [Nat.sub_zero]; exact v.isLt

/-! ## Trailing zeros -/

theorem dvd_succ_of_testBit {v i : Nat} (hd : 2 ^ i ∣ v) :
    v.testBit i = false ↔ 2 ^ (i + 1) ∣ v := by
  obtain ⟨c, rfl⟩ := hd
  have hp := Nat.two_pow_pos i
  rw [Nat.testBit_eq_decide_div_mod_eq, Nat.mul_div_cancel_left _ hp, decide_eq_false_iff_not,
    Nat.pow_succ]
  constructor
  · intro h
    exact Nat.mul_dvd_mul_left _ ⟨c / 2, by omega⟩
  · intro h
    have := Nat.dvd_of_mul_dvd_mul_left hp h
    omega

theorem lowestBit_spec {v : Nat} (hv : v ≠ 0) (n : Nat) : ∀ i, 2 ^ i ∣ v → v < 2 ^ (i + n) →
    TrailingZeros v (lowestBit v i n) := by
  induction n with
  | zero =>
    intro i hd hlt
    have := Nat.le_of_dvd (by omega) hd
    simp at hlt
    omega
  | succ n ih =>
    intro i hd hlt
    rw [lowestBit]
    have hds := dvd_succ_of_testBit hd
    by_cases h : v.testBit i = true
    · rw [if_pos h]
      refine ⟨hd, fun h2 => ?_⟩
      rw [← hds, h] at h2
      cases h2
    · rw [if_neg h]
      apply ih (i + 1)
      · exact hds.1 (by simpa using h)
      · rwa [(by omega : i + 1 + n = i + (n + 1))]

theorem craftedCtzLoop_spec {w : Nat} {V : Nat} (hV : V ≠ 0) (hVw : V < 2 ^ w) (v : BitVec w)
    (c : Nat) (hc : c < w) (hv : v.toNat = V / 2 ^ c) (hd : 2 ^ c ∣ V) :
    TrailingZeros V (craftedCtzLoop v c) := by
  induction v, c using craftedCtzLoop.induct with
  | case1 v c h ih =>
    rw [craftedCtzLoop, if_pos h]
    have h1 : (1#w).toNat = 2 ^ 0 := by
      rw [BitVec.toNat_ofNat, Nat.mod_eq_of_lt]; rfl
      exact Nat.one_lt_two_pow (by omega)
    have hz := (land_one_shl (i := 0) (by omega) v 1#w h1).1 h.2
    rw [hv, Nat.testBit_div_two_pow, Nat.zero_add, dvd_succ_of_testBit hd] at hz
    apply ih (by omega) _ hz
    rw [BitVec.toNat_ushiftRight, hv, Nat.shiftRight_eq_div_pow, Nat.div_div_eq_div_mul,
      Nat.pow_one, Nat.pow_succ]
  | case2 v c h =>
    rw [craftedCtzLoop, if_neg h]
    refine ⟨hd, ?_⟩
    by_cases hc1 : c < w - 1
    · have hz : ¬ (v &&& 1#w) = 0#w := fun hz => h ⟨hc1, hz⟩
      have h1 : (1#w).toNat = 2 ^ 0 := by
        rw [BitVec.toNat_ofNat, Nat.mod_eq_of_lt]; rfl
        exact Nat.one_lt_two_pow (by omega)
      rw [land_one_shl (i := 0) (by omega) v 1#w h1, hv, Nat.testBit_div_two_pow, Nat.zero_add,
        dvd_succ_of_testBit hd] at hz
      exact hz
    · intro h2
      have := Nat.le_of_dvd (by omega) h2
      rw [(by omega : c + 1 = w)] at this
      omega

theorem calcCtz_spec {w : Nat} (impl : Impl) (debug : Bool) {v : BitVec w} (hv : v ≠ 0#w) :
    ∃ c, calcCtz impl debug v = .ok c ∧ TrailingZeros v.toNat c := by
  have hn := toNat_ne_zero hv
  have hl := lowestBit_spec hn w 0 (by simp) (by rw [Nat.zero_add]; exact v.isLt)
  unfold calcCtz
  rw [gt_zero_of_ne hv, cassert_true, Outcome.ok_bind]
  cases impl with
  | builtin => exact ⟨_, by simp only [hv, if_false]; rfl, hl⟩
  | bitScan => exact ⟨_, by simp only [hv, if_false]; rfl, hl⟩
  | crafted =>
    have hw : 0 < w := by
      apply Nat.pos_of_ne_zero
      rintro rfl
      have := v.isLt
      simp at this
      omega
    refine ⟨_, by simp only [craftedCtz, gt_zero_of_ne hv, cassert_true, Outcome.ok_bind]; rfl, ?_⟩
    exact craftedCtzLoop_spec hn v.isLt v 0 hw (by simp) (by simp)

theorem trailingZeros_lt {w v c : Nat} (hv : v ≠ 0) (hw : v < 2 ^ w) (h : TrailingZeros v c) :
    c < w := by
  apply Nat.lt_of_not_le
  intro hle
  have h1 := Nat.le_of_dvd (by omega) h.1
  have : 2 ^ w ≤ 2 ^ c := Nat.pow_le_pow_right (by decide) hle
  omega

theorem greatest_of_trailingZeros {v c : Nat} (h : TrailingZeros v c) :
    GreatestPow2Divisor v (2 ^ c) := by
  refine ⟨⟨c, rfl⟩, h.1, ?_⟩
  rintro e ⟨j, rfl⟩ hd
  apply Nat.pow_le_pow_right (by decide)
  apply Nat.le_of_not_lt
  intro hlt
  exact h.2 (Nat.dvd_trans (Nat.pow_dvd_pow 2 (by omega)) hd)

end Utils.Bits
