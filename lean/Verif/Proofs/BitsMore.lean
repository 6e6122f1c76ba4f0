import Verif.Proofs.BitsCount
import Verif.Proofs.TypeList

/-! # Dispatch of `clz`/`ctz`, `max_alignment_inside_block`, `div`, shifts -/

namespace Utils.Bits

open Utils.Spec

/-! ## Dispatch -/

theorem isEqualSizes_pair (a b : Nat) : isEqualSizes [a, b] = decide (a = b) := by
  unfold isEqualSizes VL.isSame VL.isSameImpl
  simp

theorem dispatch_some {supported : List Supported} {size : Nat} (hl : supported.length < 2 ^ 64)
    (h : ∃ u ∈ supported, size ≤ u.size) :
    ∃ s, dispatch supported size = some s ∧ size ≤ s ∧
      ((∃ u ∈ supported, u.size = size) → s = size) := by
  obtain ⟨sorted, hs, hp, -, -⟩ := TL.sortAscAux_spec Supported.size _ supported (Nat.le_refl _) hl
  unfold dispatch TL.sortAscending
  rw [hs]
  simp only [Option.bind_eq_bind, Option.bind_some, TL.listOfPredicateCompliant_eq,
    isEqualSizes_pair]
  by_cases he : (sorted.filter fun u => decide (u.size = size)).length ≠ 0
  · rw [if_pos he, TL.atImpl_eq, List.getElem?_eq_getElem (by omega)]
    have hm := List.getElem_mem (l := sorted.filter fun u => decide (u.size = size)) (n := 0) (by omega)
    rw [List.mem_filter, decide_eq_true_iff] at hm
    refine ⟨_, rfl, by omega, fun _ => hm.2⟩
  · rw [if_neg he, TL.indexOf_eq]
    have hne : ¬ ∃ u ∈ supported, u.size = size := by
      rintro ⟨u, hu, hus⟩
      apply he
      have : u ∈ sorted.filter fun u => decide (u.size = size) := by
        rw [List.mem_filter, decide_eq_true_iff]
        exact ⟨hp.mem_iff.2 hu, hus⟩
      have := List.length_pos_of_mem this
      omega
    have hlt : sorted.findIdx (fun u => lessEqPred u.size size) < sorted.length := by
      rw [List.findIdx_lt_length]
      obtain ⟨u, hu, hus⟩ := h
      exact ⟨u, hp.mem_iff.2 hu, by simpa [lessEqPred] using hus⟩
    rw [if_pos hlt, TL.atImpl_eq, List.getElem?_eq_getElem hlt]
    have := List.findIdx_getElem (xs := sorted) (p := fun u => lessEqPred u.size size) (w := hlt)
    exact ⟨_, rfl, of_decide_eq_true this, fun h => absurd h hne⟩

theorem dispatch_none {supported : List Supported} {size : Nat} (hl : supported.length < 2 ^ 64)
    (h : ¬ ∃ u ∈ supported, size ≤ u.size) : dispatch supported size = none := by
  obtain ⟨sorted, hs, hp, -, -⟩ := TL.sortAscAux_spec Supported.size _ supported (Nat.le_refl _) hl
  unfold dispatch TL.sortAscending
  rw [hs]
  simp only [Option.bind_eq_bind, Option.bind_some, TL.listOfPredicateCompliant_eq,
    isEqualSizes_pair]
  have he : sorted.filter (fun u => decide (u.size = size)) = [] := by
    rw [List.filter_eq_nil_iff]
    intro u hu
    rw [decide_eq_true_iff]
    intro hus
    exact h ⟨u, hp.mem_iff.1 hu, by omega⟩
  rw [he, if_neg (by simp), TL.indexOf_eq, if_neg]
  rw [List.findIdx_lt_length]
  rintro ⟨u, hu, hus⟩
  simp only [lessEqPred, decide_eq_true_iff] at hus
  exact h ⟨u, hp.mem_iff.1 hu, hus⟩

theorem leadingZeros_narrow {W w v c : Nat} (hwW : w ≤ W) (hvw : v < 2 ^ w)
    (h : LeadingZeros W v c) : W - w ≤ c ∧ LeadingZeros w v (c - (W - w)) := by
  obtain ⟨h1, h2, h3⟩ := h
  have h4 : W - 1 - c < w := by
    apply Nat.lt_of_not_le
    intro hle
    have : 2 ^ w ≤ 2 ^ (W - 1 - c) := Nat.pow_le_pow_right (by decide) hle
    omega
  refine ⟨by omega, by omega, ?_, ?_⟩
  · rw [(by omega : w - 1 - (c - (W - w)) = W - 1 - c)]; exact h2
  · rw [(by omega : w - (c - (W - w)) = W - c)]; exact h3

/-! ## `max_alignment_inside_block` -/

theorem shl_one_int {m : Nat} (hm : m < 31) : CVal.shl ⟨.int, 1⟩ m = .ok ⟨.int, 2 ^ m⟩ := by
  have h1 : (2 ^ m : Int) ≤ 2 ^ 30 := by
    exact_mod_cast (Nat.pow_le_pow_right (by decide) (by omega) : 2 ^ m ≤ 2 ^ 30)
  have h0 := pow_pos_int m
  have e1 : CTy.conv .int 1 = 1 := by decide
  have e2 : CTy.conv .int (2 ^ m) = 2 ^ m := CTy.conv_eq_self (by
    simp only [CTy.InRange, CTy.minVal, CTy.maxVal, CTy.signed, CTy.width, if_true]
    omega)
  unfold CVal.shl
  simp only [CTy.promote, e1, CTy.width, CTy.signed, if_true, one_mul, e2, CTy.toUnsigned,
    show CTy.maxVal .uint = 2 ^ 32 - 1 by decide]
  rw [if_neg (by omega), if_neg (by omega)]

theorem value_toNat {al size : BitVec 64} (hs : size.toNat ≠ 0)
    (h : al.toNat + size.toNat ≤ 2 ^ 64) :
    (al + size - 1#64).toNat = al.toNat + size.toNat - 1 := by
  rw [BitVec.toNat_sub, BitVec.toNat_add, BitVec.toNat_ofNat]
  omega

theorem size_gt_zero {size : BitVec 64} (hs : size.toNat ≠ 0) :
    decide (size > 0#64) = true := by
  apply gt_zero_of_ne
  rintro rfl
  simp at hs

/-- The value of `max_alignment_inside_block` while the shift stays inside `int`. -/
theorem maxAlignmentInsideBlock_eq {al size : BitVec 64} (debug : Bool) {a : Nat}
    (ha : al.toNat = 2 ^ a) (hs : size.toNat ≠ 0) (h : al.toNat + size.toNat ≤ 2 ^ 31) :
    ∃ m, m < 31 ∧ maxAlignmentInsideBlock debug al size = .ok (BitVec.ofNat 64 (2 ^ m)) ∧
      2 ^ m ≤ al.toNat + size.toNat - 1 ∧ al.toNat + size.toNat - 1 < 2 ^ (m + 1) := by
  have ha64 : a < 64 := by
    apply Nat.lt_of_not_le
    intro hle
    have : 2 ^ 64 ≤ 2 ^ a := Nat.pow_le_pow_right (by decide) hle
    have := al.isLt
    omega
  have hp := Nat.two_pow_pos a
  have hv := value_toNat (al := al) hs (by omega)
  have hb := bitsCount_bitLength (al + size - 1#64)
  rw [hv] at hb
  obtain ⟨hb1, hb2⟩ := hb
  have hle31 := hb2 31 (by omega)
  have hpos : bitsCount (al + size - 1#64) ≠ 0 := by
    intro h0
    rw [h0] at hb1
    omega
  obtain ⟨m, hm⟩ : ∃ m, bitsCount (al + size - 1#64) = m + 1 := ⟨_, (Nat.succ_pred hpos).symm⟩
  have hm31 : m < 31 := by omega
  refine ⟨m, hm31, ?_, ?_, by rw [hm] at hb1; exact hb1⟩
  · unfold maxAlignmentInsideBlock
    rw [isPowerOf2_of ha64 ha, size_gt_zero hs, cassert_true, Outcome.ok_bind, Outcome.ok_bind]
    have hconv : CTy.conv .ulong (((m + 1 : Nat) : Int) - 1) = (m : Int) := by
      rw [(by omega : ((m + 1 : Nat) : Int) - 1 = m)]
      apply CTy.conv_eq_self
      simp only [CTy.InRange, CTy.minVal, CTy.maxVal, CTy.signed, CTy.width, Bool.false_eq_true,
        if_false]
      omega
    simp only [hm, hconv, Int.toNat_natCast, shl_one_int hm31, Outcome.ok_bind, Outcome.pure_eq]
    congr 1
  · apply Nat.le_of_not_lt
    intro hlt
    have := hb2 m hlt
    omega


/-! ## Shifts -/

theorem shiftRight_eq {t : CTy} (ht : t ≠ .bool) (debug : Bool) {v : Int} (hv : t.InRange v)
    {n : Nat} (hn : n < t.width) : shiftRight debug t v n = .ok (v / 2 ^ n) := by
  unfold shiftRight
  rw [CTy.sizeof_mul_eight ht, decide_eq_true hn, cassert_true, Outcome.ok_bind]
  have hp := pow_pos_int n
  have h1 : t.promote.conv v = v := by
    apply CTy.conv_eq_self
    revert hv
    unfold CTy.InRange CTy.minVal CTy.maxVal
    cases t <;> simp [CTy.promote, CTy.signed, CTy.width] <;> omega
  have h2 : t.InRange (v / 2 ^ n) := by
    have h3 : (0 ≤ v → 0 ≤ v / 2 ^ n ∧ v / 2 ^ n ≤ v) ∧ (v < 0 → v ≤ v / 2 ^ n ∧ v / 2 ^ n < 0) := by
      constructor
      · intro h0
        exact ⟨Int.ediv_nonneg h0 (by omega), Int.ediv_le_self _ h0⟩
      · intro h0
        refine ⟨?_, Int.ediv_neg_of_neg_of_pos h0 hp⟩
        rw [Int.le_ediv_iff_mul_le hp]
        exact Int.le_of_sub_nonneg (by
          have : v - v * 2 ^ n = (-v) * (2 ^ n - 1) := by ring
          rw [this]
          exact Int.mul_nonneg (by omega) (by omega))
    unfold CTy.InRange at *
    have hmn : t.minVal ≤ 0 := by cases t <;> decide
    have hmx : 0 ≤ t.maxVal := by cases t <;> decide
    omega
  have h3 : ¬ t.promote.width ≤ n := by
    revert hn
    cases t <;> simp [CTy.promote, CTy.width] <;> omega
  unfold CVal.shr
  simp only [h1, h3, if_false, Outcome.ok_bind, Outcome.pure_eq, CTy.conv_eq_self h2]

theorem shiftLeft_eq {t : CTy} (ht : t.isUInt = true) (debug : Bool) {v : Int} (hv : t.InRange v)
    {n : Nat} (hn : n < t.width) : shiftLeft debug t v n = .ok (v * 2 ^ n % 2 ^ t.width) := by
  have htb : t ≠ .bool := by rintro rfl; exact absurd ht (by decide)
  rw [CTy.inRange_unsigned ht] at hv
  unfold shiftLeft
  rw [CTy.sizeof_mul_eight htb, decide_eq_true hn, cassert_true, Outcome.ok_bind]
  have hp := pow_pos_int n
  have hnar : ∀ W : Nat, t.width = W → W ≤ 16 → t.promote = .int →
      CVal.shl ⟨t, v⟩ n = .ok ⟨.int, v * 2 ^ n⟩ := by
    intro W hW hW16 hpr
    rw [hW] at hv hn
    have hWp : (2 ^ W : Int) ≤ 2 ^ 16 := by
      exact_mod_cast (Nat.pow_le_pow_right (by decide) hW16 : 2 ^ W ≤ 2 ^ 16)
    have hnp : (2 ^ n : Int) ≤ 2 ^ 15 := by
      exact_mod_cast (Nat.pow_le_pow_right (by decide) (by omega) : 2 ^ n ≤ 2 ^ 15)
    have hprod : v * 2 ^ n ≤ (2 ^ 16 - 1) * 2 ^ 15 :=
      Int.mul_le_mul (by omega) hnp (by omega) (by omega)
    have hprod0 : 0 ≤ v * 2 ^ n := Int.mul_nonneg hv.1 (by omega)
    have e1 : CTy.conv .int v = v := CTy.conv_eq_self (by
      simp only [CTy.InRange, CTy.minVal, CTy.maxVal, CTy.signed, CTy.width, if_true]; omega)
    have e2 : CTy.conv .int (v * 2 ^ n) = v * 2 ^ n := CTy.conv_eq_self (by
      simp only [CTy.InRange, CTy.minVal, CTy.maxVal, CTy.signed, CTy.width, if_true]; omega)
    unfold CVal.shl
    simp only [hpr, e1, e2, CTy.width, CTy.signed, if_true, CTy.toUnsigned,
      show CTy.maxVal .uint = 2 ^ 32 - 1 by decide]
    rw [if_neg (by omega), if_neg (by omega)]
  have hwide : t.promote = t → CVal.shl ⟨t, v⟩ n = .ok ⟨t, v * 2 ^ n % 2 ^ t.width⟩ := by
    intro hpr
    have hns : t.signed = false := by simp [CTy.isUInt] at ht; exact ht.1
    have e1 : t.conv v = v := CTy.conv_eq_self ((CTy.inRange_unsigned ht).2 hv)
    unfold CVal.shl
    simp only [hpr, e1, hns, Bool.false_eq_true, if_false]
    rw [if_neg (by omega), CTy.conv_unsigned ht]
  have fin : ∀ x : Int, t.conv (x % 2 ^ t.width) = x % 2 ^ t.width := by
    intro x
    rw [CTy.conv_unsigned ht, Int.emod_emod_of_dvd _ (Int.dvd_refl _)]
  cases t
  case uchar => rw [hnar 8 rfl (by omega) rfl]; simp only [Outcome.ok_bind, CTy.conv_unsigned ht]; rfl
  case ushort => rw [hnar 16 rfl (by omega) rfl]; simp only [Outcome.ok_bind, CTy.conv_unsigned ht]; rfl
  case uint => rw [hwide rfl]; simp only [Outcome.ok_bind, fin]; rfl
  case ulong => rw [hwide rfl]; simp only [Outcome.ok_bind, fin]; rfl
  case ullong => rw [hwide rfl]; simp only [Outcome.ok_bind, fin]; rfl
  all_goals exact absurd ht (by decide)

/-! ## `div` -/

/-- Quotient and remainder of truncating division. -/
theorem tdiv_inRange {t : CTy} {n d : Int} (hn : t.InRange n) (hd0 : d ≠ 0)
    (hmin : ¬ (t.signed = true ∧ n = t.minVal ∧ d = -1)) (hd : t.InRange d) :
    t.InRange (Int.tdiv n d) ∧ t.InRange (Int.tmod n d) := by
  have hdm := Int.tmod_add_mul_tdiv n d
  have habs : (Int.tdiv n d).natAbs ≤ n.natAbs := by
    rw [Int.natAbs_tdiv]; exact Nat.div_le_self _ _
  have hmabs : (Int.tmod n d).natAbs ≤ n.natAbs := by
    rw [Int.natAbs_tmod]; exact Nat.mod_le _ _
  have hmin0 : t.minVal ≤ 0 := by cases t <;> decide
  have hs : t.signed = false → t.minVal = 0 := by cases t <;> decide
  have hs2 : t.signed = true → t.minVal = -t.maxVal - 1 := by cases t <;> decide
  unfold CTy.InRange at *
  have hsg : (0 ≤ n → 0 ≤ Int.tmod n d) ∧ (n ≤ 0 → Int.tmod n d ≤ 0) := by
    constructor
    · intro h; exact Int.tmod_nonneg _ h
    · intro h
      have : Int.tmod n d = -(Int.tmod (-n) d) := by rw [Int.neg_tmod]; omega
      rw [this]
      have := Int.tmod_nonneg (a := -n) d (by omega)
      omega
  cases hsig : t.signed with
  | false =>
    have h0 := hs hsig
    have : 0 ≤ Int.tdiv n d := Int.tdiv_nonneg (by omega) (by omega)
    have : 0 ≤ Int.tmod n d := hsg.1 (by omega)
    omega
  | true =>
    have h0 := hs2 hsig
    refine ⟨⟨by omega, ?_⟩, by omega, by omega⟩
    by_cases hn0 : 0 ≤ n
    · omega
    · -- the only quotient above the maximum is `min / -1`
      by_cases hd1 : d = -1
      · subst hd1
        have : n ≠ t.minVal := fun h => hmin ⟨hsig, h, rfl⟩
        omega
      · by_cases hd2 : d = 1
        · subst hd2; simp; omega
        · have h2 : (Int.tdiv n d).natAbs * 2 ≤ n.natAbs := by
            rw [Int.natAbs_tdiv]
            have h3 : 2 ≤ d.natAbs := by omega
            calc n.natAbs / d.natAbs * 2 ≤ n.natAbs / d.natAbs * d.natAbs :=
                  Nat.mul_le_mul_left _ h3
              _ ≤ n.natAbs := Nat.div_mul_le_self _ _
          omega

/-- Division of two values of one type `t` by `/` and `%` at the promoted type, converted to a
result type `r` that can hold quotient and remainder. -/
theorem divRem_eq {t r : CTy} {n d : Int} (hn : t.InRange n) (hd : t.InRange d) (hd0 : d ≠ 0)
    (hq : (CTy.usual t t).InRange (Int.tdiv n d)) (hm : (CTy.usual t t).InRange (Int.tmod n d))
    (hqr : r.InRange (Int.tdiv n d)) (hmr : r.InRange (Int.tmod n d)) :
    (do
      let q ← CVal.div ⟨t, n⟩ ⟨t, d⟩
      let m ← CVal.rem ⟨t, n⟩ ⟨t, d⟩
      pure (r.conv q.val, r.conv m.val) : Outcome (Int × Int))
      = .ok (Int.tdiv n d, Int.tmod n d) := by
  have hin : ∀ x, t.InRange x → (CTy.usual t t).InRange x := by
    intro x hx
    revert hx
    unfold CTy.InRange
    cases t <;> simp [CTy.usual, CTy.promote, CTy.minVal, CTy.maxVal, CTy.signed, CTy.width] <;> omega
  have en := CTy.conv_eq_self (hin n hn)
  have ed := CTy.conv_eq_self (hin d hd)
  have har : ∀ x, (CTy.usual t t).InRange x →
      CVal.arith (CTy.usual t t) x = .ok ⟨CTy.usual t t, x⟩ := by
    intro x hx
    unfold CVal.arith
    rw [if_pos hx, CTy.conv_eq_self hx]
    split <;> rfl
  simp only [CVal.div, CVal.rem, en, ed, hd0, if_false, har _ hq, har _ hm, Outcome.ok_bind,
    CTy.conv_eq_self hqr, CTy.conv_eq_self hmr, Outcome.pure_eq]

theorem divWorkType_eq (t : CTy) : divWorkType t = .llong := by cases t <;> decide

end Utils.Bits
