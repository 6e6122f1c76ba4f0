import Verif.Proofs.NextMultiple
import Verif.Spec.ArithZ

/-!
# `next_multiple_of<PowOf2, U>` on signed types (C112)
-/

namespace Utils.Props

open Utils Utils.Bits Utils.Spec

theorem leastMultipleZ_round {m : Int} (hm : 0 < m) (v : Int) :
    LeastMultipleZ m v ((v + (m - 1)) / m * m) := by
  refine ⟨⟨_, Int.mul_comm _ _⟩, ?_, ?_⟩
  · have := Int.lt_ediv_add_one_mul_self (v + (m - 1)) hm
    rw [Int.add_mul, Int.one_mul] at this
    omega
  · rintro s ⟨c, rfl⟩ hs
    have : (v + (m - 1)) / m ≤ c := by
      apply Int.le_of_lt_add_one
      rw [Int.ediv_lt_iff_lt_mul hm, Int.add_mul, Int.one_mul, Int.mul_comm]
      omega
    rw [Int.mul_comm m c]
    exact Int.mul_le_mul_of_nonneg_right this (by omega)

theorem leastMultipleZ_unique {m v a b : Int} (ha : LeastMultipleZ m v a) (hb : LeastMultipleZ m v b) :
    a = b := by
  have := ha.2.2 b hb.1 hb.2.1
  have := hb.2.2 a ha.1 ha.2.1
  omega

/-- What is added before rounding stays in range exactly when the result does. -/
theorem round_inRange {t : CTy} (ht : t.signed = true) {k : Nat} (hk : k < t.width - 1) {v : Int}
    (hv : t.InRange v) :
    t.InRange (v + (2 ^ k - 1)) ↔ t.InRange ((v + (2 ^ k - 1)) / 2 ^ k * 2 ^ k) := by
  have hp := pow_pos_int k
  rw [inRange_signed ht] at hv ⊢
  rw [inRange_signed ht]
  have h1 := Int.ediv_mul_le (v + (2 ^ k - 1)) (by omega : (2 ^ k : Int) ≠ 0)
  have h2 := Int.lt_ediv_add_one_mul_self (v + (2 ^ k - 1)) hp
  rw [Int.add_mul, Int.one_mul] at h2
  obtain ⟨j, hj⟩ : ∃ j, t.width - 1 = k + j := ⟨t.width - 1 - k, by omega⟩
  generalize hq : (v + (2 ^ k - 1)) / 2 ^ k = q at *
  constructor
  · intro; omega
  · intro h
    refine ⟨by omega, ?_⟩
    have h3 : q < 2 ^ j := by
      have := h.2
      rw [hj, pow_add, Int.mul_comm] at this
      exact Int.lt_of_mul_lt_mul_left this (by omega)
    have h4 : (q + 1) * 2 ^ k ≤ 2 ^ j * 2 ^ k := Int.mul_le_mul_of_nonneg_right (by omega) (by omega)
    rw [Int.add_mul, Int.one_mul, Int.mul_comm (2 ^ j), ← pow_add, ← hj] at h4
    omega

/-- For every signed type `U`, every value, negative ones too, and every power of two that `U` can hold (any
power at all if `U` is narrower than `int`): the result is the least multiple that is not below the value,
whenever `U` can hold it. -/
theorem C112_next_multiple_of_signed {t : CTy} (ht : t.signed = true) {k : Nat}
    (hk : t.InRange (2 ^ k) ∨ t.sizeof < CTy.sizeof .int) {v : Int} (hv : t.InRange v)
    {L : Int} (hL : LeastMultipleZ (2 ^ k) v L) (hr : t.InRange L) :
    nextMultipleOfT t (2 ^ k) v = .ok L := by
  have hp := pow_pos_int k
  obtain rfl := leastMultipleZ_unique hL (leastMultipleZ_round hp v)
  have hv' := (inRange_signed ht).1 hv
  by_cases h1 : k < t.width - 1
  · rw [nextMultipleOfT_signed ht h1 hv, if_pos (inRange_promote ((round_inRange ht h1 hv).2 hr)),
      CTy.conv_eq_self hr]
  · have hn : t.promote ≠ t := by
      rcases hk with hk | hk
      · exfalso
        have := (inRange_signed ht).1 hk
        have h2 : (2 : Int) ^ (t.width - 1) ≤ 2 ^ k := by
          exact_mod_cast Nat.pow_le_pow_right (by decide : 0 < 2) (by omega : t.width - 1 ≤ k)
        omega
      · cases t <;> revert hk <;> decide
    have hr' := (inRange_signed ht).1 hr
    by_cases h2 : k = t.width - 1
    · subst h2
      rw [nextMultipleOfT_signed_edge ht hn hv]
      have hmin : t.minVal = -(2 ^ (t.width - 1)) := by simp [CTy.minVal, ht]
      congr 1
      by_cases h3 : v = t.minVal
      · rw [if_pos h3]
        refine (leastMultipleZ_unique hL ⟨⟨-1, by rw [hmin]; ring⟩, by omega, ?_⟩).symm
        intro s _ hs
        omega
      · rw [if_neg h3]
        have hz : 0 ≤ (v + (2 ^ (t.width - 1) - 1)) / 2 ^ (t.width - 1) :=
          Int.ediv_nonneg (by omega) (by omega)
        have hpos : 0 ≤ (v + (2 ^ (t.width - 1) - 1)) / 2 ^ (t.width - 1) * 2 ^ (t.width - 1) :=
          Int.mul_nonneg hz (by omega)
        have hlt : (v + (2 ^ (t.width - 1) - 1)) / 2 ^ (t.width - 1) < 1 := by
          by_contra h
          have := Int.mul_le_mul_of_nonneg_right (by omega : 1 ≤ (v + (2 ^ (t.width - 1) - 1)) / 2 ^ (t.width - 1))
            (by omega : (0 : Int) ≤ 2 ^ (t.width - 1))
          omega
        have he : (v + (2 ^ (t.width - 1) - 1)) / 2 ^ (t.width - 1) = 0 := by omega
        rw [he, Int.zero_mul] at hL ⊢
        rw [if_pos hL.2.1]
    · have hkw : t.width ≤ k := by
        have := (promote_facts ht).2.2.2.2.2
        omega
      have h2 : (2 : Int) ^ (t.width - 1) * 2 ≤ 2 ^ k := pow_le_of_lt (by omega)
      rw [nextMultipleOfT_signed_big ht hkw hv, if_pos]
      · congr 1
        have hlo : 0 ≤ (v + (2 ^ k - 1)) / 2 ^ k := Int.ediv_nonneg (by omega) (by omega)
        have hlt : (v + (2 ^ k - 1)) / 2 ^ k < 1 := by
          by_contra h
          have := Int.mul_le_mul_of_nonneg_right (by omega : 1 ≤ (v + (2 ^ k - 1)) / 2 ^ k)
            (by omega : (0 : Int) ≤ 2 ^ k)
          omega
        have he : (v + (2 ^ k - 1)) / 2 ^ k = 0 := by omega
        rw [he, Int.zero_mul]
      · have hi : t.promote = .int := by cases t <;> revert ht hn <;> decide
        rw [hi, inRange_signed rfl, show CTy.int.width - 1 = 31 from rfl]
        have hwl : t.width ≤ 16 := by cases t <;> revert ht hn <;> decide
        have hpl : (2 ^ (t.width - 1) : Int) ≤ 2 ^ 15 := by
          exact_mod_cast Nat.pow_le_pow_right (by decide : 0 < 2) (by omega : t.width - 1 ≤ 15)
        omega

/-- When `U` cannot hold the least multiple: undefined for `int` and wider types, the smallest value of the
type for narrower ones. -/
theorem C112_unrepresentable {t : CTy} (ht : t.signed = true) {k : Nat} (hk : t.InRange (2 ^ k)) {v : Int}
    (hv : t.InRange v) {L : Int} (hL : LeastMultipleZ (2 ^ k) v L) (hr : ¬ t.InRange L) :
    nextMultipleOfT t (2 ^ k) v =
      if t.sizeof < CTy.sizeof .int then .ok (-(2 ^ (8 * t.sizeof - 1))) else .ub := by
  have hp := pow_pos_int k
  obtain rfl := leastMultipleZ_unique hL (leastMultipleZ_round hp v)
  have hk' : k < t.width - 1 := by
    have := ((inRange_signed ht).1 hk).2
    have : (2 ^ k : Nat) < 2 ^ (t.width - 1) := by exact_mod_cast this
    exact (Nat.pow_lt_pow_iff_right (by decide)).1 this
  have hw : 8 * t.sizeof = t.width := by cases t <;> revert ht <;> decide
  rw [nextMultipleOfT_signed ht hk' hv, hw]
  split_ifs with h1 h2 h2
  · have hv' := (inRange_signed ht).1 hv
    rw [inRange_signed ht] at hr
    have hlow := hL.2.1
    have hpk := pow_le_of_lt hk'
    have heq : (v + (2 ^ k - 1)) / 2 ^ k * 2 ^ k = 2 ^ (t.width - 1) := by
      have hge : 2 ^ (t.width - 1) ≤ (v + (2 ^ k - 1)) / 2 ^ k * 2 ^ k := by omega
      have hle := hL.2.2 (2 ^ (t.width - 1))
        ⟨2 ^ (t.width - 1 - k), by rw [← pow_add]; congr 1; omega⟩ (by omega)
      omega
    rw [heq]
    cases t <;> revert ht h2 <;> decide
  · exfalso
    have hpt : t.promote = t := by cases t <;> revert h2 <;> decide
    rw [hpt] at h1
    exact hr ((round_inRange ht hk' hv).1 h1)
  · exfalso
    apply h1
    have hi : t.promote = .int := by cases t <;> revert ht h2 <;> decide
    rw [hi, inRange_signed rfl, show CTy.int.width - 1 = 31 from rfl]
    have hwl : t.width ≤ 16 := by cases t <;> revert ht h2 <;> decide
    have hpl : (2 ^ (t.width - 1) : Int) ≤ 2 ^ 15 := by
      exact_mod_cast Nat.pow_le_pow_right (by decide : 0 < 2) (by omega : t.width - 1 ≤ 15)
    have hv' := (inRange_signed ht).1 hv
    have hpk := pow_le_of_lt hk'
    omega
  · rfl

/-- For `int` and wider types a power of two that does not fit: the one just outside is always undefined,
larger ones give 0, and are undefined for the smallest value. -/
theorem C112_too_big {t : CTy} (ht : t.signed = true) (hw : CTy.sizeof .int ≤ t.sizeof) {k : Nat} {v : Int}
    (hv : t.InRange v) :
    (k = 8 * t.sizeof - 1 → nextMultipleOfT t (2 ^ k) v = .ub) ∧
    (8 * t.sizeof ≤ k → nextMultipleOfT t (2 ^ k) v = if v = -(2 ^ (8 * t.sizeof - 1)) then .ub else .ok 0) := by
  have hpt : t.promote = t := by cases t <;> revert hw <;> decide
  have hs : 8 * t.sizeof = t.width := by cases t <;> revert ht <;> decide
  rw [hs]
  refine ⟨fun h => by rw [h]; exact nextMultipleOfT_signed_edge_wide ht hpt v, fun h => ?_⟩
  rw [nextMultipleOfT_signed_big ht h hv, hpt]
  have hv' := (inRange_signed ht).1 hv
  by_cases he : v = -(2 ^ (t.width - 1))
  · rw [if_pos he, if_neg]
    rw [inRange_signed ht]
    omega
  · rw [if_neg he, if_pos]
    rw [inRange_signed ht]
    omega

/-- On `bool` every power of two but 1 gives `true`, also for `false`. -/
theorem C112_bool (k : Nat) {v : Int} (hv : CTy.InRange .bool v) :
    nextMultipleOfT .bool (2 ^ k) v = .ok (if k = 0 then v else 1) := by
  have hv' : v = 0 ∨ v = 1 := by
    simp [CTy.InRange, CTy.minVal, CTy.maxVal, CTy.signed, CTy.width] at hv
    omega
  by_cases hk : k = 0
  · subst hk
    rcases hv' with rfl | rfl <;> decide
  · rw [if_neg hk]
    have hp := pow_pos_int (k - 1)
    have h2 : (2 : Int) ^ k = 2 * 2 ^ (k - 1) := by rw [← pow_succ']; congr 1; omega
    have hc : ((2 ^ k : Nat) : Int) = 2 ^ k := by norm_num
    have e1 : CTy.conv .bool (2 ^ k) = 1 := by
      unfold CTy.conv
      rw [if_pos rfl, if_neg (by omega)]
    have e2 : CTy.conv .bool (2 ^ k - 1) = 1 := by
      unfold CTy.conv
      rw [if_pos rfl, if_neg (by omega)]
    unfold nextMultipleOfT
    simp only [CVal.cast, hc, e1, e2]
    rcases hv' with rfl | rfl <;> decide

/-- Negative values are rounded towards zero, and at the end of the range the type decides. -/
example : LeastMultipleZ (2 ^ 3) (-13) (-8) ∧ CTy.InRange .int (2 ^ 3) ∧ CTy.InRange .int (-8) ∧
    nextMultipleOfT .int (2 ^ 3) (-13) = .ok (-8) :=
  ⟨⟨by decide, by decide, fun s h1 h2 => by omega⟩, by decide, by decide, by decide⟩
example : nextMultipleOfT .int (2 ^ 3) 2147483641 = .ub ∧ nextMultipleOfT .int (2 ^ 3) 2147483640 = .ok 2147483640 ∧
    nextMultipleOfT .short (2 ^ 3) 32761 = .ok (-32768) ∧ nextMultipleOfT .schar (2 ^ 7) (-128) = .ok (-128) ∧
    nextMultipleOfT .schar (2 ^ 20) (-5) = .ok 0 ∧ nextMultipleOfT .int (2 ^ 31) 0 = .ub ∧
    nextMultipleOfT .long (2 ^ 63) 0 = .ub ∧ nextMultipleOfT .bool (2 ^ 3) 0 = .ok 1 := by decide +kernel

end Utils.Props
