import Verif.Proofs.Arrays
import Verif.Proofs.BitsMore
import Verif.Proofs.NextMultiple

/-!
# Property C120: `shift_left` and `shift_right` on every integral type and by every distance

The shift happens in the promoted type, which has at least 32 bits, and in `int` for all narrower types.
-/

namespace Utils.Props

open Utils Utils.Bits Utils.Arrays

/-- The width of the type in which a value of type `t` is shifted. -/
def shiftWidth (t : CTy) : Nat := max t.width 32

/-- A value of type `t` is shifted in a signed type. -/
def ShiftsSigned (t : CTy) : Prop := t.signed = true ∨ t.width < 32

private theorem shifted_in (t : CTy) : t.promote.width = shiftWidth t ∧ t.promote ≠ .bool ∧
    (t.promote.signed = true ↔ ShiftsSigned t) ∧
    (t.promote.signed = true → t.promote.toUnsigned.maxVal = 2 ^ shiftWidth t - 1) ∧
    t.width ≤ t.promote.width := by
  cases t <;> simp [CTy.promote, CTy.width, shiftWidth, CTy.signed, ShiftsSigned, CTy.toUnsigned,
    CTy.maxVal]

/-- `shift_left` in a release build, for every type, value and distance: when it is undefined, and what
it gives otherwise. -/
theorem C120_left_exact {t : CTy} (ht : t ≠ .bool) {v : Int} (hv : t.InRange v) (n : Nat) :
    (shiftLeft false t v n = .ub ↔
      shiftWidth t ≤ n ∨ (ShiftsSigned t ∧ (v < 0 ∨ 2 ^ shiftWidth t ≤ v * 2 ^ n))) ∧
    (shiftLeft false t v n ≠ .ub → ∃ r, shiftLeft false t v n = .ok r ∧ t.InRange r ∧
      (2 ^ t.width : Int) ∣ v * 2 ^ n - r) := by
  obtain ⟨hw, hpb, hps, hpm, hle⟩ := shifted_in t
  have hc := CTy.conv_eq_self (inRange_promote hv)
  have hres : (2 ^ t.width : Int) ∣ v * 2 ^ n - t.conv (t.promote.conv (v * 2 ^ n)) := by
    have e1 := conv_emod ht (t.promote.conv (v * 2 ^ n))
    have e2 := conv_emod hpb (v * 2 ^ n)
    have e3 := congrArg (· % (2 : Int) ^ t.width) e2
    simp only [Int.emod_emod_of_dvd _ (pow_dvd_pow (2 : Int) hle)] at e3
    exact Int.dvd_of_emod_eq_zero (Int.emod_eq_emod_iff_emod_sub_eq_zero.1 (e1.trans e3).symm)
  have hin := CTy.conv_inRange t (t.promote.conv (v * 2 ^ n))
  unfold shiftLeft CVal.shl
  simp only [cassert_ndebug, Outcome.ok_bind, hc, hw]
  by_cases h1 : shiftWidth t ≤ n
  · simp [h1]
  · by_cases h2 : t.promote.signed = true
    · have h3 := hps.1 h2
      have h5 : (2 ^ shiftWidth t - 1 < v * 2 ^ n) = (2 ^ shiftWidth t ≤ v * 2 ^ n) :=
        propext ⟨fun h => by omega, fun h => by omega⟩
      simp only [h1, h2, if_false, if_true, hpm h2, false_or, h3, true_and, h5]
      by_cases h4 : v < 0 ∨ 2 ^ shiftWidth t ≤ v * 2 ^ n
      · simp [h4]
      · simp only [h4, if_false]
        exact ⟨⟨nofun, nofun⟩, fun _ => ⟨_, rfl, hin, hres⟩⟩
    · have h3 : ¬ ShiftsSigned t := fun x => h2 (hps.2 x)
      simp only [h1, h2, if_false, false_or, h3, false_and, Bool.false_eq_true]
      exact ⟨⟨nofun, nofun⟩, fun _ => ⟨_, rfl, hin, hres⟩⟩

/-- `shift_right` in a release build: floor division, also of negative values and by distances that the
type itself does not have, unless the distance is too large for the promoted type. -/
theorem C120_right_exact {t : CTy} (ht : t ≠ .bool) {v : Int} (hv : t.InRange v) (n : Nat) :
    shiftRight false t v n = if shiftWidth t ≤ n then .ub else .ok (v / 2 ^ n) := by
  obtain ⟨hw, -⟩ := shifted_in t
  have hc := CTy.conv_eq_self (inRange_promote hv)
  by_cases h1 : n < t.width
  · rw [shiftRight_eq ht false hv h1, if_neg (by unfold shiftWidth; omega)]
  · unfold shiftRight CVal.shr
    simp only [cassert_ndebug, Outcome.ok_bind, hc, hw]
    by_cases h2 : shiftWidth t ≤ n
    · simp [h2]
    · simp only [h2, if_false, Outcome.ok_bind]
      have hp : (0 : Int) < 2 ^ n := pow_pos_int n
      have h3 : t.InRange (v / 2 ^ n) := by
        have hmn : t.minVal ≤ 0 := by cases t <;> decide
        have hmx : 0 ≤ t.maxVal := by cases t <;> decide
        obtain ⟨a, b⟩ := hv
        by_cases h0 : 0 ≤ v
        · have := Int.ediv_nonneg h0 (Int.le_of_lt hp)
          have := Int.ediv_le_self (2 ^ n : Int) h0
          exact ⟨by omega, by omega⟩
        · have h4 := Int.ediv_neg_of_neg_of_pos (by omega : v < 0) hp
          have h5 : v ≤ v / 2 ^ n := by
            rw [Int.le_ediv_iff_mul_le hp]
            have : v * 2 ^ n ≤ v * 1 := Int.mul_le_mul_of_nonpos_left (by omega) (by omega)
            omega
          exact ⟨by omega, by omega⟩
      rw [CTy.conv_eq_self h3]
      rfl

/-- `shift_left(v, n)` is `v * 2^n` exactly when neither `v` is negative nor the type too small for the
result.  Missing for the full claim: negative values, for which the shift is undefined
(`C120_counterexample`). -/
theorem C120_left_value_partial (debug : Bool) {t : CTy} (ht : t ≠ .bool) {v : Int} (hv : t.InRange v)
    {n : Nat} (hn : n < t.width) :
    shiftLeft debug t v n = .ok (v * 2 ^ n) ↔ 0 ≤ v ∧ t.InRange (v * 2 ^ n) := by
  have hd : shiftLeft debug t v n = shiftLeft false t v n := by
    unfold shiftLeft
    rw [CTy.sizeof_mul_eight ht, decide_eq_true hn, cassert_true, cassert_true]
  obtain ⟨h1, h2⟩ := C120_left_exact ht hv n
  have hsw : t.width ≤ shiftWidth t := by unfold shiftWidth; omega
  rw [hd]
  constructor
  · intro h
    obtain ⟨r, e, hr, -⟩ := h2 (by rw [h]; nofun)
    rw [h] at e
    cases e
    refine ⟨Classical.byContradiction fun hneg => ?_, hr⟩
    by_cases hs : ShiftsSigned t
    · rw [h1.2 (.inr ⟨hs, .inl (by omega)⟩)] at h
      cases h
    · have := hv.1
      unfold CTy.minVal at this
      rw [if_neg fun h => hs (.inl h)] at this
      exact hneg this
  · rintro ⟨h0, hr⟩
    have hlt : v * 2 ^ n < 2 ^ t.width := by
      have := hr.2
      generalize v * 2 ^ n = x at *
      cases t <;> simp [CTy.maxVal, CTy.signed, CTy.width] at this ⊢ <;> omega
    have hle : (2 : Int) ^ t.width ≤ 2 ^ shiftWidth t := by
      exact_mod_cast (Nat.pow_le_pow_right (by decide) hsw : 2 ^ t.width ≤ 2 ^ shiftWidth t)
    obtain ⟨r, e, hr1, hr2⟩ := h2 fun h => by
      rcases h1.1 h with h | ⟨-, h | h⟩ <;> omega
    rw [e]
    congr 1
    generalize v * 2 ^ n = x at *
    cases t <;> simp [CTy.InRange, CTy.minVal, CTy.maxVal, CTy.signed, CTy.width] at hr hr1 hr2 ⊢ <;>
      omega

example : shiftLeft true .schar 5 3 = .ok 40 ∧ shiftLeft true .int 1 31 = .ok (-2 ^ 31) ∧
    shiftLeft false .uchar 255 9 = .ok 0 ∧ shiftLeft false .ushort 65535 17 = .ub ∧
    shiftRight false .schar (-5) 9 = .ok (-1) := by decide

/-- The full claim is false: minus two is a value of `int`, yet `shift_left(-1, 1)` is undefined in
C++17. -/
theorem C120_counterexample (debug : Bool) :
    CTy.InRange .int (-1 * 2 ^ 1) ∧ shiftLeft debug .int (-1) 1 = .ub := by
  cases debug <;> decide

end Utils.Props
