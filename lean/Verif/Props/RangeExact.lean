import Verif.Props.Arrays

/-!
# Exact condition for `make_array_from_range` (C21)
-/

namespace Utils.Arrays

open Utils

variable {t : CTy} {b e : Int} {step : CVal}

theorem stepCount_walk (he : t.InRange e) (hs : step.ty.InRange step.val) (hpos : 0 < step.val) :
    ∀ (n fuel : Nat) (b : Int), t.InRange b → b + n * step.val ≤ e →
    stepCount (fuel + n) ⟨t, b⟩ ⟨t, e⟩ step =
      (stepCount fuel ⟨t, b + n * step.val⟩ ⟨t, e⟩ step).map (· + n)
  | 0, fuel, b, _, _ => by
    simp only [Nat.add_zero, Nat.cast_zero, zero_mul, add_zero]
    cases stepCount fuel ⟨t, b⟩ ⟨t, e⟩ step <;> rfl
  | n + 1, fuel, b, hb, h => by
    have hn : 0 ≤ (n : Int) * step.val := Int.mul_nonneg (by omega) (by omega)
    have hm : ((n + 1 : Nat) : Int) * step.val = n * step.val + step.val := by push_cast; ring
    rw [hm] at h
    have hr : t.InRange (b + step.val) := inRange_between hb he (by omega) (by omega)
    rw [show fuel + (n + 1) = (fuel + n) + 1 by omega, stepCount, cLe_same hb he,
      if_pos (by simp; omega), addAssign_ok hb hs hr, Outcome.ok_bind,
      stepCount_walk he hs hpos n fuel _ hr (by omega), hm,
      show b + (↑n * step.val + step.val) = b + step.val + ↑n * step.val by ring]
    cases stepCount fuel ⟨t, b + step.val + ↑n * step.val⟩ ⟨t, e⟩ step <;> rfl

theorem fillRange_walk (hs : step.ty.InRange step.val) :
    ∀ (n : Nat) (b : Int), (∀ i ≤ n, t.InRange (b + i * step.val)) →
    ∀ y, addAssign ⟨t, b + n * step.val⟩ step = .ok y →
    fillRange (n + 1) ⟨t, b⟩ step =
      .ok (((List.range (n + 1)).map fun i : Nat => b + i * step.val).map fun v => ⟨t, v⟩)
  | 0, b, h, y, hy => by
    simp only [Nat.cast_zero, zero_mul, add_zero] at hy
    simp [fillRange, hy]
  | n + 1, b, h, y, hy => by
    have hb := h 0 (by omega)
    have h1 := h 1 (by omega)
    simp only [Nat.cast_zero, zero_mul, add_zero] at hb
    simp only [Nat.cast_one, one_mul] at h1
    have hm : ∀ i : Nat, b + step.val + i * step.val = b + ((i + 1 : Nat) : Int) * step.val := by
      intro i; push_cast; ring
    rw [fillRange, addAssign_ok hb hs h1, Outcome.ok_bind,
      fillRange_walk hs n (b + step.val) (fun i hi => by rw [hm]; exact h _ (by omega)) y
        (by rw [hm]; exact hy), List.range_succ_eq_map (n := n + 1)]
    simp only [Outcome.ok_bind, Outcome.pure_eq, List.map_cons, List.map_map, Function.comp_def, hm,
      Nat.cast_zero, zero_mul, add_zero, Nat.succ_eq_add_one]

theorem fillRange_length : ∀ (n : Nat) (x : CVal) {l : List CVal}, fillRange n x step = .ok l →
    l.length = n
  | 0, _, _, h => by cases h; rfl
  | n + 1, x, l, h => by
    rw [fillRange] at h
    obtain ⟨y, -, h⟩ := Outcome.bind_eq_ok.1 h
    obtain ⟨l', h1, h⟩ := Outcome.bind_eq_ok.1 h
    cases h
    rw [List.length_cons, fillRange_length n y h1]

end Utils.Arrays

namespace Utils.Props

open Utils Utils.Arrays

/-- An accepted ascending range with a positive step gives exactly the values `Begin + i * Step` up to
`End` iff one more step after the last of them, as the language computes it (`x += Step` in the type of
`Begin`), is defined and yields a value above `End`. -/
theorem C21_iff {t : CTy} {b e : Int} {step : CVal} (hb : t.InRange b) (he : t.InRange e)
    (hs : step.ty.InRange step.val) (hpos : 0 < step.val) (hle : b ≤ e)
    (hvalid : isValidRange ⟨t, b⟩ ⟨t, e⟩ step = .ok true) :
    (∃ l : List Int,
      (∃ bound, ∀ fuel, bound ≤ fuel →
        makeArrayFromRange fuel t b e step = .ok (l.map fun v => ⟨t, v⟩)) ∧
      ∀ i : Nat, l[i]? = if b + i * step.val ≤ e then some (b + i * step.val) else none) ↔
    ∃ v, addAssign ⟨t, b + (e - b) / step.val * step.val⟩ step = .ok ⟨t, v⟩ ∧ e < v := by
  have hq0 : 0 ≤ (e - b) / step.val := Int.ediv_nonneg (by omega) (by omega)
  have hq1 : (e - b) / step.val * step.val ≤ e - b := Int.ediv_mul_le _ (by omega)
  have hq2 : e - b < ((e - b) / step.val + 1) * step.val := Int.lt_ediv_add_one_mul_self _ hpos
  obtain ⟨q, hq⟩ : ∃ q : Nat, (q : Int) = (e - b) / step.val :=
    ⟨((e - b) / step.val).toNat, by omega⟩
  rw [← hq] at hq1 hq2 ⊢
  have hmono : ∀ i j : Int, i ≤ j → i * step.val ≤ j * step.val := fun i j h =>
    Int.mul_le_mul_of_nonneg_right h (by omega)
  have hin : ∀ i ≤ q, t.InRange (b + i * step.val) := fun i hi =>
    inRange_between hb he (by have := hmono 0 i (by omega); omega)
      (by have := hmono i q (by omega); omega)
  have hmin : min b e = b := min_eq_left hle
  have hmax : max b e = e := max_eq_right hle
  have hmk : ∀ fuel, makeArrayFromRange (fuel + 1 + q) t b e step =
      (addAssign ⟨t, b + q * step.val⟩ step >>= fun y =>
        stepCount fuel y ⟨t, e⟩ step >>= fun c => fillRange (c + 1 + q) ⟨t, b⟩ step) := by
    intro fuel
    unfold makeArrayFromRange
    simp only [hmin, hmax, hvalid, Outcome.ok_bind, if_true]
    rw [stepCount_walk he hs hpos q (fuel + 1) b hb (by omega), stepCount,
      cLe_same (hin q (by omega)) he, if_pos (by simp; omega)]
    cases addAssign ⟨t, b + q * step.val⟩ step with
    | ok y =>
      rw [Outcome.ok_bind, Outcome.ok_bind]
      cases stepCount fuel y ⟨t, e⟩ step <;> rfl
    | _ => rfl
  constructor
  · rintro ⟨l, ⟨bound, h1⟩, h2⟩
    have hlen : l.length = q + 1 := by
      have g1 := h2 q
      have g2 := h2 (q + 1)
      rw [if_pos (by omega)] at g1
      rw [if_neg (by push_cast; omega)] at g2
      have := (List.getElem?_eq_some_iff.1 g1).1
      have := List.getElem?_eq_none_iff.1 g2
      omega
    have h1 := h1 (bound + 1 + 1 + q) (by omega)
    rw [hmk] at h1
    obtain ⟨⟨t', v⟩, e1, h1⟩ := Outcome.bind_eq_ok.1 h1
    obtain ⟨c, e2, h1⟩ := Outcome.bind_eq_ok.1 h1
    have hc := fillRange_length _ _ h1
    rw [List.length_map, hlen] at hc
    have hty : t' = t ∧ t.InRange v := by
      unfold addAssign at e1
      obtain ⟨z, -, e1⟩ := Outcome.bind_eq_ok.1 e1
      cases e1
      exact ⟨rfl, CTy.conv_inRange _ _⟩
    obtain ⟨rfl, hv⟩ := hty
    refine ⟨v, e1, ?_⟩
    by_contra hcon
    rw [stepCount, cLe_same hv he, if_pos (by simp; omega)] at e2
    obtain ⟨_, -, e2⟩ := Outcome.bind_eq_ok.1 e2
    obtain ⟨_, -, e2⟩ := Outcome.bind_eq_ok.1 e2
    cases e2
    omega
  · rintro ⟨v, e1, hv⟩
    have hvr : t.InRange v := by
      unfold addAssign at e1
      obtain ⟨z, -, e1⟩ := Outcome.bind_eq_ok.1 e1
      cases e1
      exact CTy.conv_inRange _ _
    refine ⟨(List.range (q + 1)).map fun i : Nat => b + i * step.val, ⟨q + 2, ?_⟩, ?_⟩
    · intro fuel hf
      obtain ⟨f, rfl⟩ : ∃ f, fuel = f + 1 + 1 + q := ⟨fuel - 2 - q, by omega⟩
      rw [hmk, e1, Outcome.ok_bind, stepCount, cLe_same hvr he, if_neg (by simp; omega)]
      rw [Outcome.pure_eq, Outcome.ok_bind, show 0 + 1 + q = q + 1 by omega]
      exact fillRange_walk hs q b hin _ e1
    · intro i
      rw [List.getElem?_map]
      by_cases hi' : i < q + 1
      · rw [List.getElem?_range hi', if_pos]
        · rfl
        · have := hmono i q (by omega)
          omega
      · rw [List.getElem?_eq_none (by simp; omega), if_neg]
        · rfl
        · have := hmono (q + 1) i (by omega)
          omega

/-- Both sides occur. The step after the last element leaves the type in all three cases: it wraps to
a value not above `End`, it wraps to a value above `End`, and it is undefined. -/
example : addAssign ⟨.uchar, 0 + (250 - 0) / 100 * 100⟩ ⟨.int, 100⟩ = .ok ⟨.uchar, 44⟩ ∧
    addAssign ⟨.uchar, 0 + (20 - 0) / 300 * 300⟩ ⟨.int, 300⟩ = .ok ⟨.uchar, 44⟩ ∧
    makeArrayFromRange 100 .uchar 0 20 ⟨.int, 300⟩ = .ok [⟨.uchar, 0⟩] ∧
    addAssign ⟨.int, 2147483647⟩ ⟨.int, 1⟩ = .ub := by decide

/-! ## Signed ends, unsigned steps -/

theorem usual_isUInt {a b : CTy} (h : (CTy.usual a b).signed = false) : (CTy.usual a b).isUInt = true := by
  cases a <;> cases b <;> revert h <;> decide

/-- With a step of an unsigned type at least as wide as `Begin` (and `int`), `Begin < Begin + Step` is an
unsigned comparison: a range from below zero whose first step reaches zero or more is rejected. -/
theorem C21_signs {t : CTy} {b e : Int} {step : CVal} (hb : t.InRange b) (he : t.InRange e)
    (hu : (CTy.usual t step.ty).signed = false) (hs : (CTy.usual t step.ty).InRange step.val) (hlt : b < e)
    (hneg : b < 0) (hcross : 0 ≤ b + step.val) (fuel : Nat) :
    makeArrayFromRange fuel t b e step = .assertFailed := by
  have h1 : min b e = b := min_eq_left (by omega)
  have h2 : max b e = e := max_eq_right (by omega)
  have hU := usual_isUInt hu
  have hs' := (CTy.inRange_unsigned hU).1 hs
  have hbs : (b + step.val) % 2 ^ (CTy.usual t step.ty).width = b + step.val :=
    Int.emod_eq_of_lt hcross (by omega)
  have hbm : b % 2 ^ (CTy.usual t step.ty).width = b + 2 ^ (CTy.usual t step.ty).width := by
    rw [← Int.add_emod_right]
    exact Int.emod_eq_of_lt (by omega) (by omega)
  have hadd : CVal.add ⟨t, b⟩ step = .ok ⟨CTy.usual t step.ty, b + step.val⟩ := by
    unfold CVal.add CVal.arith
    simp only [hu, CTy.conv_unsigned hU, Bool.false_eq_true, if_false]
    rw [← Int.add_emod, hbs]
  have hc1 : cLt ⟨t, b⟩ ⟨t, e⟩ = true := by
    simp only [cLt, usual_self, CTy.conv_eq_self (promote_holds hb), CTy.conv_eq_self (promote_holds he)]
    simpa using hlt
  have hc2 : cLt ⟨t, b⟩ ⟨CTy.usual t step.ty, b + step.val⟩ = false := by
    simp only [cLt, usual_usual, CTy.conv_unsigned hU, hbs, hbm]
    simp only [decide_eq_false_iff_not]
    omega
  have hc3 : cEq ⟨t, b⟩ ⟨t, e⟩ = false := by
    simp only [cEq, usual_self, CTy.conv_eq_self (promote_holds hb), CTy.conv_eq_self (promote_holds he)]
    simp only [beq_eq_false_iff_ne]
    omega
  unfold makeArrayFromRange
  simp only [h1, h2, isValidRange, hc1, hadd, hc2, hc3, Outcome.ok_bind, if_true]
  rfl

/-- `make_array_from_range<-1, 5, 2u>()` does not compile, `make_array_from_range<-5, 5, 2u>()` does. -/
example : makeArrayFromRange 100 .int (-1) 5 ⟨.uint, 2⟩ = .assertFailed ∧
    makeArrayFromRange 100 .int (-5) (-1) ⟨.uint, 2⟩ = .ok [⟨.int, -5⟩, ⟨.int, -3⟩, ⟨.int, -1⟩] := by
  decide +kernel

/-- `Last >= First` is an unsigned comparison if one end is unsigned and not narrower than the other and
`int`: a range from a negative value to an unsigned one is then rejected (unless the value that the
negative one is converted to is not above it). -/
theorem C66_signs {first last : CVal} (hu : (CTy.usual first.ty last.ty).signed = false)
    (hneg : first.val < 0) (h0 : 0 ≤ last.val)
    (hlt : last.val < first.val + 2 ^ (CTy.usual first.ty last.ty).width) :
    valuesInRange first last = none := by
  have hU := usual_isUInt hu
  unfold valuesInRange
  simp only
  split
  · rfl
  · rw [if_neg]
    simp only [cLe, CTy.conv_unsigned hU, decide_eq_true_eq]
    rw [Int.emod_eq_of_lt h0 (by omega), ← Int.add_emod_right, Int.emod_eq_of_lt (by omega) (by omega)]
    omega

example : valuesInRange ⟨.int, -1⟩ ⟨.uint, 5⟩ = none := by decide

end Utils.Props
