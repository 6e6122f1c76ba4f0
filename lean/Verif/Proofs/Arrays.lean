import Verif.Model.Arrays
import Verif.Proofs.CInt

/-! # Lemmas about the array helpers -/

namespace Utils.Arrays

theorem elem_ok {α : Type} {a : List α} {i : Nat} (h : i < a.length) : elem a i = .ok a[i] := by
  unfold elem
  rw [List.getElem?_eq_getElem h]

theorem elem_ub {α : Type} {a : List α} {i : Nat} (h : a.length ≤ i) : elem a i = .ub := by
  unfold elem
  rw [List.getElem?_eq_none h]

theorem isEqualLoop_ok {α : Type} {ne : α → α → Bool} {lhs rhs : List α} :
    ∀ (left i : Nat), i + left ≤ lhs.length → i + left ≤ rhs.length →
    ∃ r, isEqualLoop ne lhs rhs i left = .ok r ∧
      (r = true ↔ ∀ j, i ≤ j → j < i + left → ∀ x y, lhs[j]? = some x → rhs[j]? = some y →
        ne x y = false)
  | 0, i, _, _ => ⟨true, rfl, by simp only [true_iff]; intro j _ _; omega⟩
  | left + 1, i, h1, h2 => by
    obtain ⟨r, hr1, hr2⟩ := isEqualLoop_ok (ne := ne) (lhs := lhs) (rhs := rhs) left (i + 1)
      (by omega) (by omega)
    unfold isEqualLoop
    rw [elem_ok (by omega), Outcome.ok_bind, elem_ok (by omega), Outcome.ok_bind]
    by_cases hn : ne lhs[i] rhs[i] = true
    · rw [if_pos hn]
      refine ⟨false, rfl, ?_⟩
      simp only [Bool.false_eq_true, false_iff]
      intro h
      have := h i (by omega) (by omega) _ _ (List.getElem?_eq_getElem (by omega))
        (List.getElem?_eq_getElem (by omega))
      rw [hn] at this
      cases this
    · rw [if_neg hn]
      refine ⟨r, hr1, ?_⟩
      rw [hr2]
      constructor
      · intro h j hj1 hj2 x y hx hy
        by_cases hj : j = i
        · subst hj
          rw [List.getElem?_eq_getElem (by omega)] at hx hy
          cases hx
          cases hy
          simpa using hn
        · exact h j (by omega) (by omega) x y hx hy
      · intro h j hj1 hj2
        exact h j (by omega) (by omega)

/-- Beyond the end: a difference inside the arrays, or undefined behaviour. -/
theorem isEqualLoop_beyond {α : Type} {ne : α → α → Bool} {lhs rhs : List α} {N : Nat}
    (hl : lhs.length = N) (hr : rhs.length = N) :
    ∀ (left i : Nat), N < i + left → i ≤ N →
      (isEqualLoop ne lhs rhs i left = .ok false ∧
        ∃ j x y, i ≤ j ∧ lhs[j]? = some x ∧ rhs[j]? = some y ∧ ne x y = true) ∨
      (isEqualLoop ne lhs rhs i left = .ub ∧
        ∀ j x y, i ≤ j → lhs[j]? = some x → rhs[j]? = some y → ne x y = false)
  | 0, i, h, h' => by omega
  | left + 1, i, h, h' => by
    unfold isEqualLoop
    by_cases hi : i = N
    · right
      rw [elem_ub (by omega)]
      refine ⟨rfl, fun j x y hj hx _ => ?_⟩
      rw [List.getElem?_eq_none (by omega)] at hx
      cases hx
    · rw [elem_ok (by omega), Outcome.ok_bind, elem_ok (by omega), Outcome.ok_bind]
      by_cases hn : ne lhs[i] rhs[i] = true
      · rw [if_pos hn]
        exact Or.inl ⟨rfl, i, _, _, Nat.le_refl _, List.getElem?_eq_getElem _,
          List.getElem?_eq_getElem _, hn⟩
      · rw [if_neg hn]
        rcases isEqualLoop_beyond (ne := ne) hl hr left (i + 1) (by omega) (by omega) with
          ⟨g1, j, x, y, g2, g3⟩ | ⟨g1, g2⟩
        · exact Or.inl ⟨g1, j, x, y, by omega, g3⟩
        · refine Or.inr ⟨g1, fun j x y hj hx hy => ?_⟩
          by_cases hj' : j = i
          · subst hj'
            rw [List.getElem?_eq_getElem (by omega)] at hx hy
            cases hx
            cases hy
            simpa using hn
          · exact g2 j x y (by omega) hx hy

theorem fillMoves_length {α : Type} (E : Elem α) : ∀ (n : Nat) (v : α),
    (fillMoves E v n).length = n
  | 0, _ => rfl
  | n + 1, v => by simp [fillMoves, fillMoves_length E n]

theorem fillMoves_getElem {α : Type} (E : Elem α) : ∀ (n i : Nat) (v : α), i < n →
    (fillMoves E v n)[i]? = some (E.move ((fun x => (E.move x).2)^[i] v)).1
  | 0, _, _, h => by omega
  | n + 1, 0, v, _ => by simp [fillMoves]
  | n + 1, i + 1, v, h => by
    rw [fillMoves, List.getElem?_cons_succ, fillMoves_getElem E n i _ (by omega)]
    rfl

theorem fillMoves_stable {α : Type} (E : Elem α) {v : α} (h : E.move v = (v, v)) :
    ∀ n, fillMoves E v n = List.replicate n v
  | 0 => rfl
  | n + 1 => by rw [fillMoves, h, fillMoves_stable E h n, List.replicate_succ]

/-! ## Conversions and sums -/

/-- A promoted type holds all the values of the type. -/
theorem promote_holds {t : CTy} {v : Int} (h : t.InRange v) : t.promote.InRange v := by
  cases t <;> simp [CTy.InRange, CTy.promote, CTy.minVal, CTy.maxVal, CTy.signed, CTy.width] at h ⊢ <;>
    omega

theorem usual_self (t : CTy) : CTy.usual t t = t.promote := by
  cases t <;> rfl

theorem cLe_same {t : CTy} {a b : Int} (ha : t.InRange a) (hb : t.InRange b) :
    cLe ⟨t, a⟩ ⟨t, b⟩ = decide (a ≤ b) := by
  simp only [cLe, usual_self, CTy.conv_eq_self (promote_holds ha),
    CTy.conv_eq_self (promote_holds hb)]

theorem usual_comm (a b : CTy) : CTy.usual a b = CTy.usual b a := by
  cases a <;> cases b <;> rfl

/-- The common type, if signed, holds all values of both operand types. -/
theorem usual_signed (a b : CTy) (h : (CTy.usual a b).signed = true) :
    (CTy.usual a b).minVal ≤ a.minVal ∧ a.maxVal ≤ (CTy.usual a b).maxVal := by
  cases a <;> cases b <;> first | (revert h; decide) | decide

/-- The common type, if unsigned, is at least as wide as both operand types. -/
theorem usual_unsigned (a b : CTy) (h : (CTy.usual a b).signed = false) :
    (CTy.usual a b).isUInt = true ∧ a.width ≤ (CTy.usual a b).width := by
  cases a <;> cases b <;> first | (revert h; decide) | decide

/-- Conversion only looks at the value modulo `2^width`. -/
theorem conv_mod {t : CTy} (ht : t ≠ .bool) {w : Nat} (hw : t.width ≤ w) (v : Int) :
    t.conv (v % 2 ^ w) = t.conv v := by
  have hd : (2 : Int) ^ t.width ∣ 2 ^ w := pow_dvd_pow 2 hw
  have : BitVec.ofInt t.width (v % 2 ^ w) = BitVec.ofInt t.width v := by
    apply BitVec.eq_of_toNat_eq
    rw [BitVec.toNat_ofInt, BitVec.toNat_ofInt]
    congr 1
    rw [show ((2 ^ t.width : Nat) : Int) = 2 ^ t.width by push_cast; rfl, Int.emod_emod_of_dvd v hd]
  unfold CTy.conv
  rw [if_neg ht, if_neg ht, this]

/-- Adding two integers and converting back gives the exact sum whenever the target type holds it. -/
theorem addAssign_ok {t : CTy} {x : Int} {step : CVal} (hx : t.InRange x)
    (hs : step.ty.InRange step.val) (hsum : t.InRange (x + step.val)) :
    addAssign ⟨t, x⟩ step = .ok ⟨t, x + step.val⟩ := by
  obtain ⟨st, sv⟩ := step
  simp only at hs hsum ⊢
  unfold addAssign CVal.add CVal.cast CVal.arith
  simp only
  generalize hu : CTy.usual t st = u
  cases hsg : u.signed with
  | true =>
    have h1 := usual_signed t st (by rw [hu]; exact hsg)
    have h2 := usual_signed st t (by rw [usual_comm, hu]; exact hsg)
    rw [hu] at h1
    rw [usual_comm, hu] at h2
    have e1 : u.InRange x := ⟨le_trans h1.1 hx.1, le_trans hx.2 h1.2⟩
    have e2 : u.InRange sv := ⟨le_trans h2.1 hs.1, le_trans hs.2 h2.2⟩
    have e3 : u.InRange (x + sv) := ⟨le_trans h1.1 hsum.1, le_trans hsum.2 h1.2⟩
    rw [CTy.conv_eq_self e1, CTy.conv_eq_self e2, if_pos rfl, if_pos e3, Outcome.ok_bind,
      CTy.conv_eq_self hsum]
    rfl
  | false =>
    obtain ⟨h1, h2⟩ := usual_unsigned t st (by rw [hu]; exact hsg)
    rw [hu] at h1 h2
    rw [if_neg (by simp), Outcome.ok_bind]
    have e : u.conv (u.conv x + u.conv sv) = (x + sv) % 2 ^ u.width := by
      rw [CTy.conv_unsigned h1, CTy.conv_unsigned h1, CTy.conv_unsigned h1, ← Int.add_emod]
    rw [e]
    have : t.conv ((x + sv) % 2 ^ u.width) = x + sv := by
      by_cases ht : t = .bool
      · subst ht
        have hb : 0 ≤ x + sv ∧ x + sv ≤ 1 := hsum
        have hp : (2 : Int) ≤ 2 ^ u.width := by
          cases u <;> decide
        rw [Int.emod_eq_of_lt hb.1 (by omega)]
        exact CTy.conv_eq_self hsum
      · rw [conv_mod ht h2, CTy.conv_eq_self hsum]
    rw [this]
    rfl

/-! ## make_array_from_range -/

/-- The progression `b, b + s, …` of `n` values. -/
def progression (t : CTy) (b s : Int) (n : Nat) : List CVal :=
  (List.range n).map fun i : Nat => ⟨t, b + (i : Int) * s⟩

theorem inRange_between {t : CTy} {a b c : Int} (ha : t.InRange a) (hc : t.InRange c) (h1 : a ≤ b)
    (h2 : b ≤ c) : t.InRange b := ⟨le_trans ha.1 h1, le_trans h2 hc.2⟩

theorem stepCount_ok {t : CTy} {e : Int} {step : CVal} (hs : step.ty.InRange step.val)
    (he : t.InRange e) (hpos : 0 < step.val) : ∀ (n fuel : Nat) (b : Int), n < fuel →
    t.InRange b → t.InRange (b + n * step.val) → e < b + n * step.val →
    (0 < n → b + (n - 1 : Int) * step.val ≤ e) →
    stepCount fuel ⟨t, b⟩ ⟨t, e⟩ step = .ok n
  | _, 0, _, h, _, _, _, _ => by omega
  | 0, fuel + 1, b, _, hb, _, h2, _ => by
    unfold stepCount
    rw [cLe_same hb he, if_neg (by simp at h2 ⊢; omega)]
    rfl
  | n + 1, fuel + 1, b, hf, hb, h1, h2, h3 => by
    have h3 := h3 (by omega)
    have hn : 0 ≤ (n : Int) * step.val := Int.mul_nonneg (by omega) (by omega)
    have hm : ((n + 1 : Nat) : Int) * step.val = n * step.val + step.val := by push_cast; ring
    have hm' : ((n + 1 : Nat) - 1 : Int) * step.val = n * step.val := by push_cast; ring
    rw [hm] at h1 h2
    rw [hm'] at h3
    have hr : t.InRange (b + step.val) := inRange_between hb h1 (by omega) (by omega)
    unfold stepCount
    rw [cLe_same hb he, if_pos (by simp; omega), addAssign_ok hb hs hr, Outcome.ok_bind,
      stepCount_ok hs he hpos n fuel (b + step.val) (by omega) hr]
    · rfl
    · rwa [add_assoc, add_comm step.val]
    · omega
    · intro hn'
      have : ((n : Int) - 1) * step.val = n * step.val - step.val := by ring
      omega

theorem fillRange_ok {t : CTy} {step : CVal} (hs : step.ty.InRange step.val) :
    ∀ (n : Nat) (b : Int), (∀ i ≤ n, t.InRange (b + i * step.val)) →
    fillRange n ⟨t, b⟩ step = .ok (progression t b step.val n)
  | 0, _, _ => rfl
  | n + 1, b, h => by
    have h0 : t.InRange b := by simpa using h 0 (by omega)
    have h1 : t.InRange (b + step.val) := by simpa using h 1 (by omega)
    unfold fillRange
    rw [addAssign_ok h0 hs h1, Outcome.ok_bind, fillRange_ok hs n (b + step.val)]
    · rw [Outcome.ok_bind]
      simp only [progression, List.range_succ_eq_map, List.map_cons, List.map_map,
        Outcome.pure_eq]
      congr 2
      · simp
      · apply List.map_congr_left
        intro i _
        simp only [Function.comp]
        congr 1
        push_cast
        ring
    · intro i hi
      have := h (i + 1) (by omega)
      push_cast at this
      rw [show b + step.val + (i : Int) * step.val = b + (i + 1) * step.val by ring]
      exact this

/-- A step that does not move never ends. -/
theorem minmax_inRange {t : CTy} {b e : Int} (hb : t.InRange b) (he : t.InRange e) :
    t.InRange (min b e) ∧ t.InRange (max b e) := by
  constructor
  · rcases min_choice b e with h | h <;> rw [h] <;> assumption
  · rcases max_choice b e with h | h <;> rw [h] <;> assumption

theorem usual_usual (a b : CTy) : CTy.usual a (CTy.usual a b) = CTy.usual a b := by
  cases a <;> cases b <;> rfl

theorem isValidRange_eq {t : CTy} {b e : Int} {step : CVal} (hb : t.InRange (min b e))
    (he : t.InRange (max b e)) (hlo : (CTy.usual t step.ty).InRange (min b e))
    (hs : (CTy.usual t step.ty).InRange step.val)
    (hsum : (CTy.usual t step.ty).InRange (min b e + step.val)) :
    isValidRange ⟨t, min b e⟩ ⟨t, max b e⟩ step =
      .ok (decide (0 < step.val) || decide (min b e = max b e)) := by
  have hle : min b e ≤ max b e := le_trans (Int.min_le_left _ _) (Int.le_max_left _ _)
  have hadd : CVal.add ⟨t, min b e⟩ step = .ok ⟨CTy.usual t step.ty, min b e + step.val⟩ := by
    unfold CVal.add CVal.arith
    simp only [CTy.conv_eq_self hlo, CTy.conv_eq_self hs, CTy.conv_eq_self hsum, if_pos hsum]
    split <;> rfl
  have e1 : cLt ⟨t, min b e⟩ ⟨t, max b e⟩ = decide (min b e < max b e) := by
    simp only [cLt, usual_self, CTy.conv_eq_self (promote_holds hb),
      CTy.conv_eq_self (promote_holds he)]
  have e2 : cEq ⟨t, min b e⟩ ⟨t, max b e⟩ = decide (min b e = max b e) := by
    simp only [cEq, usual_self, CTy.conv_eq_self (promote_holds hb),
      CTy.conv_eq_self (promote_holds he)]
    rfl
  have e3 : cLt ⟨t, min b e⟩ ⟨CTy.usual t step.ty, min b e + step.val⟩ = decide (0 < step.val) := by
    simp only [cLt, usual_usual, CTy.conv_eq_self hlo, CTy.conv_eq_self hsum]
    congr 1
    exact propext ⟨fun h => by omega, fun h => by omega⟩
  unfold isValidRange
  rw [e1, hadd]
  simp only [Outcome.ok_bind, e2, e3]
  by_cases h : min b e < max b e
  · rw [if_pos (by simpa using h)]; rfl
  · rw [if_neg (by simpa using h)]
    have : min b e = max b e := by omega
    simp [this]

theorem stepCount_zero {t : CTy} {b : Int} {step : CVal} (hb : t.InRange b)
    (hs : step.ty.InRange step.val) (h0 : step.val = 0) :
    ∀ fuel, stepCount fuel ⟨t, b⟩ ⟨t, b⟩ step = .outOfFuel
  | 0 => rfl
  | fuel + 1 => by
    unfold stepCount
    rw [cLe_same hb hb, if_pos (by simp), addAssign_ok hb hs (by rw [h0, add_zero]; exact hb),
      Outcome.ok_bind, h0, add_zero, stepCount_zero hb hs h0 fuel]
    rfl

/-! ## concatenate_arrays and friends -/

theorem getAll_eq {α : Type} (a : List α) : ∀ (n i : Nat), i + n = a.length →
    getAll a i n = some (a.drop i)
  | 0, i, h => by
    unfold getAll
    rw [List.drop_eq_nil_of_le (by omega)]
  | n + 1, i, h => by
    unfold getAll
    have hi : i < a.length := by omega
    rw [List.getElem?_eq_getElem hi, getAll_eq a n (i + 1) (by omega),
      List.drop_eq_getElem_cons hi]
    rfl

theorem concat2_eq {α : Type} (a b : List α) : concat2 a b = some (a ++ b) := by
  unfold concat2
  rw [getAll_eq a a.length 0 (by omega), getAll_eq b b.length 0 (by omega)]
  rfl

theorem concatArrays_eq {α : Type} : ∀ (rest : List (List α)) (a : List α),
    concatArrays a rest = some (a ++ rest.flatten)
  | [], a => by simp [concatArrays]
  | b :: rest, a => by
    unfold concatArrays
    rw [concat2_eq]
    simp [concatArrays_eq rest]

theorem makeArrayFromSv_go {α β : Type} (conv : α → β) (sv : List α) : ∀ (n i : Nat),
    i + n ≤ sv.length →
    makeArrayFromSv.go conv sv i n = .ok (((sv.drop i).take n).map conv)
  | 0, i, _ => rfl
  | n + 1, i, h => by
    unfold makeArrayFromSv.go
    rw [elem_ok (by omega), Outcome.ok_bind, makeArrayFromSv_go conv sv n (i + 1) (by omega),
      List.drop_eq_getElem_cons (i := i) (by omega)]
    rfl

theorem makeArrayFromSv_go_ub {α β : Type} (conv : α → β) (sv : List α) : ∀ (n i : Nat),
    sv.length < i + n → i ≤ sv.length → makeArrayFromSv.go conv sv i n = .ub
  | 0, i, h, h' => by omega
  | n + 1, i, h, h' => by
    unfold makeArrayFromSv.go
    by_cases hi : i = sv.length
    · rw [elem_ub (by omega)]
      rfl
    · rw [elem_ok (by omega), Outcome.ok_bind,
        makeArrayFromSv_go_ub conv sv n (i + 1) (by omega) (by omega)]
      rfl

theorem svToArray_ok {α : Type} (sv : List α) : ∀ (len : List Nat),
    (∀ i ∈ len, i < sv.length) →
    ∃ l, svToArray sv len = .ok l ∧ l.map some = len.map (sv[·]?)
  | [], _ => ⟨[], rfl, rfl⟩
  | i :: len, h => by
    obtain ⟨l, h1, h2⟩ := svToArray_ok sv len fun j hj => h j (by simp [hj])
    have hi := h i (by simp)
    refine ⟨sv[i] :: l, ?_, ?_⟩
    · unfold svToArray
      rw [elem_ok hi, Outcome.ok_bind, h1]
      rfl
    · rw [List.map_cons, List.map_cons, h2, List.getElem?_eq_getElem hi]

theorem forEachArg_eq {σ α : Type} (f : σ → α → σ) : ∀ (l : List α) (s : σ),
    forEachArg f s l = l.foldl f s
  | [], _ => rfl
  | x :: l, s => forEachArg_eq f l (f s x)

/-! ## values_in_range -/

theorem shiftedSequence_ok {t : CTy} {N : Int} : ∀ (left i : Nat),
    (∀ j, j < i + left → t.InRange j) → t.InRange N →
    (∀ j, i ≤ j → j < i + left → t.InRange (j + N)) →
    shiftedSequence t N i left = some ((List.range left).map fun k => ((i + k : Nat) : Int) + N)
  | 0, _, _, _, _ => rfl
  | left + 1, i, h1, h2, h3 => by
    have hi : t.InRange i := h1 i (by omega)
    have hs : t.InRange (i + N) := h3 i (by omega) (by omega)
    have hadd : CVal.add ⟨t, i⟩ ⟨t, N⟩ = .ok ⟨t.promote, i + N⟩ := by
      unfold CVal.add CVal.arith
      simp only [usual_self]
      rw [CTy.conv_eq_self (promote_holds hi), CTy.conv_eq_self (promote_holds h2),
        if_pos (promote_holds hs), CTy.conv_eq_self (promote_holds hs)]
      split <;> rfl
    unfold shiftedSequence
    rw [hadd]
    simp only
    rw [if_pos hs, shiftedSequence_ok left (i + 1) (fun j hj => h1 j (by omega)) h2
      (fun j hj hj' => h3 j (by omega) (by omega)), List.range_succ_eq_map]
    simp only [List.map_cons, List.map_map, Option.bind_eq_bind, Option.bind_some,
      Nat.add_zero]
    congr 2
    apply List.map_congr_left
    intro k _
    simp only [Function.comp]
    push_cast
    ring

theorem usual_holds {a b : CTy} {v : Int} (h : (CTy.common a b).InRange v) :
    (CTy.usual a b).InRange v := by
  unfold CTy.common at h
  split at h
  · next e =>
    subst e
    rw [usual_self]
    exact promote_holds h
  · exact h

theorem usual_int (t : CTy) : CTy.usual t .int = t.promote := by cases t <;> rfl

theorem usual_promote (a b : CTy) : CTy.usual a.promote b = CTy.usual a b := by
  cases a <;> cases b <;> rfl

theorem zero_inRange (t : CTy) : t.InRange 0 := by cases t <;> decide

theorem valuesInRange_ok {first last : CVal} {n : Nat}
    (hnb : CTy.common first.ty last.ty ≠ .bool)
    (hle : first.val ≤ last.val)
    (hf : first.ty.InRange first.val) (hl : last.ty.InRange last.val)
    (hcf : (CTy.common first.ty last.ty).InRange first.val)
    (hcl : (CTy.common first.ty last.ty).InRange last.val)
    (hnext : last.ty.promote.InRange (last.val + 1))
    (hcount : (CTy.common first.ty last.ty).InRange (last.val - first.val + 1))
    (hn : (n : Int) = last.val - first.val + 1) :
    valuesInRange first last =
      some (CTy.common first.ty last.ty, (List.range n).map fun i : Nat => first.val + i) := by
  obtain ⟨f, fv⟩ := first
  obtain ⟨l, lv⟩ := last
  simp only at *
  have h1 : cLe ⟨f, fv⟩ ⟨l, lv⟩ = true := by
    simp only [cLe, CTy.conv_eq_self (usual_holds hcf), CTy.conv_eq_self (usual_holds hcl)]
    simpa using hle
  have h2 : CVal.add ⟨l, lv⟩ ⟨.int, 1⟩ = .ok ⟨l.promote, lv + 1⟩ := by
    have hone : l.promote.InRange 1 := by cases l <;> decide
    unfold CVal.add CVal.arith
    simp only [usual_int]
    rw [CTy.conv_eq_self (promote_holds hl), CTy.conv_eq_self hone, if_pos hnext,
      CTy.conv_eq_self hnext]
    split <;> rfl
  have h3 : CVal.sub ⟨l.promote, lv + 1⟩ ⟨f, fv⟩ = .ok ⟨CTy.usual l f, lv - fv + 1⟩ := by
    have hr : (CTy.usual l f).InRange (lv - fv + 1) := by
      rw [usual_comm]
      exact usual_holds hcount
    unfold CVal.sub CVal.arith
    simp only [usual_promote]
    cases hsg : (CTy.usual l f).signed with
    | true =>
      have e1 := usual_signed l.promote f (by rw [usual_promote]; exact hsg)
      have e2 := usual_signed f l (by rw [usual_comm]; exact hsg)
      rw [usual_promote] at e1
      rw [usual_comm] at e2
      have g1 : (CTy.usual l f).InRange (lv + 1) :=
        ⟨le_trans e1.1 hnext.1, le_trans hnext.2 e1.2⟩
      have g2 : (CTy.usual l f).InRange fv := ⟨le_trans e2.1 hf.1, le_trans hf.2 e2.2⟩
      rw [CTy.conv_eq_self g1, CTy.conv_eq_self g2, if_pos rfl,
        show lv + 1 - fv = lv - fv + 1 by omega, if_pos hr]
    | false =>
      obtain ⟨e1, -⟩ := usual_unsigned l f hsg
      rw [if_neg (by simp)]
      have : (CTy.usual l f).conv ((CTy.usual l f).conv (lv + 1) - (CTy.usual l f).conv fv) =
          lv - fv + 1 := by
        rw [CTy.conv_unsigned e1, CTy.conv_unsigned e1, CTy.conv_unsigned e1, ← Int.sub_emod,
          show lv + 1 - fv = lv - fv + 1 by omega, ← CTy.conv_unsigned e1, CTy.conv_eq_self hr]
      rw [this]
  unfold valuesInRange
  rw [if_neg hnb, h1, h2]
  simp only [if_true, Outcome.bind, h3]
  rw [CTy.conv_eq_self hcount, CTy.conv_eq_self hcf, if_neg (by omega), ← hn, Int.toNat_natCast,
    shiftedSequence_ok n 0 _ hcf]
  · simp [add_comm]
  · intro j _ hj
    exact inRange_between hcf hcl (by omega) (by omega)
  · intro j hj
    refine inRange_between (zero_inRange _) hcount (by omega) (by omega)

/-- The list once the number of values is known. -/
theorem valuesInRange_of_count {first last n : CVal}
    (hnb : CTy.common first.ty last.ty ≠ .bool)
    (hle : first.val ≤ last.val)
    (hcf : (CTy.common first.ty last.ty).InRange first.val)
    (hcl : (CTy.common first.ty last.ty).InRange last.val)
    (hcount : (CTy.common first.ty last.ty).InRange (last.val - first.val + 1))
    (hn : ((last.add ⟨.int, 1⟩).bind fun x => x.sub first) = .ok n)
    (hc : (CTy.common first.ty last.ty).conv n.val = last.val - first.val + 1) :
    valuesInRange first last = some (CTy.common first.ty last.ty,
      (List.range (last.val - first.val + 1).toNat).map fun i : Nat => first.val + i) := by
  have h1 : cLe first last = true := by
    simp only [cLe, CTy.conv_eq_self (usual_holds hcf), CTy.conv_eq_self (usual_holds hcl)]
    simpa using hle
  unfold valuesInRange
  rw [if_neg hnb, h1, hn]
  simp only [if_true, hc]
  rw [CTy.conv_eq_self hcf, if_neg (by omega), shiftedSequence_ok _ 0 _ hcf]
  · simp [add_comm]
  · intro j _ hj
    exact inRange_between hcf hcl (by omega) (by omega)
  · intro j hj
    refine inRange_between (zero_inRange _) hcount (by omega) (by omega)

/-- `conv` is reduction modulo `2^width`. -/
theorem conv_emod {t : CTy} (h : t ≠ .bool) (v : Int) :
    t.conv v % 2 ^ t.width = v % 2 ^ t.width := by
  unfold CTy.conv CTy.ofBits
  rw [if_neg h]
  split
  · rw [BitVec.toInt_ofInt]
    have : ((2 ^ t.width : Nat) : Int) = 2 ^ t.width := by push_cast; rfl
    rw [Int.bmod_def, this]
    split
    · exact Int.emod_emod_of_dvd _ (dvd_refl _)
    · rw [Int.sub_emod, Int.emod_self, Int.sub_zero, Int.emod_emod_of_dvd _ (dvd_refl _),
        Int.emod_emod_of_dvd _ (dvd_refl _)]
  · rw [BitVec.toNat_ofInt, Int.toNat_of_nonneg (Int.emod_nonneg _
      (by exact_mod_cast (Nat.two_pow_pos t.width).ne'))]
    have : ((2 ^ t.width : Nat) : Int) = 2 ^ t.width := by push_cast; rfl
    rw [this]
    exact Int.emod_emod_of_dvd _ (dvd_refl _)

theorem arith_emod {t : CTy} (h : t ≠ .bool) {v : Int} {n : CVal} (e : CVal.arith t v = .ok n) :
    n.val % 2 ^ t.width = v % 2 ^ t.width := by
  unfold CVal.arith at e
  split at e
  · split at e
    · cases Outcome.ok.inj e; rfl
    · cases e
  · cases Outcome.ok.inj e
    exact conv_emod h v

theorem usual_ne_bool (a b : CTy) : CTy.usual a b ≠ .bool := by cases a <;> cases b <;> decide

theorem common_width (f l : CTy) (h : CTy.common f l ≠ .bool) :
    (2 ^ (CTy.common f l).width : Int) ∣ 2 ^ (CTy.usual l f).width := by
  cases f <;> cases l <;> first | exact absurd rfl h | decide

/-- The number of values modulo the common type, when `Last + 1` is `a`. -/
theorem count_emod {first last x n : CVal} (hnb : CTy.common first.ty last.ty ≠ .bool)
    (hx : x.ty = last.ty.promote) (hn : x.sub first = .ok n) :
    (CTy.common first.ty last.ty).conv n.val % 2 ^ (CTy.common first.ty last.ty).width
      = (x.val - first.val) % 2 ^ (CTy.common first.ty last.ty).width := by
  unfold CVal.sub at hn
  rw [hx, usual_promote] at hn
  have hw := common_width first.ty last.ty hnb
  have h1 := arith_emod (usual_ne_bool _ _) hn
  rw [conv_emod hnb, ← Int.emod_emod_of_dvd _ hw, h1, Int.sub_emod, conv_emod (usual_ne_bool _ _),
    conv_emod (usual_ne_bool _ _), ← Int.sub_emod, Int.emod_emod_of_dvd _ hw]

theorem shiftedSequence_length {t : CTy} {N : Int} : ∀ (left i : Nat) {l : List Int},
    shiftedSequence t N i left = some l → l.length = left
  | 0, _, l, h => by cases Option.some.inj h; rfl
  | left + 1, i, l, h => by
    unfold shiftedSequence at h
    split at h
    · split at h
      · obtain ⟨l', hl', h⟩ := Option.bind_eq_some_iff.1 h
        cases Option.some.inj h
        rw [List.length_cons, shiftedSequence_length left (i + 1) hl']
      · cases h
    · cases h

/-- `Last + 1`. -/
theorem last_add_one {l : CTy} {lv : Int} (hl : l.InRange lv) :
    (l.promote.InRange (lv + 1) ∧ CVal.add ⟨l, lv⟩ ⟨.int, 1⟩ = .ok ⟨l.promote, lv + 1⟩) ∨
    (¬ l.promote.InRange (lv + 1) ∧ l.promote.signed = true ∧
      CVal.add ⟨l, lv⟩ ⟨.int, 1⟩ = .ub) ∨
    (¬ l.promote.InRange (lv + 1) ∧ l.promote.signed = false ∧ lv + 1 = 2 ^ l.promote.width ∧
      CVal.add ⟨l, lv⟩ ⟨.int, 1⟩ = .ok ⟨l.promote, 0⟩) := by
  have hone : l.promote.InRange 1 := by cases l <;> decide
  have hp := promote_holds hl
  have hadd : CVal.add ⟨l, lv⟩ ⟨.int, 1⟩ = CVal.arith l.promote (lv + 1) := by
    unfold CVal.add
    simp only [usual_int]
    rw [CTy.conv_eq_self hp, CTy.conv_eq_self hone]
  rw [hadd]
  unfold CVal.arith
  by_cases h : l.promote.InRange (lv + 1)
  · left
    refine ⟨h, ?_⟩
    rw [if_pos h, CTy.conv_eq_self h]
    split <;> rfl
  · right
    rw [if_neg h]
    cases hs : l.promote.signed with
    | true => exact Or.inl ⟨h, rfl, rfl⟩
    | false =>
      right
      have hmax : lv + 1 = 2 ^ l.promote.width := by
        unfold CTy.InRange CTy.minVal CTy.maxVal at h hp
        simp only [hs, Bool.false_eq_true, if_false] at h hp
        omega
      refine ⟨h, rfl, hmax, ?_⟩
      have hu : l.promote.isUInt = true := by
        revert hs; cases l <;> decide
      rw [if_neg (by simp), CTy.conv_unsigned hu, hmax, Int.emod_self]

theorem promote_unsigned_common {l f : CTy} (h : l.promote.signed = false) :
    l.promote.width ≤ (CTy.common f l).width ∧
    (l.promote.width = (CTy.common f l).width →
      CTy.common f l = CTy.usual l f ∧ (CTy.common f l).isUInt = true) := by
  revert h
  cases l <;> cases f <;> decide

end Utils.Arrays
