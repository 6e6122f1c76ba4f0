import Verif.Model.Memory

/-! # Lemmas about the raw memory helpers -/

namespace Utils.Memory

theorem load_eq_ok {m : Mem} {a : Nat} {b : UInt8} : load m a = .ok b ↔ m a = some b := by
  unfold load
  cases m a <;> simp

theorem store_ok {m : Mem} {a : Nat} (h : (m a).isSome) (b : UInt8) :
    store m a b = .ok fun x => if x = a then some b else m x := by
  unfold store
  obtain ⟨c, hc⟩ := Option.isSome_iff_exists.1 h
  rw [hc]

/-- Accessible ranges can be read, and what is read is what is there. -/
theorem loadBytes_ok (m : Mem) : ∀ (n a : Nat), (∀ i < n, (m (a + i)).isSome) →
    ∃ l, loadBytes m a n = .ok l ∧ l.length = n ∧ ∀ i < n, m (a + i) = l[i]?
  | 0, _, _ => ⟨[], rfl, rfl, by intro i hi; omega⟩
  | n + 1, a, h => by
    obtain ⟨b, hb⟩ := Option.isSome_iff_exists.1 (h 0 (by omega))
    obtain ⟨l, h1, h2, h3⟩ := loadBytes_ok m n (a + 1) fun i hi => by
      have := h (i + 1) (by omega)
      rwa [show a + 1 + i = a + (i + 1) by omega]
    refine ⟨b :: l, ?_, by simp [h2], ?_⟩
    · unfold loadBytes
      rw [(load_eq_ok (a := a)).2 hb, Outcome.ok_bind, h1]
      rfl
    · intro i hi
      cases i with
      | zero => simpa using hb
      | succ i =>
        rw [show a + (i + 1) = a + 1 + i by omega, h3 i (by omega)]
        simp

theorem storeBytes_ok : ∀ (l : List UInt8) (m : Mem) (a : Nat),
    (∀ i < l.length, (m (a + i)).isSome) →
    storeBytes m a l = .ok fun x => if a ≤ x ∧ x < a + l.length then l[x - a]? else m x
  | [], m, a, _ => by
    unfold storeBytes
    congr 1
    funext x
    rw [if_neg (by simp only [List.length_nil]; omega)]
  | b :: l, m, a, h => by
    unfold storeBytes
    rw [store_ok (a := a) (h 0 (by simp)), Outcome.ok_bind, storeBytes_ok l]
    · congr 1
      funext x
      simp only [List.length_cons]
      by_cases h1 : x = a
      · subst h1
        rw [if_neg (by omega), if_pos rfl, if_pos (by omega)]
        simp
      · by_cases h2 : a ≤ x ∧ x < a + (l.length + 1)
        · rw [if_pos (by omega), if_pos h2, show x - a = (x - (a + 1)) + 1 by omega]
          simp
        · rw [if_neg (by omega), if_neg h1, if_neg h2]
    · intro i hi
      rw [if_neg (by omega), show a + 1 + i = a + (i + 1) by omega]
      exact h _ (by simpa using hi)

theorem compareBytes_eq_zero : ∀ {l r : List UInt8}, l.length = r.length →
    (compareBytes l r = 0 ↔ l = r)
  | [], [], _ => by simp [compareBytes]
  | a :: l, b :: r, h => by
    have ih := compareBytes_eq_zero (l := l) (r := r) (by simpa using h)
    unfold compareBytes
    by_cases h1 : a < b
    · rw [if_pos h1]
      constructor
      · intro h; cases h
      · intro h; injection h with h _; subst h; exact absurd h1 (by simp)
    · rw [if_neg h1]
      by_cases h2 : b < a
      · rw [if_pos h2]
        constructor
        · intro h; cases h
        · intro h; injection h with h _; subst h; exact absurd h2 (by simp)
      · rw [if_neg h2, ih]
        have : a = b := by
          apply UInt8.toNat_inj.1
          rw [UInt8.lt_iff_toNat_lt] at h1 h2
          omega
        subst this
        simp

theorem memvcmp_ok {m : Mem} {p n : Nat} (v : UInt8) (h : ∀ i < n, (m (p + i)).isSome) :
    ∃ r, memvcmp m p v n = .ok r ∧
      (r = true ↔ p ≠ 0 ∧ 0 < n ∧ ∀ i < n, m (p + i) = some v) := by
  unfold memvcmp
  by_cases h0 : n = 0 ∨ p = 0
  · rw [if_pos h0]
    refine ⟨false, rfl, ?_⟩
    simp only [Bool.false_eq_true, false_iff]
    omega
  · rw [if_neg h0]
    obtain ⟨b, hb⟩ := Option.isSome_iff_exists.1 (h 0 (by omega))
    rw [(load_eq_ok (a := p)).2 hb, Outcome.ok_bind]
    by_cases hbv : b = v
    · rw [if_pos hbv]
      obtain ⟨l, hl1, hl2, hl3⟩ := loadBytes_ok m (n - 1) p fun i hi => h i (by omega)
      obtain ⟨r, hr1, hr2, hr3⟩ := loadBytes_ok m (n - 1) (p + 1) fun i hi => by
        have := h (i + 1) (by omega)
        rwa [show p + 1 + i = p + (i + 1) by omega]
      refine ⟨_, by unfold cMemcmp; rw [hl1, Outcome.ok_bind, hr1]; rfl, ?_⟩
      rw [beq_iff_eq, compareBytes_eq_zero (by omega)]
      constructor
      · intro hlr
        refine ⟨by omega, by omega, fun i hi => ?_⟩
        induction i with
        | zero => rw [← hbv]; exact hb
        | succ i ih =>
          rw [show p + (i + 1) = p + 1 + i by omega, hr3 i (by omega), ← hlr, ← hl3 i (by omega)]
          exact ih (by omega)
      · rintro ⟨-, -, hall⟩
        apply List.ext_getElem? 
        intro i
        by_cases hi : i < n - 1
        · rw [← hl3 i hi, ← hr3 i hi, hall i (by omega),
            show p + 1 + i = p + (i + 1) by omega, hall (i + 1) (by omega)]
        · rw [List.getElem?_eq_none (by omega), List.getElem?_eq_none (by omega)]
    · rw [if_neg hbv]
      refine ⟨false, rfl, ?_⟩
      simp only [Bool.false_eq_true, false_iff]
      rintro ⟨-, -, hall⟩
      have := hall 0 (by omega)
      rw [Nat.add_zero] at this hb
      rw [hb] at this
      exact hbv (Option.some.inj this)

theorem zeroLoop_ok {p : Nat} : ∀ (left i : Nat) (m : Mem),
    (∀ j, i ≤ j → j < i + left → (m (p + j)).isSome) →
    zeroLoop m p i left =
      .ok fun x => if p + i ≤ x ∧ x < p + i + left then some 0 else m x
  | 0, i, m, _ => by
    unfold zeroLoop
    congr 1
    funext x
    rw [if_neg (by omega)]
  | left + 1, i, m, h => by
    unfold zeroLoop
    rw [store_ok (h i (by omega) (by omega)), Outcome.ok_bind, zeroLoop_ok left (i + 1)]
    · congr 1
      funext x
      by_cases h1 : x = p + i
      · rw [if_neg (by omega), if_pos h1, if_pos (by omega)]
      · by_cases h2 : p + i ≤ x ∧ x < p + i + (left + 1)
        · rw [if_pos (by omega), if_pos h2]
        · rw [if_neg (by omega), if_neg h1, if_neg h2]
    · intro j hj1 hj2
      rw [if_neg (by omega)]
      exact h j (by omega) (by omega)

/-- A byte of the range that is not accessible makes the zeroing undefined. -/
theorem zeroLoop_ub {p : Nat} : ∀ (left i : Nat) (m : Mem) (j : Nat),
    i ≤ j → j < i + left → m (p + j) = none → zeroLoop m p i left = .ub
  | 0, _, _, _, _, _, _ => by omega
  | left + 1, i, m, j, h1, h2, h3 => by
    unfold zeroLoop
    cases hm : m (p + i) with
    | none => unfold store; rw [hm]; rfl
    | some b =>
      rw [store_ok (by rw [hm]; rfl), Outcome.ok_bind]
      have : j ≠ i := by rintro rfl; rw [hm] at h3; cases h3
      exact zeroLoop_ub left (i + 1) _ j (by omega) (by omega)
        (by rw [if_neg (by omega)]; exact h3)

/-- The casting loop on ranges without a common address. -/
theorem castLoop_ok {to from_ : ByteTy} {dst src : Nat} :
    ∀ (left i : Nat) (m : Mem), (dst + i + left ≤ src + i ∨ src + i + left ≤ dst + i) →
      (∀ j < left, ∃ b, m (src + i + j) = some b ∧ from_.holds b = true) →
      (∀ j < left, (m (dst + i + j)).isSome) →
      castLoop to from_ m dst src i left = .ok fun x =>
        if dst + i ≤ x ∧ x < dst + i + left then (m (src + (x - dst))).map to.cast else m x
  | 0, i, m, _, _, _ => by
    unfold castLoop
    congr 1
    funext x
    rw [if_neg (by omega)]
  | left + 1, i, m, hdis, hs, hd => by
    obtain ⟨b, hb, hh⟩ := hs 0 (by omega)
    have hd0 := hd 0 (by omega)
    rw [Nat.add_zero] at hb hd0
    unfold castLoop
    rw [load_eq_ok.2 hb, Outcome.ok_bind, if_pos hh, store_ok hd0, Outcome.ok_bind,
      castLoop_ok left (i + 1) _ (by omega)
        (fun j hj => by
          rw [if_neg (by omega), show src + (i + 1) + j = src + i + (j + 1) by omega]
          exact hs (j + 1) (by omega))
        (fun j hj => by
          rw [if_neg (by omega), show dst + (i + 1) + j = dst + i + (j + 1) by omega]
          exact hd (j + 1) (by omega))]
    congr 1
    funext x
    by_cases h1 : x = dst + i
    · subst h1
      rw [if_neg (by omega), if_pos rfl, if_pos (by omega),
        show src + (dst + i - dst) = src + i by omega]
      rw [hb]
      rfl
    · by_cases h2 : dst + (i + 1) ≤ x ∧ x < dst + (i + 1) + left
      · rw [if_pos h2, if_neg (show ¬ src + (x - dst) = dst + i by omega), if_pos (by omega)]
      · rw [if_neg h2, if_neg h1, if_neg (by omega)]

/-- The casting loop reads an object of type `From` that holds no value of it. -/
theorem castLoop_ub {to from_ : ByteTy} {dst src : Nat} :
    ∀ (left i : Nat) (m : Mem) (j : Nat) (b : UInt8),
      (dst + i + left ≤ src + i ∨ src + i + left ≤ dst + i) → j < left →
      m (src + i + j) = some b → from_.holds b = false →
      castLoop to from_ m dst src i left = .ub
  | 0, _, _, _, _, _, hj, _, _ => absurd hj (by omega)
  | left + 1, i, m, j, b, hdis, hj, hb, hh => by
    unfold castLoop
    cases hl : load m (src + i) with
    | ok b' =>
      rw [Outcome.ok_bind]
      by_cases hh' : from_.holds b' = true
      · rw [if_pos hh']
        cases hst : store m (dst + i) (to.cast b') with
        | ok m' =>
          rw [Outcome.ok_bind]
          obtain ⟨j, rfl⟩ : ∃ k, j = k + 1 := by
            refine ⟨j - 1, ?_⟩
            by_cases h0 : j = 0
            · subst h0
              rw [load_eq_ok, show src + i = src + i + 0 from rfl, hb] at hl
              cases hl
              rw [hh] at hh'
              cases hh'
            · omega
          refine castLoop_ub left (i + 1) m' j b (by omega) (by omega) ?_ hh
          unfold store at hst
          split at hst <;> cases hst
          simp only
          rw [if_neg (by omega), show src + (i + 1) + j = src + i + (j + 1) by omega]
          exact hb
        | ub => rfl
        | assertFailed => unfold store at hst; split at hst <;> cases hst
        | aborted => unfold store at hst; split at hst <;> cases hst
        | outOfFuel => unfold store at hst; split at hst <;> cases hst
      · rw [if_neg hh']
    | ub => rfl
    | assertFailed => unfold load at hl; split at hl <;> cases hl
    | aborted => unfold load at hl; split at hl <;> cases hl
    | outOfFuel => unfold load at hl; split at hl <;> cases hl

/-- What the forward copy loop leaves at distance `j` from the destination. When the destination
starts `d > 0` bytes into the source the first `d` bytes are repeated. -/
def copied (dst src n j : Nat) : Nat :=
  if src < dst ∧ dst < src + n then src + j % (dst - src) else src + j

theorem copyLoop_ok {m0 : Mem} {dst src n : Nat} (hne : dst ≠ src)
    (hs : ∀ j < n, (m0 (src + j)).isSome) (hd : ∀ j < n, (m0 (dst + j)).isSome) :
    ∀ (left i : Nat) (m : Mem), i + left = n →
      (∀ x, m x = if dst ≤ x ∧ x < dst + i then m0 (copied dst src n (x - dst)) else m0 x) →
      copyLoop m dst src i left =
        .ok fun x => if dst ≤ x ∧ x < dst + n then m0 (copied dst src n (x - dst)) else m0 x
  | 0, i, m, hi, hm => by
    unfold copyLoop
    congr 1
    funext x
    rw [hm x, show i = n by omega]
  | left + 1, i, m, hi, hm => by
    have key : m (src + i) = m0 (copied dst src n i) := by
      rw [hm]
      unfold copied
      by_cases h1 : src < dst ∧ dst < src + n
      · by_cases h2 : dst ≤ src + i ∧ src + i < dst + i
        · rw [if_pos h2, if_pos h1, if_pos h1, show src + i - dst = i - (dst - src) by omega,
            ← Nat.mod_eq_sub_mod (by omega)]
        · rw [if_neg h2, if_pos h1, Nat.mod_eq_of_lt (by omega)]
      · rw [if_neg (by omega), if_neg h1]
    have acc : (m (src + i)).isSome := by
      rw [key]
      unfold copied
      split
      · apply hs
        have := Nat.mod_le i (dst - src)
        omega
      · exact hs i (by omega)
    obtain ⟨b, hb⟩ := Option.isSome_iff_exists.1 acc
    have accd : (m (dst + i)).isSome := by
      rw [hm, if_neg (by omega)]
      exact hd i (by omega)
    unfold copyLoop
    rw [load_eq_ok.2 hb, Outcome.ok_bind, store_ok accd, Outcome.ok_bind]
    apply copyLoop_ok hne hs hd left (i + 1) _ (by omega)
    intro x
    by_cases h1 : x = dst + i
    · subst h1
      rw [if_pos rfl, if_pos (by omega), show dst + i - dst = i by omega, ← key, hb]
    · rw [if_neg h1, hm x]
      by_cases h2 : dst ≤ x ∧ x < dst + i
      · rw [if_pos h2, if_pos (by omega)]
      · rw [if_neg h2, if_neg (by omega)]

theorem cMove_ok {m : Mem} {dst src n : Nat}
    (hs : ∀ j < n, (m (src + j)).isSome) (hd : ∀ j < n, (m (dst + j)).isSome) :
    (do let l ← loadBytes m src n; storeBytes m dst l) =
      .ok fun x => if dst ≤ x ∧ x < dst + n then m (src + (x - dst)) else m x := by
  obtain ⟨l, h1, h2, h3⟩ := loadBytes_ok m n src hs
  rw [h1, Outcome.ok_bind, storeBytes_ok l m dst (by rw [h2]; exact hd)]
  congr 1
  funext x
  rw [h2]
  by_cases h : dst ≤ x ∧ x < dst + n
  · rw [if_pos h, if_pos h, h3 _ (by omega)]
  · rw [if_neg h, if_neg h]

end Utils.Memory
