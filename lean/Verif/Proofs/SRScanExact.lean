import Verif.Spec.SRExact
import Verif.Proofs.SRFacts

/-!
# The scan of `allocate` on any well-formed state
-/

namespace Utils.SR

open Utils Utils.Bits Utils.Spec

variable {p : Params} {s : State} {size align : Nat} {σ : Type} {up : Option (Upstream σ)}

theorem Finds.unique {i : Nat} {r r' : Option Nat} (h : Finds s i r) (h' : Finds s i r') : r = r' := by
  induction h with
  | here hu => cases h' <;> simp_all
  | next hu hn _ ih =>
    cases h' with
    | here hu' => simp_all
    | next _ _ h2 => exact ih h2
    | last _ hn' => exact absurd hn' hn
  | last hu hn =>
    cases h' with
    | here hu' => simp_all
    | next _ hn' _ => exact absurd hn hn'
    | last _ _ => rfl

theorem Finds.total (hl : LinksForward s) {i : Nat} (hi : i < s.blockCount) : ∃ r, Finds s i r := by
  generalize hd : s.blockCount - i = d
  induction d using Nat.strong_induction_on generalizing i with
  | _ d ih =>
    cases hu : s.inUse i with
    | false => exact ⟨_, .here hu⟩
    | true =>
      by_cases hn : s.next i = 0
      · exact ⟨_, .last hu hn⟩
      · have := hl i hi
        obtain ⟨r, hr⟩ := ih (s.blockCount - s.next i) (by omega) (by omega) rfl
        exact ⟨r, .next hu hn hr⟩

theorem Finds.scan_none (hv : Valid p) (hp : Placed p s) (hl : LinksForward s)
    (hr : Request size align) {i : Nat} (hi : i < s.blockCount) (h : Finds s i none) {fuel : Nat}
    (hf : s.blockCount - i ≤ fuel) : scanFrom p size align fuel s i = .ok (s, 0) := by
  generalize hx : (none : Option Nat) = x at h
  induction h generalizing fuel with
  | here => cases hx
  | @next i r hu hn h ih =>
    have := hl i hi
    obtain ⟨f, rfl⟩ : ∃ f, fuel = f + 1 := ⟨fuel - 1, by omega⟩
    rw [(scanFrom_link hv hp hl hi hr).1 hu, if_pos hn]
    exact ih (by omega) (by omega) hx
  | last hu hn =>
    obtain ⟨f, rfl⟩ : ∃ f, fuel = f + 1 := ⟨fuel - 1, by omega⟩
    rw [(scanFrom_link hv hp hl hi hr).1 hu, if_neg (by simp [hn])]

theorem Finds.scan_some (hv : Valid p) (hp : Placed p s) (hl : LinksForward s)
    (hr : Request size align) {i j : Nat} (hi : i < s.blockCount) (h : Finds s i (some j)) :
    i ≤ j ∧ j < s.blockCount ∧ s.inUse j = false ∧ ∃ k, k ≤ j - i ∧
      (∀ f, scanFrom p size align (f + k) s i = scanFrom p size align f s j) ∧
      ∀ f, f ≤ k → scanFrom p size align f s i = .outOfFuel := by
  generalize hx : some j = x at h
  induction h with
  | here hu =>
    cases hx
    refine ⟨Nat.le_refl _, hi, hu, 0, by omega, fun f => rfl, fun f hf => ?_⟩
    obtain rfl : f = 0 := by omega
    rfl
  | @next i r hu hn h ih =>
    have := hl i hi
    obtain ⟨h1, h2, h3, k, h4, h5, h6⟩ := ih (by omega) hx
    refine ⟨by omega, h2, h3, k + 1, by omega, fun f => ?_, fun f hf => ?_⟩
    · rw [← Nat.add_assoc, (scanFrom_link hv hp hl hi hr).1 hu, if_pos hn, h5]
    · cases f with
      | zero => rfl
      | succ f => rw [(scanFrom_link hv hp hl hi hr).1 hu, if_pos hn, h6 f (by omega)]
  | last => cases hx

theorem regionEnd_eq (i : Nat) : regionEnd s i = stop s i := rfl

/-- The gate as computed is the gate as stated. -/
theorem gate_iff (hv : Valid p) (hp : Placed p s) (hsm : Small p s) (ha : ∃ k, align = 2 ^ k)
    (fuel : Nat) :
    (Gate p s align → allocateLocal p fuel s size align = scan p fuel s size align) ∧
    (¬ Gate p s align → allocateLocal p fuel s size align = .ok (s, 0)) := by
  obtain ⟨c, m, htz, hm, hlo, hhi, h⟩ := allocateLocal_eq hv hp hsm
  have hn0 : 0 < s.blockCount * p.blockSize := Nat.mul_pos hp.some hv.pos
  have key : align ≤ 2 ^ m ↔ Gate p s align := by
    constructor
    · intro hle
      have := Nat.two_pow_pos c
      exact ⟨c, htz.1, by omega⟩
    · rintro ⟨k, hk, hlt⟩
      have h2 := (greatest_of_trailingZeros htz).2.2 (2 ^ k) ⟨k, rfl⟩ hk
      obtain ⟨e, rfl⟩ := ha
      have : e < m + 1 := (Nat.pow_lt_pow_iff_right (by decide)).1
        (Nat.lt_of_le_of_lt (by omega : 2 ^ e ≤ 2 ^ c + s.blockCount * p.blockSize - 1) hhi)
      exact Nat.pow_le_pow_right (by decide) (by omega)
  rw [h]
  exact ⟨fun g => if_pos (key.2 g), fun g => if_neg fun hle => g (key.1 hle)⟩

/-- The outcome of the local part that an answer stands for. -/
def Means (p : Params) (s : State) (size align : Nat) (o : Outcome (State × Nat)) : Answer → Prop
  | .never => o = .outOfFuel
  | .refuse => o = .ok (s, 0)
  | .take i => o = do
      let s' ← allocateBlocks p s i
        (s.data + i * p.blockSize + padding (s.data + i * p.blockSize) align) size
      pure (s', s.data + i * p.blockSize + padding (s.data + i * p.blockSize) align)

theorem decides_total (hp : Placed p s) (hl : LinksForward s) :
    ∃ r, Decides p s size align r := by
  have hsome := hp.some
  by_cases hg : Gate p s align
  · obtain ⟨r, h0⟩ := Finds.total hl (i := 0) (by omega)
    cases r with
    | none => exact ⟨_, .full hg h0⟩
    | some i =>
      by_cases hs : TooSmall p s size align i
      · by_cases hn : s.next i = 0
        · exact ⟨_, .firstLast hg h0 hs hn⟩
        · have hi : i < s.blockCount := by
            have : ∀ {i r}, i < s.blockCount → Finds s i r → ∀ j, r = some j → j < s.blockCount := by
              intro i r hi h
              induction h with
              | here => rintro j ⟨⟩; exact hi
              | @next i r hu hn h ih => exact ih (by have := hl i hi; omega)
              | last => rintro j ⟨⟩
            exact this (by omega) h0 i rfl
          have := hl i hi
          obtain ⟨r, h1⟩ := Finds.total hl (i := 1) (by omega)
          cases r with
          | none => exact ⟨_, .fullFromOne hg h0 hs hn h1⟩
          | some j =>
            by_cases hs1 : TooSmall p s size align j
            · by_cases hn1 : s.next j = 0
              · exact ⟨_, .secondLast hg h0 hs hn h1 hs1 hn1⟩
              · exact ⟨_, .never hg h0 hs hn h1 hs1 hn1⟩
            · exact ⟨_, .second hg h0 hs hn h1 hs1⟩
      · exact ⟨_, .first hg h0 hs⟩
  · exact ⟨_, .gate hg⟩

theorem local_exact (hv : Valid p) (hp : Placed p s) (hsm : Small p s) (hl : LinksForward s)
    (hr : Request size align) {r : Answer} (h : Decides p s size align r) {fuel : Nat}
    (hf : r = .never ∨ 2 * s.blockCount ≤ fuel) :
    Means p s size align (allocateLocal p fuel s size align) r := by
  have hsome := hp.some
  have hz : 0 < s.blockCount := by omega
  have g := gate_iff (size := size) hv hp hsm hr.pow2 fuel
  -- the state after the first round
  have round1 : ∀ {i}, Finds s 0 (some i) → TooSmall p s size align i → s.next i ≠ 0 →
      1 < s.blockCount ∧ ∃ k, k ≤ i ∧ i < s.blockCount ∧
        (∀ f, scan p (f + 1 + k) s size align = scanFrom p size align f s 1) ∧
        ∀ f, f ≤ k → scan p f s size align = .outOfFuel := by
    intro i h0 hs hn
    obtain ⟨a1, a2, a3, k, a4, a5, a6⟩ := h0.scan_some hv hp hl hr hz
    have := hl i a2
    refine ⟨by omega, k, by omega, a2, fun f => ?_, a6⟩
    change scanFrom p size align (f + 1 + k) s 0 = _
    rw [a5, (scanFrom_link hv hp hl a2 hr).2.1 a3 hs, if_pos hn]
  cases h with
  | gate hg => exact g.2 hg
  | full hg h0 =>
    rw [g.1 hg]
    rcases hf with hf | hf
    · cases hf
    exact h0.scan_none hv hp hl hr hz (by omega)
  | @first i hg h0 hs =>
    rw [g.1 hg]
    rcases hf with hf | hf
    · cases hf
    obtain ⟨a1, a2, a3, k, a4, a5, a6⟩ := h0.scan_some hv hp hl hr hz
    obtain ⟨f, rfl⟩ : ∃ f, fuel = f + 1 + k := ⟨fuel - 1 - k, by omega⟩
    change scanFrom p size align (f + 1 + k) s 0 = _
    rw [a5, (scanFrom_link hv hp hl a2 hr).2.2 a3 (Nat.le_of_not_lt hs)]
  | @firstLast i hg h0 hs hn =>
    rw [g.1 hg]
    rcases hf with hf | hf
    · cases hf
    obtain ⟨a1, a2, a3, k, a4, a5, a6⟩ := h0.scan_some hv hp hl hr hz
    obtain ⟨f, rfl⟩ : ∃ f, fuel = f + 1 + k := ⟨fuel - 1 - k, by omega⟩
    change scanFrom p size align (f + 1 + k) s 0 = _
    rw [a5, (scanFrom_link hv hp hl a2 hr).2.1 a3 hs, if_neg (by simp [hn])]
  | @fullFromOne i hg h0 hs hn h1 =>
    rw [g.1 hg]
    rcases hf with hf | hf
    · cases hf
    obtain ⟨b1, k, b2, b3, b4, -⟩ := round1 h0 hs hn
    obtain ⟨f, rfl⟩ : ∃ f, fuel = f + 1 + k := ⟨fuel - 1 - k, by omega⟩
    rw [b4]
    exact h1.scan_none hv hp hl hr b1 (by omega)
  | @second i j hg h0 hs hn h1 hs1 =>
    rw [g.1 hg]
    rcases hf with hf | hf
    · cases hf
    obtain ⟨b1, k, b2, b3, b4, -⟩ := round1 h0 hs hn
    obtain ⟨a1, a2, a3, k', a4, a5, a6⟩ := h1.scan_some hv hp hl hr b1
    obtain ⟨f, rfl⟩ : ∃ f, fuel = f + 1 + k' + 1 + k := ⟨fuel - 1 - k - 1 - k', by omega⟩
    rw [b4, a5, (scanFrom_link hv hp hl a2 hr).2.2 a3 (Nat.le_of_not_lt hs1)]
    rfl
  | @secondLast i j hg h0 hs hn h1 hs1 hn1 =>
    rw [g.1 hg]
    rcases hf with hf | hf
    · cases hf
    obtain ⟨b1, k, b2, b3, b4, -⟩ := round1 h0 hs hn
    obtain ⟨a1, a2, a3, k', a4, a5, a6⟩ := h1.scan_some hv hp hl hr b1
    obtain ⟨f, rfl⟩ : ∃ f, fuel = f + 1 + k' + 1 + k := ⟨fuel - 1 - k - 1 - k', by omega⟩
    rw [b4, a5, (scanFrom_link hv hp hl a2 hr).2.1 a3 hs1, if_neg (by simp [hn1])]
    rfl
  | @never i j hg h0 hs hn h1 hs1 hn1 =>
    rw [g.1 hg]
    obtain ⟨b1, k, b2, b3, b4, b5⟩ := round1 h0 hs hn
    obtain ⟨a1, a2, a3, k', a4, a5, a6⟩ := h1.scan_some hv hp hl hr b1
    have hall : ∀ f, scanFrom p size align f s 1 = .outOfFuel := by
      intro f
      induction f using Nat.strong_induction_on with
      | _ f ih =>
        by_cases hf : f ≤ k'
        · exact a6 f hf
        · obtain ⟨f', rfl⟩ : ∃ f', f = f' + 1 + k' := ⟨f - 1 - k', by omega⟩
          rw [a5, (scanFrom_link hv hp hl a2 hr).2.1 a3 hs1, if_pos hn1, ih f' (by omega)]
    show scan p fuel s size align = .outOfFuel
    by_cases hf : fuel ≤ k
    · exact b5 fuel hf
    · obtain ⟨f, rfl⟩ : ∃ f, fuel = f + 1 + k := ⟨fuel - 1 - k, by omega⟩
      rw [b4, hall]

/-! ## Taking the region recorded at a block, whatever the marks around it -/

/-- The call returns, with a result that satisfies `P`. -/
def Succeeds {α : Type} (o : Outcome α) (P : α → Prop) : Prop := ∃ a, o = .ok a ∧ P a

theorem Succeeds.ok {α : Type} {P : α → Prop} {a : α} (h : P a) : Succeeds (.ok a) P := ⟨a, rfl, h⟩

theorem Succeeds.pure {α : Type} {P : α → Prop} {a : α} (h : P a) : Succeeds (Pure.pure a) P :=
  ⟨a, rfl, h⟩

theorem Succeeds.bind {α β : Type} {o : Outcome α} {P : α → Prop} {f : α → Outcome β}
    {Q : β → Prop} (h : Succeeds o P) (hf : ∀ a, P a → Succeeds (f a) Q) :
    Succeeds (o >>= f) Q := by
  obtain ⟨a, rfl, ha⟩ := h
  exact hf a ha

theorem Succeeds.assert {d c : Bool} (h : c = true) : Succeeds (cassert d c) fun _ => True := by
  subst h
  rw [cassert_true]
  exact .ok trivial

/-- The geometry and the range of the links. -/
structure Within (n : Nat) (s : State) : Prop where
  count : s.blockCount = n
  links : ∀ j, j < n → s.next j < n

theorem Within.next {n i nx : Nat} {s' : State} (h : Within n s) (hn : nx < n)
    (h1 : s'.next = upd s.next i nx) (h2 : s'.blockCount = s.blockCount) : Within n s' := by
  refine ⟨h2.trans h.count, fun j hj => ?_⟩
  rw [h1]
  unfold upd
  split
  · exact hn
  · exact h.links j hj

section
variable {n : Nat} (h : Within n s) (hle : n ≤ p.maxBlocks)
include h hle

theorem Within.checkIdx {i : Nat} (hi : i < n) : Succeeds (checkIdx p s i) fun _ => True :=
  ⟨(), checkIdx_ok (h.count ▸ hi) (h.count ▸ hle), trivial⟩

theorem Within.setInUse {i : Nat} {v : Bool} (hi : i < n) :
    Succeeds (setInUse p s i v) (Within n) :=
  (h.checkIdx hle hi).bind fun _ _ => .pure ⟨h.count, h.links⟩

theorem Within.setPrev {i pv : Nat} (hi : i < n) : Succeeds (setPrev p s i pv) (Within n) := by
  unfold SR.setPrev
  refine (Succeeds.assert (decide_eq_true (h.count ▸ hi))).bind fun _ _ => ?_
  split
  · exact (h.checkIdx hle hi).bind fun _ _ => .pure ⟨h.count, h.links⟩
  · exact .pure h

theorem Within.setNext {i nx : Nat} (hi : i < n) (hn : nx < n) :
    Succeeds (setNext p s i nx) (Within n) := by
  unfold SR.setNext
  refine (Succeeds.assert (decide_eq_true (h.count ▸ hn))).bind fun _ _ => ?_
  split
  · exact (h.checkIdx hle hi).bind fun _ _ => .pure (h.next hn rfl rfl)
  · exact .pure h

theorem Within.setPrevNext {i pv nx : Nat} (hi : i < n) (hn : nx < n) :
    Succeeds (setPrevNext p s i pv nx) (Within n) := by
  unfold SR.setPrevNext
  refine (Succeeds.assert (decide_eq_true (h.count ▸ hi))).bind fun _ _ =>
    (Succeeds.assert (decide_eq_true (h.count ▸ hn))).bind fun _ _ =>
    (h.checkIdx hle hi).bind fun _ _ => .pure ?_
  have h1 : Within n (if pv < i ∨ pv = 0 then { s with prev := upd s.prev i pv } else s) := by
    split
    · exact ⟨h.count, h.links⟩
    · exact h
  generalize (if pv < i ∨ pv = 0 then { s with prev := upd s.prev i pv } else s) = s1 at h1
  show Within n (if i < nx ∨ nx = 0 then { s1 with next := upd s1.next i nx } else s1)
  split
  · exact h1.next hn rfl rfl
  · exact h1

theorem Within.notMatched (hv : Valid p) {a b c d : Nat} (h1 : a < b) (h2 : b ≤ c) (h3 : c < d)
    (h4 : d < n) : Succeeds (allocateNotMatched p s a b c d) (Within n) := by
  unfold allocateNotMatched
  have ht : p.trunc (c + 1) = c + 1 := hv.trunc_eq (by omega)
  simp only [ht]
  refine (Succeeds.assert (decide_eq_true h1)).bind fun _ _ =>
    (Succeeds.assert (decide_eq_true h2)).bind fun _ _ =>
    (Succeeds.assert (decide_eq_true h3)).bind fun _ _ =>
    (h.setInUse hle (by omega)).bind fun s1 w1 => (w1.checkIdx hle (by omega)).bind fun _ _ =>
    (w1.setPrevNext hle (by omega) (by omega)).bind fun s2 w2 =>
    (w2.setPrevNext hle (by omega) (w2.links a (by omega))).bind fun s3 w3 =>
    (w3.setPrev hle (w3.links a (by omega))).bind fun s4 w4 =>
    (w4.setNext hle (by omega) (by omega)).bind fun s5 w5 => .pure ⟨w5.count, w5.links⟩

theorem Within.beginMatched (hv : Valid p) {a c d : Nat} (h2 : a ≤ c) (h3 : c < d)
    (h4 : d < n) : Succeeds (allocateBeginMatched p s a c d) (Within n) := by
  unfold allocateBeginMatched
  have ht : p.trunc (c + 1) = c + 1 := hv.trunc_eq (by omega)
  simp only [ht]
  refine (Succeeds.assert (decide_eq_true h2)).bind fun _ _ =>
    (Succeeds.assert (decide_eq_true h3)).bind fun _ _ =>
    (h.setInUse hle (by omega)).bind fun s1 w1 => (w1.checkIdx hle (by omega)).bind fun _ _ =>
    (w1.setPrevNext hle (by omega) (w1.links a (by omega))).bind fun s3 w3 =>
    (w3.setPrev hle (w3.links a (by omega))).bind fun s4 w4 =>
    (w4.setNext hle (by omega) (by omega)).bind fun s5 w5 => .pure ⟨w5.count, w5.links⟩

theorem Within.endMatched (hv : Valid p) {a b d : Nat} (h1 : a < b) (h2 : b ≤ d) (h4 : d < n) :
    Succeeds (allocateEndMatched p s a b d) (Within n) := by
  unfold allocateEndMatched
  refine (Succeeds.assert (decide_eq_true h1)).bind fun _ _ =>
    (Succeeds.assert (decide_eq_true h2)).bind fun _ _ =>
    (h.setInUse hle (by omega)).bind fun s1 w1 => ?_
  have ht : p.trunc (if d < dec64 s1.blockCount then d + 1 else 0) < n := by
    rw [w1.count, dec64_eq (by omega), hv.trunc_eq (by split <;> omega)]
    split <;> omega
  refine (w1.checkIdx hle (by omega)).bind fun _ _ =>
    (w1.setPrevNext hle (by omega) ht).bind fun s3 w3 =>
    (w3.setPrev hle (w3.links a (by omega))).bind fun s4 w4 =>
    (w4.setNext hle (by omega) (by omega)).bind fun s5 w5 => .pure ⟨w5.count, w5.links⟩

theorem Within.matched {a : Nat} (h1 : a < n) : Succeeds (allocateMatched p s a) (Within n) := by
  unfold allocateMatched
  exact (Succeeds.assert (decide_eq_true (h.count ▸ h1))).bind fun _ _ =>
    (h.setInUse hle h1).bind fun s1 w1 => .pure ⟨w1.count, w1.links⟩
end

/-- The last block of the region recorded at `i`, as `allocate_blocks` computes it. -/
theorem lastOfFree_eq (hv : Valid p) (hp : Placed p s) (hl : LinksForward s) {i : Nat}
    (hi : i < s.blockCount) :
    (if s.next i ≠ 0 then s.next i - 1 else p.trunc (dec64 s.blockCount)) = stop s i - 1 := by
  have hle := hp.le
  have := hl i hi
  rw [dec64_eq (by omega), hv.trunc_eq (by omega)]
  unfold stop
  by_cases he : s.next i = 0
  · rw [if_neg (by simp [he]), if_pos he]
  · rw [if_pos he, if_neg he]

/-- Taking a recorded region succeeds if there is a byte to spare. -/
theorem allocateBlocks_spare (hv : Valid p) (hp : Placed p s) (hl : LinksForward s) {i a size : Nat}
    (hi : i < s.blockCount) (hfit : a * p.blockSize + size < (stop s i - i) * p.blockSize) :
    ∃ s', allocateBlocks p s i (s.data + (i + a) * p.blockSize) size = .ok s' := by
  have hle := hp.le
  have hnw := hp.noWrap
  have hB := hv.pos
  have hst : i < stop s i ∧ stop s i ≤ s.blockCount := by
    unfold stop
    have := hl i hi
    split <;> omega
  have hlB : stop s i * p.blockSize ≤ p.maxBlocks * p.blockSize := Nat.mul_le_mul_right _ (by omega)
  have e1 : (i + a) * p.blockSize = i * p.blockSize + a * p.blockSize := Nat.add_mul _ _ _
  have e2 : stop s i * p.blockSize = i * p.blockSize + (stop s i - i) * p.blockSize := by
    rw [← Nat.add_mul]; congr 1; omega
  have hw : Within s.blockCount s := ⟨rfl, fun j hj => by have := hl j hj; omega⟩
  have hdiv : ((i + a) * p.blockSize + size) / p.blockSize = i + a + size / p.blockSize := by
    rw [Nat.add_comm, Nat.add_mul_div_right _ _ hB, Nat.add_comm]
  generalize size / p.blockSize = q at hdiv
  have hlast : i + a + q < stop s i := by
    rw [← hdiv, Nat.div_lt_iff_lt_mul hB]
    omega
  suffices h : Succeeds (allocateBlocks p s i (s.data + (i + a) * p.blockSize) size)
      (Within s.blockCount) by
    obtain ⟨s', h, -⟩ := h
    exact ⟨s', h⟩
  unfold allocateBlocks
  rw [pointerToBlockIndex_ok hv hp (by omega), Outcome.ok_bind, Nat.mul_div_cancel _ hB,
    Nat.mod_eq_of_lt (by omega), Nat.add_assoc, pointerToBlockIndex_ok hv hp (by omega),
    Outcome.ok_bind, hdiv, nextAt_ok hi hle, Outcome.ok_bind]
  simp only [lastOfFree_eq hv hp hl hi]
  split
  · split
    · exact hw.beginMatched hle hv (by omega) (by omega) (by omega)
    · exact hw.matched hle hi
  · split
    · exact hw.notMatched hle hv (by omega) (by omega) (by omega) (by omega)
    · exact hw.endMatched hle hv (by omega) (by omega) (by omega)

/-- Filling a recorded region to its last byte fails an assertion in debug builds. -/
theorem allocateBlocks_exact (hv : Valid p) (hp : Placed p s) (hl : LinksForward s)
    (hd : p.debug = true) {i a size : Nat} (hi : i < s.blockCount) (hpos : 0 < size)
    (hfit : a * p.blockSize + size = (stop s i - i) * p.blockSize) :
    allocateBlocks p s i (s.data + (i + a) * p.blockSize) size = .assertFailed := by
  have hle := hp.le
  have hnw := hp.noWrap
  have hB := hv.pos
  have hst : i < stop s i ∧ stop s i ≤ s.blockCount := by
    unfold stop
    have := hl i hi
    split <;> omega
  have hlB : stop s i * p.blockSize ≤ p.maxBlocks * p.blockSize := Nat.mul_le_mul_right _ (by omega)
  have e1 : (i + a) * p.blockSize = i * p.blockSize + a * p.blockSize := Nat.add_mul _ _ _
  have e2 : stop s i * p.blockSize = i * p.blockSize + (stop s i - i) * p.blockSize := by
    rw [← Nat.add_mul]; congr 1; omega
  have hal : a < stop s i - i := by
    apply Nat.lt_of_not_le
    intro hge
    have : (stop s i - i) * p.blockSize ≤ a * p.blockSize := Nat.mul_le_mul_right _ hge
    omega
  unfold allocateBlocks
  rw [pointerToBlockIndex_ok hv hp (by omega), Outcome.ok_bind, Nat.mul_div_cancel _ hB,
    Nat.mod_eq_of_lt (by omega), Nat.add_assoc, (by omega : (i + a) * p.blockSize + size
      = stop s i * p.blockSize)]
  by_cases hmax : stop s i = p.maxBlocks
  · have : pointerToBlockIndex p s (s.data + stop s i * p.blockSize) = .assertFailed := by
      unfold pointerToBlockIndex Params.maxResourceSize
      rw [hmax, Nat.mul_comm p.blockSize, Nat.mod_eq_of_lt hv.area, Nat.mod_eq_of_lt hnw,
        decide_eq_true (by omega), decide_eq_false (by omega), hd]
      rfl
    rw [this]; rfl
  · rw [pointerToBlockIndex_ok hv hp
      (Nat.mul_lt_mul_of_pos_right (by omega : stop s i < p.maxBlocks) hB),
      Outcome.ok_bind, Nat.mul_div_cancel _ hB, nextAt_ok hi hle, Outcome.ok_bind]
    simp only [lastOfFree_eq hv hp hl hi]
    split
    · rw [if_pos (by omega)]
      unfold allocateBeginMatched
      rw [decide_eq_true (by omega), decide_eq_false (by omega), hd]
      rfl
    · rw [if_pos (by omega)]
      unfold allocateNotMatched
      rw [decide_eq_true (by omega), decide_eq_true (by omega), decide_eq_false (by omega), hd]
      rfl

/-! ## Only the loop runs out of iterations -/

theorem loopFree_bind {α β : Type} {o : Outcome α} {f : α → Outcome β} (h : o ≠ .outOfFuel)
    (hf : ∀ a, f a ≠ .outOfFuel) : (o >>= f) ≠ .outOfFuel := by
  cases o with
  | ok a => exact hf a
  | outOfFuel => exact absurd rfl h
  | _ => nofun

theorem loopFree_pure {α : Type} (a : α) : (pure a : Outcome α) ≠ .outOfFuel := nofun

theorem loopFree_assert (d c : Bool) : cassert d c ≠ .outOfFuel := by
  cases d <;> cases c <;> nofun

theorem loopFree_checkIdx (i : Nat) : checkIdx p s i ≠ .outOfFuel := by
  unfold checkIdx
  refine loopFree_bind (loopFree_assert _ _) fun _ => ?_
  split <;> nofun

theorem loopFree_setInUse (s : State) (i : Nat) (v : Bool) : setInUse p s i v ≠ .outOfFuel :=
  loopFree_bind (loopFree_checkIdx _) fun _ => loopFree_pure _

theorem loopFree_setPrev (s : State) (i pv : Nat) : setPrev p s i pv ≠ .outOfFuel := by
  unfold setPrev
  refine loopFree_bind (loopFree_assert _ _) fun _ => ?_
  split
  · exact loopFree_bind (loopFree_checkIdx _) fun _ => loopFree_pure _
  · exact loopFree_pure _

theorem loopFree_setNext (s : State) (i nx : Nat) : setNext p s i nx ≠ .outOfFuel := by
  unfold setNext
  refine loopFree_bind (loopFree_assert _ _) fun _ => ?_
  split
  · exact loopFree_bind (loopFree_checkIdx _) fun _ => loopFree_pure _
  · exact loopFree_pure _

theorem loopFree_setPrevNext (s : State) (i pv nx : Nat) :
    setPrevNext p s i pv nx ≠ .outOfFuel :=
  loopFree_bind (loopFree_assert _ _) fun _ => loopFree_bind (loopFree_assert _ _) fun _ =>
    loopFree_bind (loopFree_checkIdx _) fun _ => loopFree_pure _

theorem loopFree_index (ptr : Nat) : pointerToBlockIndex p s ptr ≠ .outOfFuel :=
  loopFree_bind (loopFree_assert _ _) fun _ => loopFree_bind (loopFree_assert _ _) fun _ =>
    loopFree_pure _

theorem loopFree_allocateBlocks (i ptr size : Nat) :
    allocateBlocks p s i ptr size ≠ .outOfFuel := by
  unfold allocateBlocks
  refine loopFree_bind (loopFree_index _) fun _ => loopFree_bind (loopFree_index _) fun _ =>
    loopFree_bind (loopFree_bind (loopFree_checkIdx _) fun _ => loopFree_pure _) fun af => ?_
  simp only
  generalize (if af ≠ 0 then af - 1 else p.trunc (dec64 s.blockCount)) = z
  split
  · split
    · exact loopFree_bind (loopFree_assert _ _) fun _ => loopFree_bind (loopFree_assert _ _) fun _ =>
        loopFree_bind (loopFree_setInUse _ _ _) fun _ => loopFree_bind (loopFree_checkIdx _) fun _ =>
        loopFree_bind (loopFree_setPrevNext _ _ _ _) fun _ =>
        loopFree_bind (loopFree_setPrev _ _ _) fun _ =>
        loopFree_bind (loopFree_setNext _ _ _) fun _ => loopFree_pure _
    · exact loopFree_bind (loopFree_assert _ _) fun _ =>
        loopFree_bind (loopFree_setInUse _ _ _) fun _ => loopFree_pure _
  · split
    · exact loopFree_bind (loopFree_assert _ _) fun _ => loopFree_bind (loopFree_assert _ _) fun _ =>
        loopFree_bind (loopFree_assert _ _) fun _ =>
        loopFree_bind (loopFree_setInUse _ _ _) fun _ => loopFree_bind (loopFree_checkIdx _) fun _ =>
        loopFree_bind (loopFree_setPrevNext _ _ _ _) fun _ =>
        loopFree_bind (loopFree_setPrevNext _ _ _ _) fun _ =>
        loopFree_bind (loopFree_setPrev _ _ _) fun _ =>
        loopFree_bind (loopFree_setNext _ _ _) fun _ => loopFree_pure _
    · exact loopFree_bind (loopFree_assert _ _) fun _ => loopFree_bind (loopFree_assert _ _) fun _ =>
        loopFree_bind (loopFree_setInUse _ _ _) fun _ => loopFree_bind (loopFree_checkIdx _) fun _ =>
        loopFree_bind (loopFree_setPrevNext _ _ _ _) fun _ =>
        loopFree_bind (loopFree_setPrev _ _ _) fun _ =>
        loopFree_bind (loopFree_setNext _ _ _) fun _ => loopFree_pure _

theorem loopFree_allocate {fuel : Nat} {u : σ} (h : allocateLocal p fuel s size align ≠ .outOfFuel) :
    allocate p up fuel s u size align ≠ .outOfFuel := by
  unfold allocate
  split
  · exact loopFree_pure _
  · refine loopFree_bind (loopFree_assert _ _) fun _ => loopFree_bind h fun _ =>
      loopFree_bind ?_ fun _ => loopFree_bind (loopFree_assert _ _) fun _ => loopFree_pure _
    exact loopFree_bind (loopFree_assert _ _) fun _ => loopFree_pure _

theorem Finds.bound (hl : LinksForward s) {i j : Nat} (hi : i < s.blockCount)
    (h : Finds s i (some j)) : j < s.blockCount := by
  generalize hx : some j = x at h
  induction h with
  | here => cases hx; exact hi
  | @next i r hu hn h ih => exact ih (by have := hl i hi; omega) hx
  | last => cases hx

theorem Decides.bound (hp : Placed p s) (hl : LinksForward s) {i : Nat}
    (h : Decides p s size align (.take i)) :
    i < s.blockCount ∧ s.inUse i = false ∧ ¬ TooSmall p s size align i := by
  have hs := hp.some
  have key : ∀ {a j}, Finds s a (some j) → s.inUse j = false := by
    intro a j h
    generalize hx : some j = x at h
    induction h with
    | here hu => cases hx; exact hu
    | next _ _ _ ih => exact ih hx
    | last => cases hx
  cases h with
  | first h h0 hf => exact ⟨h0.bound hl (by omega), key h0, hf⟩
  | @second i' _ h h0 hs hn h1 hf =>
    have := h0.bound hl (by omega)
    have := hl i' this
    exact ⟨h1.bound hl (by omega), key h1, hf⟩

theorem Decides.unique {r r' : Answer} (h : Decides p s size align r)
    (h' : Decides p s size align r') : r = r' := by
  have u : ∀ {a i j}, Finds s a (some i) → Finds s a (some j) → i = j :=
    fun f g => Option.some.inj (f.unique g)
  have v : ∀ {a i}, Finds s a (some i) → ¬ Finds s a none := fun f g => by cases f.unique g
  cases h <;> cases h' <;> grind

end Utils.SR
