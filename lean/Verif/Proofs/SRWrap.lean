import Verif.Proofs.SRDebug
import Verif.Proofs.SRScanExact

/-!
# Requests so large that padding plus size wraps around
-/

namespace Utils.SR

open Utils Utils.Bits

variable {p : Params} {s : State} {size align : Nat} {σ : Type} {up : Option (Upstream σ)}

/-- No padding makes the size wrap around: nothing larger than the area is ever taken. -/
theorem scanFrom_refuses {i fuel k : Nat} (hv : Valid p) (hp : Placed p s) (hl : LinksForward s)
    (hi : i < s.blockCount) (hk : k < 64) (hak : align = 2 ^ k)
    (hbig : s.blockCount * p.blockSize < size)
    (hw : ∀ j, j < s.blockCount → padding (s.data + j * p.blockSize) align + size < 2 ^ 64) :
    scanFrom p size align fuel s i = .ok (s, 0) ∨ scanFrom p size align fuel s i = .outOfFuel := by
  induction fuel generalizing i with
  | zero => exact Or.inr rfl
  | succ fuel ih =>
    have hle := hp.le
    have hrej : (regionEnd s i - i) * p.blockSize ≤ s.blockCount * p.blockSize := by
      refine Nat.mul_le_mul_right _ ?_
      unfold regionEnd
      have := hl i hi
      split <;> omega
    have hli := hl i hi
    have hwi := hw i hi
    cases hu : s.inUse i with
    | true =>
      have e : scanFrom p size align (fuel + 1) s i =
          if s.next i ≠ 0 then scanFrom p size align fuel s (s.next i) else .ok (s, 0) := by
        unfold scanFrom
        rw [applyLoop, checkIdx_ok hi hle, Outcome.ok_bind, isFree_ok hi hle, Outcome.ok_bind, hu,
          if_neg (by simp)]
        rfl
      rw [e]
      by_cases hz : s.next i = 0
      · rw [if_neg (by simp [hz])]; exact Or.inl rfl
      · rw [if_pos hz]; exact ih (by omega)
    | false =>
      have e : scanFrom p size align (fuel + 1) s i =
          if s.next i ≠ 0 then scanFrom p size align fuel s 1 else .ok (s, 0) := by
        unfold scanFrom
        rw [applyLoop, checkIdx_ok hi hle, Outcome.ok_bind, isFree_ok hi hle, Outcome.ok_bind, hu,
          if_pos (by simp), tryRegion_raw hv hp hl hi hk hak, Nat.mod_eq_of_lt hwi, if_neg (by omega)]
        simp only [Outcome.pure_eq, Outcome.ok_bind]
        by_cases hz : s.next i = 0
        · simp [hz]
        · simp [hz]
      rw [e]
      by_cases hz : s.next i = 0
      · rw [if_neg (by simp [hz])]; exact Or.inl rfl
      · rw [if_pos hz]; exact ih (by omega)

/-- What `allocate` makes of the answer of the buffer part. -/
theorem allocate_eq {k fuel ptr : Nat} {u : σ} {s' : State} (hv : Valid p) (hk : k < 64)
    (hak : align = 2 ^ k) (hpos : 0 < size)
    (hl : allocateLocal p fuel s size align = .ok (s', ptr)) :
    (ptr = 0 → (askUpstream up u size align).1 < 2 ^ 64 →
      (p.debug = true → p.blockSize ∣ (askUpstream up u size align).1) →
      allocate p up fuel s u size align =
        .ok ((askUpstream up u size align).1, s', (askUpstream up u size align).2)) ∧
    (ptr ≠ 0 → ptr < 2 ^ 64 → p.blockSize ∣ ptr →
      allocate p up fuel s u size align = .ok (ptr, s', u)) := by
  have hp2 : isPowerOf2 (BitVec.ofNat 64 align) = true :=
    isPowerOf2_of hk (by
      rw [BitVec.toNat_ofNat, hak, Nat.mod_eq_of_lt (Nat.pow_lt_pow_right (by decide) hk)])
  constructor
  · rintro rfl hlt hal
    unfold allocate
    rw [if_neg (by omega), hp2, cassert_true, Outcome.ok_bind, hl, Outcome.ok_bind]
    unfold askUpstream at hlt hal ⊢
    cases up with
    | none =>
      simp only at hlt hal ⊢
      rw [isAligned_block hv hlt, Outcome.ok_bind, decide_eq_true (Nat.dvd_zero _), cassert_true]
      rfl
    | some U =>
      simp only [if_true] at hlt hal ⊢
      rw [isAligned_block hv hlt, Outcome.ok_bind]
      cases hd : p.debug with
      | true => rw [decide_eq_true (hal hd), cassert_true]; rfl
      | false => rw [cassert_ndebug]; rfl
  · intro h0 hlt hal
    unfold allocate
    rw [if_neg (by omega), hp2, cassert_true, Outcome.ok_bind, hl, Outcome.ok_bind]
    cases up with
    | none =>
      simp only
      rw [isAligned_block hv hlt, Outcome.ok_bind, decide_eq_true hal, cassert_true]
      rfl
    | some U =>
      simp only [if_neg h0]
      rw [isAligned_block hv hlt, Outcome.ok_bind, decide_eq_true hal, cassert_true]
      rfl

/-- The gate leaves room for the padding. -/
theorem Gate.padding_lt (h : Gate p s align) {k : Nat} (hak : align = 2 ^ k) (hn : 0 < s.blockCount * p.blockSize) :
    padding s.data align < s.blockCount * p.blockSize := by
  obtain ⟨j, hj, hlt⟩ := h
  rcases Nat.lt_or_ge k j with hkj | hkj
  · have : align ∣ s.data := by
      rw [hak]
      exact Nat.dvd_trans (Nat.pow_dvd_pow 2 (by omega)) hj
    rw [padding_zero this]
    exact hn
  · have hja : 2 ^ j ∣ align := by rw [hak]; exact Nat.pow_dvd_pow 2 hkj
    have hpos : 0 < align := by rw [hak]; exact Nat.two_pow_pos k
    have hpj := Nat.two_pow_pos j
    have hm : 2 ^ j ∣ padding s.data align := by
      unfold padding
      refine (Nat.dvd_mod_iff hja).2 ?_
      exact Nat.dvd_sub hja ((Nat.dvd_mod_iff hja).2 hj)
    have hl := SR.padding_lt s.data hpos
    obtain ⟨x, hx⟩ := hm
    obtain ⟨y, hy⟩ := hja
    have hxy : x + 1 ≤ y := by
      apply Nat.lt_of_mul_lt_mul_left (a := 2 ^ j)
      omega
    have : 2 ^ j * (x + 1) ≤ 2 ^ j * y := Nat.mul_le_mul_left _ hxy
    rw [Nat.mul_add, Nat.mul_one] at this
    omega

theorem setPrevNext_ndebug (hd : p.debug = false) (s : State) {i : Nat} (hi : i < p.maxBlocks)
    (pv nx : Nat) :
    ∃ s1, setPrevNext p s i pv nx = .ok s1 ∧ ∀ j, j ≠ i → s1.next j = s.next j := by
  unfold setPrevNext checkIdx
  simp only [hd, cassert_ndebug, Outcome.ok_bind, if_pos hi, Outcome.pure_eq]
  refine ⟨_, rfl, fun j hj => ?_⟩
  split <;> split <;> first | rfl | exact if_neg hj

theorem setPrev_ndebug (hd : p.debug = false) (s : State) {i : Nat} (hi : i < p.maxBlocks) (pv : Nat) :
    ∃ s1, setPrev p s i pv = .ok s1 := by
  unfold setPrev checkIdx
  simp only [hd, cassert_ndebug, Outcome.ok_bind, if_pos hi, Outcome.pure_eq]
  split <;> exact ⟨_, rfl⟩

theorem setNext_ndebug (hd : p.debug = false) (s : State) {i : Nat} (hi : i < p.maxBlocks) (nx : Nat) :
    ∃ s1, setNext p s i nx = .ok s1 := by
  unfold setNext checkIdx
  simp only [hd, cassert_ndebug, Outcome.ok_bind, if_pos hi, Outcome.pure_eq]
  split <;> exact ⟨_, rfl⟩

theorem notMatched_ndebug {a q f : Nat} (hd : p.debug = false) (h0 : 0 < p.maxBlocks)
    (ha : a < p.maxBlocks) (htr : p.trunc (q + 1) = q + 1) (hq : q + 1 < p.maxBlocks) (ha0 : a ≠ 0)
    (hq0 : q + 1 ≠ 0) (hnext : ∀ j, s.next j = 0) :
    ∃ s', allocateNotMatched p s 0 a q f = .ok s' := by
  unfold allocateNotMatched
  have hc : ∀ t : State, checkIdx p t 0 = .ok () := by
    intro t
    unfold checkIdx
    rw [hd, cassert_ndebug, Outcome.ok_bind, if_pos h0]
    rfl
  have hu : setInUse p s a true = .ok { s with inUse := upd s.inUse a true } := by
    unfold setInUse checkIdx
    rw [hd, cassert_ndebug, Outcome.ok_bind, if_pos ha]
    rfl
  rw [hd, cassert_ndebug, cassert_ndebug, cassert_ndebug, Outcome.ok_bind, Outcome.ok_bind,
    Outcome.ok_bind, hu, Outcome.ok_bind]
  simp only [htr, hc, Outcome.ok_bind]
  obtain ⟨s1, h1, n1⟩ := setPrevNext_ndebug hd { s with inUse := upd s.inUse a true } ha 0 (q + 1)
  rw [h1, Outcome.ok_bind]
  obtain ⟨s2, h2, n2⟩ := setPrevNext_ndebug hd s1 hq a (s1.next 0)
  rw [h2, Outcome.ok_bind]
  have e : s2.next 0 = 0 := by
    rw [n2 0 hq0.symm, n1 0 ha0.symm]
    exact hnext 0
  rw [e]
  obtain ⟨s3, h3⟩ := setPrev_ndebug hd s2 h0 (q + 1)
  rw [h3, Outcome.ok_bind]
  obtain ⟨s4, h4⟩ := setNext_ndebug hd s3 h0 a
  rw [h4]
  exact ⟨_, rfl⟩

/-- A fresh resource without assertions "serves" a request for which padding plus size wraps around. -/
theorem wrapped_local (hv : Valid p) (hd : p.debug = false) (hp : Placed p s) (hsm : Small p s)
    (hnext : ∀ j, s.next j = 0) (huse : ∀ j, s.inUse j = false) {k : Nat} (hk : k < 64)
    (hak : align = 2 ^ k) (hg : Gate p s align) (hsz : size < 2 ^ 64)
    (hw : 2 ^ 64 ≤ padding s.data align + size) (fuel : Nat) :
    ∃ s', allocateLocal p (fuel + 1) s size align = .ok (s', s.data + padding s.data align) := by
  have hB := hv.pos
  have hs1 := hp.some
  have hle := hp.le
  have hnw := hp.noWrap
  have hd0 := hp.data
  have hn : s.blockCount * p.blockSize ≤ p.maxBlocks * p.blockSize := Nat.mul_le_mul_right _ hle
  have hn0 : 0 < s.blockCount * p.blockSize := Nat.mul_pos hs1 hB
  have hlt := hg.padding_lt hak hn0
  obtain ⟨a, ha⟩ := padding_blocks hv hp ⟨k, hak⟩ 0
  rw [Nat.zero_mul, Nat.add_zero] at ha
  generalize hP : padding s.data align = P at *
  have hl : LinksForward s := fun j _ => Or.inl (hnext j)
  have hre : regionEnd s 0 = s.blockCount := by unfold regionEnd; rw [hnext, if_pos rfl]
  have hP0 : 0 < P := by omega
  have ha1 : 1 ≤ a := by
    rcases Nat.eq_zero_or_pos a with h | h
    · rw [h, Nat.zero_mul] at ha; omega
    · exact h
  have han : a < s.blockCount := by
    apply Nat.lt_of_mul_lt_mul_right (a := p.blockSize)
    omega
  obtain ⟨W, hW⟩ : ∃ W, P + size = 2 ^ 64 + W := ⟨P + size - 2 ^ 64, by omega⟩
  have hmod : (P + size) % 2 ^ 64 = W := by omega
  obtain ⟨q, hq⟩ : ∃ q, W / p.blockSize = q := ⟨_, rfl⟩
  have hqa : q < a := by
    rw [← hq, Nat.div_lt_iff_lt_mul hB]
    omega
  have e1 : pointerToBlockIndex p s (s.data + P) = .ok a := by
    rw [pointerToBlockIndex_ok hv hp (by omega), ha, Nat.mul_div_cancel _ hB]
  have e2 : pointerToBlockIndex p s ((s.data + P + size) % 2 ^ 64) = .ok q := by
    rw [(by omega : (s.data + P + size) % 2 ^ 64 = s.data + W), pointerToBlockIndex_ok hv hp (by omega),
      hq]
  have hdec : p.trunc (dec64 s.blockCount) = s.blockCount - 1 := by
    unfold dec64
    rw [if_neg (by omega), hv.trunc_eq (by omega)]
  have htr : p.trunc (q + 1) = q + 1 := hv.trunc_eq (by omega)
  have e3 : ∃ s', allocateBlocks p s 0 (s.data + P) size = .ok s' := by
    have h0 : (0 : Nat) < p.maxBlocks := by omega
    have ham : a < p.maxBlocks := by omega
    have hqm : q + 1 < p.maxBlocks := by omega
    unfold allocateBlocks
    rw [e1, Outcome.ok_bind, e2, Outcome.ok_bind]
    simp only [nextAt, checkIdx, hd, cassert_ndebug, Outcome.ok_bind, if_pos h0, Outcome.pure_eq,
      hnext, ne_eq, not_true_eq_false, if_false, hdec]
    rw [if_neg (by omega), if_pos (by omega)]
    exact notMatched_ndebug hd h0 ham htr hqm (by omega) (by omega) hnext
  obtain ⟨s', hs'⟩ := e3
  refine ⟨s', ?_⟩
  rw [(gate_iff (size := size) hv hp hsm ⟨k, hak⟩ _).1 hg]
  unfold scan
  rw [applyLoop, checkIdx_ok hs1 hle, Outcome.ok_bind, isFree_ok hs1 hle, Outcome.ok_bind, huse,
    if_pos (by simp), tryRegion_raw hv hp hl hs1 hk hak]
  rw [hre, Nat.zero_mul, Nat.add_zero, hP, hmod, Nat.sub_zero, if_pos (by omega),
    Nat.mod_eq_of_lt (by omega), hs']
  rfl

/-- A fresh resource refuses it otherwise. -/
theorem unwrapped_local (hv : Valid p) (hp : Placed p s) (hsm : Small p s)
    (hnext : ∀ j, s.next j = 0) (huse : ∀ j, s.inUse j = false) {k : Nat} (hk : k < 64)
    (hak : align = 2 ^ k) (hbig : s.blockCount * p.blockSize < size)
    (hw : ¬ (Gate p s align ∧ 2 ^ 64 ≤ padding s.data align + size)) (fuel : Nat) :
    allocateLocal p (fuel + 1) s size align = .ok (s, 0) := by
  by_cases hg : Gate p s align
  · have hw : padding s.data align + size < 2 ^ 64 := Nat.lt_of_not_le fun h => hw ⟨hg, h⟩
    have hs1 := hp.some
    have hle := hp.le
    have hl : LinksForward s := fun j _ => Or.inl (hnext j)
    have hre : regionEnd s 0 = s.blockCount := by unfold regionEnd; rw [hnext, if_pos rfl]
    rw [(gate_iff (size := size) hv hp hsm ⟨k, hak⟩ _).1 hg]
    unfold scan
    rw [applyLoop, checkIdx_ok hs1 hle, Outcome.ok_bind, isFree_ok hs1 hle, Outcome.ok_bind, huse,
      if_pos (by simp), tryRegion_raw hv hp hl hs1 hk hak]
    rw [hre, Nat.zero_mul, Nat.add_zero, Nat.mod_eq_of_lt hw, Nat.sub_zero, if_neg (by omega), hnext]
    rfl
  · exact (gate_iff (size := size) hv hp hsm ⟨k, hak⟩ _).2 hg

end Utils.SR
