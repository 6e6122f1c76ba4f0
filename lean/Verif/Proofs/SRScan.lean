import Verif.Proofs.SRTiled

/-! The scan for a free region. -/

namespace Utils.SR

open Utils Utils.Bits

variable {p : Params} {s : State}

theorem Request.align_lt {size align : Nat} (hr : Request size align) :
    ∃ k, k < 64 ∧ align = 2 ^ k := by
  obtain ⟨k, hk⟩ := hr.pow2
  refine ⟨k, ?_, hk⟩
  apply Nat.lt_of_not_le
  intro hle
  have : 2 ^ 64 ≤ 2 ^ k := Nat.pow_le_pow_right (by decide) hle
  have := hr.pos
  have := hr.noOverflow
  omega

theorem padding_lt {a : Nat} (addr : Nat) (ha : 0 < a) : padding addr a < a := skipNat_lt ha

/-- The padding in front of a block is a whole number of blocks. -/
theorem padding_blocks (hv : Valid p) (hp : Placed p s) {align : Nat} (ha : ∃ k, align = 2 ^ k)
    (h : Nat) : ∃ a, padding (s.data + h * p.blockSize) align = a * p.blockSize := by
  obtain ⟨k, rfl⟩ := ha
  obtain ⟨b, hb⟩ := hv.pow2
  have hd : p.blockSize ∣ s.data + h * p.blockSize :=
    Nat.dvd_add hp.aligned (Nat.dvd_mul_left _ _)
  have hpos := Nat.two_pow_pos k
  rcases Nat.le_total k b with hkb | hkb
  · refine ⟨0, ?_⟩
    have : 2 ^ k ∣ s.data + h * p.blockSize := by
      refine Nat.dvd_trans ?_ hd
      rw [hb]
      exact Nat.pow_dvd_pow 2 hkb
    have := skipNat_least (p := s.data + h * p.blockSize) (d := 0) hpos (by simpa using this)
    unfold skipNat at this
    unfold padding
    omega
  · have h1 := skipNat_dvd (p := s.data + h * p.blockSize) hpos
    have h2 : p.blockSize ∣ s.data + h * p.blockSize + skipNat (s.data + h * p.blockSize) (2 ^ k) := by
      refine Nat.dvd_trans ?_ h1
      rw [hb]
      exact Nat.pow_dvd_pow 2 hkb
    obtain ⟨a, ha⟩ := (Nat.dvd_add_right hd).1 h2
    exact ⟨a, by rw [Nat.mul_comm a]; exact ha⟩

/-- What `tryRegion` computes before it decides. -/
theorem tryRegion_eq {pre post : List Region} {len size align ptr : Nat} (hv : Valid p)
    (hp : Placed p s) (ht : Tiles s (pre ++ ⟨len, false⟩ :: post)) (hr : Request size align) :
    tryRegion p size align s ptr (blocks pre) =
      if need p s size align (blocks pre) ≤ len * p.blockSize then do
        let s' ← allocateBlocks p s (blocks pre)
          (s.data + blocks pre * p.blockSize + padding (s.data + blocks pre * p.blockSize) align) size
        pure (s', s.data + blocks pre * p.blockSize
          + padding (s.data + blocks pre * p.blockSize) align, false)
      else pure (s, ptr, decide (post ≠ [])) := by
  obtain ⟨k, hk, hak⟩ := hr.align_lt
  obtain ⟨a1, a2, a3, a4, a5, a6⟩ := ht.at
  simp only at a1 a2 a3 a4 a5 a6
  have hle := hp.le
  have hnw := hp.noWrap
  have hB := hv.pos
  have hlB : (blocks pre + len) * p.blockSize ≤ p.maxBlocks * p.blockSize :=
    Nat.mul_le_mul_right _ (by omega)
  rw [Nat.add_mul] at hlB
  have hno := hr.noOverflow
  have hsk : padding (s.data + blocks pre * p.blockSize) align < align :=
    padding_lt _ (by rw [hak]; exact Nat.two_pow_pos k)
  have hmx := hv.max_lt
  unfold tryRegion blockSizeInBytes blockIndexToPointer
  rw [nextAt_ok (by omega) hle, Outcome.ok_bind, decide_eq_true (by omega), cassert_true]
  simp only [Outcome.ok_bind, Outcome.pure_eq]
  rw [Nat.mod_eq_of_lt (by omega : s.data + blocks pre * p.blockSize < 2 ^ 64)]
  have hskip : skipToAlign p.debug (BitVec.ofNat 64 (s.data + blocks pre * p.blockSize))
      (BitVec.ofNat 64 align)
      = .ok (BitVec.ofNat 64 (padding (s.data + blocks pre * p.blockSize) align)) := by
    have e1 : (BitVec.ofNat 64 align).toNat = 2 ^ k := by
      rw [BitVec.toNat_ofNat, ← hak, Nat.mod_eq_of_lt (by have := hr.pos; omega)]
    rw [skipToAlign_eq p.debug hk e1, BitVec.toNat_ofNat, Nat.mod_eq_of_lt (by omega), hak]
    rfl
  rw [hskip, Outcome.ok_bind, BitVec.toNat_ofNat, Nat.mod_eq_of_lt
    (by omega : padding (s.data + blocks pre * p.blockSize) align < 2 ^ 64)]
  have hsz : ((if s.next (blocks pre) = 0 then s.blockCount else s.next (blocks pre))
      + (2 ^ 64 - blocks pre)) % 2 ^ 64 * p.blockSize % 2 ^ 64 = len * p.blockSize := by
    have : (if s.next (blocks pre) = 0 then s.blockCount else s.next (blocks pre))
        = blocks pre + len := by
      rw [a3]
      by_cases h : blocks pre + len = s.blockCount
      · rw [if_pos h, if_pos rfl, h]
      · rw [if_neg h, if_neg (by omega)]
    rw [this, (by omega : blocks pre + len + (2 ^ 64 - blocks pre) = len + 2 ^ 64),
      Nat.add_mod_right, Nat.mod_eq_of_lt (by omega : len < 2 ^ 64), Nat.mod_eq_of_lt (by omega)]
  rw [hsz, Nat.mod_eq_of_lt (by omega : padding (s.data + blocks pre * p.blockSize) align + size
    < 2 ^ 64)]
  unfold need
  by_cases hfit : padding (s.data + blocks pre * p.blockSize) align + size ≤ len * p.blockSize
  · rw [if_pos hfit, if_pos hfit, Nat.mod_eq_of_lt (by omega)]
  · rw [if_neg hfit, if_neg hfit]
    have : decide (s.next (blocks pre) ≠ 0) = decide (post ≠ []) := by
      rw [decide_eq_decide, a3, ne_eq, ne_eq, a6]
      split <;> omega
    rw [this]


/-- The scan of a request. -/
abbrev scanFrom (p : Params) (size align fuel : Nat) (s : State) (i : Nat) :
    Outcome (State × Nat) :=
  applyLoop p (isFree p) (tryRegion p size align) fuel s 0 i

theorem isFree_ok {i : Nat} (hi : i < s.blockCount) (hle : s.blockCount ≤ p.maxBlocks) :
    isFree p s i = .ok (!s.inUse i) := by
  unfold isFree
  rw [inUseAt_ok hi hle]
  rfl

variable {size align : Nat}

theorem scanFrom_busy {pre post : List Region} {len fuel : Nat}
    (hle : s.blockCount ≤ p.maxBlocks) (ht : Tiles s (pre ++ ⟨len, true⟩ :: post)) :
    scanFrom p size align (fuel + 1) s (blocks pre) =
      if post = [] then .ok (s, 0) else scanFrom p size align fuel s (blocks pre + len) := by
  obtain ⟨a1, a2, a3, a4, a5, a6⟩ := ht.at
  simp only at a1 a2 a3 a4 a5 a6
  unfold scanFrom
  rw [applyLoop, checkIdx_ok (by omega) hle, Outcome.ok_bind, isFree_ok (by omega) hle,
    Outcome.ok_bind, a4, if_neg (by simp), a3]
  by_cases h : post = []
  · rw [if_pos h, if_pos (a6.1 h)]; rfl
  · rw [if_neg h, if_neg (fun h' => h (a6.2 h')), if_pos (by omega)]

theorem scanFrom_reject {pre post : List Region} {len fuel : Nat} (hv : Valid p)
    (hp : Placed p s) (ht : Tiles s (pre ++ ⟨len, false⟩ :: post)) (hr : Request size align)
    (hn : len * p.blockSize < need p s size align (blocks pre)) :
    scanFrom p size align (fuel + 1) s (blocks pre) =
      if post = [] then .ok (s, 0) else scanFrom p size align fuel s 1 := by
  have hle := hp.le
  obtain ⟨a1, a2, a3, a4, a5, a6⟩ := ht.at
  simp only at a1 a2 a3 a4 a5 a6
  unfold scanFrom
  rw [applyLoop, checkIdx_ok (by omega) hle, Outcome.ok_bind, isFree_ok (by omega) hle,
    Outcome.ok_bind, a4, if_pos (by simp), tryRegion_eq hv hp ht hr, if_neg (by omega)]
  simp only [Outcome.pure_eq, Outcome.ok_bind]
  by_cases h : post = []
  · simp [h]
  · simp [h]

/-- The part of a served request that depends on the free region. -/
structure ServedFrom (p : Params) (s s' : State) (size align ptr : Nat) (pre : List Region)
    (len : Nat) (post : List Region) (a : Nat) : Prop where
  pad : padding (s.data + blocks pre * p.blockSize) align = a * p.blockSize
  at_block : ptr = s.data + (blocks pre + a) * p.blockSize
  aligned : align ∣ ptr
  fit : a + size / p.blockSize + 1 ≤ len
  data : s'.data = s.data
  count : s'.blockCount = s.blockCount
  links : ∀ j, j ≠ blocks pre → j ≠ blocks pre + a →
    j ≠ blocks pre + a + (size / p.blockSize + 1) → s'.next j = s.next j
  tiled : Tiled s' (pre ++ carve a (size / p.blockSize + 1) len ++ post)
  runs : busyRuns 0 (pre ++ carve a (size / p.blockSize + 1) len ++ post)
        = busyRuns 0 pre ++ (blocks pre + a, size / p.blockSize + 1)
          :: busyRuns (blocks pre + len) post

theorem scanFrom_fit {pre post : List Region} {len fuel : Nat} (hv : Valid p)
    (hp : Placed p s) (ht : Tiled s (pre ++ ⟨len, false⟩ :: post)) (hr : Request size align)
    (hn : need p s size align (blocks pre) < len * p.blockSize) :
    ∃ s' ptr a, scanFrom p size align (fuel + 1) s (blocks pre) = .ok (s', ptr) ∧
      ServedFrom p s s' size align ptr pre len post a := by
  have hle := hp.le
  have ht' := (tiled_iff.1 ht).1
  obtain ⟨a1, a2, a3, a4, a5, a6⟩ := ht'.at
  simp only at a1 a2 a3 a4 a5 a6
  obtain ⟨a, ha⟩ := padding_blocks hv hp hr.pow2 (blocks pre)
  unfold need at hn
  rw [ha] at hn
  obtain ⟨s', h1, h2, h3, hl, h4, h5⟩ := ht.allocateBlocks hv hp hn
  have hB := hv.pos
  have hq : a + size / p.blockSize < len := by
    have : (a * p.blockSize + size) / p.blockSize < len := by
      rw [Nat.div_lt_iff_lt_mul hB]; exact hn
    rw [Nat.add_comm, Nat.add_mul_div_right _ _ hB] at this
    omega
  refine ⟨s', s.data + (blocks pre + a) * p.blockSize, a, ?_, ⟨ha, rfl, ?_, by omega, h2, h3, hl, h4, h5⟩⟩
  · unfold scanFrom
    rw [applyLoop, checkIdx_ok (by omega) hle, Outcome.ok_bind, isFree_ok (by omega) hle,
      Outcome.ok_bind, a4, if_pos (by simp), tryRegion_eq hv hp ht' hr,
      if_pos (by unfold need; rw [ha]; omega), ha]
    rw [Nat.add_mul, ← Nat.add_assoc] at h1 ⊢
    rw [h1]
    simp
  · obtain ⟨k, hk⟩ := hr.pow2
    have := skipNat_dvd (p := s.data + blocks pre * p.blockSize) (a := align)
      (by rw [hk]; exact Nat.two_pow_pos k)
    rw [Nat.add_mul, ← Nat.add_assoc, ← ha]
    exact this

/-- A request that fills a free region to its last byte trips an assertion. -/
theorem scanFrom_exact {pre post : List Region} {len fuel : Nat} (hv : Valid p)
    (hp : Placed p s) (ht : Tiled s (pre ++ ⟨len, false⟩ :: post)) (hr : Request size align)
    (hd : p.debug = true) (hn : need p s size align (blocks pre) = len * p.blockSize) :
    scanFrom p size align (fuel + 1) s (blocks pre) = .assertFailed := by
  have hle := hp.le
  have hnw := hp.noWrap
  have hB := hv.pos
  have ht' := (tiled_iff.1 ht).1
  obtain ⟨a1, a2, a3, a4, a5, a6⟩ := ht'.at
  simp only at a1 a2 a3 a4 a5 a6
  obtain ⟨a, ha⟩ := padding_blocks hv hp hr.pow2 (blocks pre)
  have hn' := hn
  unfold need at hn'
  rw [ha] at hn'
  have hlB : (blocks pre + len) * p.blockSize ≤ p.maxBlocks * p.blockSize :=
    Nat.mul_le_mul_right _ (by omega)
  have e1 : (blocks pre + a) * p.blockSize = blocks pre * p.blockSize + a * p.blockSize :=
    Nat.add_mul _ _ _
  have e2 : (blocks pre + len) * p.blockSize = blocks pre * p.blockSize + len * p.blockSize :=
    Nat.add_mul _ _ _
  have hpos := hr.pos
  have hal : a < len := by
    apply Nat.lt_of_not_le
    intro hge
    have : len * p.blockSize ≤ a * p.blockSize := Nat.mul_le_mul_right _ hge
    omega
  have key : allocateBlocks p s (blocks pre)
      (s.data + blocks pre * p.blockSize + a * p.blockSize) size = .assertFailed := by
    unfold allocateBlocks
    rw [Nat.add_assoc, ← e1, pointerToBlockIndex_ok hv hp (by omega), Outcome.ok_bind,
      Nat.mul_div_cancel _ hB, Nat.mod_eq_of_lt (by omega), Nat.add_assoc, e1, Nat.add_assoc, hn',
      ← e2]
    by_cases hmax : blocks pre + len = p.maxBlocks
    · have : pointerToBlockIndex p s (s.data + (blocks pre + len) * p.blockSize)
          = .assertFailed := by
        unfold pointerToBlockIndex Params.maxResourceSize
        rw [hmax, Nat.mul_comm p.blockSize, Nat.mod_eq_of_lt hv.area, Nat.mod_eq_of_lt hnw,
          decide_eq_true (by omega), decide_eq_false (by omega), hd]
        rfl
      rw [this]; rfl
    · rw [pointerToBlockIndex_ok hv hp
        (Nat.mul_lt_mul_of_pos_right (by omega : blocks pre + len < p.maxBlocks) hB),
        Outcome.ok_bind, Nat.mul_div_cancel _ hB, nextAt_ok (by omega) hle, Outcome.ok_bind]
      have hlof : (if s.next (blocks pre) ≠ 0 then s.next (blocks pre) - 1
          else p.trunc (dec64 s.blockCount)) = blocks pre + len - 1 := by
        rw [dec64_eq (by omega), hv.trunc_eq (by omega), a3]
        by_cases he : blocks pre + len = s.blockCount
        · rw [if_pos he, if_neg (by omega)]; omega
        · rw [if_neg he, if_pos (by omega)]
      simp only [hlof]
      split
      · rw [if_pos (by omega)]
        unfold allocateBeginMatched
        rw [decide_eq_true (by omega), decide_eq_false (by omega), hd]
        rfl
      · rw [if_pos (by omega)]
        unfold allocateNotMatched
        rw [decide_eq_true (by omega), decide_eq_true (by omega), decide_eq_false (by omega), hd]
        rfl
  unfold scanFrom
  rw [applyLoop, checkIdx_ok (by omega) hle, Outcome.ok_bind, isFree_ok (by omega) hle,
    Outcome.ok_bind, a4, if_pos (by simp), tryRegion_eq hv hp ht' hr, if_pos (by omega), ha, key]
  rfl

end Utils.SR
