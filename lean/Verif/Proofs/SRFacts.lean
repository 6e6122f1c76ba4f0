import Verif.Proofs.SRStack

/-!
# More about single calls of `simple_resource`
-/

namespace Utils.SR

open Utils Utils.Bits

variable {p : Params} {s : State} {size align : Nat} {σ : Type} {up : Option (Upstream σ)}

/-! ## Construction -/

theorem originAndBlockCount_eq (hv : Valid p) {buffer size : Nat} (hb : buffer ≠ 0) (hs : size ≠ 0)
    (hw : buffer + size ≤ 2 ^ 64) :
    originAndBlockCount p buffer size = .ok
      (if (size - padding buffer p.blockSize) / p.blockSize = 0 then (0, 0) else
        (buffer + padding buffer p.blockSize,
          (size - padding buffer p.blockSize) / p.blockSize)) := by
  obtain ⟨k, hk, hbk⟩ := hv.pow_lt
  have hB := hv.pos
  have e1 : (BitVec.ofNat 64 p.blockSize).toNat = 2 ^ k := by
    rw [BitVec.toNat_ofNat, hbk, Nat.mod_eq_of_lt (Nat.pow_lt_pow_right (by decide) hk)]
  have e2 : (BitVec.ofNat 64 buffer).toNat = buffer := by
    rw [BitVec.toNat_ofNat, Nat.mod_eq_of_lt (by omega)]
  have hpl : padding buffer p.blockSize < p.blockSize := padding_lt _ hB
  have hB64 : p.blockSize < 2 ^ 64 := by rw [hbk]; exact Nat.pow_lt_pow_right (by decide) hk
  unfold originAndBlockCount
  rw [if_pos ⟨hb, hs⟩, skipToAlign_eq p.debug hk e1, Outcome.ok_bind, e2, ← hbk]
  change (if (BitVec.ofNat 64 (padding buffer p.blockSize)).toNat < size then _ else _) = _
  rw [BitVec.toNat_ofNat, Nat.mod_eq_of_lt (by omega)]
  by_cases h : padding buffer p.blockSize < size
  · rw [if_pos h]
    change (if (size - (BitVec.ofNat 64 (padding buffer p.blockSize)).toNat) / p.blockSize > 0
      then Outcome.ok ((buffer + (BitVec.ofNat 64 (padding buffer p.blockSize)).toNat) % 2 ^ 64,
        (size - (BitVec.ofNat 64 (padding buffer p.blockSize)).toNat) / p.blockSize) else _) = _
    rw [BitVec.toNat_ofNat, Nat.mod_eq_of_lt (a := padding buffer p.blockSize) (by omega)]
    by_cases h2 : (size - padding buffer p.blockSize) / p.blockSize = 0
    · rw [if_neg (by omega), if_pos h2]; rfl
    · rw [if_pos (Nat.pos_of_ne_zero h2), if_neg h2, Nat.mod_eq_of_lt (by omega)]
  · rw [if_neg h, (by omega : size - padding buffer p.blockSize = 0), Nat.zero_div, if_pos rfl]
    rfl

theorem create_null {buffer size : Nat} (h : buffer = 0 ∨ size = 0) :
    create p buffer size = .ok (construct p (0, 0)) := by
  unfold create originAndBlockCount
  rw [if_neg (by omega)]
  rfl

/-- A fresh resource is one free region. -/
theorem construct_tiled {o : Nat × Nat} (h1 : 0 < o.2) (h2 : 0 < p.maxBlocks) :
    Tiled (construct p o) [⟨(construct p o).blockCount, false⟩] := by
  have hn : 0 < (construct p o).blockCount := by
    unfold construct; simp only; omega
  refine ⟨⟨0, hn, by simp, rfl, ?_, rfl, fun _ _ _ => rfl, ?_, rfl⟩, ?_, rfl, rfl⟩
  · rw [if_pos (by simp)]; rfl
  · simp
  · rw [coalesced_iff]; simp

theorem construct_links (o : Nat × Nat) : LinksForward (construct p o) := fun _ _ => Or.inl rfl

/-! ## The scan on arbitrary links -/

/-- The index after the region that starts at `i` according to the links. -/
def regionEnd (s : State) (i : Nat) : Nat := if s.next i = 0 then s.blockCount else s.next i

theorem tryRegion_link {i ptr : Nat} (hv : Valid p)
    (hp : Placed p s) (hl : LinksForward s) (hi : i < s.blockCount) (hr : Request size align) :
    tryRegion p size align s ptr i =
      if need p s size align i ≤ (regionEnd s i - i) * p.blockSize then do
        let s' ← allocateBlocks p s i
          (s.data + i * p.blockSize + padding (s.data + i * p.blockSize) align) size
        pure (s', s.data + i * p.blockSize + padding (s.data + i * p.blockSize) align, false)
      else pure (s, ptr, decide (s.next i ≠ 0)) := by
  obtain ⟨k, hk, hak⟩ := hr.align_lt
  have hle := hp.le
  have hnw := hp.noWrap
  have hB := hv.pos
  have hre : i < regionEnd s i ∧ regionEnd s i ≤ s.blockCount := by
    unfold regionEnd
    have := hl i hi
    split <;> omega
  have hlB : (i + (regionEnd s i - i)) * p.blockSize ≤ p.maxBlocks * p.blockSize :=
    Nat.mul_le_mul_right _ (by omega)
  rw [Nat.add_mul] at hlB
  have hno := hr.noOverflow
  have hsk : padding (s.data + i * p.blockSize) align < align :=
    padding_lt _ (by rw [hak]; exact Nat.two_pow_pos k)
  have hmx := hv.max_lt
  unfold tryRegion blockSizeInBytes blockIndexToPointer
  rw [nextAt_ok (by omega) hle, Outcome.ok_bind, decide_eq_true (by omega), cassert_true]
  simp only [Outcome.ok_bind, Outcome.pure_eq]
  rw [Nat.mod_eq_of_lt (by omega : s.data + i * p.blockSize < 2 ^ 64)]
  have hskip : skipToAlign p.debug (BitVec.ofNat 64 (s.data + i * p.blockSize))
      (BitVec.ofNat 64 align)
      = .ok (BitVec.ofNat 64 (padding (s.data + i * p.blockSize) align)) := by
    have e1 : (BitVec.ofNat 64 align).toNat = 2 ^ k := by
      rw [BitVec.toNat_ofNat, ← hak, Nat.mod_eq_of_lt (by have := hr.pos; omega)]
    rw [skipToAlign_eq p.debug hk e1, BitVec.toNat_ofNat, Nat.mod_eq_of_lt (by omega), hak]
    rfl
  rw [hskip, Outcome.ok_bind, BitVec.toNat_ofNat, Nat.mod_eq_of_lt
    (by omega : padding (s.data + i * p.blockSize) align < 2 ^ 64)]
  have hsz : ((if s.next i = 0 then s.blockCount else s.next i)
      + (2 ^ 64 - i)) % 2 ^ 64 * p.blockSize % 2 ^ 64 = (regionEnd s i - i) * p.blockSize := by
    change (regionEnd s i + (2 ^ 64 - i)) % 2 ^ 64 * p.blockSize % 2 ^ 64 = _
    rw [(by omega : regionEnd s i + (2 ^ 64 - i) = regionEnd s i - i + 2 ^ 64),
      Nat.add_mod_right, Nat.mod_eq_of_lt (by omega : regionEnd s i - i < 2 ^ 64),
      Nat.mod_eq_of_lt (by omega)]
  rw [hsz, Nat.mod_eq_of_lt (by omega : padding (s.data + i * p.blockSize) align + size
    < 2 ^ 64)]
  unfold need
  by_cases hfit : padding (s.data + i * p.blockSize) align + size ≤ (regionEnd s i - i) * p.blockSize
  · rw [if_pos hfit, if_pos hfit, Nat.mod_eq_of_lt (by omega)]
  · rw [if_neg hfit, if_neg hfit]

/-- One iteration of the scan. -/
theorem scanFrom_link {i fuel : Nat} (hv : Valid p) (hp : Placed p s) (hl : LinksForward s)
    (hi : i < s.blockCount) (hr : Request size align) :
    (s.inUse i = true → scanFrom p size align (fuel + 1) s i =
      if s.next i ≠ 0 then scanFrom p size align fuel s (s.next i) else .ok (s, 0)) ∧
    (s.inUse i = false → (regionEnd s i - i) * p.blockSize < need p s size align i →
      scanFrom p size align (fuel + 1) s i =
        if s.next i ≠ 0 then scanFrom p size align fuel s 1 else .ok (s, 0)) ∧
    (s.inUse i = false → need p s size align i ≤ (regionEnd s i - i) * p.blockSize →
      scanFrom p size align (fuel + 1) s i = do
        let s' ← allocateBlocks p s i
          (s.data + i * p.blockSize + padding (s.data + i * p.blockSize) align) size
        pure (s', s.data + i * p.blockSize + padding (s.data + i * p.blockSize) align)) := by
  have hle := hp.le
  refine ⟨?_, ?_, ?_⟩
  · intro h
    unfold scanFrom
    rw [applyLoop, checkIdx_ok hi hle, Outcome.ok_bind, isFree_ok hi hle, Outcome.ok_bind, h,
      if_neg (by simp)]
    rfl
  · intro h hn
    unfold scanFrom
    rw [applyLoop, checkIdx_ok hi hle, Outcome.ok_bind, isFree_ok hi hle, Outcome.ok_bind, h,
      if_pos (by simp), tryRegion_link hv hp hl hi hr, if_neg (by omega)]
    simp only [Outcome.pure_eq, Outcome.ok_bind]
    by_cases hz : s.next i = 0
    · simp [hz]
    · simp [hz]
  · intro h hn
    unfold scanFrom
    rw [applyLoop, checkIdx_ok hi hle, Outcome.ok_bind, isFree_ok hi hle, Outcome.ok_bind, h,
      if_pos (by simp), tryRegion_link hv hp hl hi hr, if_pos hn]
    cases allocateBlocks p s i
      (s.data + i * p.blockSize + padding (s.data + i * p.blockSize) align) size <;> simp

/-- From any index, the scan ends or comes to index 1, without going round. -/
theorem scanFrom_cases {i : Nat} (hv : Valid p) (hp : Placed p s) (hl : LinksForward s)
    (hi : i < s.blockCount) (hr : Request size align) :
    (∃ o, ∀ f, scanFrom p size align (f + (s.blockCount - i)) s i = o) ∨
    (1 < s.blockCount ∧ ∃ k, 0 < k ∧ k ≤ s.blockCount - i ∧
      (∀ f, scanFrom p size align (f + k) s i = scanFrom p size align f s 1) ∧
      ∀ f, f < k → scanFrom p size align f s i = .outOfFuel) := by
  generalize hd : s.blockCount - i = d
  induction d using Nat.strong_induction_on generalizing i with
  | _ d ih =>
    obtain ⟨e, rfl⟩ : ∃ e, d = e + 1 := ⟨d - 1, by omega⟩
    obtain ⟨h1, h2, h3⟩ : _ ∧ _ ∧ _ :=
      ⟨fun f => (scanFrom_link (fuel := f) hv hp hl hi hr).1,
        fun f => (scanFrom_link (fuel := f) hv hp hl hi hr).2.1,
        fun f => (scanFrom_link (fuel := f) hv hp hl hi hr).2.2⟩
    cases hu : s.inUse i with
    | true =>
      by_cases hz : s.next i = 0
      · left
        exact ⟨_, fun f => by rw [← Nat.add_assoc, h1 _ hu, if_neg (by simp [hz])]⟩
      · obtain ⟨l1, l2⟩ : i < s.next i ∧ s.next i < s.blockCount := by
          rcases hl i hi with h | h
          · exact absurd h hz
          · exact h
        rcases ih (s.blockCount - s.next i) (by omega) l2 rfl with ⟨o, ho⟩ | ⟨hb, k, k1, k2, k3, k4⟩
        · left
          refine ⟨o, fun f => ?_⟩
          rw [← Nat.add_assoc, h1 _ hu, if_pos hz,
            (by omega : f + e = f + (e - (s.blockCount - s.next i)) + (s.blockCount - s.next i)), ho]
        · right
          refine ⟨hb, k + 1, by omega, by omega, ?_, ?_⟩
          · intro f
            rw [← Nat.add_assoc, h1 _ hu, if_pos hz, k3]
          · intro f hf
            cases f with
            | zero => rfl
            | succ f => rw [h1 _ hu, if_pos hz, k4 f (by omega)]
    | false =>
      by_cases hn : need p s size align i ≤ (regionEnd s i - i) * p.blockSize
      · left
        exact ⟨_, fun f => by rw [← Nat.add_assoc, h3 _ hu hn]⟩
      · by_cases hz : s.next i = 0
        · left
          exact ⟨_, fun f => by rw [← Nat.add_assoc, h2 _ hu (by omega), if_neg (by simp [hz])]⟩
        · right
          have := hl i hi
          refine ⟨by omega, 1, by omega, by omega, ?_, ?_⟩
          · intro f; rw [h2 _ hu (by omega), if_pos hz]
          · intro f hf
            obtain rfl : f = 0 := by omega
            rfl

/-- A scan that has not finished after `2 * block_count` iterations never does. -/
theorem scan_dichotomy (hv : Valid p) (hp : Placed p s) (hl : LinksForward s)
    (hr : Request size align) :
    ∃ o, ∀ fuel, 2 * s.blockCount ≤ fuel → scan p fuel s size align = o := by
  have hs := hp.some
  change ∃ o, ∀ fuel, 2 * s.blockCount ≤ fuel → scanFrom p size align fuel s 0 = o
  rcases scanFrom_cases hv hp hl (i := 0) (by omega) hr with ⟨o, ho⟩ | ⟨h1, k, k1, k2, k3, -⟩
  · refine ⟨o, fun fuel hf => ?_⟩
    rw [(by omega : fuel = fuel - (s.blockCount - 0) + (s.blockCount - 0)), ho]
  · rcases scanFrom_cases hv hp hl (i := 1) h1 hr with ⟨o, ho⟩ | ⟨-, j, j1, j2, j3, j4⟩
    · refine ⟨o, fun fuel hf => ?_⟩
      rw [(by omega : fuel = fuel - k + k), k3,
        (by omega : fuel - k = fuel - k - (s.blockCount - 1) + (s.blockCount - 1)), ho]
    · refine ⟨.outOfFuel, fun fuel hf => ?_⟩
      have : ∀ f, scanFrom p size align f s 1 = .outOfFuel := by
        intro f
        induction f using Nat.strong_induction_on with
        | _ f ih =>
          by_cases hf : f < j
          · exact j4 f hf
          · rw [(by omega : f = f - j + j), j3, ih _ (by omega)]
      rw [(by omega : fuel = fuel - k + k), k3, this]

/-- A request for more than the whole area: no region is ever taken. -/
theorem scanFrom_impossible {i fuel : Nat} (hv : Valid p) (hp : Placed p s) (hl : LinksForward s)
    (hi : i < s.blockCount) (hr : Request size align) (hbig : s.blockCount * p.blockSize < size) :
    scanFrom p size align fuel s i = .ok (s, 0) ∨ scanFrom p size align fuel s i = .outOfFuel := by
  induction fuel generalizing i with
  | zero => exact Or.inr rfl
  | succ fuel ih =>
    obtain ⟨h1, h2, -⟩ := scanFrom_link (fuel := fuel) hv hp hl hi hr
    have hrej : (regionEnd s i - i) * p.blockSize < need p s size align i := by
      have : (regionEnd s i - i) * p.blockSize ≤ s.blockCount * p.blockSize := by
        refine Nat.mul_le_mul_right _ ?_
        unfold regionEnd
        have := hl i hi
        split <;> omega
      unfold need
      omega
    have hli := hl i hi
    cases hu : s.inUse i with
    | true =>
      rw [h1 hu]
      by_cases hz : s.next i = 0
      · rw [if_neg (by simp [hz])]; exact Or.inl rfl
      · rw [if_pos hz]; exact ih (by omega)
    | false =>
      rw [h2 hu hrej]
      by_cases hz : s.next i = 0
      · rw [if_neg (by simp [hz])]; exact Or.inl rfl
      · rw [if_pos hz]; exact ih (by omega)

/-! ## Hanging -/

/-- If the scan from block 1 passes busy regions only and then rejects a free region that is not the
last one, it never ends. -/
theorem scanFrom_hang {b : Bool} {mid post : List Region} {len : Nat} (hv : Valid p) (hp : Placed p s)
    (ht : Tiles s (⟨1, b⟩ :: mid ++ ⟨len, false⟩ :: post)) (hb : ∀ r ∈ mid, r.busy = true)
    (hpost : post ≠ []) (hr : Request size align)
    (hn : len * p.blockSize < need p s size align (1 + blocks mid)) (fuel : Nat) :
    scanFrom p size align fuel s 1 = .outOfFuel := by
  induction fuel using Nat.strong_induction_on with
  | _ fuel ih =>
    have key : ∀ (m : List Region) (pre : List Region) (f : Nat), f ≤ fuel →
        pre ++ m = ⟨1, b⟩ :: mid → (∀ r ∈ m, r.busy = true) →
        scanFrom p size align f s (blocks pre) = .outOfFuel := by
      intro m
      induction m with
      | nil =>
        intro pre f hf he _
        cases f with
        | zero => rfl
        | succ f =>
          rw [List.append_nil] at he
          subst he
          rw [scanFrom_reject hv hp ht hr (by rw [blocks_cons]; exact hn), if_neg hpost,
            ih f (by omega)]
      | cons q m ihm =>
        intro pre f hf he hm
        obtain ⟨l, u⟩ := q
        have : u = true := hm ⟨l, u⟩ (by simp)
        subst this
        cases f with
        | zero => rfl
        | succ f =>
          have ht' : Tiles s (pre ++ ⟨l, true⟩ :: (m ++ ⟨len, false⟩ :: post)) := by
            rw [← he] at ht; simpa using ht
          rw [scanFrom_busy hp.le ht', if_neg (by simp)]
          have := ihm (pre ++ [⟨l, true⟩]) f (by omega) (by simpa using he)
            (fun r hr => hm r (by simp [hr]))
          rwa [blocks_append, blocks_cons, blocks_nil, Nat.add_zero] at this
    have := key mid [⟨1, b⟩] fuel (Nat.le_refl _) (by simp) hb
    simpa using this

/-- Block 0 busy on its own, the first free region too small and not last: the scan never ends. -/
theorem scan_hang {mid post : List Region} {len : Nat} (hv : Valid p) (hp : Placed p s)
    (ht : Tiled s (⟨1, true⟩ :: mid ++ ⟨len, false⟩ :: post)) (hb : ∀ r ∈ mid, r.busy = true)
    (hpost : post ≠ []) (hr : Request size align)
    (hn : len * p.blockSize < need p s size align (1 + blocks mid)) (fuel : Nat) :
    scan p fuel s size align = .outOfFuel := by
  have h1 := scanFrom_hang hv hp (tiled_iff.1 ht).1 hb hpost hr hn
  change scanFrom p size align fuel s (blocks []) = .outOfFuel
  cases fuel with
  | zero => rfl
  | succ fuel =>
    rw [scanFrom_busy (pre := []) (len := 1) (post := mid ++ ⟨len, false⟩ :: post) hp.le
      (tiled_iff.1 ht).1, if_neg (by simp)]
    simpa using h1 fuel

/-! ## Exact fit -/

/-- In debug builds a request that fills the first free region exactly fails an assertion. -/
theorem scan_exact {pre post : List Region} {len fuel : Nat} (hv : Valid p) (hp : Placed p s)
    (ht : Tiled s (pre ++ ⟨len, false⟩ :: post)) (hb : ∀ r ∈ pre, r.busy = true)
    (hr : Request size align) (hd : p.debug = true)
    (hn : need p s size align (blocks pre) = len * p.blockSize) (hf : pre.length < fuel) :
    scan p fuel s size align = .assertFailed := by
  change scanFrom p size align fuel s (blocks []) = _
  obtain ⟨f, rfl⟩ : ∃ f, fuel = f + 1 + pre.length := ⟨fuel - pre.length - 1, by omega⟩
  rw [scanFrom_skip (pre := []) hp.le hb (post := ⟨len, false⟩ :: post) (by simp)
    (by simpa using (tiled_iff.1 ht).1), List.nil_append]
  exact scanFrom_exact hv hp ht hr hd hn

/-- The local part decides the outcome of `allocate` when it does not return. -/
theorem allocate_stuck {fuel : Nat} {u : σ} (hr : Request size align) {o : Outcome (State × Nat)}
    (hl : allocateLocal p fuel s size align = o) :
    (o = .outOfFuel → allocate p up fuel s u size align = .outOfFuel) ∧
    (o = .assertFailed → allocate p up fuel s u size align = .assertFailed) := by
  obtain ⟨k, hk, hak⟩ := hr.align_lt
  have hno := hr.noOverflow
  have hpos := hr.pos
  have hp2 : isPowerOf2 (BitVec.ofNat 64 align) = true :=
    isPowerOf2_of hk (by rw [BitVec.toNat_ofNat, ← hak, Nat.mod_eq_of_lt (by omega)])
  unfold allocate
  rw [if_neg (by omega), hp2, cassert_true, Outcome.ok_bind, hl]
  exact ⟨fun h => by rw [h]; rfl, fun h => by rw [h]; rfl⟩

/-! ## Deallocation of arbitrary pointers -/

theorem Tiles.inUse_head {rs : List Region} (h : Tiles s rs) {i : Nat} (hi : i < s.blockCount) :
    s.inUse i = true → ∃ pre len post, rs = pre ++ ⟨len, true⟩ :: post ∧ i = blocks pre := by
  intro hu
  have hbl := h.blocks_eq
  -- find the region that contains `i`
  have key : ∀ (post pre : List Region), pre ++ post = rs → blocks pre ≤ i →
      ∃ pre len post, rs = pre ++ ⟨len, true⟩ :: post ∧ i = blocks pre := by
    intro post
    induction post with
    | nil =>
      intro pre he hle
      rw [List.append_nil] at he
      subst he
      omega
    | cons q post ih =>
      intro pre he hle
      obtain ⟨a1, a2, a3, a4, a5, a6⟩ := (he ▸ h : Tiles s (pre ++ q :: post)).at
      by_cases h1 : i = blocks pre
      · refine ⟨pre, q.len, post, ?_, h1⟩
        rw [← he, ← hu, h1, a4]
      · by_cases h2 : i < blocks pre + q.len
        · rw [a5 i (by omega) h2] at hu
          simp at hu
        · refine ih (pre ++ [q]) (by simpa using he) ?_
          rw [blocks_append, blocks_cons, blocks_nil]
          omega
  exact key rs [] rfl (by simp)

/-- What `deallocate` does with any non-null pointer. -/
theorem deallocate_any {w : World σ} {rs : List Region} {ptr : Nat} (hv : Valid p)
    (h : Tracks p up w rs) (h0 : ptr ≠ 0) (hlt : ptr < 2 ^ 64) :
    deallocate p up w.st w.up ptr = .aborted ∨
    (∃ s', deallocate p up w.st w.up ptr = .ok (s', w.up) ∧ p.blockSize ∣ ptr ∧
      inArea p w.st ptr = true ∧ ∃ x ∈ w.live, x.1 = ptr) ∨
    (∃ U, up = some U ∧ deallocate p up w.st w.up ptr = .ok (w.st, U.dealloc w.up ptr) ∧
      p.blockSize ∣ ptr ∧ inArea p w.st ptr = false) := by
  have hB := hv.pos
  have hnw := h.placed.noWrap
  have hle := h.placed.le
  have g2 : w.st.blockCount * p.blockSize ≤ p.maxBlocks * p.blockSize := Nat.mul_le_mul_right _ hle
  by_cases hal : p.blockSize ∣ ptr
  · cases ha : inArea p w.st ptr with
    | true =>
      obtain ⟨i1, i2⟩ := inArea_iff.1 ha
      obtain ⟨i, hi⟩ : ∃ i, ptr = w.st.data + i * p.blockSize := by
        obtain ⟨c, hc⟩ := Nat.dvd_sub hal h.placed.aligned
        exact ⟨c, by rw [Nat.mul_comm c]; omega⟩
      have hin : i < w.st.blockCount := by
        apply Nat.lt_of_mul_lt_mul_right (a := p.blockSize)
        omega
      cases hu : w.st.inUse i with
      | true =>
        right; left
        obtain ⟨pre, len, post, e1, e2⟩ := (tiled_iff.1 h.tiled).1.inUse_head hin hu
        obtain ⟨s', pre', l, post', d1, -⟩ := deallocate_busy (up := up) (u := w.up) hv h.placed
          (e1 ▸ h.tiled)
        refine ⟨s', ?_, hal, rfl, ?_⟩
        · rw [hi, e2]; exact d1
        · have hm : (ptr, len) ∈ ((busyRuns 0 rs).map fun r => (w.st.data + r.1 * p.blockSize, r.2)) := by
            refine List.mem_map.2 ⟨(blocks pre, len), ?_, by rw [hi, e2]⟩
            rw [e1, busyRuns_append, busyRuns_busy, Nat.zero_add]
            simp
          obtain ⟨x, hx, hx2⟩ := List.mem_map.1 (h.live.mem_iff.2 hm)
          exact ⟨x, (List.mem_filter.1 hx).1, (Prod.mk.inj hx2).1⟩
      | false =>
        left
        unfold deallocate
        rw [if_neg h0, isAligned_block hv hlt, Outcome.ok_bind, decide_eq_true hal, Bool.not_true,
          abortIf_false, Outcome.ok_bind, size_eq hv h.placed, Nat.mod_eq_of_lt (by omega),
          if_pos ⟨i1, i2⟩, hi, pointerToBlockIndex_ok hv h.placed (by omega),
          Nat.mul_div_cancel _ hB, Outcome.ok_bind]
        unfold deallocateBlocks
        rw [decide_eq_true hin, cassert_true, Outcome.ok_bind, inUseAt_ok hin hle, Outcome.ok_bind, hu]
        rfl
    | false =>
      cases up with
      | some U => exact Or.inr (Or.inr ⟨U, rfl, deallocate_upstream hv h.placed h0 hlt hal ha, hal, rfl⟩)
      | none =>
        left
        unfold deallocate
        rw [if_neg h0, isAligned_block hv hlt, Outcome.ok_bind, decide_eq_true hal, Bool.not_true,
          abortIf_false, Outcome.ok_bind, size_eq hv h.placed, Nat.mod_eq_of_lt (by omega),
          if_neg (by rw [← inArea_iff, ha]; simp)]
        have hout : ptr < w.st.data ∨ w.st.data + w.st.blockCount * p.blockSize ≤ ptr := by
          have : ¬ (w.st.data ≤ ptr ∧ ptr < w.st.data + w.st.blockCount * p.blockSize) := by
            rw [← inArea_iff, ha]; simp
          omega
        simp only
        by_cases hd : ptr < w.st.data
        · rw [decide_eq_true hd]; rfl
        · rw [decide_eq_false hd, abortIf_false, Outcome.ok_bind, decide_eq_true (by omega)]; rfl
  · left
    unfold deallocate
    rw [if_neg h0, isAligned_block hv hlt, Outcome.ok_bind, decide_eq_false hal]
    rfl

end Utils.SR
