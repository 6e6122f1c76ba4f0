import Verif.Proofs.SRAllocate
import Verif.Spec.SRHistory

/-! `allocate`, `deallocate` and histories. -/

namespace Utils.SR

open Utils Utils.Bits Utils.Spec

variable {p : Params} {s : State} {size align : Nat} {σ : Type} {up : Option (Upstream σ)}

theorem Valid.pow_lt (hv : Valid p) : ∃ k, k < 64 ∧ p.blockSize = 2 ^ k := by
  obtain ⟨k, hk⟩ := hv.pow2
  refine ⟨k, ?_, hk⟩
  apply Nat.lt_of_not_le
  intro hle
  have h1 : 2 ^ 64 ≤ 2 ^ k := Nat.pow_le_pow_right (by decide) hle
  have h2 := hv.area
  have h3 : 1 * p.blockSize ≤ p.maxBlocks * p.blockSize := Nat.mul_le_mul_right _ (by have := hv.two; omega)
  omega

theorem isAligned_block (hv : Valid p) {ptr : Nat} (hlt : ptr < 2 ^ 64) :
    isAligned p.debug (BitVec.ofNat 64 ptr) (BitVec.ofNat 64 p.blockSize)
      = .ok (decide (p.blockSize ∣ ptr)) := by
  obtain ⟨k, hk, hb⟩ := hv.pow_lt
  have e : (BitVec.ofNat 64 p.blockSize).toNat = 2 ^ k := by
    rw [BitVec.toNat_ofNat, hb, Nat.mod_eq_of_lt (Nat.pow_lt_pow_right (by decide) hk)]
  rw [isAligned_eq p.debug hk e, BitVec.toNat_ofNat, Nat.mod_eq_of_lt hlt, hb]

/-- `allocate` once the local part is known to refuse. -/
theorem allocate_refused {fuel : Nat} {u : σ} (hv : Valid p) (hr : Request size align)
    (hl : allocateLocal p fuel s size align = .ok (s, 0))
    (hlt : (askUpstream up u size align).1 < 2 ^ 64)
    (hal : p.debug = true → p.blockSize ∣ (askUpstream up u size align).1) :
    allocate p up fuel s u size align
      = .ok ((askUpstream up u size align).1, s, (askUpstream up u size align).2) := by
  obtain ⟨k, hk, hak⟩ := hr.align_lt
  have hpos := hr.pos
  have hno := hr.noOverflow
  have hp2 : isPowerOf2 (BitVec.ofNat 64 align) = true :=
    isPowerOf2_of hk (by rw [BitVec.toNat_ofNat, ← hak, Nat.mod_eq_of_lt (by omega)])
  unfold allocate
  rw [if_neg (by omega), hp2, cassert_true, Outcome.ok_bind, hl, Outcome.ok_bind]
  cases up with
  | none =>
    simp only [askUpstream] at *
    rw [isAligned_block hv hlt, Outcome.ok_bind]
    cases hd : p.debug with
    | true => rw [decide_eq_true (hal hd)]; rfl
    | false => rfl
  | some U =>
    simp only [askUpstream, if_true] at *
    rw [isAligned_block hv hlt, Outcome.ok_bind]
    cases hd : p.debug with
    | true => rw [decide_eq_true (hal hd)]; rfl
    | false => rfl

/-- `allocate` once the local part is known to serve. -/
theorem allocate_served {fuel ptr : Nat} {u : σ} {s' : State} (hv : Valid p) (hr : Request size align)
    (hl : allocateLocal p fuel s size align = .ok (s', ptr)) (h0 : ptr ≠ 0)
    (hlt : ptr < 2 ^ 64) (hal : p.blockSize ∣ ptr) :
    allocate p up fuel s u size align = .ok (ptr, s', u) := by
  obtain ⟨k, hk, hak⟩ := hr.align_lt
  have hpos := hr.pos
  have hno := hr.noOverflow
  have hp2 : isPowerOf2 (BitVec.ofNat 64 align) = true :=
    isPowerOf2_of hk (by rw [BitVec.toNat_ofNat, ← hak, Nat.mod_eq_of_lt (by omega)])
  unfold allocate
  rw [if_neg (by omega), hp2, cassert_true, Outcome.ok_bind, hl, Outcome.ok_bind]
  cases up with
  | none =>
    simp only
    rw [isAligned_block hv hlt, Outcome.ok_bind, decide_eq_true hal, cassert_true]
    rfl
  | some U =>
    simp only [if_neg h0]
    rw [isAligned_block hv hlt, Outcome.ok_bind, decide_eq_true hal, cassert_true]
    rfl

/-- Bounds of a served pointer. -/
theorem ServedFrom.bounds {s' : State} {ptr len a : Nat} {pre post : List Region} (hv : Valid p)
    (hp : Placed p s) (ht : Tiles s (pre ++ ⟨len, false⟩ :: post))
    (h : ServedFrom p s s' size align ptr pre len post a) :
    s.data ≤ ptr ∧ ptr + size < s.data + s.blockCount * p.blockSize ∧
    ptr + size < 2 ^ 64 ∧ p.blockSize ∣ ptr ∧ ptr ≠ 0 := by
  obtain ⟨a1, a2, -⟩ := ht.at
  simp only at a1 a2
  have hB := hv.pos
  have hnw := hp.noWrap
  have hd := hp.data
  have hle := hp.le
  have hfit := h.fit
  have h1 : (blocks pre + a + size / p.blockSize + 1) * p.blockSize ≤ s.blockCount * p.blockSize :=
    Nat.mul_le_mul_right _ (by omega)
  have h2 : s.blockCount * p.blockSize ≤ p.maxBlocks * p.blockSize := Nat.mul_le_mul_right _ hle
  have h3 := Nat.div_add_mod size p.blockSize
  have h4 := Nat.mod_lt size hB
  rw [Nat.add_mul, Nat.add_mul, Nat.mul_comm (size / p.blockSize)] at h1
  have hptr := h.at_block
  refine ⟨by omega, by omega, by omega, ?_, by omega⟩
  rw [hptr]
  exact Nat.dvd_add hp.aligned (Nat.dvd_mul_left _ _)

/-- The outcome of an `allocate` call that goes right. -/
def GoodAlloc (p : Params) (up : Option (Upstream σ)) (s : State) (u : σ) (size align : Nat)
    (rs : List Region) (o : Outcome (Nat × State × σ)) : Prop :=
  (∃ s' ptr pre len post a, o = .ok (ptr, s', u) ∧ rs = pre ++ ⟨len, false⟩ :: post ∧
    NoneFits p s size align pre ∧
    need p s size align (blocks pre) < len * p.blockSize ∧
    ServedFrom p s s' size align ptr pre len post a) ∨
  (o = .ok ((askUpstream up u size align).1, s, (askUpstream up u size align).2) ∧
    (GateOpen p s align → NoneFits p s size align rs))

theorem allocate_good {rs : List Region} {fuel : Nat} {u : σ} (hv : Valid p) (hp : Placed p s)
    (hsm : Small p s) (ht : Tiled s rs) (hr : Request size align)
    (hs : SafeScan p s size align rs) (hfuel : rs.length ≤ fuel)
    (hlt : (askUpstream up u size align).1 < 2 ^ 64)
    (hal : p.debug = true → p.blockSize ∣ (askUpstream up u size align).1) :
    GoodAlloc p up s u size align rs (allocate p up fuel s u size align) := by
  obtain ⟨c, m, htz, -, -, hhi, hloc⟩ := allocateLocal_eq hv hp hsm
  have hloc := hloc fuel size align
  by_cases hg : align ≤ 2 ^ m
  · rw [if_pos hg] at hloc
    rcases scan_safe hv hp ht hr hs hfuel with
      ⟨s', ptr, pre, len, post, a, h1, h2, h3, h4, h5⟩ | ⟨h1, h2⟩
    · left
      refine ⟨s', ptr, pre, len, post, a, ?_, h2, h3, h4, h5⟩
      obtain ⟨b1, b2, b3, b4, b5⟩ := h5.bounds hv hp (h2 ▸ (tiled_iff.1 ht).1)
      exact allocate_served hv hr (hloc.trans h1) b5 (by omega) b4
    · right
      exact ⟨allocate_refused hv hr (hloc.trans h1) hlt hal, fun _ => h2⟩
  · right
    rw [if_neg hg] at hloc
    refine ⟨allocate_refused hv hr hloc hlt hal, fun hd => absurd ?_ hg⟩
    exact gate_passes (Nat.mul_pos hp.some hv.pos) htz hhi hr.pow2 hd

theorem size_eq (hv : Valid p) (hp : Placed p s) : SR.size p s = s.blockCount * p.blockSize := by
  unfold SR.size
  have h2 : s.blockCount * p.blockSize ≤ p.maxBlocks * p.blockSize := Nat.mul_le_mul_right _ hp.le
  have := hv.area
  rw [Nat.mul_comm, Nat.mod_eq_of_lt (by omega)]

/-- `deallocate` of the start of a busy region. -/
theorem deallocate_busy {pre post : List Region} {len : Nat} {u : σ} (hv : Valid p)
    (hp : Placed p s) (ht : Tiled s (pre ++ ⟨len, true⟩ :: post)) :
    ∃ s' pre' l post', deallocate p up s u (s.data + blocks pre * p.blockSize) = .ok (s', u) ∧
      s'.data = s.data ∧ s'.blockCount = s.blockCount ∧
      (∀ j, j ≠ blocks pre' → s'.next j = s.next j) ∧
      Tiled s' (pre' ++ ⟨l, false⟩ :: post') ∧
      busyRuns 0 (pre' ++ ⟨l, false⟩ :: post') = busyRuns 0 pre ++ busyRuns (blocks pre + len) post := by
  obtain ⟨s', pre', l, post', h1, h2, h3, hl, h4, h5, -⟩ := ht.deallocateBlocks hv hp
  obtain ⟨a1, a2, -⟩ := (tiled_iff.1 ht).1.at
  simp only at a1 a2
  have hnw := hp.noWrap
  have hd := hp.data
  have hB := hv.pos
  have g1 : (blocks pre + len) * p.blockSize ≤ s.blockCount * p.blockSize :=
    Nat.mul_le_mul_right _ (by omega)
  have g2 : s.blockCount * p.blockSize ≤ p.maxBlocks * p.blockSize := Nat.mul_le_mul_right _ hp.le
  have g3 : 1 * p.blockSize ≤ len * p.blockSize := Nat.mul_le_mul_right _ (by omega)
  rw [Nat.add_mul] at g1
  refine ⟨s', pre', l, post', ?_, h2, h3, hl, h4, h5⟩
  unfold deallocate
  rw [if_neg (by omega), isAligned_block hv (by omega), Outcome.ok_bind,
    decide_eq_true (Nat.dvd_add hp.aligned (Nat.dvd_mul_left _ _)), Bool.not_true, abortIf_false,
    Outcome.ok_bind, size_eq hv hp, Nat.mod_eq_of_lt (by omega), if_pos ⟨by omega, by omega⟩,
    pointerToBlockIndex_ok hv hp (by omega), Outcome.ok_bind, Nat.mul_div_cancel _ hB, h1]
  rfl

theorem inArea_iff {ptr : Nat} : inArea p s ptr = true ↔
    s.data ≤ ptr ∧ ptr < s.data + s.blockCount * p.blockSize := by
  simp [inArea]

/-- `deallocate` of a pointer outside the area, with an upstream. -/
theorem deallocate_upstream {U : Upstream σ} {ptr : Nat} {u : σ} (hv : Valid p) (hp : Placed p s)
    (h0 : ptr ≠ 0) (hlt : ptr < 2 ^ 64) (hal : p.blockSize ∣ ptr) (hout : inArea p s ptr = false) :
    deallocate p (some U) s u ptr = .ok (s, U.dealloc u ptr) := by
  have hnw := hp.noWrap
  have g2 : s.blockCount * p.blockSize ≤ p.maxBlocks * p.blockSize := Nat.mul_le_mul_right _ hp.le
  unfold deallocate
  rw [if_neg h0, isAligned_block hv hlt, Outcome.ok_bind, decide_eq_true hal, Bool.not_true,
    abortIf_false, Outcome.ok_bind, size_eq hv hp, Nat.mod_eq_of_lt (by omega), if_neg]
  · rfl
  · rw [← inArea_iff, hout]; simp

theorem busyRuns_split {h : Nat} {rs : List Region} {r : Nat × Nat} (hr : r ∈ busyRuns h rs) :
    ∃ pre post, rs = pre ++ ⟨r.2, true⟩ :: post ∧ r.1 = h + blocks pre ∧
      busyRuns h rs = busyRuns h pre ++ r :: busyRuns (h + blocks pre + r.2) post := by
  induction rs generalizing h with
  | nil => simp at hr
  | cons q rs ih =>
    obtain ⟨l, b⟩ := q
    cases b with
    | true =>
      rw [busyRuns_busy] at hr
      rcases List.mem_cons.1 hr with rfl | hr
      · exact ⟨[], rs, by simp, by simp, by simp⟩
      · obtain ⟨pre, post, h1, h2, h3⟩ := ih hr
        refine ⟨⟨l, true⟩ :: pre, post, by rw [h1]; rfl, by simp only [blocks_cons]; omega, ?_⟩
        simp only [busyRuns_busy, blocks_cons, List.cons_append]
        rw [h3, Nat.add_assoc h]
    | false =>
      rw [busyRuns_free] at hr
      obtain ⟨pre, post, h1, h2, h3⟩ := ih hr
      refine ⟨⟨l, false⟩ :: pre, post, by rw [h1]; rfl, by simp only [blocks_cons]; omega, ?_⟩
      simp only [busyRuns_free, blocks_cons]
      rw [h3, Nat.add_assoc h]

theorem busyRuns_le {h : Nat} {rs : List Region} {r : Nat × Nat} (hr : r ∈ busyRuns h rs) :
    r.1 + r.2 ≤ h + blocks rs := by
  obtain ⟨pre, post, h1, h2, -⟩ := busyRuns_split hr
  rw [h1, blocks_append, blocks_cons]
  simp only
  omega

theorem busyRuns_pairwise (h : Nat) (rs : List Region) :
    (busyRuns h rs).Pairwise fun x y => x.1 + x.2 ≤ y.1 := by
  induction rs generalizing h with
  | nil => exact List.Pairwise.nil
  | cons q rs ih =>
    obtain ⟨l, b⟩ := q
    cases b with
    | true =>
      rw [busyRuns_busy]
      exact List.Pairwise.cons (fun y hy => busyRuns_ge hy) (ih _)
    | false => rw [busyRuns_free]; exact ih _

/-- The invariant gives what the client relies on. -/
theorem Tracks.sound {w : World σ} {rs : List Region} (hv : Valid p) (h : Tracks p up w rs) :
    Sound p w := by
  have hB := hv.pos
  have hpw : ((busyRuns 0 rs).map fun r => (w.st.data + r.1 * p.blockSize, r.2)).Pairwise
      fun x y => x.1 + x.2 * p.blockSize ≤ y.1 ∨ y.1 + y.2 * p.blockSize ≤ x.1 := by
    rw [List.pairwise_map]
    refine (busyRuns_pairwise 0 rs).imp ?_
    intro x y hxy
    left
    have := Nat.mul_le_mul_right p.blockSize hxy
    rw [Nat.add_mul] at this
    simp only
    omega
  have hpw2 := (h.live.pairwise_iff (R := fun x y : Nat × Nat =>
      x.1 + x.2 * p.blockSize ≤ y.1 ∨ y.1 + y.2 * p.blockSize ≤ x.1)
      (fun {x y} hxy => hxy.symm)).2 hpw
  rw [List.pairwise_map] at hpw2
  have hsz : ∀ n : Nat, n < (n / p.blockSize + 1) * p.blockSize := by
    intro n
    have h3 := Nat.div_add_mod n p.blockSize
    have h4 := Nat.mod_lt n hB
    rw [Nat.add_mul, Nat.mul_comm (n / p.blockSize)]
    omega
  refine ⟨?_, hpw2.imp ?_⟩
  · intro x hx
    have hm : (x.1, x.2 / p.blockSize + 1) ∈
        ((busyRuns 0 rs).map fun r => (w.st.data + r.1 * p.blockSize, r.2)) :=
      h.live.mem_iff.1 (List.mem_map.2 ⟨x, hx, rfl⟩)
    obtain ⟨r, hr, he⟩ := List.mem_map.1 hm
    simp only [Prod.mk.injEq] at he
    have h1 := busyRuns_le hr
    rw [(tiled_iff.1 h.tiled).1.blocks_eq, Nat.zero_add] at h1
    have h2 := Nat.mul_le_mul_right p.blockSize h1
    rw [Nat.add_mul, he.2] at h2
    have := hsz x.2
    omega
  · intro x y hxy
    simp only at hxy
    have h1 := hsz x.2
    have h2 := hsz y.2
    unfold Apart
    omega


theorem Placed.congr {s s' : State} (hp : Placed p s) (hd : s'.data = s.data)
    (hn : s'.blockCount = s.blockCount) : Placed p s' :=
  ⟨hd ▸ hp.data, hd ▸ hp.aligned, hd ▸ hp.noWrap, hn ▸ hp.some, hn ▸ hp.le⟩

theorem Small.congr {s s' : State} (h : Small p s) (hd : s'.data = s.data)
    (hn : s'.blockCount = s.blockCount) : Small p s' := by
  unfold Small
  rw [hd, hn]
  exact h

theorem inArea_congr {s s' : State} (hd : s'.data = s.data)
    (hn : s'.blockCount = s.blockCount) (ptr : Nat) : inArea p s' ptr = inArea p s ptr := by
  unfold inArea
  rw [hd, hn]

theorem Tiles.link {pre post : List Region} {r : Region} (h : Tiles s (pre ++ r :: post)) :
    s.next (blocks pre) = 0 ∨
      (blocks pre < s.next (blocks pre) ∧ s.next (blocks pre) < s.blockCount) := by
  obtain ⟨a1, a2, a3, -⟩ := h.at
  rw [a3]
  split
  · exact Or.inl rfl
  · right; omega

theorem LinksForward.freed {s s' : State} {pre' post' : List Region} {l : Nat}
    (h : LinksForward s) (ht : Tiled s' (pre' ++ ⟨l, false⟩ :: post'))
    (hn : s'.blockCount = s.blockCount) (hf : ∀ j, j ≠ blocks pre' → s'.next j = s.next j) :
    LinksForward s' := by
  intro j hj
  by_cases e : j = blocks pre'
  · subst e
    exact (tiled_iff.1 ht).1.link
  · rw [hf j e, hn]
    exact h j (hn ▸ hj)

theorem LinksForward.carved {s s' : State} {ptr len a : Nat} {pre post : List Region}
    (h : LinksForward s) (hs : ServedFrom p s s' size align ptr pre len post a) :
    LinksForward s' := by
  have ht := (tiled_iff.1 hs.tiled).1
  have hfit := hs.fit
  generalize hm : size / p.blockSize + 1 = m at *
  have hl := hs.links
  rw [hm] at hl
  unfold carve at ht
  intro j hj
  have hB : s'.next (blocks pre + a) = 0 ∨ (blocks pre + a < s'.next (blocks pre + a) ∧
      s'.next (blocks pre + a) < s'.blockCount) := by
    have : Tiles s' ((pre ++ freeRun a) ++ ⟨m, true⟩ :: (freeRun (len - a - m) ++ post)) := by
      simpa using ht
    have := this.link
    rwa [blocks_append, blocks_freeRun] at this
  by_cases e1 : j = blocks pre + a
  · subst e1; exact hB
  · by_cases e2 : j = blocks pre
    · subst e2
      have ha : a ≠ 0 := by omega
      have : Tiles s' (pre ++ ⟨a, false⟩ :: ([⟨m, true⟩] ++ freeRun (len - a - m) ++ post)) := by
        rw [(by unfold freeRun; rw [if_neg ha] : freeRun a = [⟨a, false⟩])] at ht
        simpa using ht
      exact this.link
    · by_cases e3 : j = blocks pre + a + m
      · subst e3
        have hb : blocks (pre ++ freeRun a ++ [⟨m, true⟩]) = blocks pre + a + m := by
          simp [blocks_append]; omega
        have ht2 : Tiles s' ((pre ++ freeRun a ++ [⟨m, true⟩]) ++ (freeRun (len - a - m) ++ post)) := by
          simpa using ht
        cases hr : freeRun (len - a - m) ++ post with
        | nil =>
          rw [hr] at ht2
          have := ht2.blocks_eq
          rw [List.append_nil, hb] at this
          omega
        | cons q t =>
          rw [hr] at ht2
          have := ht2.link
          rwa [hb] at this
      · rw [hl j e2 e1 e3, hs.count]
        exact h j (hs.count ▸ hj)

theorem askUpstream_ok {u : σ} (hu : UpstreamOK p s up) :
    (askUpstream up u size align).1 < 2 ^ 64 ∧ p.blockSize ∣ (askUpstream up u size align).1 ∧
    (up = none → (askUpstream up u size align).1 = 0) ∧
    ((askUpstream up u size align).1 ≠ 0 → inArea p s (askUpstream up u size align).1 = false) := by
  cases up with
  | none => simp [askUpstream]
  | some U =>
    obtain ⟨h1, h2, h3⟩ := hu U rfl u size align
    exact ⟨h1, h2, by simp, fun _ => h3⟩

/-- What is known after an `allocate` that went right. -/
inductive AllocResult (p : Params) (up : Option (Upstream σ)) (w : World σ) (rs : List Region)
    (size align : Nat) (w' : World σ) : Prop
  | served {ptr pre len post a}
      (split : rs = pre ++ ⟨len, false⟩ :: post)
      (firstFit : NoneFits p w.st size align pre)
      (fits : need p w.st size align (blocks pre) < len * p.blockSize)
      (served : ServedFrom p w.st w'.st size align ptr pre len post a)
      (tracks : Tracks p up w' (pre ++ carve a (size / p.blockSize + 1) len ++ post))
      (live : w'.live = (ptr, size) :: w.live)
      (locl : localLive p w' = (ptr, size) :: localLive p w)
      (up_eq : w'.up = w.up)
  | refused
      (none : GateOpen p w.st align → NoneFits p w.st size align rs)
      (st : w'.st = w.st)
      (tracks : Tracks p up w' rs)
      (live : w'.live = if (askUpstream up w.up size align).1 = 0 then w.live
        else ((askUpstream up w.up size align).1, size) :: w.live)
      (locl : localLive p w' = localLive p w)
      (up_eq : w'.up = (askUpstream up w.up size align).2)

/-- The invariant after a request that was served from a free region. -/
theorem Tracks.afterServed {w : World σ} {s' : State} {pre post : List Region} {len a ptr : Nat}
    (hv : Valid p) (h : Tracks p up w (pre ++ ⟨len, false⟩ :: post))
    (h5 : ServedFrom p w.st s' size align ptr pre len post a) :
    Tracks p up (⟨s', w.up, (ptr, size) :: w.live⟩ : World σ)
      (pre ++ carve a (size / p.blockSize + 1) len ++ post) ∧
    localLive p (⟨s', w.up, (ptr, size) :: w.live⟩ : World σ) = (ptr, size) :: localLive p w := by
  obtain ⟨b1, b2, b3, b4, b5⟩ := h5.bounds hv h.placed (tiled_iff.1 h.tiled).1
  have hin : ∀ x, inArea p s' x = inArea p w.st x := inArea_congr h5.data h5.count
  have hptr : inArea p w.st ptr = true := inArea_iff.2 ⟨b1, by omega⟩
  have hloc : localLive p (⟨s', w.up, (ptr, size) :: w.live⟩ : World σ)
      = (ptr, size) :: localLive p w := by
    unfold localLive
    simp only [hin]
    rw [List.filter_cons_of_pos (by simpa using hptr)]
  refine ⟨⟨h.placed.congr h5.data h5.count, h.small.congr h5.data h5.count,
    h5.tiled, h.links.carved h5, ?_, ?_, ?_⟩, hloc⟩
  · rw [hloc, h5.runs]
    simp only [h5.data]
    rw [List.map_cons, List.map_append, List.map_cons]
    have hl := h.live
    rw [busyRuns_append, busyRuns_free, Nat.zero_add, List.map_append] at hl
    rw [← h5.at_block]
    exact (List.Perm.cons _ hl).trans (List.perm_middle.symm)
  · intro x hx
    rcases List.mem_cons.1 hx with rfl | hx
    · exact ⟨by simp only; omega, b5, b4⟩
    · exact h.ptrs x hx
  · intro hn x hx
    simp only [hin]
    rcases List.mem_cons.1 hx with rfl | hx
    · exact hptr
    · exact h.routed hn x hx

/-- The invariant after a request that went to upstream. -/
theorem Tracks.afterRefused {w : World σ} {rs : List Region} (h : Tracks p up w rs)
    (hu : UpstreamOK p w.st up) :
    Tracks p up (⟨w.st, (askUpstream up w.up size align).2,
      if (askUpstream up w.up size align).1 = 0 then w.live
        else ((askUpstream up w.up size align).1, size) :: w.live⟩ : World σ) rs ∧
    localLive p (⟨w.st, (askUpstream up w.up size align).2,
      if (askUpstream up w.up size align).1 = 0 then w.live
        else ((askUpstream up w.up size align).1, size) :: w.live⟩ : World σ) = localLive p w := by
  obtain ⟨u1, u2, u3, u4⟩ := askUpstream_ok (u := w.up) (size := size) (align := align) hu
  have hloc : localLive p (⟨w.st, (askUpstream up w.up size align).2,
      if (askUpstream up w.up size align).1 = 0 then w.live
      else ((askUpstream up w.up size align).1, size) :: w.live⟩ : World σ)
      = localLive p w := by
    unfold localLive
    simp only
    split
    · rfl
    · rename_i h0
      rw [List.filter_cons_of_neg (by simp [u4 h0])]
  refine ⟨⟨h.placed, h.small, h.tiled, h.links, ?_, ?_, ?_⟩, hloc⟩
  · rw [hloc]; exact h.live
  · intro x hx
    simp only at hx
    split at hx
    · exact h.ptrs x hx
    · rename_i h0
      rcases List.mem_cons.1 hx with rfl | hx
      · exact ⟨u1, h0, u2⟩
      · exact h.ptrs x hx
  · intro hn x hx
    simp only at hx
    rw [if_pos (u3 hn)] at hx
    exact h.routed hn x hx

theorem doAlloc_good {w : World σ} {rs : List Region} {fuel : Nat} (hv : Valid p)
    (h : Tracks p up w rs) (hu : UpstreamOK p w.st up) (hr : Request size align)
    (hs : SafeScan p w.st size align rs) (hfuel : w.st.blockCount ≤ fuel) :
    ∃ w', doAlloc p up fuel w size align = .ok w' ∧ AllocResult p up w rs size align w' := by
  have hlen : rs.length ≤ fuel := by
    obtain ⟨pv, hseg⟩ := h.tiled.seg
    have := hseg.length_le
    have := (tiled_iff.1 h.tiled).1.blocks_eq
    omega
  obtain ⟨u1, u2, u3, u4⟩ := askUpstream_ok (u := w.up) (size := size) (align := align) hu
  rcases allocate_good hv h.placed h.small h.tiled hr hs hlen u1 (fun _ => u2) with
    ⟨s', ptr, pre, len, post, a, h1, h2, h3, h4, h5⟩ | ⟨h1, h2⟩
  · subst h2
    obtain ⟨b1, b2, b3, b4, b5⟩ := h5.bounds hv h.placed (tiled_iff.1 h.tiled).1
    obtain ⟨t1, t2⟩ := h.afterServed hv h5
    refine ⟨⟨s', w.up, (ptr, size) :: w.live⟩, ?_, .served rfl h3 h4 h5 t1 rfl t2 rfl⟩
    unfold doAlloc
    rw [h1]
    simp [b5]
  · obtain ⟨t1, t2⟩ := h.afterRefused (size := size) (align := align) hu
    refine ⟨⟨w.st, (askUpstream up w.up size align).2,
      if (askUpstream up w.up size align).1 = 0 then w.live
      else ((askUpstream up w.up size align).1, size) :: w.live⟩, ?_, .refused h2 rfl t1 rfl t2 rfl⟩
    unfold doAlloc
    rw [h1]
    rfl

theorem mem_of_getElem? {α : Type} {l : List α} {i : Nat} {x : α} (h : l[i]? = some x) :
    ∃ a b, l = a ++ x :: b ∧ l.eraseIdx i = a ++ b ∧ a.length = i := by
  induction l generalizing i with
  | nil => simp at h
  | cons y l ih =>
    cases i with
    | zero =>
      simp at h
      exact ⟨[], l, by simp [h], by simp, rfl⟩
    | succ i =>
      simp at h
      obtain ⟨a, b, h1, h2, h3⟩ := ih h
      exact ⟨y :: a, b, by rw [h1]; rfl, by simp [h2], by simp [h3]⟩

/-- What is known after a `deallocate` of a live allocation. -/
inductive FreeResult (p : Params) (up : Option (Upstream σ)) (w : World σ) (rs : List Region)
    (i : Nat) (w' : World σ) (rs' : List Region) : Prop
  | nothing (none : w.live[i]? = none) (same : w' = w) (regions : rs' = rs)
  | locl {x : Nat × Nat} {pre post pre' post' : List Region} {l : Nat}
      (at_i : w.live[i]? = some x) (area : inArea p w.st x.1 = true)
      (split : rs = pre ++ ⟨x.2 / p.blockSize + 1, true⟩ :: post)
      (start : x.1 = w.st.data + blocks pre * p.blockSize)
      (runs : busyRuns 0 rs' = busyRuns 0 pre
        ++ busyRuns (blocks pre + (x.2 / p.blockSize + 1)) post)
      (shape : rs' = pre' ++ ⟨l, false⟩ :: post')
      (links : ∀ j, j ≠ blocks pre' → w'.st.next j = w.st.next j)
      (live : w'.live = w.live.eraseIdx i)
      (data : w'.st.data = w.st.data) (count : w'.st.blockCount = w.st.blockCount)
      (up_eq : w'.up = w.up)
  | upstream {x : Nat × Nat} {U : Upstream σ}
      (at_i : w.live[i]? = some x) (area : inArea p w.st x.1 = false) (has : up = some U)
      (st : w'.st = w.st) (regions : rs' = rs)
      (live : w'.live = w.live.eraseIdx i) (locl : localLive p w' = localLive p w)
      (up_eq : w'.up = U.dealloc w.up x.1)

theorem doFree_good {w : World σ} {rs : List Region} (hv : Valid p)
    (h : Tracks p up w rs) (i : Nat) :
    ∃ w' rs', doFree p up w i = .ok w' ∧ Tracks p up w' rs' ∧ FreeResult p up w rs i w' rs' := by
  unfold doFree
  cases hx : w.live[i]? with
  | none => exact ⟨w, rs, rfl, h, .nothing hx rfl rfl⟩
  | some x =>
    obtain ⟨la, lb, hl1, hl2, -⟩ := mem_of_getElem? hx
    have hxm : x ∈ w.live := by rw [hl1]; simp
    obtain ⟨q1, q2, q3⟩ := h.ptrs x hxm
    have hsub : ∀ y ∈ w.live.eraseIdx i, y ∈ w.live := by
      intro y hy
      rw [hl2] at hy
      rw [hl1]
      simp only [List.mem_append, List.mem_cons] at hy ⊢
      tauto
    cases ha : inArea p w.st x.1 with
    | true =>
      have hlm : x ∈ localLive p w := List.mem_filter.2 ⟨hxm, ha⟩
      have hm : (x.1, x.2 / p.blockSize + 1) ∈
          ((busyRuns 0 rs).map fun r => (w.st.data + r.1 * p.blockSize, r.2)) :=
        h.live.mem_iff.1 (List.mem_map.2 ⟨x, hlm, rfl⟩)
      obtain ⟨r, hr, he⟩ := List.mem_map.1 hm
      simp only [Prod.mk.injEq] at he
      obtain ⟨pre, post, s1, s2, s3⟩ := busyRuns_split hr
      rw [Nat.zero_add] at s2 s3
      obtain ⟨s', pre', l, post', d1, d2, d3, dl, d4, d5⟩ := deallocate_busy (up := up) (u := w.up) hv h.placed
        (s1 ▸ h.tiled)
      rw [← s2, he.1] at d1
      refine ⟨⟨s', w.up, w.live.eraseIdx i⟩, pre' ++ ⟨l, false⟩ :: post', ?_, ?_, ?_⟩
      · simp only [d1, Outcome.ok_bind, Outcome.pure_eq]
      · have hin : ∀ x, inArea p s' x = inArea p w.st x := inArea_congr d2 d3
        refine ⟨h.placed.congr d2 d3, h.small.congr d2 d3, d4, h.links.freed d4 d3 dl, ?_, ?_, ?_⟩
        · have hl := h.live
          rw [s3, List.map_append, List.map_cons] at hl
          have hl := hl.trans List.perm_middle
          have e1 : localLive p w = la.filter (fun x => inArea p w.st x.1) ++ x ::
              lb.filter (fun x => inArea p w.st x.1) := by
            unfold localLive
            rw [hl1, List.filter_append, List.filter_cons_of_pos (by simpa using ha)]
          have e2 : localLive p (⟨s', w.up, w.live.eraseIdx i⟩ : World σ)
              = la.filter (fun x => inArea p w.st x.1) ++
              lb.filter (fun x => inArea p w.st x.1) := by
            unfold localLive
            simp only [hin]
            rw [hl2, List.filter_append]
          rw [e1, List.map_append, List.map_cons] at hl
          have hl := List.perm_middle.symm.trans hl
          rw [he.1, he.2] at hl
          have hl := List.Perm.cons_inv hl
          rw [e2, d5, List.map_append, List.map_append, d2, he.2]
          exact hl
        · intro y hy
          exact h.ptrs y (hsub y hy)
        · intro hn y hy
          simp only [hin]
          exact h.routed hn y (hsub y hy)
      · refine .locl hx ha (he.2 ▸ s1) (by rw [← he.1, s2]) ?_ rfl dl rfl d2 d3 rfl
        rw [d5, he.2]
    | false =>
      cases up with
      | none =>
        have := h.routed rfl x hxm
        rw [ha] at this
        simp at this
      | some U =>
        have hd := deallocate_upstream (U := U) (u := w.up) hv h.placed q2 q1 q3 ha
        have hloc : localLive p (⟨w.st, U.dealloc w.up x.1, w.live.eraseIdx i⟩ : World σ)
            = localLive p w := by
          unfold localLive
          simp only
          rw [hl2, hl1, List.filter_append, List.filter_append, List.filter_cons_of_neg (by simp [ha])]
        refine ⟨⟨w.st, U.dealloc w.up x.1, w.live.eraseIdx i⟩, rs, ?_, ?_,
          .upstream hx ha rfl rfl rfl rfl hloc rfl⟩
        · simp only [hd, Outcome.ok_bind, Outcome.pure_eq]
        · refine ⟨h.placed, h.small, h.tiled, h.links, ?_, ?_, ?_⟩
          · rw [hloc]; exact h.live
          · intro y hy
            exact h.ptrs y (hsub y hy)
          · intro hn; simp at hn

end Utils.SR
