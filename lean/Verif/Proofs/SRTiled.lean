import Mathlib.Data.List.Chain
import Verif.Proofs.SRAlloc

/-! The bookkeeping operations at the level of region lists. -/

namespace Utils.SR

open Utils Utils.Bits

variable {p : Params} {s : State}

/-- `Tiled` without the requirement that free regions are maximal. -/
structure Tiles (s : State) (rs : List Region) : Prop where
  seg : ∃ pv, Seg s 0 0 rs s.blockCount pv
  free : s.freeCount = rs.countP fun r => !r.busy
  busy : s.busyCount = rs.countP fun r => r.busy

theorem tiled_iff {rs : List Region} : Tiled s rs ↔ Tiles s rs ∧ Coalesced rs :=
  ⟨fun h => ⟨⟨h.seg, h.free, h.busy⟩, h.coalesced⟩, fun h => ⟨h.1.seg, h.2, h.1.free, h.1.busy⟩⟩

theorem coalesced_iff {rs : List Region} :
    Coalesced rs ↔ rs.IsChain fun x y => x.busy = true ∨ y.busy = true := by
  rw [List.isChain_iff_forall_rel_of_append_cons_cons]
  constructor
  · intro h x y a b e; exact h a x y b e
  · intro h a x y b e; exact h e

theorem Tiles.blocks_eq {rs : List Region} (h : Tiles s rs) : blocks rs = s.blockCount := by
  obtain ⟨pv, hs⟩ := h.seg
  have := hs.end_eq
  omega

theorem Seg.length_le {h pv h' pv' : Nat} {rs : List Region} (hs : Seg s h pv rs h' pv') :
    rs.length ≤ blocks rs := by
  induction rs generalizing h pv with
  | nil => simp
  | cons r rs ih =>
    obtain ⟨h1, _, _, _, _, _, h7⟩ := hs
    have := ih h7
    simp only [List.length_cons, blocks_cons]
    omega

theorem Placed.max_lt (hp : Placed p s) (hv : Valid p) : p.maxBlocks + 1 < 2 ^ 64 := by
  have h1 := hp.noWrap
  have h2 := hp.data
  have h3 := hv.pos
  have : p.maxBlocks * 1 ≤ p.maxBlocks * p.blockSize := Nat.mul_le_mul_left _ (by omega)
  omega

theorem Tiles.count_lt {rs : List Region} (h : Tiles s rs) (hv : Valid p) (hp : Placed p s) :
    s.freeCount + s.busyCount ≤ p.maxBlocks ∧ p.maxBlocks + 1 < 2 ^ 64 := by
  refine ⟨?_, hp.max_lt hv⟩
  obtain ⟨pv, hs⟩ := h.seg
  have h1 := hs.length_le
  have h2 := h.blocks_eq
  have h3 := hp.le
  have h4 : rs.countP (fun r => !r.busy) + rs.countP (fun r => r.busy) = rs.length := by
    have := List.length_eq_countP_add_countP (fun r : Region => r.busy) (l := rs)
    simp only [Bool.not_eq_true, ← Bool.not_eq_true'] at this
    simp only [Bool.decide_eq_true] at this
    omega
  rw [h.free, h.busy]
  omega

/-- Reading the bookkeeping of one region. -/
theorem Tiles.at {pre post : List Region} {r : Region} (h : Tiles s (pre ++ r :: post)) :
    0 < r.len ∧ blocks pre + r.len ≤ s.blockCount ∧
    s.next (blocks pre) = (if blocks pre + r.len = s.blockCount then 0 else blocks pre + r.len) ∧
    s.inUse (blocks pre) = r.busy ∧
    (∀ j, blocks pre < j → j < blocks pre + r.len → s.inUse j = false) ∧
    (post = [] ↔ blocks pre + r.len = s.blockCount) := by
  have hb := h.blocks_eq
  obtain ⟨pv, hs⟩ := h.seg
  rw [seg_append] at hs
  obtain ⟨m, pm, h1, h2⟩ := hs
  have he := h1.end_eq
  rw [Nat.zero_add] at he
  subst he
  obtain ⟨g1, g2, g3, g4, g5, g6, g7⟩ := h2
  refine ⟨g1, g2, g4, g5, g6, ?_⟩
  rw [blocks_append, blocks_cons] at hb
  constructor
  · rintro rfl
    simpa using hb
  · intro he
    cases post with
    | nil => rfl
    | cons q post =>
      obtain ⟨k1, _⟩ := g7
      rw [blocks_cons] at hb
      omega

theorem Tiles.prev_zero {post : List Region} {r : Region} (h : Tiles s (r :: post)) :
    s.prev 0 = 0 := by
  obtain ⟨pv, hs⟩ := h.seg
  exact hs.2.2.1

theorem Tiles.prev_next {pre post : List Region} {q r : Region}
    (h : Tiles s (pre ++ q :: r :: post)) :
    s.prev (blocks pre + q.len) = blocks pre := by
  obtain ⟨pv, hs⟩ := h.seg
  rw [seg_append] at hs
  obtain ⟨m, pm, h1, h2⟩ := hs
  have he := h1.end_eq
  rw [Nat.zero_add] at he
  subst he
  exact h2.2.2.2.2.2.2.2.2.1

theorem countP_freeRun (n : Nat) :
    (freeRun n).countP (fun r => !r.busy) = if n = 0 then 0 else 1 := by
  unfold freeRun; split <;> rfl

theorem countP_busy_freeRun (n : Nat) : (freeRun n).countP (fun r => r.busy) = 0 := by
  unfold freeRun; split <;> rfl

/-- `allocate_blocks` on the level of region lists. -/
theorem Tiles.allocateBlocks {pre post : List Region} {len : Nat} (hv : Valid p) (hp : Placed p s)
    (ht : Tiles s (pre ++ ⟨len, false⟩ :: post)) {a size : Nat}
    (hfit : a * p.blockSize + size < len * p.blockSize) :
    ∃ s', allocateBlocks p s (blocks pre) (s.data + (blocks pre + a) * p.blockSize) size = .ok s' ∧
      s'.data = s.data ∧ s'.blockCount = s.blockCount ∧
      (∀ j, j ≠ blocks pre → j ≠ blocks pre + a → j ≠ blocks pre + a + (size / p.blockSize + 1) →
        s'.next j = s.next j) ∧
      Tiles s' (pre ++ carve a (size / p.blockSize + 1) len ++ post) := by
  obtain ⟨hc, hc2⟩ := ht.count_lt hv hp
  have hfree := ht.free
  have hbusy := ht.busy
  obtain ⟨pv, hs⟩ := ht.seg
  rw [seg_append] at hs
  obtain ⟨m, pm, h1, h2⟩ := hs
  have he := h1.end_eq
  rw [Nat.zero_add] at he
  subst he
  have h3 : Seg s (blocks pre) pm ([⟨len, false⟩] ++ post) s.blockCount pv := h2
  rw [seg_append] at h3
  obtain ⟨m, pm', h4, h5⟩ := h3
  have he := h4.end_eq
  simp only [blocks_cons, blocks_nil, Nat.add_zero] at he
  subst he
  have hlink : blocks pre + len < s.blockCount → s.prev (blocks pre + len) = pm' := by
    intro hlt
    cases post with
    | nil => have := h5.1; omega
    | cons q post => exact h5.2.2.1
  have hf1 : 0 < s.freeCount := by
    rw [hfree]; simp
  obtain ⟨s', hok, hcm⟩ := allocateBlocks_ok hv hp h4 hlink hf1 (by omega) (by omega) hfit
  obtain ⟨pm2, hm, hl⟩ := hcm.mid
  refine ⟨s', hok, hcm.data, hcm.count, hcm.links,
    ⟨Seg.replace h1 ⟨_, h5⟩ hcm.count hcm.lo hcm.hi hm hl, ?_, ?_⟩⟩
  · rw [hcm.free, hfree]
    simp only [carve, List.countP_append, List.countP_cons, countP_freeRun]
    simp
    omega
  · rw [hcm.busy, hbusy]
    simp only [carve, List.countP_append, List.countP_cons, countP_busy_freeRun]
    simp
    omega


/-! ## Deallocation -/

theorem Tiles.reset {pre post : List Region} {len : Nat}
    (hmax : p.maxBlocks + 1 < 2 ^ 64)
    (hc : s.freeCount + s.busyCount ≤ p.maxBlocks)
    (ht : Tiles s (pre ++ ⟨len, true⟩ :: post)) :
    Tiles (incFree (decBusy (withUse s (blocks pre) false))) (pre ++ ⟨len, false⟩ :: post) := by
  have hfree := ht.free
  have hbusy := ht.busy
  obtain ⟨pv, hs⟩ := ht.seg
  rw [seg_append] at hs
  obtain ⟨m, pm, h1, h2⟩ := hs
  have he := h1.end_eq
  rw [Nat.zero_add] at he
  subst he
  obtain ⟨g1, g2, g3, g4, g5, g6, g7⟩ := h2
  simp only at g1 g2 g3 g4 g5 g6 g7
  have hb0 : 0 < s.busyCount := by rw [hbusy]; simp
  refine ⟨⟨pv, ?_⟩, ?_, ?_⟩
  · rw [seg_append]
    refine ⟨blocks pre, pm, h1.frame rfl ?_, g1, g2, g3, g4, by simp, ?_, g7.frame rfl ?_⟩
    · intro j _ hj
      simp only [sr_proj, upd]
      grind
    · intro j hj hj'
      simp only [sr_proj, upd]
      grind
    · intro j hj hj'
      simp only [sr_proj, upd]
      grind
  · simp only [sr_proj]
    rw [inc64_eq (by omega), hfree]
    simp
    omega
  · simp only [sr_proj]
    rw [dec64_eq hb0, hbusy]
    simp

theorem inUseAt_ok {i : Nat} (hi : i < s.blockCount) (hle : s.blockCount ≤ p.maxBlocks) :
    inUseAt p s i = .ok (s.inUse i) := by
  unfold inUseAt
  rw [checkIdx_ok hi hle]
  rfl

theorem nextAt_ok {i : Nat} (hi : i < s.blockCount) (hle : s.blockCount ≤ p.maxBlocks) :
    nextAt p s i = .ok (s.next i) := by
  unfold nextAt
  rw [checkIdx_ok hi hle]
  rfl

/-- Merging two free neighbours. -/
theorem Tiles.merge {pre post : List Region} {l r : Nat} (hle : s.blockCount ≤ p.maxBlocks)
    (ht : Tiles s (pre ++ ⟨l, false⟩ :: ⟨r, false⟩ :: post)) :
    ∃ s', mergeIfBothNotInUse p s (blocks pre) (blocks pre + l) = .ok (s', blocks pre) ∧
      s'.data = s.data ∧ s'.blockCount = s.blockCount ∧
      (∀ j, j ≠ blocks pre → s'.next j = s.next j) ∧
      Tiles s' (pre ++ ⟨l + r, false⟩ :: post) := by
  have hfree := ht.free
  have hbusy := ht.busy
  obtain ⟨pv, hs⟩ := ht.seg
  rw [seg_append] at hs
  obtain ⟨m, pm, h1, h2⟩ := hs
  have he := h1.end_eq
  rw [Nat.zero_add] at he
  subst he
  generalize blocks pre = h at *
  obtain ⟨g1, g2, g3, g4, g5, g6, k1, k2, k3, k4, k5, k6, k7⟩ := h2
  simp only at g1 g2 g3 g4 g5 g6 k1 k2 k3 k4 k5 k6 k7
  have hf0 : 1 < s.freeCount := by rw [hfree]; simp; omega
  have hp0 : 0 < h ∨ s.prev 0 = 0 := by
    rcases Nat.eq_zero_or_pos h with h0 | h0
    · right
      subst h0
      cases pre with
      | nil => rw [g3]; exact h1.2
      | cons q pre => exact h1.2.2.1
    · exact Or.inl h0
  have hnx : s.next (h + l) < s.blockCount := by rw [k4]; split <;> omega
  have hnx2 : h < s.next (h + l) ∨ s.next (h + l) = 0 := by rw [k4]; split <;> omega
  refine ⟨decFree (withNext (linkPrev s (h + l + r) h) h (s.next (h + l))), ?_, ?_, ?_, ?_, ?_⟩
  · unfold mergeIfBothNotInUse
    rw [if_neg (by omega), decide_eq_true (by omega), cassert_true, Outcome.ok_bind,
      inUseAt_ok (by omega) hle, Outcome.ok_bind, g5, if_pos rfl, inUseAt_ok (by omega) hle,
      Outcome.ok_bind, k5, if_pos rfl, decide_eq_true (by omega), cassert_true, Outcome.ok_bind,
      checkIdx_ok (by omega) hle, Outcome.ok_bind,
      setPrev_link (e := h + l + r) hle (by omega) hp0 (by omega) k4, Outcome.ok_bind,
      linkPrev_next, setNext_ok (by simp; omega) (by simpa using hle) hnx2 (by simpa using hnx),
      Outcome.ok_bind]
    rfl
  · simp
  · simp
  · intro j hj; simp only [sr_proj]; exact upd_ne _ _ hj
  · refine ⟨?_, ?_, ?_⟩
    · have hs' := Seg.replace (s' := decFree (withNext (linkPrev s (h + l + r) h) h (s.next (h + l))))
        (mid' := [⟨l + r, false⟩]) (pm' := h) h1 ⟨_, k7⟩ (by simp)
        (by intro j hj; simp only [sr_proj, upd]; grind)
        (by intro j hj hj'; simp only [sr_proj, upd]; grind)
        (by
          simp only [Seg, sr_proj, upd]
          and_intros <;> grind)
        (by intro hlt; simp only [sr_proj]; grind)
      simpa using hs'
    · simp only [sr_proj]
      rw [dec64_eq (by omega), hfree]
      simp
    · simp only [sr_proj]
      rw [hbusy]
      simp


theorem busyRuns_append (h : Nat) (a b : List Region) :
    busyRuns h (a ++ b) = busyRuns h a ++ busyRuns (h + blocks a) b := by
  induction a generalizing h with
  | nil => simp [busyRuns]
  | cons r a ih =>
    simp only [List.cons_append, busyRuns, ih, blocks_cons, ← Nat.add_assoc]
    split <;> simp

@[simp] theorem busyRuns_nil (h : Nat) : busyRuns h [] = [] := rfl
@[simp] theorem busyRuns_free (h l : Nat) (t : List Region) :
    busyRuns h (⟨l, false⟩ :: t) = busyRuns (h + l) t := by simp [busyRuns]
@[simp] theorem busyRuns_busy (h l : Nat) (t : List Region) :
    busyRuns h (⟨l, true⟩ :: t) = (h, l) :: busyRuns (h + l) t := by simp [busyRuns]

@[simp] theorem blocks_freeRun (n : Nat) : blocks (freeRun n) = n := by
  unfold freeRun; split <;> simp_all
@[simp] theorem busyRuns_freeRun (h n : Nat) : busyRuns h (freeRun n) = [] := by
  unfold freeRun; split <;> simp

theorem mergeLeft {pre post : List Region} {len : Nat} (hle : s.blockCount ≤ p.maxBlocks)
    (hco : Coalesced pre) (ht : Tiles s (pre ++ ⟨len, false⟩ :: post)) :
    ∃ s' pre' l, mergeIfBothNotInUse p s (s.prev (blocks pre)) (blocks pre)
        = .ok (s', blocks pre') ∧
      s'.data = s.data ∧ s'.blockCount = s.blockCount ∧
      s'.next (blocks pre) = s.next (blocks pre) ∧
      (∀ j, j ≠ blocks pre' → s'.next j = s.next j) ∧
      Tiles s' (pre' ++ ⟨l + len, false⟩ :: post) ∧ busyRuns 0 pre' = busyRuns 0 pre ∧
      blocks pre' + l = blocks pre ∧ Coalesced pre' ∧ (∀ q ∈ pre'.getLast?, q.busy = true) := by
  rcases List.eq_nil_or_concat pre with rfl | ⟨pre', q, rfl⟩
  · refine ⟨s, [], 0, ?_, rfl, rfl, rfl, fun _ _ => rfl, by simpa using ht, rfl, rfl, ?_, by simp⟩
    · have := ht.prev_zero
      unfold mergeIfBothNotInUse
      rw [if_pos (by simp)]
      simp [this]
    · rw [coalesced_iff]; simp
  · rw [coalesced_iff] at hco
    simp only [List.concat_eq_append] at *
    have ht' : Tiles s (pre' ++ q :: ⟨len, false⟩ :: post) := by simpa using ht
    have hpv := ht'.prev_next
    obtain ⟨a1, a2, a3, a4, a5, a6⟩ := ht'.at
    obtain ⟨b1, b2, b3, b4, b5, b6⟩ := ht.at
    simp only [blocks_append, blocks_cons, blocks_nil, Nat.add_zero] at b2 b3 b4 b5 b6 ⊢
    simp only at b1
    rw [hpv]
    obtain ⟨ql, qb⟩ := q
    simp only at *
    cases qb with
    | true =>
      refine ⟨s, pre' ++ [⟨ql, true⟩], 0, ?_, rfl, rfl, rfl, fun _ _ => rfl, by simpa using ht, rfl,
        by simp [blocks_append], coalesced_iff.2 hco, by simp⟩
      unfold mergeIfBothNotInUse
      rw [if_neg (by omega), decide_eq_true (by omega), cassert_true, Outcome.ok_bind,
        inUseAt_ok (by omega) hle, Outcome.ok_bind, a4, if_neg (by simp)]
      have : assertNotInUse p s (blocks pre' + ql) = .ok () := by
        unfold assertNotInUse
        split
        · rw [inUseAt_ok (by omega) hle, Outcome.ok_bind, b4]; simp
        · rfl
      rw [this]
      simp [blocks_append]
    | false =>
      obtain ⟨s', h1, h2, h3, h4, h5⟩ := Tiles.merge hle ht'
      refine ⟨s', pre', ql, h1, h2, h3, h4 _ (by omega), h4, h5, ?_, rfl, ?_, ?_⟩
      · rw [busyRuns_append]; simp
      · rw [coalesced_iff]
        exact (List.isChain_append.1 hco).1
      · intro x hx
        have := (List.isChain_append.1 hco).2.2 x hx ⟨ql, false⟩ (by simp)
        simpa using this

theorem mergeRight {pre post : List Region} {len : Nat} (hle : s.blockCount ≤ p.maxBlocks)
    (hco : Coalesced post) (ht : Tiles s (pre ++ ⟨len, false⟩ :: post)) :
    ∃ s' post' l, mergeIfBothNotInUse p s (blocks pre) (s.next (blocks pre))
        = .ok (s', blocks pre) ∧
      s'.data = s.data ∧ s'.blockCount = s.blockCount ∧
      (∀ j, j ≠ blocks pre → s'.next j = s.next j) ∧
      Tiles s' (pre ++ ⟨len + l, false⟩ :: post') ∧
      (∀ h, busyRuns (h + l) post' = busyRuns h post) ∧
      Coalesced post' ∧ (∀ q ∈ post'.head?, q.busy = true) := by
  obtain ⟨a1, a2, a3, a4, a5, a6⟩ := ht.at
  simp only at a1 a2 a3 a4 a5 a6
  cases post with
  | nil =>
    refine ⟨s, [], 0, ?_, rfl, rfl, fun _ _ => rfl, by simpa using ht, by simp, hco, by simp⟩
    rw [a3, if_pos (a6.1 rfl)]
    unfold mergeIfBothNotInUse
    rw [if_pos (by simp)]
    rfl
  | cons q post =>
    have hne : ¬ blocks pre + len = s.blockCount := by
      intro h; simp at a6; exact a6 h
    have ht' : Tiles s ((pre ++ [⟨len, false⟩]) ++ q :: post) := by simpa using ht
    obtain ⟨b1, b2, b3, b4, b5, b6⟩ := ht'.at
    simp only [blocks_append, blocks_cons, blocks_nil, Nat.add_zero] at b2 b3 b4 b5 b6 ⊢
    rw [a3, if_neg hne]
    obtain ⟨ql, qb⟩ := q
    simp only at *
    rw [coalesced_iff] at hco
    cases qb with
    | true =>
      refine ⟨s, ⟨ql, true⟩ :: post, 0, ?_, rfl, rfl, fun _ _ => rfl, by simpa using ht, by simp,
        coalesced_iff.2 hco, by simp⟩
      unfold mergeIfBothNotInUse
      rw [if_neg (by omega), decide_eq_true (by omega), cassert_true, Outcome.ok_bind,
        inUseAt_ok (by omega) hle, Outcome.ok_bind, a4, if_pos rfl, inUseAt_ok (by omega) hle,
        Outcome.ok_bind, b4, if_neg (by simp)]
      rfl
    | false =>
      obtain ⟨s', h1, h2, h3, h4, h5⟩ := Tiles.merge hle ht
      refine ⟨s', post, ql, h1, h2, h3, h4, h5, by simp, ?_, ?_⟩
      · rw [coalesced_iff]; exact (List.isChain_cons.1 hco).2
      · intro x hx
        have := (List.isChain_cons.1 hco).1 x hx
        simpa using this

theorem Coalesced.split {pre post : List Region} {r : Region} (h : Coalesced (pre ++ r :: post)) :
    Coalesced pre ∧ Coalesced post := by
  rw [coalesced_iff] at *
  have h1 := List.isChain_append.1 h
  rw [coalesced_iff]
  exact ⟨h1.1, (List.isChain_cons.1 h1.2.1).2⟩

theorem Coalesced.join {pre post : List Region} {r : Region} (h1 : Coalesced pre)
    (h2 : Coalesced post) (h3 : ∀ q ∈ pre.getLast?, q.busy = true)
    (h4 : ∀ q ∈ post.head?, q.busy = true) : Coalesced (pre ++ r :: post) := by
  rw [coalesced_iff] at *
  rw [List.isChain_append, List.isChain_cons]
  refine ⟨h1, ⟨fun y hy => Or.inr (h4 y hy), h2⟩, fun x hx y _ => Or.inl (h3 x hx)⟩

/-- `deallocate_blocks` on a busy region: the region is no longer in use, the result is again in
normal form; the returned index is the start of the merged free region. -/
theorem Tiled.deallocateBlocks_merged {pre post : List Region} {len : Nat} (hv : Valid p)
    (hp : Placed p s) (ht : Tiled s (pre ++ ⟨len, true⟩ :: post)) :
    ∃ s' pre' l post', deallocateBlocks p s (blocks pre) = .ok (s', blocks pre') ∧
      s'.data = s.data ∧ s'.blockCount = s.blockCount ∧
      (∀ j, j ≠ blocks pre' → s'.next j = s.next j) ∧
      Tiled s' (pre' ++ ⟨l, false⟩ :: post') ∧
      busyRuns 0 (pre' ++ ⟨l, false⟩ :: post')
        = busyRuns 0 pre ++ busyRuns (blocks pre + len) post ∧
      blocks pre' ≤ blocks pre ∧ blocks pre + len ≤ blocks pre' + l := by
  obtain ⟨ht, hco⟩ := tiled_iff.1 ht
  obtain ⟨hc1, hc2⟩ := hco.split
  obtain ⟨hc, hm⟩ := ht.count_lt hv hp
  have hle := hp.le
  obtain ⟨a1, a2, a3, a4, a5, a6⟩ := ht.at
  simp only at a1 a2 a3 a4 a5 a6
  have hb0 : 0 < s.busyCount := by rw [ht.busy]; simp
  have ht1 := ht.reset hm hc
  obtain ⟨s2, pre', l, e2, d2, n2, x2, y2, t2, r2, b2, c2, l2⟩ := mergeLeft
    (s := incFree (decBusy (withUse s (blocks pre) false))) hle hc1 ht1
  have hnx : s2.next (blocks pre) = s2.next (blocks pre') := by
    obtain ⟨-, -, k3, -⟩ := t2.at
    rw [x2]
    simp only [sr_proj]
    rw [a3, k3, n2]
    simp only [sr_proj]
    rw [← b2]
    simp only [Nat.add_assoc]
    rfl
  obtain ⟨s3, post', r, e3, d3, n3, y3, t3, r3, c3, l3⟩ := mergeRight
    (s := s2) (by rw [n2]; exact hle) hc2 t2
  refine ⟨s3, pre', l + len + r, post', ?_, ?_, ?_, fun j hj => (y3 j hj).trans (y2 j hj), ?_, ?_,
    by omega, by omega⟩
  · unfold SR.deallocateBlocks mergeAdjacentBlocks
    rw [decide_eq_true (by omega), cassert_true, Outcome.ok_bind, inUseAt_ok (by omega) hle,
      Outcome.ok_bind, a4]
    simp only [Bool.not_true, abortIf_false, Outcome.ok_bind]
    rw [setInUse_ok (by omega) hle, Outcome.ok_bind,
      decide_eq_true (show (withUse s (blocks pre) false).busyCount > 0 from hb0), cassert_true,
      Outcome.ok_bind, decide_eq_true (show (decBusy (withUse s (blocks pre) false)).freeCount
        < 2 ^ 64 - 1 by simp only [sr_proj]; omega), cassert_true, Outcome.ok_bind, checkIdx_ok (by simp only [sr_proj]; omega) (by exact hle),
      Outcome.ok_bind, inUseAt_ok (by simp only [sr_proj]; omega) (by exact hle), Outcome.ok_bind]
    simp only [sr_proj, upd_same, Bool.not_false, cassert_true, Outcome.ok_bind]
    have e2' := e2
    simp only [sr_proj] at e2'
    rw [e2', Outcome.ok_bind]
    simp only [hnx]
    exact e3
  · rw [d3, d2]; rfl
  · rw [n3, n2]; rfl
  · rw [tiled_iff]
    exact ⟨t3, Coalesced.join c2 c3 l2 l3⟩
  · rw [busyRuns_append, busyRuns_free, Nat.zero_add, r2, ← Nat.add_assoc, r3, ← b2, Nat.add_assoc]

theorem Tiled.deallocateBlocks {pre post : List Region} {len : Nat} (hv : Valid p)
    (hp : Placed p s) (ht : Tiled s (pre ++ ⟨len, true⟩ :: post)) :
    ∃ s' pre' l post', deallocateBlocks p s (blocks pre) = .ok (s', blocks pre') ∧
      s'.data = s.data ∧ s'.blockCount = s.blockCount ∧
      (∀ j, j ≠ blocks pre' → s'.next j = s.next j) ∧
      Tiled s' (pre' ++ ⟨l, false⟩ :: post') ∧
      busyRuns 0 (pre' ++ ⟨l, false⟩ :: post')
        = busyRuns 0 pre ++ busyRuns (blocks pre + len) post ∧
      blocks pre' ≤ blocks pre := by
  obtain ⟨s', pre', l, post', d1, d2, d3, d4, d5, d6, d7, -⟩ := ht.deallocateBlocks_merged hv hp
  exact ⟨s', pre', l, post', d1, d2, d3, d4, d5, d6, d7⟩

theorem busyRuns_ge {h : Nat} {a : List Region} {x : Nat × Nat} (hx : x ∈ busyRuns h a) :
    h ≤ x.1 := by
  induction a generalizing h with
  | nil => simp at hx
  | cons r a ih =>
    unfold busyRuns at hx
    split at hx
    · rcases List.mem_cons.1 hx with rfl | hx
      · exact Nat.le_refl _
      · have := ih hx; omega
    · have := ih hx; omega

/-- The tiling is determined by the busy runs. -/
theorem tiling_unique {h : Nat} {a b : List Region} (ha : ∀ r ∈ a, 0 < r.len)
    (hb : ∀ r ∈ b, 0 < r.len) (hca : Coalesced a) (hcb : Coalesced b)
    (hn : blocks a = blocks b) (hr : busyRuns h a = busyRuns h b) : a = b := by
  rw [coalesced_iff] at hca hcb
  induction a generalizing h b with
  | nil =>
    cases b with
    | nil => rfl
    | cons q b =>
      have := hb q (by simp)
      simp at hn
      omega
  | cons r a ih =>
    cases b with
    | nil =>
      have := ha r (by simp)
      simp at hn
      omega
    | cons q b =>
      have hr0 := ha r (by simp)
      have hq0 := hb q (by simp)
      obtain ⟨rl, rb⟩ := r
      obtain ⟨ql, qb⟩ := q
      simp only at hr0 hq0
      simp only [blocks_cons] at hn
      rw [List.isChain_cons] at hca hcb
      have step : rl = ql → (h' : busyRuns (h + rl) a = busyRuns (h + rl) b) → a = b := by
        intro e h'
        exact ih (fun r hr => ha r (by simp [hr])) (fun r hr => hb r (by simp [hr])) hca.2 hcb.2
          (by omega) h'
      cases rb <;> cases qb
      · simp only [busyRuns_free] at hr
        have e : rl = ql := by
          cases a with
          | nil =>
            cases b with
            | nil => simpa using hn
            | cons y b =>
              obtain ⟨yl, yb⟩ := y
              have := hcb.1 ⟨yl, yb⟩ (by simp)
              simp only [Bool.false_eq_true, false_or] at this
              subst this
              simp at hr
          | cons x a =>
            obtain ⟨xl, xb⟩ := x
            have := hca.1 ⟨xl, xb⟩ (by simp)
            simp only [Bool.false_eq_true, false_or] at this
            subst this
            cases b with
            | nil => simp at hr
            | cons y b =>
              obtain ⟨yl, yb⟩ := y
              have := hcb.1 ⟨yl, yb⟩ (by simp)
              simp only [Bool.false_eq_true, false_or] at this
              subst this
              simp only [busyRuns_busy, List.cons.injEq, Prod.mk.injEq] at hr
              omega
        subst e
        rw [step rfl hr]
      · simp only [busyRuns_free, busyRuns_busy] at hr
        have : (h, ql) ∈ busyRuns (h + rl) a := by rw [hr]; simp
        have := busyRuns_ge this
        simp only at this
        omega
      · simp only [busyRuns_free, busyRuns_busy] at hr
        have : (h, rl) ∈ busyRuns (h + ql) b := by rw [← hr]; simp
        have := busyRuns_ge this
        simp only at this
        omega
      · simp only [busyRuns_busy, List.cons.injEq, Prod.mk.injEq] at hr
        obtain ⟨⟨-, e⟩, h'⟩ := hr
        subst e
        rw [step rfl h']

theorem Seg.pos {h pv h' pv' : Nat} {rs : List Region} (hs : Seg s h pv rs h' pv') :
    ∀ r ∈ rs, 0 < r.len := by
  induction rs generalizing h pv with
  | nil => simp
  | cons q rs ih =>
    obtain ⟨h1, _, _, _, _, _, h7⟩ := hs
    intro r hr
    rcases List.mem_cons.1 hr with rfl | hr
    · exact h1
    · exact ih h7 r hr

theorem Tiled.unique {s s' : State} {a b : List Region} (ha : Tiled s a) (hb : Tiled s' b)
    (hn : s.blockCount = s'.blockCount) (hr : busyRuns 0 a = busyRuns 0 b) : a = b := by
  obtain ⟨ta, ca⟩ := tiled_iff.1 ha
  obtain ⟨tb, cb⟩ := tiled_iff.1 hb
  refine tiling_unique (h := 0) ?_ ?_ ca cb (by rw [ta.blocks_eq, tb.blocks_eq, hn]) hr
  · obtain ⟨_, hs⟩ := ha.seg; exact hs.pos
  · obtain ⟨_, hs⟩ := hb.seg; exact hs.pos

/-- `allocate_blocks`, keeping the normal form. -/
theorem Tiled.allocateBlocks {pre post : List Region} {len : Nat} (hv : Valid p) (hp : Placed p s)
    (ht : Tiled s (pre ++ ⟨len, false⟩ :: post)) {a size : Nat}
    (hfit : a * p.blockSize + size < len * p.blockSize) :
    ∃ s', allocateBlocks p s (blocks pre) (s.data + (blocks pre + a) * p.blockSize) size = .ok s' ∧
      s'.data = s.data ∧ s'.blockCount = s.blockCount ∧
      (∀ j, j ≠ blocks pre → j ≠ blocks pre + a → j ≠ blocks pre + a + (size / p.blockSize + 1) →
        s'.next j = s.next j) ∧
      Tiled s' (pre ++ carve a (size / p.blockSize + 1) len ++ post) ∧
      busyRuns 0 (pre ++ carve a (size / p.blockSize + 1) len ++ post)
        = busyRuns 0 pre ++ (blocks pre + a, size / p.blockSize + 1)
          :: busyRuns (blocks pre + len) post := by
  obtain ⟨tt, hc⟩ := tiled_iff.1 ht
  obtain ⟨s', h1, h2, h3, hl, h4⟩ := tt.allocateBlocks hv hp hfit
  have hB := hv.pos
  have hq : a + size / p.blockSize < len := by
    have : (a * p.blockSize + size) / p.blockSize < len := by
      rw [Nat.div_lt_iff_lt_mul hB]; exact hfit
    rw [Nat.add_comm, Nat.add_mul_div_right _ _ hB] at this
    omega
  refine ⟨s', h1, h2, h3, hl, tiled_iff.2 ⟨h4, ?_⟩, ?_⟩
  · rw [coalesced_iff] at *
    rw [List.isChain_append, List.isChain_cons] at hc
    obtain ⟨c1, ⟨c2, c3⟩, c4⟩ := hc
    simp only [carve, List.append_assoc, List.cons_append, List.nil_append]
    rw [List.isChain_append, List.isChain_append, List.isChain_cons, List.isChain_append]
    have f1 : ∀ n, (freeRun n).IsChain fun x y => x.busy = true ∨ y.busy = true := by
      intro n; unfold freeRun; split <;> simp
    refine ⟨c1, ⟨f1 _, ⟨fun y hy => Or.inl rfl, f1 _, c3, ?_⟩, ?_⟩, ?_⟩
    · intro x hx y hy
      exact Or.inr (by simpa using c2 y hy)
    · intro x hx y hy
      right
      simp at hy
      rw [← hy]
    · intro x hx y hy
      have := c4 x hx ⟨len, false⟩ (by simp)
      simp only [Bool.false_eq_true, or_false] at this
      exact Or.inl this
  · simp only [carve, busyRuns_append, busyRuns_freeRun, busyRuns_busy,
      blocks_freeRun, List.nil_append, List.append_assoc, List.cons_append, Nat.zero_add]
    rw [(by omega : blocks pre + a + (size / p.blockSize + 1) + (len - a - (size / p.blockSize + 1))
      = blocks pre + len)]

end Utils.SR
