import Verif.Proofs.SRFacts

/-!
# `release` of `simple_resource`
-/

namespace Utils.SR

open Utils Utils.Bits

variable {p : Params} {s : State} {size align : Nat} {σ : Type} {up : Option (Upstream σ)}

/-- A block carries the in-use mark iff a busy region starts there. -/
theorem Tiles.inUse_iff {rs : List Region} (h : Tiles s rs) {j : Nat} (hj : j < s.blockCount) :
    s.inUse j = true ↔ ∃ l, (j, l) ∈ busyRuns 0 rs := by
  constructor
  · intro hu
    obtain ⟨pre, len, post, e1, e2⟩ := h.inUse_head hj hu
    refine ⟨len, ?_⟩
    rw [e1, busyRuns_append, busyRuns_busy, Nat.zero_add, e2]
    simp
  · rintro ⟨l, hl⟩
    obtain ⟨pre, post, e1, e2, -⟩ := busyRuns_split hl
    simp only [Nat.zero_add] at e1 e2
    subst e1
    rw [e2]
    exact h.at.2.2.2.1

/-- From a block that carries no mark, the link leads forward over blocks without marks, or is 0
and no block from there on carries a mark. -/
def ForwardFree (s : State) : Prop :=
  ∀ j, j < s.blockCount → s.inUse j = false →
    (s.next j = 0 ∧ ∀ k, j ≤ k → k < s.blockCount → s.inUse k = false) ∨
    (j < s.next j ∧ s.next j < s.blockCount ∧ ∀ k, j ≤ k → k < s.next j → s.inUse k = false)

/-- The start of a free region satisfies what `ForwardFree` says. -/
theorem Tiles.forward_head {pre post : List Region} {len : Nat}
    (h : Tiles s (pre ++ ⟨len, false⟩ :: post)) :
    (s.next (blocks pre) = 0 ∧ ∀ k, blocks pre ≤ k → k < s.blockCount → s.inUse k = false) ∨
    (blocks pre < s.next (blocks pre) ∧ s.next (blocks pre) < s.blockCount ∧
      ∀ k, blocks pre ≤ k → k < s.next (blocks pre) → s.inUse k = false) := by
  obtain ⟨a1, a2, a3, a4, a5, a6⟩ := h.at
  simp only at a1 a2 a3 a4 a5 a6
  have hk : ∀ k, blocks pre ≤ k → k < blocks pre + len → s.inUse k = false := by
    intro k h1 h2
    rcases Nat.eq_or_lt_of_le h1 with e | e
    · rw [← e]; exact a4
    · exact a5 k e h2
  rw [a3]
  by_cases he : blocks pre + len = s.blockCount
  · left
    rw [if_pos he]
    exact ⟨rfl, fun k h1 h2 => hk k h1 (by omega)⟩
  · right
    rw [if_neg he]
    exact ⟨by omega, by omega, hk⟩

/-- A block without a mark is the start of a free region or lies behind one. -/
theorem Tiles.free_head {rs : List Region} (h : Tiles s rs) {j : Nat}
    (hj : ∃ pre r post, rs = pre ++ r :: post ∧ j = blocks pre) (hu : s.inUse j = false) :
    (s.next j = 0 ∧ ∀ k, j ≤ k → k < s.blockCount → s.inUse k = false) ∨
    (j < s.next j ∧ s.next j < s.blockCount ∧ ∀ k, j ≤ k → k < s.next j → s.inUse k = false) := by
  obtain ⟨pre, ⟨len, b⟩, post, rfl, rfl⟩ := hj
  have : b = false := by
    have := h.at.2.2.2.1
    rw [hu] at this
    exact this.symm
  subst this
  exact h.forward_head

/-- Allocating one block at the start of a free region keeps `ForwardFree`. -/
theorem ForwardFree.served {s' : State} {ptr len : Nat} {pre post : List Region}
    (h : ForwardFree s) (ht : Tiled s (pre ++ ⟨len, false⟩ :: post))
    (hpool : PoolRuns 1 (pre ++ ⟨len, false⟩ :: post))
    (hm : size / p.blockSize + 1 = 1)
    (hs : ServedFrom p s s' size align ptr pre len post 0) : ForwardFree s' := by
  have t := (tiled_iff.1 ht).1
  have t' := (tiled_iff.1 hs.tiled).1
  have hruns := hs.runs
  have hcount := hs.count
  have hlinks := hs.links
  rw [hm] at hruns hlinks t'
  simp only [Nat.add_zero] at hruns hlinks
  obtain ⟨a1, a2, a3, a4, a5, a6⟩ := t.at
  simp only at a1 a2 a3 a4 a5 a6
  have hiff : ∀ j, j < s.blockCount → (s'.inUse j = true ↔ s.inUse j = true ∨ j = blocks pre) := by
    intro j hj
    rw [t'.inUse_iff (by omega), t.inUse_iff hj, hruns, busyRuns_append, busyRuns_free, Nat.zero_add]
    simp only [List.mem_append, List.mem_cons, Prod.mk.injEq]
    constructor
    · rintro ⟨l, h | ⟨h, -⟩ | h⟩
      · exact Or.inl ⟨l, Or.inl h⟩
      · exact Or.inr h
      · exact Or.inl ⟨l, Or.inr h⟩
    · rintro (⟨l, h | h⟩ | h)
      · exact ⟨l, Or.inl h⟩
      · exact ⟨l, Or.inr (Or.inr h)⟩
      · exact ⟨1, Or.inr (Or.inl ⟨h, rfl⟩)⟩
  -- the block before the region is busy
  have hbefore : 0 < blocks pre → s.inUse (blocks pre - 1) = true := by
    intro h0
    rcases List.eq_nil_or_concat pre with rfl | ⟨pre', ⟨l, b⟩, rfl⟩
    · simp at h0
    · have := (tiled_iff.1 ht).2 pre' ⟨l, b⟩ ⟨len, false⟩ post (by simp)
      simp only [Bool.false_eq_true, or_false] at this
      subst this
      have hl := (hpool (blocks pre', l) (by
        rw [List.append_cons, busyRuns_append] at *
        simp [busyRuns_append])).1
      simp only at hl
      subst hl
      simp only [List.concat_eq_append, blocks_append, blocks_cons, blocks_nil, Nat.add_zero,
        Nat.add_sub_cancel]
      have t2 : Tiles s (pre' ++ ⟨1, true⟩ :: (⟨len, false⟩ :: post)) := by simpa using t
      exact t2.at.2.2.2.1
  intro j hj hu
  rw [hcount] at hj
  have hns : ∀ k, k < s.blockCount → s'.inUse k = false → s.inUse k = false ∧ k ≠ blocks pre := by
    intro k hk h1
    have := hiff k hk
    rw [h1] at this
    simp only [Bool.false_eq_true, false_iff, not_or, Bool.not_eq_true] at this
    exact this
  obtain ⟨u1, u2⟩ := hns j hj hu
  by_cases hj1 : j = blocks pre + 1
  · refine t'.free_head ?_ hu
    have hb : blocks (pre ++ [⟨1, true⟩]) = blocks pre + 1 := by simp [blocks_append]
    have hbl := t'.blocks_eq
    cases hrest : freeRun (len - 0 - 1) ++ post with
    | nil =>
      unfold carve at hbl
      rw [List.append_assoc, List.append_assoc, hrest, hcount] at hbl
      simp [blocks_append, freeRun] at hbl
      omega
    | cons q t =>
      refine ⟨pre ++ [⟨1, true⟩], q, t, ?_, by rw [hb, hj1]⟩
      rw [← hrest]
      simp [carve, freeRun]
  · rw [hlinks j u2 u2 hj1]
    have hup : ∀ k, k < s.blockCount → s.inUse k = false → k ≠ blocks pre → s'.inUse k = false := by
      intro k hk h1 h2
      have := hiff k hk
      rw [h1] at this
      simp only [Bool.false_eq_true, false_or, h2, iff_false, Bool.not_eq_true] at this
      exact this
    have hsep : ∀ e, (∀ k, j ≤ k → k < e → s.inUse k = false) → ∀ k, j ≤ k → k < e → k ≠ blocks pre := by
      rintro e he k h1 h2 rfl
      have := hbefore (by omega)
      rw [he _ (by omega) (by omega)] at this
      simp at this
    rcases h j hj u1 with ⟨h1, h2⟩ | ⟨h1, h2, h3⟩
    · left
      rw [hcount]
      exact ⟨h1, fun k k1 k2 => hup k k2 (h2 k k1 k2) (hsep _ h2 k k1 k2)⟩
    · right
      rw [hcount]
      exact ⟨h1, h2, fun k k1 k2 => hup k (by omega) (h3 k k1 k2) (hsep _ h3 k k1 k2)⟩

/-- Freeing a region of one block keeps `ForwardFree`. -/
theorem ForwardFree.freed {s' : State} {pre post pre' post' : List Region} {l : Nat}
    (h : ForwardFree s) (ht : Tiled s (pre ++ ⟨1, true⟩ :: post))
    (ht' : Tiled s' (pre' ++ ⟨l, false⟩ :: post')) (hn : s'.blockCount = s.blockCount)
    (hruns : busyRuns 0 (pre' ++ ⟨l, false⟩ :: post')
      = busyRuns 0 pre ++ busyRuns (blocks pre + 1) post)
    (hlinks : ∀ j, j ≠ blocks pre' → s'.next j = s.next j) : ForwardFree s' := by
  have t := (tiled_iff.1 ht).1
  have t' := (tiled_iff.1 ht').1
  have hiff : ∀ j, j < s.blockCount → s'.inUse j = true → s.inUse j = true := by
    intro j hj
    rw [t'.inUse_iff (by omega), t.inUse_iff hj, hruns, busyRuns_append, busyRuns_busy, Nat.zero_add]
    simp only [List.mem_append, List.mem_cons]
    rintro ⟨l, h | h⟩
    · exact ⟨l, Or.inl h⟩
    · exact ⟨l, Or.inr (Or.inr h)⟩
  have hup : ∀ k, k < s.blockCount → s.inUse k = false → s'.inUse k = false := by
    intro k hk h1
    rw [← Bool.not_eq_true]
    intro h2
    rw [hiff k hk h2] at h1
    simp at h1
  intro j hj hu
  rw [hn] at hj
  by_cases he : j = blocks pre'
  · exact t'.free_head ⟨pre', _, post', rfl, he⟩ hu
  · rw [hlinks j he, hn]
    obtain ⟨a1, a2, a3, a4, a5, a6⟩ := t.at
    simp only at a1 a2 a3 a4 a5 a6
    by_cases hb : j = blocks pre
    · subst hb
      rw [a3]
      by_cases hz : blocks pre + 1 = s.blockCount
      · left
        rw [if_pos hz]
        refine ⟨rfl, fun k k1 k2 => ?_⟩
        rw [(by omega : k = blocks pre)]
        exact hu
      · right
        rw [if_neg hz]
        refine ⟨by omega, by omega, fun k k1 k2 => ?_⟩
        rw [(by omega : k = blocks pre)]
        exact hu
    · have hfree : s.inUse j = false := by
        rw [← Bool.not_eq_true, t.inUse_iff hj]
        rintro ⟨m, hm⟩
        have : s'.inUse j = true := by
          rw [t'.inUse_iff (by omega), hruns]
          rw [busyRuns_append, busyRuns_busy, Nat.zero_add] at hm
          simp only [List.mem_append, List.mem_cons, Prod.mk.injEq] at hm ⊢
          rcases hm with hm | ⟨hm, -⟩ | hm
          · exact ⟨m, Or.inl hm⟩
          · exact absurd hm hb
          · exact ⟨m, Or.inr hm⟩
        rw [hu] at this
        simp at this
      rcases h j hj hfree with ⟨h1, h2⟩ | ⟨h1, h2, h3⟩
      · exact Or.inl ⟨h1, fun k k1 k2 => hup k k2 (h2 k k1 k2)⟩
      · exact Or.inr ⟨h1, h2, fun k k1 k2 => hup k (by omega) (h3 k k1 k2)⟩

/-- No mark anywhere: one free region. -/
theorem Tiled.all_free {rs : List Region} (h : Tiled s rs) (hs : 1 ≤ s.blockCount)
    (hf : ∀ j, j < s.blockCount → s.inUse j = false) : rs = [⟨s.blockCount, false⟩] := by
  obtain ⟨t, hc⟩ := tiled_iff.1 h
  obtain ⟨pv, hseg⟩ := h.seg
  have hbl := t.blocks_eq
  have hall : ∀ r ∈ rs, r.busy = false := by
    intro r hr
    obtain ⟨pre, post, rfl⟩ := List.append_of_mem hr
    obtain ⟨a1, a2, a3, a4, -⟩ := t.at
    rw [← a4]
    exact hf _ (by omega)
  cases rs with
  | nil => simp at hbl; omega
  | cons q rs =>
    cases rs with
    | nil =>
      obtain ⟨l, b⟩ := q
      have : b = false := hall ⟨l, b⟩ (by simp)
      subst this
      simp only [blocks_cons, blocks_nil, Nat.add_zero] at hbl
      rw [hbl]
    | cons q2 rs =>
      have := hc [] q q2 rs rfl
      rw [hall q (by simp), hall q2 (by simp)] at this
      simp at this

/-- The loop of `release` in a pool of single blocks. -/
theorem release_loop {fuel i : Nat} {rs : List Region} (hv : Valid p) (hp : Placed p s)
    (ht : Tiled s rs) (hpool : PoolRuns 1 rs) (hff : ForwardFree s) (hi : i < s.blockCount)
    (hlow : ∀ k, k < i → s.inUse k = false)
    (hfuel : s.busyCount * (s.blockCount + 1) + (s.blockCount - i) < fuel) :
    ∃ s', applyLoop p (inUseAt p) (releaseRegion p) fuel s () i = .ok (s', ()) ∧
      s'.data = s.data ∧ s'.blockCount = s.blockCount ∧ Tiled s' [⟨s.blockCount, false⟩] := by
  induction fuel generalizing s i rs with
  | zero => omega
  | succ fuel ih =>
    have hle := hp.le
    have t := (tiled_iff.1 ht).1
    rw [applyLoop, checkIdx_ok hi hle, Outcome.ok_bind, inUseAt_ok hi hle, Outcome.ok_bind]
    cases hu : s.inUse i with
    | true =>
      obtain ⟨pre, len, post, e1, e2⟩ := t.inUse_head hi hu
      have hlen : len = 1 := (hpool (blocks pre, len) (by
        rw [e1, busyRuns_append, busyRuns_busy, Nat.zero_add]; simp)).1
      subst hlen
      subst e1
      obtain ⟨s1, pre', l, post', d1, d2, d3, d4, d5, d6, d7⟩ := ht.deallocateBlocks hv hp
      have t1 := (tiled_iff.1 d5).1
      have hp1 := hp.congr d2 d3
      obtain ⟨b1, b2, b3, b4, b5, b6⟩ := t1.at
      simp only at b1 b2 b3 b4 b5 b6
      rw [if_pos rfl]
      have hrel : releaseRegion p s () i
          = .ok (s1, (), decide (s1.next (blocks pre') ≠ 0)) := by
        unfold releaseRegion
        rw [e2, d1]
        simp only [Outcome.ok_bind, Outcome.pure_eq]
        rw [nextAt_ok (by omega) hp1.le]
        rfl
      rw [hrel]
      simp only [Outcome.ok_bind]
      have hiff : ∀ j, j < s.blockCount → s1.inUse j = true → s.inUse j = true ∧ j ≠ i := by
        intro j hj
        rw [t1.inUse_iff (by omega), t.inUse_iff hj, d6, busyRuns_append, busyRuns_busy, Nat.zero_add]
        simp only [List.mem_append, List.mem_cons]
        rintro ⟨m, h | h⟩
        · have := busyRuns_le h
          have := hpool (j, m) (by rw [busyRuns_append]; simp [h])
          simp only at *
          exact ⟨⟨m, Or.inl h⟩, by omega⟩
        · have := busyRuns_ge h
          simp only at this
          exact ⟨⟨m, Or.inr (Or.inr h)⟩, by omega⟩
      have hff1 : ForwardFree s1 := hff.freed ht d5 d3 d6 d4
      have hpool1 : PoolRuns 1 (pre' ++ ⟨l, false⟩ :: post') := by
        intro r hr
        apply hpool
        rw [d6] at hr
        rw [busyRuns_append, busyRuns_busy, Nat.zero_add]
        simp only [List.mem_append, List.mem_cons] at hr ⊢
        tauto
      have hbc : s1.busyCount + 1 = s.busyCount := by
        have hlen : ∀ (h : Nat) (rs : List Region),
            (busyRuns h rs).length = rs.countP fun r => r.busy := by
          intro h rs
          induction rs generalizing h with
          | nil => rfl
          | cons q rs ih =>
            obtain ⟨l, b⟩ := q
            cases b <;> simp [ih]
        rw [t1.busy, t.busy, ← hlen 0, ← hlen 0, d6, busyRuns_append, busyRuns_busy, Nat.zero_add,
          List.length_append, List.length_append, List.length_cons]
        omega
      by_cases hz : s1.next (blocks pre') = 0
      · rw [decide_eq_false (by simp [hz])]
        refine ⟨s1, by simp, d2, d3, ?_⟩
        have hend : blocks pre' + l = s1.blockCount := by
          rw [b3] at hz
          split at hz
          · assumption
          · omega
        have hnone : ∀ j, j < s1.blockCount → s1.inUse j = false := by
          intro j hj
          rw [← Bool.not_eq_true]
          intro h1
          obtain ⟨h2, h3⟩ := hiff j (by omega) h1
          have h4 : i < j := by
            rcases Nat.lt_trichotomy i j with h | h | h
            · exact h
            · exact absurd h.symm h3
            · rw [hlow j h] at h2; simp at h2
          -- the freed block lies in the merged region
          have h5 : blocks pre' ≤ i := by omega
          rcases Nat.eq_or_lt_of_le (Nat.le_trans h5 (Nat.le_of_lt h4)) with e | e
          · rw [← e, b4] at h1; simp at h1
          · rw [b5 j e (by omega)] at h1; simp at h1
        rw [← d3]
        rw [← Tiled.all_free d5 (by omega) hnone]
        exact d5
      · rw [decide_eq_true (by simpa using hz)]
        have h1n : 1 < s1.blockCount := by
          rw [b3] at hz
          split at hz
          · exact absurd rfl hz
          · omega
        have hm1 : s1.busyCount * (s1.blockCount + 1) + (s1.blockCount - 1) < fuel := by
          rw [d3]
          have := Nat.succ_mul s1.busyCount (s.blockCount + 1)
          rw [Nat.succ_eq_add_one, hbc] at this
          omega
        obtain ⟨s', g1, g2, g3, g4⟩ := ih hp1 d5 hpool1 hff1 h1n (by
          intro k hk
          obtain rfl : k = 0 := by omega
          rw [← Bool.not_eq_true]
          intro hx
          obtain ⟨y1, y2⟩ := hiff 0 (by omega) hx
          have := hlow 0 (by omega)
          rw [y1] at this
          simp at this) hm1
        exact ⟨s', by simpa using g1, g2.trans d2, g3.trans d3, d3 ▸ g4⟩
    | false =>
      rw [if_neg (by simp)]
      rcases hff i hi hu with ⟨h1, h2⟩ | ⟨h1, h2, h3⟩
      · rw [if_neg (by simp [h1])]
        refine ⟨s, rfl, rfl, rfl, ?_⟩
        have := ht.all_free hp.some (fun j hj => by
          rcases Nat.lt_or_ge j i with h | h
          · exact hlow j h
          · exact h2 j h hj)
        rw [← this]; exact ht
      · rw [if_pos (by omega)]
        refine ih hp ht hpool hff h2 ?_ (by omega)
        intro k hk
        rcases Nat.lt_or_ge k i with h | h
        · exact hlow k h
        · exact h3 k h hk

/-- `release` in a pool of single blocks. -/
theorem release_pool {fuel : Nat} {rs : List Region} (hv : Valid p) (hp : Placed p s)
    (ht : Tiled s rs) (hpool : PoolRuns 1 rs) (hff : ForwardFree s)
    (hfuel : (s.blockCount + 1) * (s.blockCount + 1) ≤ fuel) :
    ∃ s', release p fuel s = .ok s' ∧ s'.data = s.data ∧ s'.blockCount = s.blockCount ∧
      Tiled s' [⟨s.blockCount, false⟩] := by
  have hsome := hp.some
  have hb : s.busyCount ≤ s.blockCount := by
    have t := (tiled_iff.1 ht).1
    obtain ⟨pv, hseg⟩ := ht.seg
    have := hseg.length_le
    have := t.blocks_eq
    have := t.busy
    have : rs.countP (fun r => r.busy) ≤ rs.length := List.countP_le_length
    omega
  obtain ⟨s', h1, h2, h3, h4⟩ := release_loop (fuel := fuel) (i := 0) hv hp ht hpool hff
    (by omega) (by omega) (by
      have := Nat.mul_le_mul_right (s.blockCount + 1) hb
      have h2 := Nat.add_mul s.blockCount 1 (s.blockCount + 1)
      omega)
  exact ⟨s', by unfold release; rw [h1]; rfl, h2, h3, h4⟩

/-- One call of a client of single blocks keeps `ForwardFree`. -/
theorem ForwardFree.step {fuel : Nat} {w w' : World σ} {rs rs' : List Region} {op : Op}
    (h : Tracks p up w rs) (hpool : PoolRuns 1 rs) (hff : ForwardFree w.st)
    (ht' : Tracks p up w' rs') (hv : Valid p)
    (hop : PoolOp p w.st 1 op)
    (ha : ∀ size align, op = .alloc size align → AllocResult p up w rs size align w')
    (hf : ∀ i, op = .free i → FreeResult p up w rs i w' rs') : ForwardFree w'.st := by
  cases op with
  | free i =>
    cases hf i rfl with
    | nothing h1 h2 => rw [h2]; exact hff
    | @locl x pre post pre' post' l h1 h2 h3 h4 h5 h6 h7 _ _ h8 =>
      have hx : x.2 / p.blockSize + 1 = 1 := by
        refine (hpool (blocks pre, x.2 / p.blockSize + 1) ?_).1
        rw [h3, busyRuns_append, busyRuns_busy, Nat.zero_add]
        simp
      rw [hx] at h3 h5
      exact hff.freed (h3 ▸ h.tiled) (h6 ▸ ht'.tiled) h8 (h6 ▸ h5) h7
    | upstream _ _ _ h4 => rw [h4]; exact hff
  | alloc size align =>
    obtain ⟨hr, hb, ha1, ha2, -⟩ := hop
    cases ha size align rfl with
    | refused _ h2 => rw [h2]; exact hff
    | @served ptr pre len post a h1 h2 h3 h4 =>
      have hB := hv.pos
      have ha0 : a = 0 := by
        have := h4.pad
        rw [padding_zero (Nat.dvd_add ha1 (Nat.dvd_mul_left_of_dvd (by simpa using ha2) _))] at this
        rcases Nat.mul_eq_zero.1 this.symm with h0 | h0 <;> omega
      subst ha0
      exact hff.served (h1 ▸ h.tiled) (h1 ▸ hpool) hb h4

/-- Histories of single blocks. -/
theorem single_history {fuel : Nat} {w : World σ} {rs : List Region} {ops : List Op} (hv : Valid p)
    (h : Tracks p up w rs) (hpool : PoolRuns 1 rs) (hff : ForwardFree w.st)
    (hu : UpstreamOK p w.st up)
    (hfuel : w.st.blockCount ≤ fuel) (hops : ∀ op ∈ ops, PoolOp p w.st 1 op) :
    ∃ w', run p up fuel w ops = .ok w' ∧
      (∃ rs', Tracks p up w' rs' ∧ PoolRuns 1 rs' ∧ ForwardFree w'.st) ∧
      w'.st.data = w.st.data ∧ w'.st.blockCount = w.st.blockCount := by
  have hst : ∀ (w1 : World σ) (op : Op),
      ((∃ rs', Tracks p up w1 rs' ∧ PoolRuns 1 rs' ∧ ForwardFree w1.st) ∧
        w1.st.data = w.st.data ∧ w1.st.blockCount = w.st.blockCount) → PoolOp p w.st 1 op →
      ∃ w2, SR.step p up fuel w1 op = .ok w2 ∧
        ((∃ rs', Tracks p up w2 rs' ∧ PoolRuns 1 rs' ∧ ForwardFree w2.st) ∧
        w2.st.data = w.st.data ∧ w2.st.blockCount = w.st.blockCount) := by
    rintro w1 op ⟨⟨rs1, t1, t2, t3⟩, g1, g2⟩ hop
    have hop' : PoolOp p w1.st 1 op := by
      cases op with
      | free i => trivial
      | alloc size align => simp only [PoolOp] at hop ⊢; rw [g1, g2]; exact hop
    obtain ⟨w2, rs2, e, h1, h2, h3, h4, h5, h6, h7⟩ :=
      pool_step hv t1 t2 (hu.congr g1 g2) (g2 ▸ hfuel) hop'
    exact ⟨w2, e, ⟨rs2, h1, h2, ForwardFree.step (fuel := fuel) t1 t2 t3 h1 hv hop' h6 h7⟩,
      h3.trans g1, h4.trans g2⟩
  obtain ⟨w', e, h1, h2, h3⟩ := run_inv hst ⟨⟨rs, h, hpool, hff⟩, rfl, rfl⟩ (Along.of_forall w hops)
  exact ⟨w', e, h1, h2, h3⟩

end Utils.SR
