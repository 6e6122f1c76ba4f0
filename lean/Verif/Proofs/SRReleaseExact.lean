import Verif.Proofs.SRRelease
import Verif.Proofs.SRScanExact

/-!
# `release` on any well-formed state
-/

namespace Utils.SR

open Utils Utils.Bits

variable {p : Params} {s : State} {size align : Nat} {σ : Type} {up : Option (Upstream σ)}

theorem Path.bounds (hl : LinksForward s) {i j : Nat} (h : Path s i j) (hi : i < s.blockCount) :
    i ≤ j ∧ j < s.blockCount := by
  induction h with
  | refl => exact ⟨Nat.le_refl _, hi⟩
  | @step i j hn _ ih =>
    have := hl i hi
    have := ih (by omega)
    omega

theorem Path.trans {i j k : Nat} (h : Path s i j) (h' : Path s j k) : Path s i k := by
  induction h with
  | refl => exact h'
  | step hn _ ih => exact .step hn (ih h')

theorem Path.linear {i j k : Nat} (h : Path s i j) (h' : Path s i k) : Path s j k ∨ Path s k j := by
  induction h with
  | refl => exact Or.inl h'
  | step hn h ih =>
    cases h' with
    | refl => exact Or.inr (.step hn h)
    | step _ h' => exact ih h'

theorem Path.before {s' : State} {h i j : Nat} (hl : LinksForward s)
    (hs : ∀ x, x ≠ h → s'.next x = s.next x) (hp : Path s i j) (hi : i < s.blockCount)
    (hj : j ≤ h) : Path s' i j := by
  induction hp with
  | refl => exact .refl _
  | @step i j hn hp ih =>
    have h1 := hl i hi
    have h2 := hp.bounds hl (by omega)
    have e := hs i (by omega)
    exact .step (e ▸ hn) (e ▸ ih (by omega) hj)

theorem Path.beside {s' : State} {h i j : Nat} (hs : ∀ x, x ≠ h → s'.next x = s.next x)
    (hp : Path s i j) (hh : ¬ Path s i h) : Path s' i j := by
  induction hp with
  | refl => exact .refl _
  | @step i j hn hp ih =>
    have e := hs i (by rintro rfl; exact hh (.refl _))
    exact .step (e ▸ hn) (e ▸ ih (fun h' => hh (.step hn h')))

/-- From the start of a region, every later region is reached. -/
theorem Tiles.path {pre mid post : List Region} {r : Region}
    (ht : Tiles s (pre ++ (mid ++ r :: post))) : Path s (blocks pre) (blocks (pre ++ mid)) := by
  induction mid generalizing pre with
  | nil => rw [List.append_nil]; exact .refl _
  | cons q mid ih =>
    have t : Tiles s (pre ++ q :: (mid ++ r :: post)) := by simpa using ht
    obtain ⟨a1, a2, a3, a4, a5, a6⟩ := t.at
    have hne : blocks pre + q.len ≠ s.blockCount := fun h => by simpa using a6.2 h
    rw [if_neg hne] at a3
    refine .step (by omega) ?_
    have := ih (pre := pre ++ [q]) (by simpa using ht)
    rw [a3]
    simpa [blocks_append] using this

/-- From the start of a region, every later busy region is reached. -/
theorem Tiles.path_busy {pre post : List Region} {r : Region} (ht : Tiles s (pre ++ r :: post))
    {x : Nat × Nat} (hx : x ∈ busyRuns 0 (pre ++ r :: post)) (hle : blocks pre ≤ x.1) :
    Path s (blocks pre) x.1 := by
  rw [busyRuns_append] at hx
  rcases List.mem_append.1 hx with hx | hx
  · have h1 := busyRuns_le hx
    obtain ⟨q1, q2, e1, e2, -⟩ := busyRuns_split hx
    have ht' : Tiles s (q1 ++ ⟨x.2, true⟩ :: (q2 ++ r :: post)) := by rw [e1] at ht; simpa using ht
    have := ht'.at.1
    simp only at this
    omega
  · obtain ⟨q1, q2, e1, e2, -⟩ := busyRuns_split hx
    rw [e1] at ht
    have := ht.path
    rw [blocks_append] at this
    rw [e2, Nat.zero_add]
    exact this

/-- A region starts right behind a busy region. -/
theorem Tiles.after_busy {rs : List Region} (ht : Tiles s rs) {x : Nat × Nat}
    (hx : x ∈ busyRuns 0 rs) (hlt : x.1 + x.2 < s.blockCount) :
    ∃ pre r post, rs = pre ++ r :: post ∧ blocks pre = x.1 + x.2 := by
  obtain ⟨pre, post, e1, e2, -⟩ := busyRuns_split hx
  rw [Nat.zero_add] at e2
  subst e1
  cases post with
  | nil =>
    have := ht.at.2.2.2.2.2.1 rfl
    simp only at this
    omega
  | cons q post =>
    exact ⟨pre ++ [⟨x.2, true⟩], q, post, by simp, by simp [blocks_append, e2]⟩

theorem busyRuns_unique {h : Nat} {rs : List Region} {x y : Nat × Nat} (hpos : ∀ r ∈ rs, 0 < r.len)
    (hx : x ∈ busyRuns h rs) (hy : y ∈ busyRuns h rs) (he : x.1 = y.1) : x = y := by
  have hp := busyRuns_pairwise h rs
  have hl : ∀ z ∈ busyRuns h rs, 0 < z.2 := by
    intro z hz
    obtain ⟨q1, q2, e, -, -⟩ := busyRuns_split hz
    exact hpos ⟨z.2, true⟩ (by rw [e]; simp)
  by_contra hne
  obtain ⟨a, b, e⟩ := List.append_of_mem hx
  rw [e] at hp hy
  have h1 := hl x hx
  have h2 := hl y (by rw [e]; exact hy)
  rw [List.pairwise_append, List.pairwise_cons] at hp
  obtain ⟨-, ⟨p2, -⟩, p3⟩ := hp
  rcases List.mem_append.1 hy with h | h
  · have := p3 y h x (by simp); omega
  · rcases List.mem_cons.1 h with h | h
    · exact hne h.symm
    · have := p2 y h; omega

/-- One step of `release`: what freeing the busy region at `i` does to regions and paths. -/
theorem release_step_merged {rs : List Region} {i : Nat} (hv : Valid p) (hp : Placed p s)
    (ht : Tiled s rs) (hl : LinksForward s) (hi : i < s.blockCount) (hu : s.inUse i = true) :
    ∃ s1 rs1 h, releaseRegion p s () i = .ok (s1, (), decide (s1.next h ≠ 0)) ∧
      s1.data = s.data ∧ s1.blockCount = s.blockCount ∧ Tiled s1 rs1 ∧ LinksForward s1 ∧
      (∀ x, x ∈ busyRuns 0 rs1 ↔ x ∈ busyRuns 0 rs ∧ x.1 ≠ i) ∧
      s1.busyCount + 1 = s.busyCount ∧ h ≤ i ∧ h < s.blockCount ∧
      (s1.next h = 0 → ∀ x ∈ busyRuns 0 rs1, x.1 < h) ∧
      (∀ a, a < s.blockCount → ∀ x ∈ busyRuns 0 rs1, (Path s a x.1 ↔ Path s1 a x.1)) ∧
      (s1.next h ≠ 0 → i < s1.next h) := by
  have hle := hp.le
  have t := (tiled_iff.1 ht).1
  have hpos : ∀ r ∈ rs, 0 < r.len := by
    obtain ⟨pv, hs⟩ := ht.seg
    exact hs.pos
  obtain ⟨pre, len, post, rfl, rfl⟩ := t.inUse_head hi hu
  obtain ⟨s1, pre', l, post', d1, d2, d3, d4, d5, d6, d7, d8⟩ :=
    ht.deallocateBlocks_merged hv hp
  have t1 := (tiled_iff.1 d5).1
  have hp1 := hp.congr d2 d3
  have hl1 := hl.freed d5 d3 d4
  obtain ⟨b1, b2, b3, b4, b5, b6⟩ := t1.at
  simp only at b1 b2 b3 b4 b5 b6
  have hmem : ∀ x, x ∈ busyRuns 0 (pre' ++ ⟨l, false⟩ :: post') ↔
      x ∈ busyRuns 0 (pre ++ ⟨len, true⟩ :: post) ∧ x.1 ≠ blocks pre := by
    intro x
    have e : busyRuns 0 (pre ++ ⟨len, true⟩ :: post)
        = busyRuns 0 pre ++ (blocks pre, len) :: busyRuns (blocks pre + len) post := by
      rw [busyRuns_append, busyRuns_busy, Nat.zero_add]
    constructor
    · intro hx
      rw [d6] at hx
      have hx2 : x ∈ busyRuns 0 (pre ++ ⟨len, true⟩ :: post) := by
        rw [e]
        rcases List.mem_append.1 hx with h | h <;> simp [h]
      refine ⟨hx2, ?_⟩
      rcases List.mem_append.1 hx with h | h
      · have h1 := busyRuns_le h
        obtain ⟨q1, q2, e1, -, -⟩ := busyRuns_split h
        have := hpos ⟨x.2, true⟩ (by rw [e1]; simp)
        simp only at this
        omega
      · have := busyRuns_ge h
        have := hpos ⟨len, true⟩ (by simp)
        simp only at this
        omega
    · rintro ⟨hx, hne⟩
      rw [e] at hx
      rw [d6]
      rcases List.mem_append.1 hx with h | h
      · exact List.mem_append_left _ h
      · rcases List.mem_cons.1 h with h | h
        · rw [h] at hne; exact absurd rfl hne
        · exact List.mem_append_right _ h
  have hbc : s1.busyCount + 1 = s.busyCount := by
    have hlen : ∀ (h : Nat) (rs : List Region),
        (busyRuns h rs).length = rs.countP fun r => r.busy := by
      intro h rs
      induction rs generalizing h with
      | nil => rfl
      | cons q rs ih =>
        obtain ⟨l, b⟩ := q
        cases b <;> simp [ih]
    rw [t1.busy, t.busy, ← hlen 0, ← hlen 0, d6, busyRuns_append, busyRuns_busy, Nat.zero_add,
      List.length_append, List.length_append, List.length_cons]
    omega
  -- the merged region starts where a region of `s` starts
  have hhead : ∃ P r Q, pre ++ Region.mk len true :: post = P ++ r :: Q ∧ blocks P = blocks pre' := by
    rcases List.eq_nil_or_concat pre' with rfl | ⟨pre'', ⟨m, b⟩, rfl⟩
    · cases pre with
      | nil => exact ⟨[], _, _, rfl, rfl⟩
      | cons q pre => exact ⟨[], q, _, rfl, rfl⟩
    · have hb := (tiled_iff.1 d5).2 pre'' ⟨m, b⟩ ⟨l, false⟩ post' (by simp)
      simp only [Bool.false_eq_true, or_false] at hb
      subst hb
      have hx : (blocks pre'', m) ∈ busyRuns 0 (pre''.concat ⟨m, true⟩ ++ ⟨l, false⟩ :: post') := by
        simp [busyRuns_append]
      have hblk : blocks (pre''.concat ⟨m, true⟩) = blocks pre'' + m := by simp [blocks_append]
      obtain ⟨P, r, Q, e1, e2⟩ := t.after_busy ((hmem _).1 hx).1 (by
        simp only
        omega)
      exact ⟨P, r, Q, e1, by rw [e2, hblk]⟩
  refine ⟨s1, _, blocks pre', ?_, d2, d3, d5, hl1, hmem, hbc, d7, by omega, ?_, ?_, ?_⟩
  · unfold releaseRegion
    rw [d1]
    simp only [Outcome.ok_bind, Outcome.pure_eq]
    rw [nextAt_ok (by omega) hp1.le]
    rfl
  · intro hz x hx
    have hend : blocks pre' + l = s1.blockCount := by
      rw [b3] at hz
      split at hz
      · assumption
      · omega
    have hb := b6.2 hend
    subst hb
    rw [busyRuns_append] at hx
    rw [busyRuns_free, show ∀ h, busyRuns h [] = [] from fun _ => rfl, List.append_nil] at hx
    have h1 := busyRuns_le hx
    have h2 := hpos ⟨x.2, true⟩ (by
      have := ((hmem x).1 (by rw [busyRuns_append]; simp [hx])).1
      obtain ⟨q1, q2, e1, -, -⟩ := busyRuns_split this
      rw [e1]; simp)
    simp only at h2
    omega
  · intro a ha x hx
    have hxs := ((hmem x).1 hx).1
    have ha1 : a < s1.blockCount := by omega
    have hh : blocks pre' < s.blockCount := by omega
    rcases Nat.lt_or_ge x.1 (blocks pre') with h | h
    · exact ⟨fun g => g.before hl d4 ha (by omega),
        fun g => g.before hl1 (fun y hy => (d4 y hy).symm) ha1 (by omega)⟩
    · have hPh : Path s a (blocks pre') ↔ Path s1 a (blocks pre') :=
        ⟨fun g => g.before hl d4 ha (Nat.le_refl _),
          fun g => g.before hl1 (fun y hy => (d4 y hy).symm) ha1 (Nat.le_refl _)⟩
      by_cases hc : Path s a (blocks pre')
      · constructor
        · intro _
          exact (hPh.1 hc).trans (t1.path_busy hx h)
        · intro _
          obtain ⟨P, r, Q, e1, e2⟩ := hhead
          rw [e1] at hxs t
          rw [← e2] at hc h
          exact hc.trans (t.path_busy hxs h)
      · exact ⟨fun g => g.beside d4 hc,
          fun g => g.beside (fun y hy => (d4 y hy).symm) (fun h' => hc (hPh.2 h'))⟩
  · intro hz
    rw [b3] at hz ⊢
    split at hz
    · exact absurd rfl hz
    · rename_i he
      rw [if_neg he]
      have := hpos ⟨len, true⟩ (by simp)
      simp only at this
      omega

theorem release_step {rs : List Region} {i : Nat} (hv : Valid p) (hp : Placed p s)
    (ht : Tiled s rs) (hl : LinksForward s) (hi : i < s.blockCount) (hu : s.inUse i = true) :
    ∃ s1 rs1 h, releaseRegion p s () i = .ok (s1, (), decide (s1.next h ≠ 0)) ∧
      s1.data = s.data ∧ s1.blockCount = s.blockCount ∧ Tiled s1 rs1 ∧ LinksForward s1 ∧
      (∀ x, x ∈ busyRuns 0 rs1 ↔ x ∈ busyRuns 0 rs ∧ x.1 ≠ i) ∧
      s1.busyCount + 1 = s.busyCount ∧ h ≤ i ∧ h < s.blockCount ∧
      (s1.next h = 0 → ∀ x ∈ busyRuns 0 rs1, x.1 < h) ∧
      (∀ a, a < s.blockCount → ∀ x ∈ busyRuns 0 rs1, (Path s a x.1 ↔ Path s1 a x.1)) := by
  obtain ⟨s1, rs1, h, r1, r2, r3, r4, r5, r6, r7, r8, r9, r10, r11, -⟩ :=
    release_step_merged hv hp ht hl hi hu
  exact ⟨s1, rs1, h, r1, r2, r3, r4, r5, r6, r7, r8, r9, r10, r11⟩

/-- The loop of `release` once it has come to block 1: it frees what is reached from there. -/
theorem release_rest {fuel i : Nat} {rs : List Region} (hv : Valid p) (hp : Placed p s)
    (ht : Tiled s rs) (hl : LinksForward s) (h1 : 1 < s.blockCount) (hi : i < s.blockCount)
    (hpath : Path s 1 i) (hlow : ∀ k, Path s 1 k → k < i → s.inUse k = false)
    (hfuel : s.busyCount * (s.blockCount + 1) + (s.blockCount - i) < fuel) :
    ∃ s' rs', applyLoop p (inUseAt p) (releaseRegion p) fuel s () i = .ok (s', ()) ∧
      s'.data = s.data ∧ s'.blockCount = s.blockCount ∧ Tiled s' rs' ∧ LinksForward s' ∧
      ∀ x, x ∈ busyRuns 0 rs' ↔ x ∈ busyRuns 0 rs ∧ ¬ Path s 1 x.1 := by
  induction fuel generalizing s i rs with
  | zero => omega
  | succ fuel ih =>
    have hle := hp.le
    have t := (tiled_iff.1 ht).1
    have hmark : ∀ x ∈ busyRuns 0 rs, x.1 < s.blockCount ∧ s.inUse x.1 = true := by
      intro x hx
      obtain ⟨q1, q2, e1, e2, -⟩ := busyRuns_split hx
      rw [Nat.zero_add] at e2
      subst e1
      have a := t.at
      simp only at a
      rw [e2]
      exact ⟨by omega, a.2.2.2.1⟩
    rw [applyLoop, checkIdx_ok hi hle, Outcome.ok_bind, inUseAt_ok hi hle, Outcome.ok_bind]
    -- a busy block on the path is at or after `i`
    have hafter : ∀ x ∈ busyRuns 0 rs, Path s 1 x.1 → Path s i x.1 := by
      intro x hx hpx
      rcases hpath.linear hpx with h | h
      · exact h
      · obtain ⟨m1, m2⟩ := hmark x hx
        rcases Nat.eq_or_lt_of_le (h.bounds hl m1).1 with e | e
        · rw [e]; exact .refl _
        · have := hlow x.1 hpx e
          rw [m2] at this
          simp at this
    cases hu : s.inUse i with
    | true =>
      obtain ⟨s1, rs1, h, r1, r2, r3, r4, r5, r6, r7, r8, r9, r10, r11⟩ :=
        release_step hv hp ht hl hi hu
      rw [if_pos rfl, r1]
      simp only [Outcome.ok_bind]
      by_cases hz : s1.next h = 0
      · rw [decide_eq_false (by simp [hz])]
        refine ⟨s1, rs1, by simp, r2, r3, r4, r5, fun x => ?_⟩
        rw [r6]
        constructor
        · rintro ⟨g1, g2⟩
          refine ⟨g1, fun g3 => ?_⟩
          have g4 := r10 hz x ((r6 x).2 ⟨g1, g2⟩)
          have := ((hafter x g1 g3).bounds hl hi).1
          omega
        · rintro ⟨g1, g2⟩
          exact ⟨g1, fun e => g2 (e ▸ hpath)⟩
      · rw [decide_eq_true (by simpa using hz)]
        have hm1 : s1.busyCount * (s1.blockCount + 1) + (s1.blockCount - 1) < fuel := by
          rw [r3]
          have := Nat.succ_mul s1.busyCount (s.blockCount + 1)
          rw [Nat.succ_eq_add_one, r7] at this
          omega
        obtain ⟨s', rs', g1, g2, g3, g4, g5, g6⟩ := ih (hp.congr r2 r3) r4 r5 (by omega) (by omega)
          (.refl 1) (fun k hk hlt => by
            have := (hk.bounds r5 (by omega)).1
            omega) hm1
        refine ⟨s', rs', by simpa using g1, g2.trans r2, g3.trans r3, g4, g5, fun x => ?_⟩
        rw [g6]
        constructor
        · rintro ⟨k1, k2⟩
          exact ⟨((r6 x).1 k1).1, fun k3 => k2 ((r11 1 h1 x k1).1 k3)⟩
        · rintro ⟨k1, k2⟩
          have k3 := (r6 x).2 ⟨k1, fun e => k2 (e ▸ hpath)⟩
          exact ⟨k3, fun k4 => k2 ((r11 1 h1 x k3).2 k4)⟩
    | false =>
      rw [if_neg (by simp)]
      by_cases hz : s.next i = 0
      · rw [if_neg (by simp [hz])]
        refine ⟨s, rs, rfl, rfl, rfl, ht, hl, fun x => ⟨fun hx => ⟨hx, fun g => ?_⟩, fun hx => hx.1⟩⟩
        have hm := (hmark x hx).2
        cases hafter x hx g with
        | refl => rw [hu] at hm; simp at hm
        | step hn _ => exact hn hz
      · have := hl i hi
        rw [if_pos hz]
        refine ih hp ht hl h1 (by omega) (hpath.trans (.step hz (.refl _))) ?_ (by omega)
        intro k hk hlt
        rcases Nat.lt_or_ge k i with h | h
        · exact hlow k hk h
        · rcases hpath.linear hk with h' | h'
          · cases h' with
            | refl => exact hu
            | step hn h' =>
              have := (h'.bounds hl (by omega)).1
              omega
          · have := (h'.bounds hl (by omega)).1
            obtain rfl : k = i := by omega
            exact hu

/-- `release`: the first busy region and those reached from block 1 are freed, the others stay. -/
theorem release_exact {fuel : Nat} {rs : List Region} (hv : Valid p) (hp : Placed p s)
    (ht : Tiled s rs) (hl : LinksForward s)
    (hfuel : (s.blockCount + 1) * (s.blockCount + 2) ≤ fuel) :
    ∃ s' rs', release p fuel s = .ok s' ∧
      s'.data = s.data ∧ s'.blockCount = s.blockCount ∧ Tiled s' rs' ∧ LinksForward s' ∧
      ∀ x, x ∈ busyRuns 0 rs' ↔ x ∈ busyRuns 0 rs ∧ ¬ FirstBusy s x.1 ∧ ¬ Path s 1 x.1 := by
  have hsome := hp.some
  have hle := hp.le
  have t := (tiled_iff.1 ht).1
  have hb : s.busyCount ≤ s.blockCount := by
    obtain ⟨pv, hseg⟩ := ht.seg
    have := hseg.length_le
    have := t.blocks_eq
    have := t.busy
    have : rs.countP (fun r => r.busy) ≤ rs.length := List.countP_le_length
    omega
  have hmark : ∀ x ∈ busyRuns 0 rs, x.1 < s.blockCount ∧ s.inUse x.1 = true := by
    intro x hx
    obtain ⟨q1, q2, e1, e2, -⟩ := busyRuns_split hx
    rw [Nat.zero_add] at e2
    subst e1
    have a := t.at
    simp only at a
    rw [e2]
    exact ⟨by omega, a.2.2.2.1⟩
  have hmul : s.busyCount * (s.blockCount + 1) + s.blockCount + 1 < fuel := by
    have h1 := Nat.mul_le_mul_right (s.blockCount + 1) hb
    have h2 : (s.blockCount + 1) * (s.blockCount + 2)
        = s.blockCount * (s.blockCount + 1) + 2 * (s.blockCount + 1) := by ring
    omega
  -- freeing the first busy region and going on
  have go : ∀ i f, i < s.blockCount → s.inUse i = true → (∀ k, k < i → s.inUse k = false) →
      s.busyCount * (s.blockCount + 1) < f →
      ∃ s' rs', applyLoop p (inUseAt p) (releaseRegion p) f s () i = .ok (s', ()) ∧
      s'.data = s.data ∧ s'.blockCount = s.blockCount ∧ Tiled s' rs' ∧ LinksForward s' ∧
      ∀ x, x ∈ busyRuns 0 rs' ↔ x ∈ busyRuns 0 rs ∧ ¬ FirstBusy s x.1 ∧ ¬ Path s 1 x.1 := by
    intro i f hi hu hlow hf
    obtain ⟨f, rfl⟩ : ∃ g, f = g + 1 := ⟨f - 1, by omega⟩
    obtain ⟨s1, rs1, h, r1, r2, r3, r4, r5, r6, r7, r8, r9, r10, r11⟩ :=
      release_step hv hp ht hl hi hu
    have hfirst : ∀ j, FirstBusy s j ↔ j = i := by
      intro j
      constructor
      · rintro ⟨h1, h2, h3⟩
        rcases Nat.lt_trichotomy j i with h | h | h
        · rw [hlow j h] at h2; simp at h2
        · exact h
        · rw [h3 i h] at hu; simp at hu
      · rintro rfl
        exact ⟨hi, hu, hlow⟩
    rw [applyLoop, checkIdx_ok hi hle, Outcome.ok_bind, inUseAt_ok hi hle, Outcome.ok_bind,
      hu, if_pos rfl, r1]
    simp only [Outcome.ok_bind]
    by_cases hz : s1.next h = 0
    · rw [decide_eq_false (by simp [hz])]
      refine ⟨s1, rs1, by simp, r2, r3, r4, r5, fun x => ?_⟩
      rw [hfirst]
      constructor
      · intro hx
        have g := r10 hz x hx
        obtain ⟨k1, k2⟩ := (r6 x).1 hx
        have := hlow x.1 (by omega)
        rw [(hmark x k1).2] at this
        simp at this
      · rintro ⟨k1, k2, -⟩
        exact (r6 x).2 ⟨k1, k2⟩
    · rw [decide_eq_true (by simpa using hz)]
      have hm1 : s1.busyCount * (s1.blockCount + 1) + (s1.blockCount - 1) < f := by
        rw [r3]
        have := Nat.succ_mul s1.busyCount (s.blockCount + 1)
        rw [Nat.succ_eq_add_one, r7] at this
        omega
      have h1n : 1 < s1.blockCount := by
        have := r5 h (by omega)
        omega
      obtain ⟨s', rs', g1, g2, g3, g4, g5, g6⟩ := release_rest hv (hp.congr r2 r3) r4 r5 h1n h1n
        (.refl 1) (fun k hk hlt => by
          have := (hk.bounds r5 h1n).1
          omega) hm1
      refine ⟨s', rs', by simpa using g1, g2.trans r2, g3.trans r3, g4, g5, fun x => ?_⟩
      rw [g6, hfirst]
      constructor
      · rintro ⟨k1, k2⟩
        obtain ⟨k3, k4⟩ := (r6 x).1 k1
        exact ⟨k3, k4, fun k5 => k2 ((r11 1 (by omega) x k1).1 k5)⟩
      · rintro ⟨k1, k2, k3⟩
        have k4 := (r6 x).2 ⟨k1, k2⟩
        exact ⟨k4, fun k5 => k3 ((r11 1 (by omega) x k4).2 k5)⟩
  suffices hloop : ∃ s' rs', applyLoop p (inUseAt p) (releaseRegion p) fuel s () 0 = .ok (s', ()) ∧
      s'.data = s.data ∧ s'.blockCount = s.blockCount ∧ Tiled s' rs' ∧ LinksForward s' ∧
      ∀ x, x ∈ busyRuns 0 rs' ↔ x ∈ busyRuns 0 rs ∧ ¬ FirstBusy s x.1 ∧ ¬ Path s 1 x.1 by
    obtain ⟨s', rs', h1, h2⟩ := hloop
    exact ⟨s', rs', by unfold release; rw [h1]; rfl, h2⟩
  cases hu : s.inUse 0 with
  | true => exact go 0 fuel (by omega) hu (by omega) (by omega)
  | false =>
    obtain ⟨f, rfl⟩ : ∃ g, fuel = g + 1 := ⟨fuel - 1, by omega⟩
    rw [applyLoop, checkIdx_ok (by omega) hle, Outcome.ok_bind, inUseAt_ok (by omega) hle,
      Outcome.ok_bind, hu, if_neg (by simp)]
    -- region 0 is free
    have hbl := t.blocks_eq
    cases rs with
    | nil => simp at hbl; omega
    | cons q rs =>
      obtain ⟨l, b⟩ := q
      obtain ⟨a1, a2, a3, a4, a5, a6⟩ := Tiles.at (pre := []) t
      simp only [blocks_nil, Nat.zero_add] at a1 a2 a3 a4 a5 a6
      rw [hu] at a4
      subst a4
      by_cases hz : s.next 0 = 0
      · rw [if_neg (by simp [hz])]
        refine ⟨s, _, rfl, rfl, rfl, ht, hl, fun x => ⟨fun hx => ?_, fun hx => hx.1⟩⟩
        have : rs = [] := a6.2 (by
          rw [a3] at hz
          split at hz
          · assumption
          · omega)
        subst this
        simp [busyRuns] at hx
      · rw [if_pos hz]
        have hlt : l ≠ s.blockCount := fun h => hz (by rw [a3, if_pos h])
        rw [if_neg hlt] at a3
        rw [a3]
        cases rs with
        | nil => exact absurd (a6.1 rfl) hlt
        | cons q2 rs =>
          have hc := (tiled_iff.1 ht).2 [] ⟨l, false⟩ q2 rs rfl
          simp only [Bool.false_eq_true, false_or] at hc
          have t2 : Tiles s ([⟨l, false⟩] ++ q2 :: rs) := t
          obtain ⟨c1, c2, c3, c4, -⟩ := t2.at
          simp only [blocks_cons, blocks_nil, Nat.add_zero] at c1 c2 c3 c4
          refine go l f (by omega) (by rw [c4, hc]) ?_ (by omega)
          intro k hk
          rcases Nat.eq_zero_or_pos k with rfl | h
          · exact hu
          · exact a5 k h hk

end Utils.SR
