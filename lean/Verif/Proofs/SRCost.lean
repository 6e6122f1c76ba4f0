import Verif.Proofs.SRReleaseExact
import Verif.Proofs.SRNoUB

/-!
# Number of rounds of the loops of `simple_resource`
-/

namespace Utils.SR

open Utils Utils.Bits

variable {p : Params} {s : State} {size align : Nat} {σ : Type} {up : Option (Upstream σ)}

/-- All regions are busy, or there is a first free one. -/
theorem first_free (rs : List Region) :
    (∀ r ∈ rs, r.busy = true) ∨
      ∃ pre len post, rs = pre ++ ⟨len, false⟩ :: post ∧ ∀ r ∈ pre, r.busy = true := by
  induction rs with
  | nil => left; simp
  | cons r rs ih =>
    obtain ⟨len, b⟩ := r
    cases b with
    | false => exact Or.inr ⟨[], len, rs, rfl, by simp⟩
    | true =>
      rcases ih with h | ⟨pre, l, post, rfl, h⟩
      · left
        intro r hr
        rcases List.mem_cons.1 hr with rfl | hr
        · rfl
        · exact h r hr
      · right
        refine ⟨⟨len, true⟩ :: pre, l, post, rfl, fun r hr => ?_⟩
        rcases List.mem_cons.1 hr with rfl | hr
        · rfl
        · exact h r hr

/-- A scan that comes back to where it was never ends. -/
theorem scanFrom_cycle {i c : Nat} (hc : 0 < c)
    (h : ∀ f, scanFrom p size align (f + c) s i = scanFrom p size align f s i) (fuel : Nat) :
    scanFrom p size align fuel s i = .outOfFuel := by
  have hz : ∀ k, scanFrom p size align (c * k) s i = .outOfFuel := by
    intro k
    induction k with
    | zero => rfl
    | succ k ih => rw [Nat.mul_succ, h, ih]
  by_contra hne
  have hm := applyLoop_mono (p := p) (pred := isFree p) (act := tryRegion p size align)
    (s := s) (b := 0) (i := i) (fuel := fuel) (fuel' := c * fuel)
    (Nat.le_mul_of_pos_left _ hc) hne
  have := hz fuel
  unfold scanFrom at this
  rw [this] at hm
  exact hne hm.symm

/-- One round at a block without a mark, reached by a restart: it settles the matter. -/
theorem scanFrom_one (hv : Valid p) (hp : Placed p s) (hl : LinksForward s)
    (h1 : 1 < s.blockCount) (hu : s.inUse 1 = false) (hr : Request size align) :
    ∃ o, ∀ f, scanFrom p size align (f + 1) s 1 = o := by
  by_cases hs : (regionEnd s 1 - 1) * p.blockSize < need p s size align 1
  · by_cases hn : s.next 1 = 0
    · refine ⟨.ok (s, 0), fun f => ?_⟩
      rw [(scanFrom_link hv hp hl h1 hr).2.1 hu hs, if_neg (by simp [hn])]
    · refine ⟨.outOfFuel, fun f => scanFrom_cycle (c := 1) (by omega) (fun f => ?_) _⟩
      rw [(scanFrom_link hv hp hl h1 hr).2.1 hu hs, if_pos hn]
  · exact ⟨_, fun f => (scanFrom_link hv hp hl h1 hr).2.2 hu (Nat.le_of_not_lt hs)⟩

/-- After as many rounds as there are regions the outcome of the scan is settled. -/
theorem scan_rounds {rs : List Region} (hv : Valid p) (hp : Placed p s) (ht : Tiled s rs)
    (hl : LinksForward s) (hr : Request size align) :
    ∃ o, ∀ f, scan p (f + rs.length) s size align = o := by
  have hle := hp.le
  have hsome := hp.some
  have t := (tiled_iff.1 ht).1
  have hbl := t.blocks_eq
  change ∃ o, ∀ f, scanFrom p size align (f + rs.length) s 0 = o
  rcases first_free rs with hb | ⟨pre, len, post, rfl, hb⟩
  · have hne : rs ≠ [] := by
      rintro rfl
      simp at hbl
      omega
    exact ⟨_, fun f => scanFrom_full (pre := []) hle hb hne t⟩
  · have hskip : ∀ f, scanFrom p size align (f + (pre ++ Region.mk len false :: post).length) s 0
        = scanFrom p size align (f + post.length + 1) s (blocks pre) := by
      intro f
      have := scanFrom_skip (p := p) (size := size) (align := align) (pre := []) (mid := pre)
        (post := ⟨len, false⟩ :: post) (fuel := f + post.length + 1) hle hb (by simp) t
      rw [List.length_append, List.length_cons,
        (by omega : f + (pre.length + (post.length + 1)) = f + post.length + 1 + pre.length)]
      exact this
    have hreg := t.at
    simp only at hreg
    obtain ⟨a1, a2, a3, a4, a5, a6⟩ := hreg
    have hi : blocks pre < s.blockCount := by omega
    by_cases hs : (regionEnd s (blocks pre) - blocks pre) * p.blockSize
        < need p s size align (blocks pre)
    · by_cases hpost : post = []
      · refine ⟨.ok (s, 0), fun f => ?_⟩
        rw [hskip, (scanFrom_link hv hp hl hi hr).2.1 a4 hs, if_neg]
        rw [a3, if_pos (a6.1 hpost)]
        simp
      · have hn : s.next (blocks pre) ≠ 0 := by
          rw [a3, if_neg (fun h => hpost (a6.2 h))]
          omega
        have hpl : 0 < post.length := List.length_pos_iff.2 hpost
        have hback : ∀ f, scanFrom p size align (f + 1) s (blocks pre)
            = scanFrom p size align f s 1 := by
          intro f
          rw [(scanFrom_link hv hp hl hi hr).2.1 a4 hs, if_pos hn]
        have h1 : 1 < s.blockCount := by
          have := hl _ hi
          omega
        suffices hh : ∃ o, ∀ f, scanFrom p size align (f + post.length) s 1 = o by
          obtain ⟨o, ho⟩ := hh
          exact ⟨o, fun f => by rw [hskip, hback, ho]⟩
        have hone : s.inUse 1 = false →
            ∃ o, ∀ f, scanFrom p size align (f + post.length) s 1 = o := by
          intro hu
          obtain ⟨o, ho⟩ := scanFrom_one (size := size) (align := align) hv hp hl h1 hu hr
          refine ⟨o, fun f => ?_⟩
          rw [(by omega : f + post.length = f + (post.length - 1) + 1), ho]
        cases pre with
        | nil =>
          simp only [blocks_nil, Nat.zero_add] at a1 a2 a3 a4 a5 a6
          by_cases hlen : len = 1
          · subst hlen
            have hb1 : blocks [Region.mk 1 false] = 1 := by simp
            have t1 : Tiles s ([⟨1, false⟩] ++ post) := t
            rcases first_free post with hb' | ⟨mid, l, post2, rfl, hb'⟩
            · exact ⟨_, fun f => by
                have := scanFrom_full (p := p) (size := size) (align := align) (fuel := f) hle hb'
                  hpost t1
                rwa [hb1] at this⟩
            · have hskip1 : ∀ f, scanFrom p size align (f + mid.length) s 1
                  = scanFrom p size align f s (blocks ([⟨1, false⟩] ++ mid)) := by
                intro f
                have := scanFrom_skip (p := p) (size := size) (align := align)
                  (pre := [⟨1, false⟩]) (mid := mid) (post := ⟨l, false⟩ :: post2) (fuel := f) hle
                  hb' (by simp) (by simpa using t1)
                rwa [hb1] at this
              have t2 : Tiles s (([⟨1, false⟩] ++ mid) ++ ⟨l, false⟩ :: post2) := by simpa using t1
              have hreg2 := t2.at
              simp only at hreg2
              obtain ⟨c1, c2, c3, c4, c5, c6⟩ := hreg2
              generalize hj : blocks ([⟨1, false⟩] ++ mid) = j at *
              have hjn : j < s.blockCount := by omega
              have hsplit : ∀ f, f + (mid ++ Region.mk l false :: post2).length
                  = f + post2.length + 1 + mid.length := by
                intro f
                rw [List.length_append, List.length_cons]
                omega
              by_cases hs2 : (regionEnd s j - j) * p.blockSize < need p s size align j
              · by_cases hz : s.next j = 0
                · refine ⟨.ok (s, 0), fun f => ?_⟩
                  rw [hsplit, hskip1, (scanFrom_link hv hp hl hjn hr).2.1 c4 hs2,
                    if_neg (by simp [hz])]
                · refine ⟨.outOfFuel, fun f => scanFrom_cycle (c := 1 + mid.length) (by omega)
                    (fun f => ?_) _⟩
                  rw [← Nat.add_assoc, hskip1, (scanFrom_link hv hp hl hjn hr).2.1 c4 hs2,
                    if_pos hz]
              · exact ⟨_, fun f => by
                  rw [hsplit, hskip1,
                    (scanFrom_link hv hp hl hjn hr).2.2 c4 (Nat.le_of_not_lt hs2)]⟩
          · exact hone (a5 1 (by omega) (by omega))
        | cons r0 pre' =>
          obtain ⟨l0, b0⟩ := r0
          obtain rfl : b0 = true := hb ⟨l0, b0⟩ (by simp)
          have t0 : Tiles s ([] ++ ⟨l0, true⟩ :: (pre' ++ ⟨len, false⟩ :: post)) := by simpa using t
          have hreg0 := t0.at
          simp only [blocks_nil, Nat.zero_add] at hreg0
          obtain ⟨c1, c2, c3, c4, c5, c6⟩ := hreg0
          by_cases hl0 : l0 = 1
          · subst hl0
            refine ⟨.outOfFuel, fun f => scanFrom_cycle (c := 1 + pre'.length) (by omega)
              (fun f => ?_) _⟩
            have hb1 : blocks [Region.mk 1 true] = 1 := by simp
            have := scanFrom_skip (p := p) (size := size) (align := align)
              (pre := [⟨1, true⟩]) (mid := pre') (post := ⟨len, false⟩ :: post) (fuel := f + 1) hle
              (fun r hr => hb r (by simp [hr])) (by simp) (by simpa using t)
            rw [hb1] at this
            rw [← Nat.add_assoc, this]
            exact hback f
          · exact hone (c5 1 (by omega) (by omega))
    · exact ⟨_, fun f => by
        rw [hskip, (scanFrom_link hv hp hl hi hr).2.2 a4 (Nat.le_of_not_lt hs)]⟩

/-- A scan needs a round for every busy region at the start. -/
theorem scanFrom_short {pre mid post : List Region} {fuel : Nat} (hle : s.blockCount ≤ p.maxBlocks)
    (hb : ∀ r ∈ mid, r.busy = true) (ht : Tiles s (pre ++ mid ++ post)) (hf : fuel ≤ mid.length)
    (hlast : fuel < mid.length ∨ post ≠ []) :
    scanFrom p size align fuel s (blocks pre) = .outOfFuel := by
  induction mid generalizing pre fuel with
  | nil =>
    obtain rfl : fuel = 0 := by simpa using hf
    rfl
  | cons r mid ih =>
    cases fuel with
    | zero => rfl
    | succ fuel =>
      obtain ⟨len, b⟩ := r
      obtain rfl : b = true := hb ⟨len, b⟩ (by simp)
      have ht' : Tiles s (pre ++ ⟨len, true⟩ :: (mid ++ post)) := by simpa using ht
      simp only [List.length_cons] at hf hlast
      have hne : mid ++ post ≠ [] := by
        intro h
        rw [List.append_eq_nil_iff] at h
        rcases hlast with h' | h'
        · rw [h.1] at h'
          simp at h'
        · exact h' h.2
      rw [scanFrom_busy hle ht', if_neg hne]
      have := ih (pre := pre ++ [⟨len, true⟩]) (fuel := fuel) (fun r hr => hb r (by simp [hr]))
        (by simpa using ht) (by omega) (by
          rcases hlast with h | h
          · left; omega
          · exact Or.inr h)
      rw [blocks_append, blocks_cons, blocks_nil, Nat.add_zero] at this
      exact this

/-! ## `release` -/

/-- Blocks below `k` are free, those from `k` on are busy regions of one block; from block 1 on the
links lead to the next block. -/
structure Stairs (s : State) (n k : Nat) : Prop where
  count : s.blockCount = n
  marks : ∀ j, j < n → (s.inUse j = true ↔ k ≤ j)
  links : ∀ j, 1 ≤ j → j < n → s.next j = if j + 1 = n then 0 else j + 1

theorem Stairs.step {rs : List Region} {n k : Nat} (hv : Valid p) (hp : Placed p s)
    (ht : Tiled s rs) (hl : LinksForward s) (hs : Stairs s n k) (hk : k < n) :
    ∃ s1 rs1, releaseRegion p s () k = .ok (s1, (), decide (k + 1 < n)) ∧
      s1.data = s.data ∧ s1.blockCount = s.blockCount ∧ Tiled s1 rs1 ∧ LinksForward s1 ∧
      Stairs s1 n (k + 1) := by
  have hle := hp.le
  have hc := hs.count
  have t := (tiled_iff.1 ht).1
  obtain ⟨pre, len, post, rfl, rfl⟩ := t.inUse_head (by omega) ((hs.marks k hk).2 (Nat.le_refl _))
  obtain ⟨s1, pre', l, post', d1, d2, d3, d4, d5, d6, d7⟩ := ht.deallocateBlocks hv hp
  obtain ⟨t1, co1⟩ := tiled_iff.1 d5
  have hl1 := hl.freed d5 d3 d4
  obtain ⟨a1, a2, a3, a4, a5, a6⟩ := t.at
  simp only at a1 a2 a3 a4 a5 a6
  -- the marks
  have hm : ∀ j, j < n → (s1.inUse j = true ↔ blocks pre + 1 ≤ j) := by
    intro j hj
    rw [t1.inUse_iff (by omega), d6]
    constructor
    · rintro ⟨x, hx⟩
      rcases List.mem_append.1 hx with hx | hx
      · have h1 := (t.inUse_iff (j := j) (by omega)).2 ⟨x, by
          rw [busyRuns_append]; exact List.mem_append_left _ hx⟩
        have h2 := (hs.marks j hj).1 h1
        have h3 := busyRuns_le hx
        obtain ⟨q1, q2, e1, -, -⟩ := busyRuns_split hx
        rw [e1] at t
        have t' : Tiles s (q1 ++ ⟨x, true⟩ :: (q2 ++ ⟨len, true⟩ :: post)) := by simpa using t
        have := t'.at.1
        simp only at this h3
        omega
      · have := busyRuns_ge hx
        simp only at this
        omega
    · intro hj1
      obtain ⟨x, hx⟩ := (t.inUse_iff (j := j) (by omega)).1 ((hs.marks j hj).2 (by omega))
      refine ⟨x, ?_⟩
      rw [busyRuns_append, busyRuns_busy, Nat.zero_add] at hx
      simp only [List.mem_append, List.mem_cons, Prod.mk.injEq] at hx ⊢
      rcases hx with hx | ⟨hx, -⟩ | hx
      · exact Or.inl hx
      · omega
      · exact Or.inr hx
  obtain ⟨b1, b2, b3, b4, b5, b6⟩ := t1.at
  simp only at b1 b2 b3 b4 b5 b6
  -- the merged region is the first one
  have hpre : pre' = [] := by
    rcases List.eq_nil_or_concat pre' with h | ⟨pre'', ⟨m, b⟩, rfl⟩
    · exact h
    · exfalso
      have hb := co1 pre'' ⟨m, b⟩ ⟨l, false⟩ post' (by simp)
      simp only [Bool.false_eq_true, or_false] at hb
      subst hb
      have t2 : Tiles s1 (pre'' ++ ⟨m, true⟩ :: (⟨l, false⟩ :: post')) := by simpa using t1
      obtain ⟨e1, e2, e3, e4, -⟩ := t2.at
      simp only at e1 e2 e4
      have := (hm (blocks pre'') (by omega)).1 e4
      simp [blocks_append] at d7
      omega
  subst hpre
  simp only [blocks_nil, Nat.zero_add] at b1 b2 b3 b4 b5 b6 d1 d4
  have hlast : l = s1.blockCount ↔ ¬ blocks pre + 1 < n := by
    constructor
    · intro h hlt
      have h1 := b5 (n - 1) (by omega) (by omega)
      rw [(hm (n - 1) (by omega)).2 (by omega)] at h1
      simp at h1
    · intro h
      cases post' with
      | nil => exact b6.1 rfl
      | cons q post' =>
        exfalso
        obtain ⟨m, b⟩ := q
        have hb := co1 [] ⟨l, false⟩ ⟨m, b⟩ post' rfl
        simp only [Bool.false_eq_true, false_or] at hb
        subst hb
        have t2 : Tiles s1 ([⟨l, false⟩] ++ ⟨m, true⟩ :: post') := t1
        obtain ⟨e1, e2, e3, e4, -⟩ := t2.at
        simp only [blocks_cons, blocks_nil, Nat.add_zero] at e1 e2 e4
        have := (hm l (by omega)).1 e4
        omega
  have hz : (s1.next 0 ≠ 0) ↔ blocks pre + 1 < n := by
    rw [b3]
    by_cases h : l = s1.blockCount
    · rw [if_pos h]
      have := hlast.1 h
      simp [this]
    · rw [if_neg h]
      have : blocks pre + 1 < n := by
        by_contra hc
        exact h (hlast.2 hc)
      simp only [this, iff_true]
      omega
  refine ⟨s1, _, ?_, d2, d3, d5, hl1, d3.trans hc, hm, fun j h1 h2 => ?_⟩
  · unfold releaseRegion
    rw [d1]
    simp only [Outcome.ok_bind, Outcome.pure_eq]
    rw [nextAt_ok (by omega) (d3 ▸ hle)]
    simp only [Outcome.ok_bind]
    rw [decide_eq_decide.2 hz]
  · rw [d4 j (by omega)]
    exact hs.links j h1 h2

/-- Walking up the free blocks. -/
theorem Stairs.walk {n k i : Nat} (hp : Placed p s) (hs : Stairs s n k) (hk : k < n) (hi : 1 ≤ i)
    (hik : i ≤ k) :
    (∀ f, applyLoop p (inUseAt p) (releaseRegion p) (f + (k - i)) s () i
      = applyLoop p (inUseAt p) (releaseRegion p) f s () k) ∧
    ∀ f, f ≤ k - i → applyLoop p (inUseAt p) (releaseRegion p) f s () i = .outOfFuel := by
  have hle := hp.le
  have hc := hs.count
  generalize hd : k - i = d
  induction d generalizing i with
  | zero =>
    obtain rfl : i = k := by omega
    refine ⟨fun f => rfl, fun f hf => ?_⟩
    obtain rfl : f = 0 := by omega
    rfl
  | succ d ih =>
    have hu : s.inUse i = false := by
      rw [← Bool.not_eq_true, hs.marks i (by omega)]
      omega
    have hn : s.next i = i + 1 := by rw [hs.links i hi (by omega), if_neg (by omega)]
    have hround : ∀ f, applyLoop p (inUseAt p) (releaseRegion p) (f + 1) s () i
        = applyLoop p (inUseAt p) (releaseRegion p) f s () (i + 1) := by
      intro f
      rw [applyLoop, checkIdx_ok (by omega) hle, Outcome.ok_bind, inUseAt_ok (by omega) hle,
        Outcome.ok_bind, hu, if_neg (by simp), hn]
      simp
    obtain ⟨h1, h2⟩ := ih (i := i + 1) (by omega) (by omega) (by omega)
    refine ⟨fun f => ?_, fun f hf => ?_⟩
    · rw [← Nat.add_assoc, hround, h1]
    · cases f with
      | zero => rfl
      | succ f => rw [hround, h2 f (by omega)]

/-- One pass over the free blocks for every busy one. -/
theorem Stairs.loop {rs : List Region} {n k : Nat} (hv : Valid p) (hp : Placed p s)
    (ht : Tiled s rs) (hl : LinksForward s) (hs : Stairs s n k) (hk1 : 1 ≤ k) (hk : k < n) :
    ∃ R s', R + k * (k - 1) / 2 = n * (n - 1) / 2 ∧
      (∀ f, applyLoop p (inUseAt p) (releaseRegion p) (f + R) s () 1 = .ok (s', ())) ∧
      (∀ f, f < R → applyLoop p (inUseAt p) (releaseRegion p) f s () 1 = .outOfFuel) ∧
      s'.blockCount = n ∧ ∀ j, j < n → s'.inUse j = false := by
  have htri : ∀ m : Nat, (m + 1) * (m + 1 - 1) / 2 = m + m * (m - 1) / 2 := by
    intro m
    cases m with
    | zero => rfl
    | succ m =>
      have : (m + 1 + 1) * (m + 1 + 1 - 1) = 2 * (m + 1) + (m + 1) * (m + 1 - 1) := by
        simp only [Nat.add_sub_cancel]
        ring
      rw [this, Nat.mul_add_div (by decide)]
  generalize hd : n - k = d
  induction d generalizing s rs k with
  | zero => omega
  | succ d ih =>
    have hle := hp.le
    have hc := hs.count
    obtain ⟨w1, w2⟩ := hs.walk (i := 1) hp hk (Nat.le_refl _) hk1
    obtain ⟨s1, rs1, r1, r2, r3, r4, r5, r6⟩ := hs.step hv hp ht hl hk
    have hu := (hs.marks k hk).2 (Nat.le_refl _)
    have hround : ∀ f, applyLoop p (inUseAt p) (releaseRegion p) (f + 1) s () k
        = if k + 1 < n then applyLoop p (inUseAt p) (releaseRegion p) f s1 () 1
          else .ok (s1, ()) := by
      intro f
      rw [applyLoop, checkIdx_ok (by omega) hle, Outcome.ok_bind, inUseAt_ok (by omega) hle,
        Outcome.ok_bind, hu, if_pos rfl, r1]
      simp only [Outcome.ok_bind]
      by_cases h : k + 1 < n
      · simp [h]
      · simp [h]
    have hk' := htri k
    by_cases h : k + 1 < n
    · obtain ⟨R, s', g1, g2, g3, g4, g5⟩ := ih (hp.congr r2 r3) r4 r5 r6 (by omega) h (by omega)
      refine ⟨k + R, s', by omega, fun f => ?_, fun f hf => ?_, g4, g5⟩
      · rw [(by omega : f + (k + R) = f + R + 1 + (k - 1)), w1, hround, if_pos h, g2]
      · by_cases hf' : f ≤ k - 1
        · exact w2 f hf'
        · obtain ⟨f', rfl⟩ : ∃ f', f = f' + 1 + (k - 1) := ⟨f - 1 - (k - 1), by omega⟩
          rw [w1, hround, if_pos h, g3 f' (by omega)]
    · obtain rfl : n = k + 1 := by omega
      refine ⟨k, s1, by omega, fun f => ?_, fun f hf => w2 f (by omega), by omega, fun j hj => ?_⟩
      · rw [(by omega : f + k = f + 1 + (k - 1)), w1, hround, if_neg h]
      · rw [← Bool.not_eq_true, r6.marks j hj]
        omega

/-- Busy regions of one block each, over the whole area. -/
theorem Tiles.stairs {n : Nat} (ht : Tiles s (List.replicate n ⟨1, true⟩)) : Stairs s n 0 := by
  have hb : ∀ m : Nat, blocks (List.replicate m ⟨1, true⟩) = m := by
    intro m
    simp [blocks]
  have hc : s.blockCount = n := by
    have := ht.blocks_eq
    rw [hb] at this
    exact this.symm
  have hat : ∀ j, j < n → s.inUse j = true ∧ s.next j = if j + 1 = n then 0 else j + 1 := by
    intro j hj
    have t : Tiles s (List.replicate j ⟨1, true⟩ ++ ⟨1, true⟩ :: List.replicate (n - j - 1) ⟨1, true⟩) := by
      rw [← List.replicate_succ, List.replicate_append_replicate]
      rwa [(by omega : j + (n - j - 1 + 1) = n)]
    obtain ⟨a1, a2, a3, a4, -⟩ := t.at
    rw [hb] at a3 a4
    rw [hc] at a3
    exact ⟨a4, a3⟩
  exact ⟨hc, fun j hj => by simp [(hat j hj).1], fun j _ hj => (hat j hj).2⟩

/-- `release` of `n` one-block regions takes `n * (n - 1) / 2 + 1` rounds. -/
theorem release_stairs {n : Nat} (hv : Valid p) (hp : Placed p s)
    (ht : Tiled s (List.replicate n ⟨1, true⟩)) (hl : LinksForward s) :
    ∃ s', (∀ f, release p (f + (n * (n - 1) / 2 + 1)) s = .ok s') ∧
      (∀ f, f < n * (n - 1) / 2 + 1 → release p f s = .outOfFuel) ∧
      s'.blockCount = n ∧ ∀ j, j < n → s'.inUse j = false := by
  have hsome := hp.some
  have hle := hp.le
  have hs := (tiled_iff.1 ht).1.stairs
  have hc := hs.count
  have h0 : 0 < n := by omega
  obtain ⟨s1, rs1, r1, r2, r3, r4, r5, r6⟩ := hs.step hv hp ht hl h0
  have hu := (hs.marks 0 h0).2 (Nat.le_refl _)
  have hround : ∀ f, applyLoop p (inUseAt p) (releaseRegion p) (f + 1) s () 0
      = if 0 + 1 < n then applyLoop p (inUseAt p) (releaseRegion p) f s1 () 1
        else .ok (s1, ()) := by
    intro f
    rw [applyLoop, checkIdx_ok (by omega) hle, Outcome.ok_bind, inUseAt_ok (by omega) hle,
      Outcome.ok_bind, hu, if_pos rfl, r1]
    simp only [Outcome.ok_bind]
    by_cases h : 0 + 1 < n
    · simp [h]
    · simp [h]
  by_cases h : 0 + 1 < n
  · obtain ⟨R, s', g1, g2, g3, g4, g5⟩ := r6.loop hv (hp.congr r2 r3) r4 r5 (by omega) h
    have hR : R = n * (n - 1) / 2 := by omega
    rw [← hR]
    refine ⟨s', fun f => ?_, fun f hf => ?_, g4, g5⟩
    · unfold release
      rw [← Nat.add_assoc, hround, if_pos h, g2]
      rfl
    · unfold release
      cases f with
      | zero => rfl
      | succ f => rw [hround, if_pos h, g3 f (by omega)]; rfl
  · obtain rfl : n = 1 := by omega
    refine ⟨s1, fun f => ?_, fun f hf => ?_, by omega, fun j hj => ?_⟩
    · unfold release
      rw [show f + (1 * (1 - 1) / 2 + 1) = f + 1 from rfl, hround, if_neg h]
      rfl
    · obtain rfl : f = 0 := by
        simp at hf
        exact hf
      rfl
    · rw [← Bool.not_eq_true, r6.marks j hj]
      omega

/-! ## Any state -/

theorem half_succ (m : Nat) : (m + 1) * (m + 1 - 1) / 2 = m + m * (m - 1) / 2 := by
  cases m with
  | zero => rfl
  | succ m =>
    have : (m + 1 + 1) * (m + 1 + 1 - 1) = 2 * (m + 1) + (m + 1) * (m + 1 - 1) := by
      simp only [Nat.add_sub_cancel]
      ring
    rw [this, Nat.mul_add_div (by decide)]

theorem half_mono {a b : Nat} (h : a ≤ b) : a * (a - 1) / 2 ≤ b * (b - 1) / 2 :=
  Nat.div_le_div_right (Nat.mul_le_mul h (by omega))

theorem half_lt {a b : Nat} (h : a < b) : a + a * (a - 1) / 2 ≤ b * (b - 1) / 2 := by
  rw [← half_succ]
  exact half_mono h

/-- The loop of `release` from block 1 on: `m` bounds from below what is still to be freed. -/
theorem release_rest_rounds {fuel i m : Nat} {rs : List Region} (hv : Valid p) (hp : Placed p s)
    (ht : Tiled s rs) (hl : LinksForward s) (hi : 1 ≤ i) (him : i ≤ m) (hm : m < s.blockCount)
    (hpath : Path s 1 i) (hlow : ∀ k, Path s 1 k → k < m → s.inUse k = false)
    (hf : s.blockCount * (s.blockCount - 1) / 2 ≤ fuel + (i - 1) + m * (m - 1) / 2) :
    applyLoop p (inUseAt p) (releaseRegion p) fuel s () i ≠ .outOfFuel := by
  induction fuel generalizing s i m rs with
  | zero =>
    have := half_lt hm
    omega
  | succ fuel ih =>
    have hle := hp.le
    have t := (tiled_iff.1 ht).1
    rw [applyLoop, checkIdx_ok (by omega) hle, Outcome.ok_bind, inUseAt_ok (by omega) hle,
      Outcome.ok_bind]
    cases hu : s.inUse i with
    | true =>
      obtain rfl : i = m := by
        rcases Nat.eq_or_lt_of_le him with h | h
        · exact h
        · rw [hlow i hpath h] at hu
          cases hu
      obtain ⟨s1, rs1, h, r1, r2, r3, r4, r5, r6, -, -, r9, -, r11, r12⟩ :=
        release_step_merged hv hp ht hl hm hu
      rw [if_pos rfl, r1]
      simp only [Outcome.ok_bind]
      by_cases hz : s1.next h = 0
      · rw [decide_eq_false (by simp [hz])]
        simp
      · rw [decide_eq_true (by simpa using hz)]
        have h1 := r12 hz
        have h2 := r5 h (by omega)
        have := ih (m := i + 1) (i := 1) (hp.congr r2 r3) r4 r5 (by omega) (by omega) (by omega)
          (.refl 1) (fun k hk hlt => by
            by_contra hne
            rw [Bool.not_eq_false] at hne
            have hkn : k < s1.blockCount := by omega
            obtain ⟨l, hl'⟩ := ((tiled_iff.1 r4).1.inUse_iff hkn).1 hne
            obtain ⟨g1, g2⟩ := (r6 _).1 hl'
            simp only at g2
            have g3 := (r11 1 (by omega) _ hl').2 hk
            have g4 := hlow k g3 (by omega)
            rw [(t.inUse_iff (by omega)).2 ⟨l, g1⟩] at g4
            cases g4)
          (by
            rw [r3]
            have := half_succ i
            omega)
        simpa using this
    | false =>
      rw [if_neg (by simp)]
      by_cases hz : s.next i = 0
      · rw [if_neg (by simp [hz])]
        nofun
      · rw [if_pos hz]
        have hj := hl i (by omega)
        refine ih (m := max m (s.next i)) hp ht hl (by omega) (by omega) (by omega)
          (hpath.trans (.step hz (.refl _))) (fun k hk hlt => ?_) ?_
        · rcases Nat.lt_or_ge k m with h | h
          · exact hlow k hk h
          · have hlt' : k < s.next i := by omega
            rcases hpath.linear hk with h' | h'
            · cases h' with
              | refl => exact hu
              | step hn h' =>
                have := (h'.bounds hl (by omega)).1
                omega
            · have := (h'.bounds hl (by omega)).1
              obtain rfl : k = i := by omega
              exact hu
        · have := half_mono (Nat.le_max_left m (s.next i))
          omega

/-- `release` on any state. -/
theorem release_rounds {rs : List Region} {fuel : Nat} (hv : Valid p) (hp : Placed p s)
    (ht : Tiled s rs) (hl : LinksForward s)
    (hf : s.blockCount * (s.blockCount - 1) / 2 + 1 ≤ fuel) :
    applyLoop p (inUseAt p) (releaseRegion p) fuel s () 0 ≠ .outOfFuel := by
  have hle := hp.le
  have hsome := hp.some
  have t := (tiled_iff.1 ht).1
  obtain ⟨fuel, rfl⟩ : ∃ f, fuel = f + 1 := ⟨fuel - 1, by omega⟩
  -- freeing block `i` when nothing before it is marked
  have go : ∀ i f, i < s.blockCount → s.inUse i = true → (∀ k, k < i → s.inUse k = false) →
      s.blockCount * (s.blockCount - 1) / 2 ≤ f + (i + 1) * (i + 1 - 1) / 2 →
      applyLoop p (inUseAt p) (releaseRegion p) (f + 1) s () i ≠ .outOfFuel := by
    intro i f hi hu hlow hf
    obtain ⟨s1, rs1, h, r1, r2, r3, r4, r5, r6, -, -, r9, -, r11, r12⟩ :=
      release_step_merged hv hp ht hl hi hu
    rw [applyLoop, checkIdx_ok hi hle, Outcome.ok_bind, inUseAt_ok hi hle, Outcome.ok_bind, hu,
      if_pos rfl, r1]
    simp only [Outcome.ok_bind]
    by_cases hz : s1.next h = 0
    · rw [decide_eq_false (by simp [hz])]
      simp
    · rw [decide_eq_true (by simpa using hz)]
      have h1 := r12 hz
      have h2 := r5 h (by omega)
      have := release_rest_rounds (fuel := f) (m := i + 1) (i := 1) hv (hp.congr r2 r3) r4 r5
        (by omega) (by omega) (by omega) (.refl 1) (fun k hk hlt => by
          by_contra hne
          rw [Bool.not_eq_false] at hne
          have hkn : k < s1.blockCount := by omega
          obtain ⟨l, hl'⟩ := ((tiled_iff.1 r4).1.inUse_iff hkn).1 hne
          obtain ⟨g1, g2⟩ := (r6 _).1 hl'
          simp only at g2
          have g4 := hlow k (by omega)
          rw [(t.inUse_iff (by omega)).2 ⟨l, g1⟩] at g4
          cases g4) (by rw [r3]; omega)
      simpa using this
  cases hu : s.inUse 0 with
  | true => exact go 0 fuel (by omega) hu (by omega) (by omega)
  | false =>
    rw [applyLoop, checkIdx_ok (by omega) hle, Outcome.ok_bind, inUseAt_ok (by omega) hle,
      Outcome.ok_bind, hu, if_neg (by simp)]
    by_cases hz : s.next 0 = 0
    · rw [if_neg (by simp [hz])]
      nofun
    · rw [if_pos hz]
      cases rs with
      | nil =>
        have := t.blocks_eq
        simp at this
        omega
      | cons q rest =>
        obtain ⟨L, b⟩ := q
        have t0 : Tiles s ([] ++ ⟨L, b⟩ :: rest) := t
        obtain ⟨a1, a2, a3, a4, a5, a6⟩ := t0.at
        simp only [blocks_nil, Nat.zero_add] at a1 a2 a3 a4 a5 a6
        rw [hu] at a4
        subst a4
        have hne : L ≠ s.blockCount := by
          intro h
          rw [if_pos h] at a3
          exact hz a3
        rw [if_neg hne] at a3
        rw [a3]
        cases rest with
        | nil => exact absurd (a6.1 rfl) hne
        | cons q2 rest =>
          obtain ⟨m, b2⟩ := q2
          have hb := (tiled_iff.1 ht).2 [] ⟨L, false⟩ ⟨m, b2⟩ rest rfl
          simp only [Bool.false_eq_true, false_or] at hb
          subst hb
          have t1 : Tiles s ([⟨L, false⟩] ++ ⟨m, true⟩ :: rest) := t
          obtain ⟨c1, c2, c3, c4, -⟩ := t1.at
          simp only [blocks_cons, blocks_nil, Nat.add_zero] at c1 c2 c4
          have hN : 1 ≤ s.blockCount * (s.blockCount - 1) / 2 := by
            have := half_mono (show 2 ≤ s.blockCount by omega)
            simpa using this
          have h2 : 1 ≤ (L + 1) * (L + 1 - 1) / 2 := by
            have := half_mono (show 2 ≤ L + 1 by omega)
            simpa using this
          obtain ⟨f, rfl⟩ : ∃ f, fuel = f + 1 := ⟨fuel - 1, by omega⟩
          refine go L f (by omega) c4 (fun k hk => ?_) (by omega)
          rcases Nat.eq_zero_or_pos k with h | h
          · rw [h]; exact hu
          · exact a5 k h hk

end Utils.SR
