import Verif.Proofs.SRReleaseExact
import Verif.Proofs.SRClasses

/-! Which requests leave the bookkeeping of `simple_resource` right. -/

namespace Utils.SR

open Utils Utils.Bits

variable {p : Params} {s : State} {size align : Nat} {σ : Type} {up : Option (Upstream σ)}

/-! ## The walk over the real regions -/

theorem Tiles.finds_free {pre mid post : List Region} {len : Nat}
    (hb : ∀ r ∈ mid, r.busy = true) (ht : Tiles s (pre ++ (mid ++ ⟨len, false⟩ :: post))) :
    Finds s (blocks pre) (some (blocks (pre ++ mid))) := by
  induction mid generalizing pre with
  | nil =>
    rw [List.append_nil]
    exact .here (ht.at).2.2.2.1
  | cons q mid ih =>
    have t : Tiles s (pre ++ q :: (mid ++ ⟨len, false⟩ :: post)) := by simpa using ht
    obtain ⟨a1, a2, a3, a4, a5, a6⟩ := t.at
    have hne : blocks pre + q.len ≠ s.blockCount := fun h => by simpa using a6.2 h
    rw [if_neg hne] at a3
    refine .next (a4.trans (hb q (by simp))) (by omega) ?_
    have := ih (pre := pre ++ [q]) (fun r hr => hb r (by simp [hr])) (by simpa using ht)
    rw [blocks_append, blocks_cons, blocks_nil, Nat.add_zero] at this
    rw [a3]
    simpa using this

theorem Tiles.finds_none {pre mid : List Region} (hne : mid ≠ [])
    (hb : ∀ r ∈ mid, r.busy = true) (ht : Tiles s (pre ++ mid)) : Finds s (blocks pre) none := by
  induction mid generalizing pre with
  | nil => exact absurd rfl hne
  | cons q mid ih =>
    obtain ⟨a1, a2, a3, a4, a5, a6⟩ := ht.at
    by_cases hm : mid = []
    · rw [if_pos (a6.1 hm)] at a3
      exact .last (a4.trans (hb q (by simp))) a3
    · have hne : blocks pre + q.len ≠ s.blockCount := fun h => hm (a6.2 h)
      rw [if_neg hne] at a3
      refine .next (a4.trans (hb q (by simp))) (by omega) ?_
      have := ih (pre := pre ++ [q]) hm (fun r hr => hb r (by simp [hr])) (by simpa using ht)
      rw [blocks_append, blocks_cons, blocks_nil, Nat.add_zero] at this
      rw [a3]
      exact this

/-- Walking from the start of a region ends at a free region or nowhere. -/
theorem Tiles.finds_real {pre rest : List Region} (hne : rest ≠ []) (ht : Tiles s (pre ++ rest))
    {i : Nat} (h : Finds s (blocks pre) (some i)) :
    ∃ mid len post, rest = mid ++ ⟨len, false⟩ :: post ∧ i = blocks (pre ++ mid) ∧
      ∀ r ∈ mid, r.busy = true := by
  rcases exists_first_free rest with hb | ⟨mid, len, post, rfl, hb⟩
  · cases h.unique (ht.finds_none hne hb)
  · exact ⟨mid, len, post, rfl, Option.some.inj (h.unique (ht.finds_free hb)), hb⟩

theorem Tiles.stop_real {pre post : List Region} {r : Region} (ht : Tiles s (pre ++ r :: post)) :
    stop s (blocks pre) = blocks pre + r.len := by
  obtain ⟨a1, a2, a3, a4, a5, a6⟩ := ht.at
  unfold stop
  rw [a3]
  by_cases e : blocks pre + r.len = s.blockCount
  · rw [if_pos e, if_pos rfl, e]
  · rw [if_neg e, if_neg (by omega)]

/-- Every block lies in a region. -/
theorem Tiles.inside {rs : List Region} (ht : Tiles s rs) {i : Nat} (hi : i < s.blockCount) :
    ∃ pre r post, rs = pre ++ r :: post ∧ blocks pre ≤ i ∧ i < blocks pre + r.len := by
  have hb := ht.blocks_eq
  have key : ∀ (pre rest : List Region), blocks pre ≤ i → i < blocks pre + blocks rest →
      ∃ pre' r post, pre ++ rest = pre' ++ r :: post ∧ blocks pre' ≤ i ∧ i < blocks pre' + r.len := by
    intro pre rest
    induction rest generalizing pre with
    | nil => intro h1 h2; rw [blocks_nil] at h2; omega
    | cons q rest ih =>
      intro h1 h2
      by_cases hq : i < blocks pre + q.len
      · exact ⟨pre, q, rest, rfl, h1, hq⟩
      · have := ih (pre ++ [q]) (by rw [blocks_append, blocks_cons, blocks_nil]; omega)
          (by rw [blocks_append, blocks_cons, blocks_nil]; rw [blocks_cons] at h2; omega)
        simpa using this
  have := key [] rs (by rw [blocks_nil]; omega) (by rw [blocks_nil]; omega)
  simpa using this

/-! ## A good choice goes right -/

/-- What is known after a request with a good choice. -/
inductive ChoiceResult (p : Params) (up : Option (Upstream σ)) (w : World σ) (rs : List Region)
    (size align : Nat) (w' : World σ) : Prop
  | served {ptr pre len post a}
      (split : rs = pre ++ ⟨len, false⟩ :: post)
      (served : ServedFrom p w.st w'.st size align ptr pre len post a)
      (tracks : Tracks p up w' (pre ++ carve a (size / p.blockSize + 1) len ++ post))
      (live : w'.live = (ptr, size) :: w.live)
      (up_eq : w'.up = w.up)
      (locl : localLive p w' = (ptr, size) :: localLive p w)
  | refused
      (st : w'.st = w.st)
      (tracks : Tracks p up w' rs)
      (decides : Decides p w.st size align .refuse)
      (live : w'.live = if (askUpstream up w.up size align).1 = 0 then w.live
        else ((askUpstream up w.up size align).1, size) :: w.live)
      (locl : localLive p w' = localLive p w)
      (up_eq : w'.up = (askUpstream up w.up size align).2)

theorem doAlloc_choice {w : World σ} {rs : List Region} {fuel : Nat} (hv : Valid p)
    (h : Tracks p up w rs) (hu : UpstreamOK p w.st up) (hr : Request size align)
    (hc : GoodChoice p w.st size align rs) (hf : 2 * w.st.blockCount ≤ fuel) :
    ∃ w', doAlloc p up fuel w size align = .ok w' ∧ ChoiceResult p up w rs size align w' := by
  rcases hc with hd | ⟨pre, len, post, rfl, hd, hs⟩
  · obtain ⟨u1, u2, -, -⟩ := askUpstream_ok (u := w.up) (size := size) (align := align) hu
    have h1 := allocate_refused (u := w.up) hv hr
      (local_exact hv h.placed h.small h.links hr hd (Or.inr hf)) u1 (fun _ => u2)
    refine ⟨⟨w.st, (askUpstream up w.up size align).2,
      if (askUpstream up w.up size align).1 = 0 then w.live
      else ((askUpstream up w.up size align).1, size) :: w.live⟩, ?_,
      .refused rfl (h.afterRefused (size := size) (align := align) hu).1 hd rfl
        (h.afterRefused (size := size) (align := align) hu).2 rfl⟩
    unfold doAlloc
    rw [h1]
    rfl
  · obtain ⟨hi, hu', hn⟩ := hd.bound h.placed h.links
    have ht := (tiled_iff.1 h.tiled).1
    have hst := ht.stop_real
    simp only at hst
    have hfit : need p w.st size align (blocks pre) < len * p.blockSize := by
      unfold TooSmall at hn
      rw [hst, Nat.add_sub_cancel_left] at hn
      omega
    obtain ⟨s', ptr, a, e, h5⟩ := scanFrom_fit (fuel := 0) hv h.placed h.tiled hr hfit
    rw [(scanFrom_link (fuel := 0) hv h.placed h.links hi hr).2.2 hu'
      (by rw [regionEnd_eq, hst, Nat.add_sub_cancel_left]; omega)] at e
    have hm := local_exact hv h.placed h.small h.links hr hd (fuel := fuel) (Or.inr hf)
    simp only [Means] at hm
    rw [e] at hm
    obtain ⟨b1, b2, b3, b4, b5⟩ := h5.bounds hv h.placed ht
    have h1 := allocate_served (up := up) (u := w.up) hv hr hm b5 (by omega) b4
    refine ⟨⟨s', w.up, (ptr, size) :: w.live⟩, ?_,
      .served rfl h5 (h.afterServed hv h5).1 rfl rfl (h.afterServed hv h5).2⟩
    unfold doAlloc
    rw [h1]
    simp [b5]

theorem ChoiceResult.tracked {w w' : World σ} {rs : List Region}
    (h : ChoiceResult p up w rs size align w') :
    w'.st.data = w.st.data ∧ w'.st.blockCount = w.st.blockCount ∧ ∃ rs', Tracks p up w' rs' := by
  cases h with
  | served h1 h2 h3 => exact ⟨h2.data, h2.count, _, h3⟩
  | refused h1 h2 => exact ⟨by rw [h1], by rw [h1], _, h2⟩

/-- Histories of good choices. -/
theorem good_history {fuel : Nat} {w : World σ} {ops : List Op} {rs : List Region} (hv : Valid p)
    (h : Tracks p up w rs) (hu : UpstreamOK p w.st up) (hfuel : 2 * w.st.blockCount ≤ fuel)
    (hs : Along p up fuel (GoodOp p) w ops) :
    ∃ w', run p up fuel w ops = .ok w' ∧ (∃ rs', Tracks p up w' rs') ∧
      w'.st.data = w.st.data ∧ w'.st.blockCount = w.st.blockCount := by
  refine run_inv (I := fun w' => (∃ rs', Tracks p up w' rs') ∧
      w'.st.data = w.st.data ∧ w'.st.blockCount = w.st.blockCount) ?_ ⟨⟨rs, h⟩, rfl, rfl⟩ hs
  rintro w1 op ⟨⟨rs1, h1⟩, h2, h3⟩ hA
  cases op with
  | alloc size align =>
    obtain ⟨w2, e, hres⟩ := doAlloc_choice hv h1 (hu.congr h2 h3) hA.1 (hA.2 _ h1.tiled)
      (h3 ▸ hfuel)
    obtain ⟨g1, g2, g3⟩ := hres.tracked
    exact ⟨w2, e, g3, g1.trans h2, g2.trans h3⟩
  | free i =>
    obtain ⟨w2, rs2, e, ht, hres⟩ := doFree_good hv h1 i
    obtain ⟨g1, g2⟩ := hres.geometry
    exact ⟨w2, e, ⟨rs2, ht⟩, g1.trans h2, g2.trans h3⟩

/-! ## What taking a region changes, whatever the region -/

theorem setInUse_eq {s' : State} {i : Nat} {v : Bool} (h : setInUse p s i v = .ok s') :
    s' = { s with inUse := upd s.inUse i v } := by
  obtain ⟨_, -, h⟩ := Outcome.bind_eq_ok.1 h
  cases h; rfl

theorem setPrev_eq {s' : State} {i pv : Nat} (h : setPrev p s i pv = .ok s') :
    s' = { s with prev := if pv < i ∨ pv = 0 then upd s.prev i pv else s.prev } := by
  obtain ⟨_, -, h⟩ := Outcome.bind_eq_ok.1 h
  split at h
  · rename_i hc
    obtain ⟨_, -, h⟩ := Outcome.bind_eq_ok.1 h
    cases h
    rw [if_pos hc]
  · rename_i hc
    cases h
    rw [if_neg hc]

theorem setNext_eq {s' : State} {i nx : Nat} (h : setNext p s i nx = .ok s') :
    s' = { s with next := if i < nx ∨ nx = 0 then upd s.next i nx else s.next } := by
  obtain ⟨_, -, h⟩ := Outcome.bind_eq_ok.1 h
  split at h
  · rename_i hc
    obtain ⟨_, -, h⟩ := Outcome.bind_eq_ok.1 h
    cases h
    rw [if_pos hc]
  · rename_i hc
    cases h
    rw [if_neg hc]

theorem setPrevNext_eq {s' : State} {i pv nx : Nat} (h : setPrevNext p s i pv nx = .ok s') :
    s' = { s with
      prev := if pv < i ∨ pv = 0 then upd s.prev i pv else s.prev
      next := if i < nx ∨ nx = 0 then upd s.next i nx else s.next } := by
  obtain ⟨_, -, h⟩ := Outcome.bind_eq_ok.1 h
  obtain ⟨_, -, h⟩ := Outcome.bind_eq_ok.1 h
  obtain ⟨_, -, h⟩ := Outcome.bind_eq_ok.1 h
  cases h
  split <;> split <;> rfl

/-- What matters of a region taken at block `i` with an offset of `a` blocks. -/
structure Taken (s s' : State) (i a : Nat) : Prop where
  data : s'.data = s.data
  count : s'.blockCount = s.blockCount
  next : ∀ j, j < i → s'.next j = s.next j ∨ i < s'.next j
  prev : 0 < a → s'.prev (i + a) = i

theorem Taken.matched {s' : State} {i : Nat} (h : allocateMatched p s i = .ok s') :
    Taken s s' i 0 := by
  unfold allocateMatched at h
  obtain ⟨_, -, h⟩ := Outcome.bind_eq_ok.1 h
  obtain ⟨s1, h1, h⟩ := Outcome.bind_eq_ok.1 h
  have := setInUse_eq h1
  cases h
  subst this
  exact ⟨rfl, rfl, fun j hj => Or.inl rfl, fun h => by omega⟩

theorem Taken.beginMatched {s' : State} {i c d : Nat}
    (h : allocateBeginMatched p s i c d = .ok s')
    (ht : i < p.trunc (c + 1) ∨ p.trunc (c + 1) = 0 ∧ i < s.next i) : Taken s s' i 0 := by
  unfold allocateBeginMatched at h
  obtain ⟨_, -, h⟩ := Outcome.bind_eq_ok.1 h
  obtain ⟨_, -, h⟩ := Outcome.bind_eq_ok.1 h
  obtain ⟨s1, h1, h⟩ := Outcome.bind_eq_ok.1 h
  obtain ⟨_, -, h⟩ := Outcome.bind_eq_ok.1 h
  obtain ⟨s2, h2, h⟩ := Outcome.bind_eq_ok.1 h
  obtain ⟨s3, h3, h⟩ := Outcome.bind_eq_ok.1 h
  obtain ⟨s4, h4, h⟩ := Outcome.bind_eq_ok.1 h
  replace h1 := setInUse_eq h1
  replace h2 := setPrevNext_eq h2
  replace h3 := setPrev_eq h3
  replace h4 := setNext_eq h4
  cases h
  generalize p.trunc (c + 1) = nx at *
  subst h1
  subst h2
  subst h3
  subst h4
  refine ⟨rfl, rfl, fun j hj => ?_, fun h => by omega⟩
  simp only [incBusy]
  have key : ∀ (f : Nat → Nat) (k v : Nat) (c : Prop) [Decidable c],
      (if c then upd f k v else f) j = if c ∧ j = k then v else f j := by
    intro f k v c _
    by_cases hc : c <;> simp [hc, upd]
  rw [key, key, if_neg (by omega)]
  split
  · omega
  · exact Or.inl rfl

theorem Taken.endMatched {s' : State} {i b d : Nat}
    (h : allocateEndMatched p s i b d = .ok s') (hb : i < b) (hn : s.next i ≠ b) :
    Taken s s' i (b - i) := by
  unfold allocateEndMatched at h
  obtain ⟨_, -, h⟩ := Outcome.bind_eq_ok.1 h
  obtain ⟨_, -, h⟩ := Outcome.bind_eq_ok.1 h
  obtain ⟨s1, h1, h⟩ := Outcome.bind_eq_ok.1 h
  obtain ⟨_, -, h⟩ := Outcome.bind_eq_ok.1 h
  obtain ⟨s2, h2, h⟩ := Outcome.bind_eq_ok.1 h
  obtain ⟨s3, h3, h⟩ := Outcome.bind_eq_ok.1 h
  obtain ⟨s4, h4, h⟩ := Outcome.bind_eq_ok.1 h
  replace h1 := setInUse_eq h1
  replace h2 := setPrevNext_eq h2
  replace h3 := setPrev_eq h3
  replace h4 := setNext_eq h4
  cases h
  generalize p.trunc (if d < dec64 s1.blockCount then d + 1 else 0) = nx at *
  subst h1
  subst h2
  subst h3
  subst h4
  have key : ∀ (f : Nat → Nat) (j k v : Nat) (c : Prop) [Decidable c],
      (if c then upd f k v else f) j = if c ∧ j = k then v else f j := by
    intro f j k v c _
    by_cases hc : c <;> simp [hc, upd]
  refine ⟨rfl, rfl, fun j hj => ?_, fun _ => ?_⟩
  · simp only [incBusy]
    rw [key, key, if_neg (by omega), if_neg (by omega)]
    exact Or.inl rfl
  · simp only [incBusy]
    rw [key, key, key, if_neg (by split <;> omega), if_pos (by omega)]

theorem Taken.notMatched {s' : State} {i b c d : Nat}
    (h : allocateNotMatched p s i b c d = .ok s') (hb : i < b) (hbc : b ≤ c) (hn : s.next i ≠ b)
    (ht : p.trunc (c + 1) = c + 1 ∨ p.trunc (c + 1) = 0 ∧ i < s.next i) :
    Taken s s' i (b - i) := by
  unfold allocateNotMatched at h
  obtain ⟨_, -, h⟩ := Outcome.bind_eq_ok.1 h
  obtain ⟨_, -, h⟩ := Outcome.bind_eq_ok.1 h
  obtain ⟨_, -, h⟩ := Outcome.bind_eq_ok.1 h
  obtain ⟨s1, h1, h⟩ := Outcome.bind_eq_ok.1 h
  obtain ⟨_, -, h⟩ := Outcome.bind_eq_ok.1 h
  obtain ⟨s2, h2, h⟩ := Outcome.bind_eq_ok.1 h
  obtain ⟨s3, h3, h⟩ := Outcome.bind_eq_ok.1 h
  obtain ⟨s4, h4, h⟩ := Outcome.bind_eq_ok.1 h
  obtain ⟨s5, h5, h⟩ := Outcome.bind_eq_ok.1 h
  replace h1 := setInUse_eq h1
  replace h2 := setPrevNext_eq h2
  replace h3 := setPrevNext_eq h3
  replace h4 := setPrev_eq h4
  replace h5 := setNext_eq h5
  cases h
  generalize p.trunc (c + 1) = nx at *
  subst h1
  subst h2
  subst h3
  subst h4
  subst h5
  have key : ∀ (f : Nat → Nat) (j k v : Nat) (c : Prop) [Decidable c],
      (if c then upd f k v else f) j = if c ∧ j = k then v else f j := by
    intro f j k v c _
    by_cases hc : c <;> simp [hc, upd]
  have e0 : ∀ (f : Nat → Nat) (v : Nat) (c : Prop) [Decidable c],
      (if c then upd f b v else f) i = f i := by
    intro f v c _
    rw [key, if_neg (by omega)]
  refine ⟨rfl, rfl, fun j hj => ?_, fun _ => ?_⟩
  · simp only [incBusy, incFree, e0, key]
    rw [if_neg (by omega), if_neg (by omega : ¬ ((b < nx ∨ nx = 0) ∧ j = b))]
    split
    · omega
    · exact Or.inl rfl
  · simp only [incBusy, incFree, e0, key]
    have e1 : (if (nx < s.next i ∨ s.next i = 0) ∧ i = nx then s.next i else s.next i)
        = s.next i := by split <;> rfl
    rw [e1, if_neg (by omega), if_neg (by omega), if_pos (by omega)]

/-- Taking a region keeps the geometry. -/
theorem allocateBlocks_geometry {s' : State} {i ptr : Nat}
    (h : allocateBlocks p s i ptr size = .ok s') :
    s'.data = s.data ∧ s'.blockCount = s.blockCount := by
  unfold allocateBlocks at h
  obtain ⟨b, -, h⟩ := Outcome.bind_eq_ok.1 h
  obtain ⟨c, -, h⟩ := Outcome.bind_eq_ok.1 h
  obtain ⟨af, -, h⟩ := Outcome.bind_eq_ok.1 h
  simp only at h
  generalize (if af ≠ 0 then af - 1 else p.trunc (dec64 s.blockCount)) = z at h
  split at h
  · split at h
    · unfold allocateBeginMatched at h
      obtain ⟨_, -, h⟩ := Outcome.bind_eq_ok.1 h
      obtain ⟨_, -, h⟩ := Outcome.bind_eq_ok.1 h
      obtain ⟨s1, h1, h⟩ := Outcome.bind_eq_ok.1 h
      obtain ⟨_, -, h⟩ := Outcome.bind_eq_ok.1 h
      obtain ⟨s2, h2, h⟩ := Outcome.bind_eq_ok.1 h
      obtain ⟨s3, h3, h⟩ := Outcome.bind_eq_ok.1 h
      obtain ⟨s4, h4, h⟩ := Outcome.bind_eq_ok.1 h
      cases h
      rw [show s4 = _ from setNext_eq h4, show s3 = _ from setPrev_eq h3,
        show s2 = _ from setPrevNext_eq h2, show s1 = _ from setInUse_eq h1]
      exact ⟨rfl, rfl⟩
    · have := Taken.matched h
      exact ⟨this.data, this.count⟩
  · split at h
    · unfold allocateNotMatched at h
      obtain ⟨_, -, h⟩ := Outcome.bind_eq_ok.1 h
      obtain ⟨_, -, h⟩ := Outcome.bind_eq_ok.1 h
      obtain ⟨_, -, h⟩ := Outcome.bind_eq_ok.1 h
      obtain ⟨s1, h1, h⟩ := Outcome.bind_eq_ok.1 h
      obtain ⟨_, -, h⟩ := Outcome.bind_eq_ok.1 h
      obtain ⟨s2, h2, h⟩ := Outcome.bind_eq_ok.1 h
      obtain ⟨s3, h3, h⟩ := Outcome.bind_eq_ok.1 h
      obtain ⟨s4, h4, h⟩ := Outcome.bind_eq_ok.1 h
      obtain ⟨s5, h5, h⟩ := Outcome.bind_eq_ok.1 h
      cases h
      rw [show s5 = _ from setNext_eq h5, show s4 = _ from setPrev_eq h4,
        show s3 = _ from setPrevNext_eq h3, show s2 = _ from setPrevNext_eq h2,
        show s1 = _ from setInUse_eq h1]
      exact ⟨rfl, rfl⟩
    · unfold allocateEndMatched at h
      obtain ⟨_, -, h⟩ := Outcome.bind_eq_ok.1 h
      obtain ⟨_, -, h⟩ := Outcome.bind_eq_ok.1 h
      obtain ⟨s1, h1, h⟩ := Outcome.bind_eq_ok.1 h
      obtain ⟨_, -, h⟩ := Outcome.bind_eq_ok.1 h
      obtain ⟨s2, h2, h⟩ := Outcome.bind_eq_ok.1 h
      obtain ⟨s3, h3, h⟩ := Outcome.bind_eq_ok.1 h
      obtain ⟨s4, h4, h⟩ := Outcome.bind_eq_ok.1 h
      cases h
      rw [show s4 = _ from setNext_eq h4, show s3 = _ from setPrev_eq h3,
        show s2 = _ from setPrevNext_eq h2, show s1 = _ from setInUse_eq h1]
      exact ⟨rfl, rfl⟩

theorem allocateBlocks_taken (hv : Valid p) (hp : Placed p s) (hl : LinksForward s) {s' : State}
    {i a : Nat} (hi : i < s.blockCount) (hpos : 0 < size)
    (hfit : a * p.blockSize + size ≤ (stop s i - i) * p.blockSize)
    (hlast : i + a + size / p.blockSize < s.blockCount)
    (h : allocateBlocks p s i (s.data + (i + a) * p.blockSize) size = .ok s') :
    Taken s s' i a := by
  have hle := hp.le
  have hnw := hp.noWrap
  have hB := hv.pos
  have hst : i < stop s i ∧ stop s i ≤ s.blockCount := by
    unfold stop
    have := hl i hi
    split <;> omega
  have hnx : s.next i = 0 ∧ stop s i = s.blockCount ∨ s.next i = stop s i := by
    unfold stop
    split
    · exact Or.inl ⟨‹_›, rfl⟩
    · exact Or.inr rfl
  have hal : a < stop s i - i := by
    apply Nat.lt_of_not_le
    intro hge
    have : (stop s i - i) * p.blockSize ≤ a * p.blockSize := Nat.mul_le_mul_right _ hge
    omega
  have hlB : stop s i * p.blockSize ≤ p.maxBlocks * p.blockSize := Nat.mul_le_mul_right _ (by omega)
  have hbB : s.blockCount * p.blockSize ≤ p.maxBlocks * p.blockSize := Nat.mul_le_mul_right _ hle
  have e1 : (i + a) * p.blockSize = i * p.blockSize + a * p.blockSize := Nat.add_mul _ _ _
  have e2 : stop s i * p.blockSize = i * p.blockSize + (stop s i - i) * p.blockSize := by
    rw [← Nat.add_mul]; congr 1; omega
  have hdiv : ((i + a) * p.blockSize + size) / p.blockSize = i + a + size / p.blockSize := by
    rw [Nat.add_comm, Nat.add_mul_div_right _ _ hB, Nat.add_comm]
  have hoff : (i + a) * p.blockSize + size < s.blockCount * p.blockSize := by
    rw [← Nat.div_lt_iff_lt_mul hB, hdiv]; exact hlast
  have hls : i + a + size / p.blockSize ≤ stop s i := by
    rw [← hdiv]
    have : stop s i = stop s i * p.blockSize / p.blockSize := (Nat.mul_div_cancel _ hB).symm
    rw [this]
    exact Nat.div_le_div_right (by omega)
  generalize size / p.blockSize = q at hdiv hlast hls
  have htr : i + a + q ≠ stop s i - 1 → p.trunc (i + a + q + 1) = i + a + q + 1 ∨
      p.trunc (i + a + q + 1) = 0 ∧ i < s.next i := by
    intro hne
    by_cases hmx : i + a + q + 1 < p.maxBlocks
    · exact Or.inl (hv.trunc_eq hmx)
    · have hw := hv.le_width
      rcases Nat.lt_or_ge (i + a + q + 1) (2 ^ p.width) with hlt | hge
      · exact Or.inl (Nat.mod_eq_of_lt hlt)
      · right
        refine ⟨?_, by omega⟩
        have : i + a + q + 1 = 2 ^ p.width := by omega
        unfold Params.trunc
        rw [this, Nat.mod_self]
  unfold allocateBlocks at h
  rw [pointerToBlockIndex_ok hv hp (by omega), Outcome.ok_bind, Nat.mul_div_cancel _ hB,
    Nat.mod_eq_of_lt (by omega), Nat.add_assoc, pointerToBlockIndex_ok hv hp (by omega),
    Outcome.ok_bind, hdiv, nextAt_ok hi hle, Outcome.ok_bind] at h
  simp only [lastOfFree_eq hv hp hl hi] at h
  split at h
  · have : a = 0 := by omega
    subst this
    split at h
    · rename_i hne
      exact Taken.beginMatched h (by have := htr hne; omega)
    · exact Taken.matched h
  · have ea : i + a - i = a := by omega
    split at h
    · rename_i hne
      have := Taken.notMatched h (by omega) (by omega) (by omega) (htr hne)
      rwa [ea] at this
    · have := Taken.endMatched h (by omega) (by omega)
      rwa [ea] at this

/-! ## A bad choice goes wrong -/

theorem busyRuns_apart {h : Nat} {rs : List Region} {x y : Nat × Nat} (hx : x ∈ busyRuns h rs)
    (hy : y ∈ busyRuns h rs) (hlt : x.1 < y.1) (hlen : 0 < y.2) : x.1 + x.2 ≤ y.1 := by
  have hp := busyRuns_pairwise h rs
  obtain ⟨a, b, e⟩ := List.append_of_mem hx
  rw [e] at hp hy
  rw [List.pairwise_append, List.pairwise_cons] at hp
  rcases List.mem_append.1 hy with hy | hy
  · have := hp.2.2 y hy x (by simp)
    omega
  · rcases List.mem_cons.1 hy with rfl | hy
    · omega
    · exact hp.2.1.1 y hy

/-- The starts of two regions of one tiling. -/
theorem heads_apart {q q' t t' : List Region} {r : Region} (e : q ++ t = q' ++ r :: t')
    (h : blocks q' < blocks q) : blocks q' + r.len ≤ blocks q := by
  rcases List.append_eq_append_iff.1 e with ⟨c, h1, h2⟩ | ⟨c, h1, h2⟩
  · rw [h1, blocks_append] at h
    omega
  · cases c with
    | nil =>
      rw [h1, List.append_nil] at h
      omega
    | cons x c =>
      obtain ⟨rfl, -⟩ := List.cons.inj h2
      rw [h1, blocks_append, blocks_cons]
      omega

/-- The recorded predecessor of a region is the region before it. -/
theorem Tiles.prev_real {pre post : List Region} {q r : Region}
    (ht : Tiles s (pre ++ q :: r :: post)) : s.prev (blocks pre + q.len) = blocks pre := by
  obtain ⟨pv, hs⟩ := ht.seg
  rw [seg_append] at hs
  obtain ⟨m, pm, h1, h2⟩ := hs
  have he := h1.end_eq
  rw [Nat.zero_add] at he
  subst he
  exact h2.2.2.2.2.2.2.2.2.1

theorem doAlloc_take {w w' : World σ} {rs : List Region} {fuel i : Nat} (hv : Valid p)
    (h : Tracks p up w rs) (hr : Request size align) (hd : Decides p w.st size align (.take i))
    (hf : 2 * w.st.blockCount ≤ fuel) (ho : doAlloc p up fuel w size align = .ok w') :
    ∃ a s', padding (w.st.data + i * p.blockSize) align = a * p.blockSize ∧
      allocateBlocks p w.st i (w.st.data + (i + a) * p.blockSize) size = .ok s' ∧
      w' = ⟨s', w.up, (w.st.data + (i + a) * p.blockSize, size) :: w.live⟩ := by
  obtain ⟨hi, -, hn⟩ := hd.bound h.placed h.links
  obtain ⟨a, ha⟩ := padding_blocks hv h.placed hr.pow2 i
  have hm := local_exact hv h.placed h.small h.links hr hd (fuel := fuel) (Or.inr hf)
  have e : w.st.data + i * p.blockSize + padding (w.st.data + i * p.blockSize) align
      = w.st.data + (i + a) * p.blockSize := by
    rw [ha, Nat.add_mul, Nat.add_assoc]
  simp only [Means] at hm
  rw [e] at hm
  unfold doAlloc at ho
  obtain ⟨⟨ptr, st, u⟩, h1, h2⟩ := Outcome.bind_eq_ok.1 ho
  have hpos := hr.pos
  have hloc : ∃ x, allocateLocal p fuel w.st size align = .ok x := by
    unfold allocate at h1
    rw [if_neg (by omega)] at h1
    obtain ⟨_, -, h1⟩ := Outcome.bind_eq_ok.1 h1
    obtain ⟨x, h3, -⟩ := Outcome.bind_eq_ok.1 h1
    exact ⟨x, h3⟩
  obtain ⟨x, hx⟩ := hloc
  have hx' := hx
  rw [hm] at hx'
  obtain ⟨s', h3, h4⟩ := Outcome.bind_eq_ok.1 hx'
  rw [h3, Outcome.ok_bind] at hm
  have hB := hv.pos
  have hnw := h.placed.noWrap
  have hd0 := h.placed.data
  have hle := h.placed.le
  have hst : stop w.st i ≤ w.st.blockCount := by
    unfold stop
    have := h.links i hi
    split <;> omega
  unfold TooSmall need at hn
  rw [ha] at hn
  have hlB : (i + (stop w.st i - i)) * p.blockSize ≤ p.maxBlocks * p.blockSize :=
    Nat.mul_le_mul_right _ (by omega)
  rw [Nat.add_mul] at hlB
  have e1 : (i + a) * p.blockSize = i * p.blockSize + a * p.blockSize := Nat.add_mul _ _ _
  have h5 := allocate_served (up := up) (u := w.up) hv hr hm (by omega) (by omega)
    (Nat.dvd_add h.placed.aligned (Nat.dvd_mul_left _ _))
  rw [h5] at h1
  cases h1
  cases h2
  refine ⟨a, _, ha, h3, ?_⟩
  rw [if_neg (by omega)]

theorem choice_needed {w w' : World σ} {rs rs' : List Region} {fuel : Nat} (hv : Valid p)
    (h : Tracks p up w rs) (hr : Request size align) (hf : 2 * w.st.blockCount ≤ fuel)
    (ho : doAlloc p up fuel w size align = .ok w') (h' : Tracks p up w' rs') :
    GoodChoice p w.st size align rs := by
  obtain ⟨r, hd⟩ := decides_total (size := size) (align := align) h.placed h.links
  cases r with
  | never =>
    exfalso
    have := (allocate_stuck (up := up) (u := w.up) hr (o := .outOfFuel)
      (local_exact hv h.placed h.small h.links hr hd (fuel := fuel) (Or.inl rfl))).1 rfl
    unfold doAlloc at ho
    rw [this] at ho
    cases ho
  | refuse => exact Or.inl hd
  | take i =>
    right
    obtain ⟨a, s', ha, hs', rfl⟩ := doAlloc_take hv h hr hd hf ho
    obtain ⟨hi, hfree, hn⟩ := hd.bound h.placed h.links
    obtain ⟨g1, g2⟩ := allocateBlocks_geometry hs'
    have hB := hv.pos
    have hpos := hr.pos
    have t := (tiled_iff.1 h.tiled).1
    have t' := (tiled_iff.1 h'.tiled).1
    have hst : i < stop w.st i ∧ stop w.st i ≤ w.st.blockCount := by
      unfold stop
      have := h.links i hi
      split <;> omega
    unfold TooSmall need at hn
    rw [ha] at hn
    have hfit : a * p.blockSize + size ≤ (stop w.st i - i) * p.blockSize := by omega
    have hal : a < stop w.st i - i := by
      apply Nat.lt_of_not_le
      intro hge
      have : (stop w.st i - i) * p.blockSize ≤ a * p.blockSize := Nat.mul_le_mul_right _ hge
      omega
    -- the busy regions afterwards
    have hin : ∀ x, inArea p s' x = inArea p w.st x := inArea_congr g1 g2
    have hptr : inArea p w.st (w.st.data + (i + a) * p.blockSize) = true := by
      refine inArea_iff.2 ⟨by omega, ?_⟩
      have := Nat.mul_lt_mul_of_pos_right (by omega : i + a < w.st.blockCount) hB
      omega
    have hloc : localLive p (⟨s', w.up, (w.st.data + (i + a) * p.blockSize, size) :: w.live⟩ : World σ)
        = (w.st.data + (i + a) * p.blockSize, size) :: localLive p w := by
      unfold localLive
      simp only [hin]
      rw [List.filter_cons_of_pos (by simpa using hptr)]
    have hl' := h'.live
    rw [hloc] at hl'
    simp only [g1] at hl'
    have inj : ∀ x : Nat × Nat, (w.st.data + x.1 * p.blockSize, x.2) ∈
        ((busyRuns 0 rs').map fun r => (w.st.data + r.1 * p.blockSize, r.2)) →
        x ∈ busyRuns 0 rs' := by
      intro x hx
      obtain ⟨y, hy, he⟩ := List.mem_map.1 hx
      simp only [Prod.mk.injEq] at he
      have h1 := he.1
      have : y.1 = x.1 := Nat.eq_of_mul_eq_mul_right hB (by omega)
      have : y = x := Prod.ext this he.2
      rwa [this] at hy
    have hnew : (i + a, size / p.blockSize + 1) ∈ busyRuns 0 rs' := by
      refine inj (i + a, size / p.blockSize + 1) (hl'.mem_iff.1 ?_)
      rw [List.map_cons]
      exact List.mem_cons_self
    have hold : ∀ x ∈ busyRuns 0 rs, x ∈ busyRuns 0 rs' := by
      intro x hx
      refine inj x (hl'.mem_iff.1 ?_)
      rw [List.map_cons]
      exact List.mem_cons_of_mem _ (h.live.mem_iff.2 (List.mem_map.2 ⟨x, hx, rfl⟩))
    -- an exact fit needs one block more than there is
    have hex : a * p.blockSize + size = (stop w.st i - i) * p.blockSize →
        i + a + size / p.blockSize = stop w.st i := by
      intro he
      have e : size = (stop w.st i - i - a) * p.blockSize := by
        rw [Nat.sub_mul _ a, ← he]
        omega
      rw [e, Nat.mul_div_cancel _ hB]
      omega
    have hsp : a * p.blockSize + size < (stop w.st i - i) * p.blockSize →
        i + a + size / p.blockSize < stop w.st i := by
      intro he
      have : (size + a * p.blockSize) / p.blockSize < stop w.st i - i := by
        rw [Nat.div_lt_iff_lt_mul hB]
        omega
      rw [Nat.add_mul_div_right _ _ hB] at this
      omega
    have hend := busyRuns_le hnew
    rw [t'.blocks_eq, Nat.zero_add] at hend
    simp only [g2] at hend
    have hT := allocateBlocks_taken hv h.placed h.links hi hpos hfit (by omega) hs'
    obtain ⟨pre, r, post, rfl, hlo, hhi⟩ := t.inside hi
    obtain ⟨a1, a2, a3, a4, a5, a6⟩ := t.at
    rcases Nat.eq_or_lt_of_le hlo with heq | hlt
    · subst heq
      obtain ⟨len, b⟩ := r
      simp only at a1 a2 a3 a4 a5 a6 hhi
      rw [hfree] at a4
      subst a4
      refine ⟨pre, len, post, rfl, hd, fun he => ?_⟩
      have e1 := t.stop_real
      simp only at e1
      unfold need at he
      rw [ha] at he
      have e2 := hex (by rw [he, e1, Nat.add_sub_cancel_left])
      cases post with
      | nil =>
        have := a6.1 rfl
        omega
      | cons q post =>
        have hq : q.busy = true := by
          rcases (tiled_iff.1 h.tiled).2 pre ⟨len, false⟩ q post rfl with hc | hc
          · simp at hc
          · exact hc
        have hq2 : (blocks pre + len, q.len) ∈ busyRuns 0 (pre ++ ⟨len, false⟩ :: q :: post) := by
          obtain ⟨ql, qb⟩ := q
          simp only at hq
          subst hq
          rw [busyRuns_append, busyRuns_free, busyRuns_busy]
          simp
        have t2 : Tiles w.st ((pre ++ [⟨len, false⟩]) ++ q :: post) := by simpa using t
        have := busyRuns_apart hnew (hold _ hq2) (by simp only; omega) t2.at.1
        simp only at this
        omega
    · exfalso
      -- block `i` is the start of a region afterwards
      have hhead : ∃ q t, rs' = q ++ t ∧ blocks q = i := by
        obtain ⟨q1, q2, e1, e2, -⟩ := busyRuns_split hnew
        rw [Nat.zero_add] at e2
        simp only at e1 e2
        rcases Nat.eq_zero_or_pos a with h0 | h0
        · exact ⟨q1, _, e1, by omega⟩
        · rcases List.eq_nil_or_concat q1 with rfl | ⟨q, y, rfl⟩
          · rw [blocks_nil] at e2
            omega
          · rw [List.concat_eq_append] at e1 e2
            have t2 : Tiles s' (q ++ y :: ⟨size / p.blockSize + 1, true⟩ :: q2) := by
              rw [e1] at t'
              simpa using t'
            have := t2.prev_real
            rw [blocks_append, blocks_cons, blocks_nil, Nat.add_zero] at e2
            rw [← e2, hT.prev h0] at this
            exact ⟨q, y :: ⟨size / p.blockSize + 1, true⟩ :: q2, by rw [e1]; simp, this.symm⟩
      obtain ⟨q, tq, eq1, eq2⟩ := hhead
      -- yet a region covers it
      have hcover : ∃ q' r' t', rs' = q' ++ r' :: t' ∧ blocks q' = blocks pre ∧
          i < blocks q' + r'.len := by
        cases hb : r.busy with
        | true =>
          have hm : (blocks pre, r.len) ∈ busyRuns 0 (pre ++ r :: post) := by
            obtain ⟨rl, rb⟩ := r
            simp only at hb
            subst hb
            rw [busyRuns_append, busyRuns_busy]
            simp
          obtain ⟨q1, q2, e1, e2, -⟩ := busyRuns_split (hold _ hm)
          rw [Nat.zero_add] at e2
          exact ⟨q1, _, q2, e1, e2.symm, by simp only at e2 ⊢; omega⟩
        | false =>
          have hstart : ∃ q' r' t', rs' = q' ++ r' :: t' ∧ blocks q' = blocks pre := by
            rcases List.eq_nil_or_concat pre with rfl | ⟨pre0, y, rfl⟩
            · cases rs' with
              | nil =>
                have := t'.blocks_eq
                rw [blocks_nil] at this
                simp only [g2] at this
                omega
              | cons z rs' => exact ⟨[], z, rs', rfl, rfl⟩
            · rw [List.concat_eq_append] at *
              have hy : y.busy = true := by
                rcases (tiled_iff.1 h.tiled).2 pre0 y r post (by simp) with hc | hc
                · exact hc
                · rw [hb] at hc
                  simp at hc
              have hm : (blocks pre0, y.len) ∈ busyRuns 0 (pre0 ++ [y] ++ r :: post) := by
                obtain ⟨yl, yb⟩ := y
                simp only at hy
                subst hy
                rw [List.append_assoc, busyRuns_append, List.singleton_append, busyRuns_busy]
                simp
              have e : blocks (pre0 ++ [y]) = blocks pre0 + y.len := by
                rw [blocks_append, blocks_cons, blocks_nil, Nat.add_zero]
              obtain ⟨q', r', t'', f1, f2⟩ := t'.after_busy (hold _ hm)
                (by simp only [g2]; omega)
              exact ⟨q', r', t'', f1, by rw [f2, e]⟩
          obtain ⟨q', r', t'', f1, f2⟩ := hstart
          refine ⟨q', r', t'', f1, f2, ?_⟩
          rw [f1] at t'
          obtain ⟨b1, b2, b3, -⟩ := t'.at
          simp only [g2] at b2 b3
          rw [f2] at b3 b2 ⊢
          rcases hT.next (blocks pre) hlt with hk | hk
          · rw [hk, a3] at b3
            split at b3
            · split at b3 <;> omega
            · split at b3 <;> omega
          · rw [b3] at hk
            split at hk <;> omega
      obtain ⟨q', r', t'', f1, f2, f3⟩ := hcover
      have := heads_apart (eq1.symm.trans f1) (by omega)
      omega

end Utils.SR
