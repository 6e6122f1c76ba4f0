import Verif.Proofs.SRTwin
import Verif.Props.SRCycle
import Verif.Props.SRChoice

/-!
# Property C96: the answers of `simple_resource` depend on the live allocations, not on the past

The claim is false: links left behind by earlier layouts decide some requests.  It is true as long as
every request is a good choice (C81), in particular for every request whose scan does not restart
inside a region.
-/

namespace Utils.Props

open Utils Utils.Bits Utils.SR

variable {p : Params} {s : State} {size align : Nat} {σ : Type} {up : Option (Upstream σ)}

/-- Two resources on the same area with the same live allocations, whatever happened to each before:
as long as every call leaves the bookkeeping of both right, they give the same answers and make the
same calls to upstream.  Missing: requests that go wrong on one of them, see `C96_restart` and
`C96_counterexample`. -/
theorem C96_same_answers_partial (hv : Valid p) {a b : World σ} {ra rb : List Region}
    (ha : Tracks p up a ra) (hb : Tracks p up b rb) (h : Alike a b) (hu : UpstreamOK p a.st up)
    {fuel : Nat} (hf : 2 * a.st.blockCount ≤ fuel) {ops : List Op}
    (hoa : Along p up fuel (GoodOp p) a ops) (hob : Along p up fuel (GoodOp p) b ops) :
    ∃ a' b', run p up fuel a ops = .ok a' ∧ run p up fuel b ops = .ok b' ∧
      b'.live = a'.live ∧ b'.up = a'.up := by
  obtain ⟨a', b', e1, e2, h', -⟩ := twin_run hv ha hb h hu hf hoa hob
  exact ⟨a', b', e1, e2, h'.live, h'.upstream⟩

/-- It is enough to know one of them if no scan restarts inside a region. -/
theorem C96_one_side_partial (hv : Valid p) {a b : World σ} {ra rb : List Region}
    (ha : Tracks p up a ra) (hb : Tracks p up b rb) (h : Alike a b) (hu : UpstreamOK p a.st up)
    {fuel : Nat} (hf : 2 * a.st.blockCount ≤ fuel) {ops : List Op}
    (hops : Along p up fuel (PlainOp p) a ops) :
    ∃ a' b', run p up fuel a ops = .ok a' ∧ run p up fuel b ops = .ok b' ∧
      b'.live = a'.live ∧ b'.up = a'.up := by
  obtain ⟨h1, h2⟩ := twin_plain hv ha hb h hu hf hops
  exact C96_same_answers_partial hv ha hb h hu hf h1 h2

/-- The live allocations determine the regions. -/
theorem C96_regions (hv : Valid p) {a b : World σ} {ra rb : List Region}
    (ha : Tracks p up a ra) (hb : Tracks p up b rb) (h : Alike a b) : rb = ra :=
  h.regions hv ha hb

/-- The decision on a request is the same on both, if the scan does not restart inside a region. -/
theorem C96_decision (hv : Valid p) {a b : World σ} {rs rb : List Region}
    (ha : Tracks p up a rs) (hb : Tracks p up b rb) (h : Alike a b)
    (hu : Unrestarted p a.st size align rs) {x : Answer} :
    Decides p a.st size align x ↔ Decides p b.st size align x := by
  cases h.regions hv ha hb
  have ta := (tiled_iff.1 ha.tiled).1
  have tb := (tiled_iff.1 hb.tiled).1
  constructor
  · exact fun hx => hx.transfer ta tb ha.ne_nil h.data h.count hu
  · refine fun hx => hx.transfer tb ta ha.ne_nil h.data.symm h.count.symm ?_
    intro pre len q post e hl hn
    exact hu pre len q post e hl (by rw [← need_congr h.data]; exact hn)

/-- If it does, the link recorded at block 1, in the middle of the first region, decides: the request
is refused, never returns, or is given block 1. -/
theorem C96_restart {w : World σ} {rs : List Region} (h : Tracks p up w rs)
    (hg : Gate p w.st align) (hu : ¬ Unrestarted p w.st size align rs) :
    (∀ pre r post, rs = pre ++ r :: post → blocks pre ≠ 1) ∧
    (Decides p w.st size align .refuse ↔ TooSmall p w.st size align 1 ∧ w.st.next 1 = 0) ∧
    (Decides p w.st size align .never ↔ TooSmall p w.st size align 1 ∧ w.st.next 1 ≠ 0) ∧
    (Decides p w.st size align (.take 1) ↔ ¬ TooSmall p w.st size align 1) := by
  have hs := (tiled_iff.1 h.tiled).1
  have : ∃ pre len q post, rs = pre ++ ⟨len, false⟩ :: q :: post ∧ (∀ r ∈ pre, r.busy = true) ∧
      len * p.blockSize < need p w.st size align (blocks pre) ∧ (rs.head?.map Region.len) ≠ some 1 := by
    refine Classical.byContradiction fun hc => hu fun pre len q post e hb hx => ?_
    exact Classical.byContradiction fun hl => hc ⟨pre, len, q, post, e, hb, hx, hl⟩
  obtain ⟨pre, len, q, post, e, hb, hx, hl⟩ := this
  cases rs with
  | nil => exact absurd rfl h.ne_nil
  | cons r0 rest =>
    have a := Tiles.at (pre := []) hs
    simp only [blocks_nil, Nat.zero_add] at a
    have h2 : 2 ≤ r0.len := by
      have := a.1
      have : r0.len ≠ 1 := fun h => hl (by simp [h])
      omega
    have t : Tiles w.st (pre ++ ⟨len, false⟩ :: q :: post) := e ▸ hs
    have f0 : Finds w.st 0 (some (blocks pre)) := by
      have := Tiles.finds_free (pre := []) (mid := pre) (len := len) (post := q :: post) hb t
      simpa using this
    have f1 : Finds w.st 1 (some 1) := .here (a.2.2.2.2.1 1 (by omega) (by omega))
    have ts : TooSmall p w.st size align (blocks pre) := by
      unfold TooSmall
      rw [t.stop_real, Nat.add_sub_cancel_left]
      exact hx
    have hn : w.st.next (blocks pre) ≠ 0 := by
      have b := t.at
      have hne : blocks pre + len ≠ w.st.blockCount := fun h => by cases b.2.2.2.2.2.2 h
      rw [b.2.2.1, if_neg hne]
      have := b.1
      simp only at this ⊢
      omega
    refine ⟨?_, ?_⟩
    · intro pre' r post' e'
      cases pre' with
      | nil => rw [blocks_nil]; decide
      | cons y pre' =>
        obtain ⟨rfl, -⟩ := List.cons.inj e'
        rw [blocks_cons]
        omega
    by_cases k1 : TooSmall p w.st size align 1
    · by_cases k2 : w.st.next 1 = 0
      · have d : Decides p w.st size align .refuse := .secondLast hg f0 ts hn f1 k1 k2
        exact ⟨⟨fun _ => ⟨k1, k2⟩, fun _ => d⟩, ⟨fun h => (by cases h.unique d), fun h => absurd k2 h.2⟩,
          ⟨fun h => (by cases h.unique d), fun h => absurd k1 h⟩⟩
      · have d : Decides p w.st size align .never := .never hg f0 ts hn f1 k1 k2
        exact ⟨⟨fun h => (by cases h.unique d), fun h => absurd h.2 k2⟩, ⟨fun _ => ⟨k1, k2⟩, fun _ => d⟩,
          ⟨fun h => (by cases h.unique d), fun h => absurd k1 h⟩⟩
    · have d : Decides p w.st size align (.take 1) := .second hg f0 ts hn f1 k1
      exact ⟨⟨fun h => (by cases h.unique d), fun h => absurd h.1 k1⟩,
        ⟨fun h => (by cases h.unique d), fun h => absurd h.1 k1⟩, ⟨fun _ => k1, fun _ => d⟩⟩

/-- Scans that do not restart inside a region: the safely scanned requests of C46-C60, every request
while the first region has one block, and every request while all is free. -/
theorem C96_unrestarted {rs : List Region} :
    (SafeScan p s size align rs → Unrestarted p s size align rs) ∧
    ((rs.head?.map Region.len) = some 1 → Unrestarted p s size align rs) ∧
    (∀ r, rs = [r] → Unrestarted p s size align rs) := by
  refine ⟨?_, fun h _ _ _ _ _ _ _ => h, ?_⟩
  · -- the first free region is the only one that matters
    have split : ∀ {a b c d : List Region} {x y : Nat}, (∀ r ∈ a, r.busy = true) →
        (∀ r ∈ c, r.busy = true) → a ++ ⟨x, false⟩ :: b = c ++ ⟨y, false⟩ :: d →
        a = c ∧ x = y ∧ b = d := by
      intro a
      induction a with
      | nil =>
        intro b c d x y _ hc e
        cases c with
        | nil =>
          simp only [List.nil_append, List.cons.injEq, Region.mk.injEq, and_true] at e
          exact ⟨rfl, e.1, e.2⟩
        | cons z c =>
          simp only [List.nil_append, List.cons_append, List.cons.injEq] at e
          have := hc z (List.mem_cons_self ..)
          rw [← e.1] at this
          cases this
      | cons z a ih =>
        intro b c d x y ha hc e
        cases c with
        | nil =>
          simp only [List.nil_append, List.cons_append, List.cons.injEq] at e
          have := ha z (List.mem_cons_self ..)
          rw [e.1] at this
          cases this
        | cons z' c =>
          simp only [List.cons_append, List.cons.injEq] at e
          obtain ⟨k1, k2, k3⟩ := ih (fun r hr => ha r (List.mem_cons_of_mem _ hr))
            (fun r hr => hc r (List.mem_cons_of_mem _ hr)) e.2
          exact ⟨by rw [e.1, k1], k2, k3⟩
    intro h
    cases h with
    | full hb =>
      intro pre len q post e _ _
      have := hb ⟨len, false⟩ (by rw [e]; simp)
      cases this
    | first hb hf =>
      intro pre len q post e hb' hx
      obtain ⟨rfl, rfl, -⟩ := split hb hb' e
      omega
    | last hb hf =>
      intro pre len q post e hb' hx
      obtain ⟨-, -, e⟩ := split hb hb' e
      cases e
    | skipFull => exact fun _ _ _ _ _ _ _ => rfl
    | skipFirst => exact fun _ _ _ _ _ _ _ => rfl
    | skipLast => exact fun _ _ _ _ _ _ _ => rfl
  · rintro r rfl pre len q post e _ _
    have := congrArg List.length e
    simp only [List.length_cons, List.length_nil, List.length_append] at this
    omega

/-- A resource that is used again after everything has been given back, or taken back by `release`,
behaves like a new one, as long as every request is a good choice on both. -/
theorem C96_like_new_partial (hv : Valid p) {buffer bytes : Nat} (hf : Fresh p buffer bytes s)
    (hu : UpstreamOK p s up) (u : σ) {fuel : Nat}
    (hfuel : (s.blockCount + 1) * (s.blockCount + 2) ≤ fuel) {past : List COp}
    (hpast : CAlong p up fuel (GoodOp p) ⟨s, u, []⟩ past) {w : World σ}
    (hrun : crun p up fuel ⟨s, u, []⟩ past = .ok w) (hempty : w.live = []) {ops : List Op}
    (hw : Along p up fuel (GoodOp p) w ops) (hs : Along p up fuel (GoodOp p) ⟨s, w.up, []⟩ ops) :
    ∃ w' s', run p up fuel w ops = .ok w' ∧ run p up fuel ⟨s, w.up, []⟩ ops = .ok s' ∧
      w'.live = s'.live ∧ w'.up = s'.up := by
  obtain ⟨w1, e1, ⟨rs, h1⟩, h2, h3⟩ := cycle_history hv (hf.start (up := up) hv u).1 hu hfuel hpast
  rw [hrun] at e1
  cases e1
  have hn : 2 * s.blockCount ≤ fuel := by
    refine Nat.le_trans ?_ hfuel
    rw [Nat.add_mul, Nat.mul_add, Nat.mul_comm 2]
    omega
  obtain ⟨a', b', x1, x2, x3, x4⟩ := C96_same_answers_partial hv
    (hf.start (up := up) hv w.up).1 h1 ⟨h2, h3, hempty, rfl⟩ hu hn hs hw
  exact ⟨b', a', x2, x1, x3, x4⟩

/-- In particular the first request: any that does not fill the area to its last byte. -/
theorem C96_first_request {w : World σ} {rs : List Region} (h : Tracks p up w rs)
    (hempty : localLive p w = []) (hr : Request size align)
    (hfit : need p w.st size align 0 ≠ w.st.blockCount * p.blockSize) :
    PlainOp p w (.alloc size align) := by
  refine ⟨hr, fun rs' ht => ?_⟩
  have t := (tiled_iff.1 ht).1
  have hone := h.placed.some
  have hb : busyRuns 0 rs = [] := by
    have := h.live
    rw [hempty] at this
    exact List.length_eq_zero_iff.1 (by simpa using this.length_eq.symm)
  cases Tiles.eq (tiled_iff.1 h.tiled).1 hone t
  have hrs : rs = [⟨w.st.blockCount, false⟩] := by
    refine ht.all_free hone fun j hj => ?_
    obtain ⟨pre, r, post, rfl, e1, e2⟩ := t.inside hj
    obtain ⟨a1, a2, a3, a4, a5, a6⟩ := t.at
    have hr : r.busy = false := by
      cases hrb : r.busy with
      | false => rfl
      | true =>
        exfalso
        rw [busyRuns_append] at hb
        have hb := (List.append_eq_nil_iff.1 hb).2
        unfold busyRuns at hb
        rw [hrb] at hb
        simp at hb
    rcases Nat.lt_or_ge (blocks pre) j with e | e
    · exact a5 j e e2
    · have : j = blocks pre := by omega
      rw [this, a4, hr]
  subst hrs
  refine ⟨?_, C96_unrestarted.2.2 _ rfl⟩
  have a := Tiles.at (pre := []) t
  simp only [blocks_nil, Nat.zero_add] at a
  have f0 : Finds w.st 0 (some 0) := .here a.2.2.2.1
  have hn : w.st.next 0 = 0 := by rw [a.2.2.1, if_pos trivial]
  by_cases hg : Gate p w.st align
  · by_cases ts : TooSmall p w.st size align 0
    · exact Or.inl (.firstLast hg f0 ts hn)
    · exact Or.inr ⟨[], _, [], rfl, .first hg f0 ts, hfit⟩
  · exact Or.inl (.gate hg)

/-- A resource that has served and got back a small allocation answers the next request, whatever it
is, like a new one: the hypotheses of `C96_like_new_partial` are met. -/
example {w : World Unit}
    (hrun : crun pDebug none 5000 (⟨fresh pDebug 4096 32, (), []⟩ : World Unit)
      [.call (.alloc 20 16), .call (.free 0)] = .ok w) (hempty : w.live = [])
    (hr : Request size align)
    (hfit : need pDebug (fresh pDebug 4096 32) size align 0 ≠ 256) :
    ∃ w' s', run pDebug none 5000 w [.alloc size align] = .ok w' ∧
      run pDebug none 5000 ⟨fresh pDebug 4096 32, (), []⟩ [.alloc size align] = .ok s' ∧
      w'.live = s'.live ∧ w'.up = s'.up := by
  have hstart := (fresh_debug.start (up := (none : Option (Upstream Unit))) pDebug_valid ()).1
  have hn : (fresh pDebug 4096 32).blockCount = 32 := by decide
  have hpast : CAlong pDebug none 5000 (GoodOp pDebug) (⟨fresh pDebug 4096 32, (), []⟩ : World Unit)
      [.call (.alloc 20 16), .call (.free 0)] := by
    refine ⟨?_, fun _ _ => ⟨?_, fun _ _ => trivial⟩⟩
    · rintro o h
      cases h
      have := C96_first_request hstart rfl (size := 20) (align := 16) ⟨⟨4, rfl⟩, by decide, by decide⟩
        (by decide)
      exact ⟨this.1, fun rs ht => (this.2 rs ht).1⟩
    · rintro o h
      cases h
      trivial
  obtain ⟨w1, e1, ⟨rs, h1⟩, h2, h3⟩ := cycle_history pDebug_valid hstart nofun
    (by rw [hn]; decide) hpast
  rw [hrun] at e1
  cases e1
  have g1 := C96_first_request (w := w) h1 (by unfold localLive; rw [hempty]; rfl) hr
    (by rw [need_congr h2, h3, hn]; exact hfit)
  have g2 := C96_first_request hstart rfl hr (by rw [hn]; exact hfit)
  exact C96_like_new_partial pDebug_valid fresh_debug nofun () (by rw [hn]; decide) hpast hrun hempty
    ⟨⟨g1.1, fun rs ht => (g1.2 rs ht).1⟩, fun _ _ => trivial⟩
    ⟨⟨g2.1, fun rs ht => (g2.2 rs ht).1⟩, fun _ _ => trivial⟩

/-- The full claim is false.  Three one-block allocations are made and given back, which leaves a link
at block 1 behind.  Then the same four calls as on a new resource end differently: on the new one the
last request is served (with memory in use, C48), on the other it never returns (32 blocks; a request
that returns does so within 64 rounds, C79). -/
theorem C96_counterexample :
    liveAfter pDebug (fresh pDebug 4096 32)
      [.alloc 1 1, .alloc 1 1, .alloc 1 1, .free 2, .free 0, .free 0] = .ok [] ∧
    liveAfter pDebug (fresh pDebug 4096 32) [.alloc 16 1, .alloc 1 1, .free 1, .alloc 25 1] =
      .ok [(4104, 25), (4120, 1)] ∧
    liveAfter pDebug (fresh pDebug 4096 32)
      ([.alloc 1 1, .alloc 1 1, .alloc 1 1, .free 2, .free 0, .free 0] ++
        [.alloc 16 1, .alloc 1 1, .free 1, .alloc 25 1]) = .outOfFuel := by
  refine ⟨by decide +kernel, by decide +kernel, by decide +kernel⟩

end Utils.Props
