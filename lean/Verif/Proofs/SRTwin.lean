import Verif.Proofs.SRCycle
import Verif.Spec.SRTwin

/-! The answers of `simple_resource` depend on the live allocations only, unless the scan restarts
inside a region. -/

namespace Utils.SR

open Utils Utils.Bits

variable {p : Params} {s : State} {size align : Nat} {σ : Type} {up : Option (Upstream σ)}

/-! ## The live allocations determine the regions -/

theorem busyRuns_sorted {h : Nat} {rs : List Region} (hpos : ∀ r ∈ rs, 0 < r.len) :
    (busyRuns h rs).Pairwise fun x y => x.1 < y.1 := by
  induction rs generalizing h with
  | nil => exact .nil
  | cons r rs ih =>
    have ih := ih (h := h + r.len) fun q hq => hpos q (List.mem_cons_of_mem _ hq)
    unfold busyRuns
    split
    · refine List.Pairwise.cons (fun x hx => ?_) ih
      have := busyRuns_ge hx
      have := hpos r (List.mem_cons_self ..)
      show h < x.1
      omega
    · exact ih

/-- A list of maximal regions is determined by its busy runs and its length. -/
theorem regions_eq {h : Nat} {a b : List Region} (ha : ∀ r ∈ a, 0 < r.len) (hb : ∀ r ∈ b, 0 < r.len)
    (ca : Coalesced a) (cb : Coalesced b) (hn : blocks a = blocks b)
    (hr : busyRuns h a = busyRuns h b) : a = b := by
  induction a generalizing h b with
  | nil =>
    cases b with
    | nil => rfl
    | cons r b =>
      have := hb r (List.mem_cons_self ..)
      rw [blocks_cons, blocks_nil] at hn
      omega
  | cons q a ih =>
    cases b with
    | nil =>
      have := ha q (List.mem_cons_self ..)
      rw [blocks_cons, blocks_nil] at hn
      omega
    | cons r b =>
      have ca' : Coalesced a := fun x y z t e => ca (q :: x) y z t (by rw [e]; rfl)
      have cb' : Coalesced b := fun x y z t e => cb (r :: x) y z t (by rw [e]; rfl)
      have ha' : ∀ r ∈ a, 0 < r.len := fun x hx => ha x (List.mem_cons_of_mem _ hx)
      have hb' : ∀ r ∈ b, 0 < r.len := fun x hx => hb x (List.mem_cons_of_mem _ hx)
      have hq := ha q (List.mem_cons_self ..)
      have hr0 := hb r (List.mem_cons_self ..)
      obtain ⟨l, u⟩ := q
      obtain ⟨m, v⟩ := r
      simp only at hq hr0
      rw [blocks_cons, blocks_cons] at hn
      simp only at hn
      -- what follows a free region is busy or nothing
      have next : ∀ {l : Nat} {t : List Region}, Coalesced (⟨l, false⟩ :: t) →
          t = [] ∨ ∃ k t', t = ⟨k, true⟩ :: t' := by
        intro l t c
        cases t with
        | nil => exact Or.inl rfl
        | cons y t =>
          have := c [] ⟨l, false⟩ y t rfl
          obtain ⟨k, w⟩ := y
          simp only [Bool.false_eq_true, false_or] at this
          subst this
          exact Or.inr ⟨k, t, rfl⟩
      cases u with
      | true =>
        cases v with
        | true =>
          simp only [busyRuns, if_true, List.cons.injEq, Prod.mk.injEq, true_and] at hr
          obtain ⟨rfl, hr⟩ := hr
          rw [ih ha' hb' ca' cb' (by omega) hr]
        | false =>
          exfalso
          simp only [busyRuns, if_true, Bool.false_eq_true, if_false] at hr
          have := busyRuns_ge (hr ▸ List.mem_cons_self .. : (h, l) ∈ _)
          simp only at this
          omega
      | false =>
        cases v with
        | true =>
          exfalso
          simp only [busyRuns, if_true, Bool.false_eq_true, if_false] at hr
          have := busyRuns_ge (hr ▸ List.mem_cons_self .. : (h, m) ∈ _)
          simp only at this
          omega
        | false =>
          have hlm : l = m := by
            rcases next ca with rfl | ⟨k, t, rfl⟩ <;> rcases next cb with rfl | ⟨k', t', rfl⟩
            · rw [blocks_nil] at hn; omega
            · simp [busyRuns] at hr
            · simp [busyRuns] at hr
            · simp only [busyRuns, if_true, Bool.false_eq_true, if_false, List.cons.injEq,
                Prod.mk.injEq] at hr
              omega
          subst hlm
          simp only [busyRuns, Bool.false_eq_true, if_false] at hr
          rw [ih ha' hb' ca' cb' (by omega) hr]

theorem Alike.localLive {a b : World σ} (h : Alike a b) : localLive p b = localLive p a := by
  unfold SR.localLive inArea
  rw [h.live, h.data, h.count]

/-- Resources that are alike have the same regions. -/
theorem Alike.regions {a b : World σ} (hv : Valid p) (h : Alike a b) {ra rb : List Region}
    (ha : Tracks p up a ra) (hb : Tracks p up b rb) : rb = ra := by
  have ta := tiled_iff.1 ha.tiled
  have tb := tiled_iff.1 hb.tiled
  have hB := hv.pos
  have hp : (busyRuns 0 ra).Perm (busyRuns 0 rb) := by
    have h1 := ha.live
    have h2 := hb.live
    rw [h.localLive] at h2
    have h3 := h1.symm.trans h2
    rw [h.data] at h3
    have back : ∀ l : List (Nat × Nat), (l.map fun r => (a.st.data + r.1 * p.blockSize, r.2)).map
        (fun x => ((x.1 - a.st.data) / p.blockSize, x.2)) = l := by
      intro l
      rw [List.map_map]
      refine (List.map_congr_left (g := id) fun x _ => ?_).trans (List.map_id _)
      simp only [Function.comp, Nat.add_sub_cancel_left, Nat.mul_div_cancel _ hB, id]
    have h4 := h3.map fun x => ((x.1 - a.st.data) / p.blockSize, x.2)
    rwa [back, back] at h4
  have e : busyRuns 0 ra = busyRuns 0 rb :=
    hp.eq_of_pairwise (fun x y _ _ h1 h2 => by omega) (busyRuns_sorted ta.1.len_pos)
      (busyRuns_sorted tb.1.len_pos)
  exact (regions_eq ta.1.len_pos tb.1.len_pos ta.2 tb.2
    (by rw [ta.1.blocks_eq, tb.1.blocks_eq, h.count]) e).symm

/-! ## The regions determine the answer -/

theorem Tiles.finds_transfer {t : State} {pre rest : List Region} (hne : rest ≠ [])
    (hs : Tiles s (pre ++ rest)) (ht : Tiles t (pre ++ rest)) {r : Option Nat}
    (h : Finds s (blocks pre) r) : Finds t (blocks pre) r := by
  rcases exists_first_free rest with hb | ⟨mid, len, post, rfl, hb⟩
  · rw [h.unique (hs.finds_none hne hb)]
    exact ht.finds_none hne hb
  · rw [h.unique (hs.finds_free hb)]
    exact ht.finds_free hb

theorem need_congr {t : State} (hd : t.data = s.data) (i : Nat) :
    need p t size align i = need p s size align i := by
  unfold need
  rw [hd]

theorem Tiles.tooSmall_transfer {t : State} {pre post : List Region} {r : Region}
    (hs : Tiles s (pre ++ r :: post)) (ht : Tiles t (pre ++ r :: post)) (hd : t.data = s.data) :
    TooSmall p t size align (blocks pre) ↔ TooSmall p s size align (blocks pre) := by
  unfold TooSmall
  rw [hs.stop_real, ht.stop_real, need_congr hd]

theorem Tiles.next_transfer {t : State} {pre post : List Region} {r : Region}
    (hs : Tiles s (pre ++ r :: post)) (ht : Tiles t (pre ++ r :: post))
    (hc : t.blockCount = s.blockCount) : t.next (blocks pre) = s.next (blocks pre) := by
  rw [hs.at.2.2.1, ht.at.2.2.1, hc]

/-- The decision on a request whose scan does not restart inside a region. -/
theorem Decides.transfer {t : State} {rs : List Region} (hs : Tiles s rs) (ht : Tiles t rs)
    (hne : rs ≠ []) (hd : t.data = s.data) (hc : t.blockCount = s.blockCount)
    (hu : Unrestarted p s size align rs) {a : Answer} (h : Decides p s size align a) :
    Decides p t size align a := by
  have hg : Gate p t align ↔ Gate p s align := by unfold Gate; rw [hd, hc]
  have f0 : ∀ {r}, Finds s 0 r → Finds t 0 r := fun h =>
    Tiles.finds_transfer (pre := []) hne hs ht h
  -- the first free region
  have key : ∀ {i}, Finds s 0 (some i) →
      (TooSmall p t size align i ↔ TooSmall p s size align i) ∧ t.next i = s.next i ∧
      (TooSmall p s size align i → s.next i ≠ 0 → ∃ b rest, rest ≠ [] ∧ rs = ⟨1, b⟩ :: rest) := by
    intro i hi
    obtain ⟨mid, len, post, rfl, rfl, hb⟩ := Tiles.finds_real (pre := []) hne hs hi
    simp only [List.nil_append] at *
    refine ⟨hs.tooSmall_transfer ht hd, hs.next_transfer ht hc, fun h1 h2 => ?_⟩
    have hp : post ≠ [] := by
      rintro rfl
      apply h2
      rw [hs.at.2.2.1, if_pos (hs.at.2.2.2.2.2.1 rfl)]
    obtain ⟨q, post, rfl⟩ := List.exists_cons_of_ne_nil hp
    unfold TooSmall at h1
    rw [hs.stop_real, Nat.add_sub_cancel_left] at h1
    have := hu mid len q post rfl hb h1
    cases mid with
    | nil =>
      simp only [List.nil_append, List.head?_cons, Option.map_some, Option.some.injEq] at this
      subst this
      exact ⟨_, _, List.cons_ne_nil _ _, rfl⟩
    | cons y mid =>
      obtain ⟨l, u⟩ := y
      simp only [List.cons_append, List.head?_cons, Option.map_some, Option.some.injEq] at this
      subst this
      exact ⟨_, _, by simp, rfl⟩
  -- the second scan
  have key1 : ∀ {b rest}, rest ≠ [] → rs = ⟨1, b⟩ :: rest →
      (∀ {r}, Finds s 1 r → Finds t 1 r) ∧
      ∀ {j}, Finds s 1 (some j) → (TooSmall p t size align j ↔ TooSmall p s size align j) ∧
        t.next j = s.next j := by
    rintro b rest hr rfl
    have e1 : blocks [(⟨1, b⟩ : Region)] = 1 := rfl
    have t1 : Tiles s ([⟨1, b⟩] ++ rest) := hs
    have t2 : Tiles t ([⟨1, b⟩] ++ rest) := ht
    refine ⟨fun h => ?_, fun h => ?_⟩
    · have := t1.finds_transfer hr t2 (r := _) (by rw [e1]; exact h)
      rwa [e1] at this
    · obtain ⟨mid, len, post, rfl, rfl, hb⟩ := t1.finds_real hr (by rw [e1]; exact h)
      have t1 : Tiles s (([⟨1, b⟩] ++ mid) ++ ⟨len, false⟩ :: post) := by simpa using t1
      have t2 : Tiles t (([⟨1, b⟩] ++ mid) ++ ⟨len, false⟩ :: post) := by simpa using t2
      exact ⟨t1.tooSmall_transfer t2 hd, t1.next_transfer t2 hc⟩
  cases h with
  | gate h => exact .gate (mt hg.1 h)
  | full h h0 => exact .full (hg.2 h) (f0 h0)
  | first h h0 hf => exact .first (hg.2 h) (f0 h0) (mt (key h0).1.1 hf)
  | firstLast h h0 hs' hn =>
    exact .firstLast (hg.2 h) (f0 h0) ((key h0).1.2 hs') ((key h0).2.1.trans hn)
  | fullFromOne h h0 hs' hn h1 =>
    obtain ⟨b, rest, hr, e⟩ := (key h0).2.2 hs' hn
    exact .fullFromOne (hg.2 h) (f0 h0) ((key h0).1.2 hs') (by rw [(key h0).2.1]; exact hn)
      ((key1 hr e).1 h1)
  | second h h0 hs' hn h1 hf =>
    obtain ⟨b, rest, hr, e⟩ := (key h0).2.2 hs' hn
    exact .second (hg.2 h) (f0 h0) ((key h0).1.2 hs') (by rw [(key h0).2.1]; exact hn)
      ((key1 hr e).1 h1) (mt ((key1 hr e).2 h1).1.1 hf)
  | secondLast h h0 hs' hn h1 hs1 hn1 =>
    obtain ⟨b, rest, hr, e⟩ := (key h0).2.2 hs' hn
    exact .secondLast (hg.2 h) (f0 h0) ((key h0).1.2 hs') (by rw [(key h0).2.1]; exact hn)
      ((key1 hr e).1 h1) (((key1 hr e).2 h1).1.2 hs1) (((key1 hr e).2 h1).2.trans hn1)
  | never h h0 hs' hn h1 hs1 hn1 =>
    obtain ⟨b, rest, hr, e⟩ := (key h0).2.2 hs' hn
    exact .never (hg.2 h) (f0 h0) ((key h0).1.2 hs') (by rw [(key h0).2.1]; exact hn)
      ((key1 hr e).1 h1) (((key1 hr e).2 h1).1.2 hs1) (by rw [((key1 hr e).2 h1).2]; exact hn1)

/-- A good choice after a restart inside a region is a refusal. -/
theorem GoodChoice.restarted {rs : List Region} (hs : Tiles s rs)
    (hu : ¬ Unrestarted p s size align rs) (h : GoodChoice p s size align rs) :
    Decides p s size align .refuse := by
  rcases h with h | ⟨pre', len', post', e', h, -⟩
  · exact h
  exfalso
  apply hu
  intro pre len q post e hb hsm
  cases rs with
  | nil => simp at e
  | cons r0 rest =>
    refine Classical.byContradiction fun hlen => ?_
    have a := Tiles.at (pre := []) hs
    simp only [blocks_nil, Nat.zero_add] at a
    have h2 : 2 ≤ r0.len := by
      have := a.1
      have : r0.len ≠ 1 := fun h => hlen (by simp [h])
      omega
    have f0 : Finds s 0 (some (blocks pre)) := by
      have := Tiles.finds_free (pre := []) (mid := pre) (len := len) (post := q :: post) hb
        (by rw [← e]; exact hs)
      simpa using this
    generalize hi : blocks pre' = i at h
    cases h with
    | first _ h0 hf =>
      have ei : i = blocks pre := Option.some.inj (h0.unique f0)
      apply hf
      rw [ei]
      have t : Tiles s (pre ++ ⟨len, false⟩ :: q :: post) := e ▸ hs
      unfold TooSmall
      rw [t.stop_real, Nat.add_sub_cancel_left]
      exact hsm
    | second _ h0 hs' hn h1 hf =>
      have e1 : i = 1 := Option.some.inj (h1.unique (.here (a.2.2.2.2.1 1 (by omega) (by omega))))
      cases pre' with
      | nil => rw [blocks_nil] at hi; omega
      | cons y pre' =>
        obtain ⟨rfl, -⟩ := List.cons.inj e'
        rw [blocks_cons] at hi
        omega

/-- Good choices on the same regions are the same. -/
theorem GoodChoice.same {t : State} {rs : List Region} (hs : Tiles s rs) (ht : Tiles t rs)
    (hne : rs ≠ []) (hd : t.data = s.data) (hc : t.blockCount = s.blockCount)
    (h1 : GoodChoice p s size align rs) (h2 : GoodChoice p t size align rs) :
    (Decides p s size align .refuse ∧ Decides p t size align .refuse) ∨
    ∃ pre len post, rs = pre ++ ⟨len, false⟩ :: post ∧
      Decides p s size align (.take (blocks pre)) ∧ Decides p t size align (.take (blocks pre)) ∧
      need p s size align (blocks pre) ≠ len * p.blockSize := by
  by_cases hu : Unrestarted p s size align rs
  · rcases h1 with h | ⟨pre, len, post, e, h, hx⟩
    · exact Or.inl ⟨h, h.transfer hs ht hne hd hc hu⟩
    · exact Or.inr ⟨pre, len, post, e, h, h.transfer hs ht hne hd hc hu, hx⟩
  · refine Or.inl ⟨h1.restarted hs hu, h2.restarted ht fun h => hu fun pre len q post e hb hx => ?_⟩
    exact h pre len q post e hb (by rw [need_congr hd]; exact hx)

theorem Tracks.ne_nil {w : World σ} {rs : List Region} (h : Tracks p up w rs) : rs ≠ [] := by
  rintro rfl
  have := (tiled_iff.1 h.tiled).1.blocks_eq
  have := h.placed.some
  rw [blocks_nil] at *
  omega

/-- A good choice whose scan does not restart inside a region is one on every resource that is
alike. -/
theorem PlainOp.alike {a b : World σ} {ra rb : List Region} (hv : Valid p) (ha : Tracks p up a ra)
    (hb : Tracks p up b rb) (h : Alike a b) {op : Op} (hop : PlainOp p a op) :
    GoodOp p a op ∧ GoodOp p b op := by
  cases op with
  | free i => exact ⟨trivial, trivial⟩
  | alloc size align =>
    cases h.regions hv ha hb
    refine ⟨⟨hop.1, fun rs ht => (hop.2 rs ht).1⟩, hop.1, fun rs ht => ?_⟩
    have ta := (tiled_iff.1 ha.tiled).1
    have tb := (tiled_iff.1 hb.tiled).1
    cases Tiles.eq tb hb.placed.some (tiled_iff.1 ht).1
    obtain ⟨hg, hu⟩ := hop.2 _ ha.tiled
    rcases hg with hd | ⟨pre, len, post, e, hd, hx⟩
    · exact Or.inl (hd.transfer ta tb ha.ne_nil h.data h.count hu)
    · exact Or.inr ⟨pre, len, post, e, hd.transfer ta tb ha.ne_nil h.data h.count hu,
        by rw [need_congr h.data]; exact hx⟩

/-! ## Calls on two resources that are alike -/

/-- A refused request. -/
theorem doAlloc_decided_refuse {w : World σ} {rs : List Region} {fuel : Nat} (hv : Valid p)
    (h : Tracks p up w rs) (hu : UpstreamOK p w.st up) (hr : Request size align)
    (hd : Decides p w.st size align .refuse) (hf : 2 * w.st.blockCount ≤ fuel) :
    doAlloc p up fuel w size align = .ok ⟨w.st, (askUpstream up w.up size align).2,
      if (askUpstream up w.up size align).1 = 0 then w.live
      else ((askUpstream up w.up size align).1, size) :: w.live⟩ := by
  obtain ⟨u1, u2, -, -⟩ := askUpstream_ok (u := w.up) (size := size) (align := align) hu
  have h1 := allocate_refused (u := w.up) hv hr
    (local_exact hv h.placed h.small h.links hr hd (Or.inr hf)) u1 (fun _ => u2)
  unfold doAlloc
  rw [h1]
  rfl

/-- A request that is given a free region with a byte to spare. -/
theorem doAlloc_decided_take {w : World σ} {pre post : List Region} {len fuel : Nat} (hv : Valid p)
    (h : Tracks p up w (pre ++ ⟨len, false⟩ :: post)) (hr : Request size align)
    (hd : Decides p w.st size align (.take (blocks pre)))
    (hs : need p w.st size align (blocks pre) ≠ len * p.blockSize) (hf : 2 * w.st.blockCount ≤ fuel) :
    ∃ s', doAlloc p up fuel w size align = .ok ⟨s', w.up, (w.st.data + blocks pre * p.blockSize +
      padding (w.st.data + blocks pre * p.blockSize) align, size) :: w.live⟩ := by
  obtain ⟨hi, hu', hn⟩ := hd.bound h.placed h.links
  have ht := (tiled_iff.1 h.tiled).1
  have hst := ht.stop_real
  simp only at hst
  have hfit : need p w.st size align (blocks pre) < len * p.blockSize := by
    unfold TooSmall at hn
    rw [hst, Nat.add_sub_cancel_left] at hn
    omega
  obtain ⟨s', ptr, a, e, h5⟩ := scanFrom_fit (fuel := 0) hv h.placed h.tiled hr hfit
  rw [(scanFrom_link (fuel := 0) hv h.placed h.links hi hr).2.2 hu'
    (by rw [regionEnd_eq, hst, Nat.add_sub_cancel_left]; omega)] at e
  have hm := local_exact hv h.placed h.small h.links hr hd (fuel := fuel) (Or.inr hf)
  simp only [Means] at hm
  rw [e] at hm
  obtain ⟨b1, b2, b3, b4, b5⟩ := h5.bounds hv h.placed ht
  have h1 := allocate_served (up := up) (u := w.up) hv hr hm b5 (by omega) b4
  refine ⟨s', ?_⟩
  unfold doAlloc
  rw [h1, h5.pad, Nat.add_assoc, ← Nat.add_mul, ← h5.at_block]
  simp [b5]

/-- One call. -/
theorem twin_step {a b : World σ} {ra rb : List Region} {fuel : Nat} (hv : Valid p)
    (ha : Tracks p up a ra) (hb : Tracks p up b rb) (h : Alike a b) (hu : UpstreamOK p a.st up)
    (hf : 2 * a.st.blockCount ≤ fuel) {op : Op} (hop : GoodOp p a op) (hob : GoodOp p b op) :
    ∃ a' b', step p up fuel a op = .ok a' ∧ step p up fuel b op = .ok b' ∧ Alike a' b' ∧
      (∃ ra', Tracks p up a' ra') ∧ (∃ rb', Tracks p up b' rb') ∧
      a'.st.data = a.st.data ∧ a'.st.blockCount = a.st.blockCount := by
  cases h.regions hv ha hb
  have hu' : UpstreamOK p b.st up := hu.congr h.data h.count
  have hf' : 2 * b.st.blockCount ≤ fuel := h.count ▸ hf
  cases op with
  | alloc size align =>
    obtain ⟨hr, hc⟩ := hop
    have hg := hc _ ha.tiled
    have hgb := hob.2 _ hb.tiled
    have ta := (tiled_iff.1 ha.tiled).1
    have tb := (tiled_iff.1 hb.tiled).1
    have hne := ha.ne_nil
    have hsame := GoodChoice.same ta tb hne h.data h.count hg hgb
    obtain ⟨a', ea, resa⟩ := doAlloc_choice hv ha hu hr hg hf
    obtain ⟨b', eb, resb⟩ := doAlloc_choice hv hb hu' hr hgb hf'
    obtain ⟨x1, x2, x3⟩ := resa.tracked
    obtain ⟨y1, y2, y3⟩ := resb.tracked
    refine ⟨a', b', ea, eb, ⟨by rw [y1, x1, h.data], by rw [y2, x2, h.count], ?_, ?_⟩, x3, y3, x1, x2⟩
    · rcases hsame with ⟨hd, hd'⟩ | ⟨pre, len, post, rfl, hd, hd', hs⟩
      · rw [doAlloc_decided_refuse hv ha hu hr hd hf] at ea
        rw [doAlloc_decided_refuse hv hb hu' hr hd' hf'] at eb
        cases ea; cases eb
        simp only [h.live, h.upstream]
      · obtain ⟨s1, e1⟩ := doAlloc_decided_take hv ha hr hd hs hf
        obtain ⟨s2, e2⟩ := doAlloc_decided_take hv hb hr hd'
          (by rw [need_congr h.data]; exact hs) hf'
        rw [e1] at ea
        rw [e2] at eb
        cases ea; cases eb
        simp only [h.live, h.data]
    · rcases hsame with ⟨hd, hd'⟩ | ⟨pre, len, post, rfl, hd, hd', hs⟩
      · rw [doAlloc_decided_refuse hv ha hu hr hd hf] at ea
        rw [doAlloc_decided_refuse hv hb hu' hr hd' hf'] at eb
        cases ea; cases eb
        simp only [h.upstream]
      · obtain ⟨s1, e1⟩ := doAlloc_decided_take hv ha hr hd hs hf
        obtain ⟨s2, e2⟩ := doAlloc_decided_take hv hb hr hd'
          (by rw [need_congr h.data]; exact hs) hf'
        rw [e1] at ea
        rw [e2] at eb
        cases ea; cases eb
        exact h.upstream
  | free i =>
    obtain ⟨a', ra', ea, ta', resa⟩ := doFree_good hv ha i
    obtain ⟨b', rb', eb, tb', resb⟩ := doFree_good hv hb i
    obtain ⟨x1, x2⟩ := resa.geometry
    obtain ⟨y1, y2⟩ := resb.geometry
    have hin : ∀ ptr, inArea p b.st ptr = inArea p a.st ptr := fun ptr => by
      unfold inArea
      rw [h.data, h.count]
    have hl : b.live[i]? = a.live[i]? := by rw [h.live]
    have key : b'.live = a'.live ∧ b'.up = a'.up := by
      cases resa with
      | nothing n1 n2 n3 =>
        subst n2
        cases resb with
        | nothing m1 m2 m3 => subst m2; exact ⟨h.live, h.upstream⟩
        | locl m1 => rw [hl, n1] at m1; cases m1
        | upstream m1 => rw [hl, n1] at m1; cases m1
      | locl n1 n2 n3 n4 n5 n6 n7 n8 n9 n10 n11 =>
        cases resb with
        | nothing m1 => rw [hl, n1] at m1; cases m1
        | locl m1 m2 m3 m4 m5 m6 m7 m8 m9 m10 m11 =>
          exact ⟨by rw [m8, n8, h.live], by rw [m11, n11, h.upstream]⟩
        | upstream m1 m2 =>
          rw [hl, n1] at m1
          cases m1
          rw [hin, n2] at m2
          cases m2
      | upstream n1 n2 n3 n4 n5 n6 n7 n8 =>
        cases resb with
        | nothing m1 => rw [hl, n1] at m1; cases m1
        | locl m1 m2 =>
          rw [hl, n1] at m1
          cases m1
          rw [hin, n2] at m2
          cases m2
        | upstream m1 m2 m3 m4 m5 m6 m7 m8 =>
          rw [hl, n1] at m1
          cases m1
          rw [n3] at m3
          cases m3
          exact ⟨by rw [m6, n6, h.live], by rw [m8, n8, h.upstream]⟩
    exact ⟨a', b', ea, eb, ⟨by rw [y1, x1, h.data], by rw [y2, x2, h.count], key.1, key.2⟩,
      ⟨_, ta'⟩, ⟨_, tb'⟩, x1, x2⟩

/-- A history of calls that are good choices on both. -/
theorem twin_run {fuel : Nat} (hv : Valid p) {ops : List Op} : ∀ {a b : World σ} {ra rb : List Region},
    Tracks p up a ra → Tracks p up b rb → Alike a b → UpstreamOK p a.st up →
    2 * a.st.blockCount ≤ fuel → Along p up fuel (GoodOp p) a ops → Along p up fuel (GoodOp p) b ops →
    ∃ a' b', run p up fuel a ops = .ok a' ∧ run p up fuel b ops = .ok b' ∧ Alike a' b' ∧
      (∃ ra', Tracks p up a' ra') ∧ (∃ rb', Tracks p up b' rb') := by
  induction ops with
  | nil => intro a b ra rb ha hb h _ _ _ _; exact ⟨a, b, rfl, rfl, h, ⟨_, ha⟩, ⟨_, hb⟩⟩
  | cons op ops ih =>
    intro a b ra rb ha hb h hu hf hops hopb
    obtain ⟨a1, b1, ea, eb, h1, ⟨ra1, ta⟩, ⟨rb1, tb⟩, hd, hc⟩ :=
      twin_step hv ha hb h hu hf hops.1 hopb.1
    obtain ⟨a', b', e1, e2, h2⟩ := ih ta tb h1 (hu.congr hd hc) (hc ▸ hf) (hops.2 a1 ea) (hopb.2 b1 eb)
    refine ⟨a', b', ?_, ?_, h2⟩
    · unfold run
      rw [ea, Outcome.ok_bind, e1]
    · unfold run
      rw [eb, Outcome.ok_bind, e2]

/-- Calls whose scans do not restart inside a region are good choices on both. -/
theorem twin_plain {fuel : Nat} (hv : Valid p) {ops : List Op} : ∀ {a b : World σ} {ra rb : List Region},
    Tracks p up a ra → Tracks p up b rb → Alike a b → UpstreamOK p a.st up →
    2 * a.st.blockCount ≤ fuel → Along p up fuel (PlainOp p) a ops →
    Along p up fuel (GoodOp p) a ops ∧ Along p up fuel (GoodOp p) b ops := by
  induction ops with
  | nil => intros; exact ⟨trivial, trivial⟩
  | cons op ops ih =>
    intro a b ra rb ha hb h hu hf hops
    obtain ⟨g1, g2⟩ := hops.1.alike hv ha hb h
    obtain ⟨a1, b1, ea, eb, h1, ⟨ra1, ta⟩, ⟨rb1, tb⟩, hd, hc⟩ := twin_step hv ha hb h hu hf g1 g2
    obtain ⟨k1, k2⟩ := ih ta tb h1 (hu.congr hd hc) (hc ▸ hf) (hops.2 a1 ea)
    refine ⟨⟨g1, fun w e => ?_⟩, g2, fun w e => ?_⟩
    · rw [ea] at e
      cases e
      exact k1
    · rw [eb] at e
      cases e
      exact k2

end Utils.SR
