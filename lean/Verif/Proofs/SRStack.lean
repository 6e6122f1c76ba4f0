import Verif.Proofs.SRPool

/-!
# Stack usage of `simple_resource`
-/

namespace Utils.SR

open Utils Utils.Bits

variable {p : Params} {s : State} {size align : Nat} {σ : Type} {up : Option (Upstream σ)}

/-- Runs that follow each other without a gap, from block `h` on. -/
def Contig : Nat → List (Nat × Nat) → Prop
  | _, [] => True
  | h, r :: rs => r.1 = h ∧ Contig (h + r.2) rs

theorem contig_append_left {h : Nat} {a b : List (Nat × Nat)} (hc : Contig h (a ++ b)) :
    Contig h a := by
  induction a generalizing h with
  | nil => trivial
  | cons r a ih => exact ⟨hc.1, ih hc.2⟩

theorem contig_busy {h : Nat} {P : List Region} {t : List (Nat × Nat)}
    (hb : ∀ r ∈ P, r.busy = true) (ht : Contig (h + blocks P) t) :
    Contig h (busyRuns h P ++ t) := by
  induction P generalizing h with
  | nil => simpa using ht
  | cons q P ih =>
    obtain ⟨l, u⟩ := q
    have : u = true := hb ⟨l, u⟩ (by simp)
    subst this
    rw [busyRuns_busy]
    refine ⟨rfl, ih (fun r hr => hb r (by simp [hr])) ?_⟩
    simpa [Nat.add_assoc] using ht

theorem busyRuns_eq_nil {h : Nat} {rs : List Region} (hr : busyRuns h rs = []) :
    ∀ r ∈ rs, r.busy = false := by
  induction rs generalizing h with
  | nil => simp
  | cons q rs ih =>
    obtain ⟨l, u⟩ := q
    cases u with
    | true => simp at hr
    | false =>
      rw [busyRuns_free] at hr
      simpa using ih hr

theorem contig_shape {h : Nat} {rs : List Region} (hpos : ∀ r ∈ rs, 0 < r.len)
    (hco : Coalesced rs) (hc : Contig h (busyRuns h rs)) :
    ∃ P len, rs = P ++ freeRun len ∧ ∀ r ∈ P, r.busy = true := by
  induction rs generalizing h with
  | nil => exact ⟨[], 0, rfl, by simp⟩
  | cons q rs ih =>
    obtain ⟨l, u⟩ := q
    have hl : 0 < l := hpos ⟨l, u⟩ (by simp)
    cases u with
    | true =>
      rw [busyRuns_busy] at hc
      obtain ⟨P, len, e, hP⟩ := ih (fun r hr => hpos r (by simp [hr]))
        (by rw [coalesced_iff] at *; exact (List.isChain_cons.1 hco).2) hc.2
      exact ⟨⟨l, true⟩ :: P, len, by rw [e]; rfl, by simpa using hP⟩
    | false =>
      rw [busyRuns_free] at hc
      have hnil : busyRuns (h + l) rs = [] := by
        cases hb : busyRuns (h + l) rs with
        | nil => rfl
        | cons r t =>
          have := busyRuns_ge (h := h + l) (a := rs) (x := r) (by rw [hb]; simp)
          rw [hb] at hc
          have := hc.1
          omega
      have hfree := busyRuns_eq_nil hnil
      cases rs with
      | nil => exact ⟨[], l, by simp [freeRun]; omega, by simp⟩
      | cons q2 rs =>
        have := hco [] _ _ _ rfl
        rw [hfree q2 (by simp)] at this
        simp at this

theorem busyRuns_sum {h : Nat} {P : List Region} (hb : ∀ r ∈ P, r.busy = true) :
    ((busyRuns h P).map Prod.snd).sum = blocks P := by
  induction P generalizing h with
  | nil => rfl
  | cons q P ih =>
    obtain ⟨l, u⟩ := q
    have : u = true := hb ⟨l, u⟩ (by simp)
    subst this
    rw [busyRuns_busy, List.map_cons, List.sum_cons, ih (fun r hr => hb r (by simp [hr])), blocks_cons]

/-- The invariant of stack usage. -/
structure Stacked (p : Params) (up : Option (Upstream σ)) (w : World σ) (rs : List Region) : Prop where
  tracks : Tracks p up w rs
  ordered : ((localLive p w).map fun x => (x.1, x.2 / p.blockSize + 1)) =
    ((busyRuns 0 rs).map fun r => (w.st.data + r.1 * p.blockSize, r.2)).reverse
  contig : Contig 0 (busyRuns 0 rs)

theorem Stacked.shape {w : World σ} {rs : List Region} (h : Stacked p up w rs) :
    ∃ P, (rs = P ++ freeRun (w.st.blockCount - used p (localLive p w))) ∧
      (∀ r ∈ P, r.busy = true) ∧ blocks P = used p (localLive p w) ∧ blocks P ≤ w.st.blockCount := by
  obtain ⟨t1, t2⟩ := tiled_iff.1 h.tracks.tiled
  obtain ⟨pv, hseg⟩ := h.tracks.tiled.seg
  obtain ⟨P, len, e, hP⟩ := contig_shape hseg.pos t2 h.contig
  have hbl := t1.blocks_eq
  rw [e, blocks_append, blocks_freeRun] at hbl
  have hu : used p (localLive p w) = blocks P := by
    have := ((h.tracks.live.map Prod.snd).sum_nat).trans (by
      rw [List.map_map]; rfl : _ = ((busyRuns 0 rs).map Prod.snd).sum)
    rw [e, busyRuns_append, busyRuns_freeRun, List.append_nil, busyRuns_sum hP, List.map_map] at this
    exact this
  exact ⟨P, by rw [hu, ← hbl, Nat.add_sub_cancel_left]; exact e, hP, hu.symm, by omega⟩

/-- One call of a stack client. -/
theorem stack_step {fuel : Nat} {w : World σ} {rs : List Region} (hv : Valid p)
    (h : Stacked p up w rs) (hu : UpstreamOK p w.st up)
    (hfuel : w.st.blockCount ≤ fuel) {op : Op} (hop : StackOp p w op) :
    ∃ w' rs', step p up fuel w op = .ok w' ∧ Stacked p up w' rs' ∧
      w'.st.data = w.st.data ∧ w'.st.blockCount = w.st.blockCount ∧
      (w'.live, w'.up) = idealStep (stackPlace p w.st.data w.st.blockCount) (inArea p w.st) up
        (w.live, w.up) op := by
  have hB := hv.pos
  cases op with
  | free i =>
    obtain ⟨w2, rs2, e, ht, hres⟩ := doFree_good hv h.tracks i
    obtain ⟨g1, g2⟩ := hres.geometry
    refine ⟨w2, rs2, e, ?_, g1, g2, free_ideal _ hres⟩
    cases hres with
    | nothing h1 h2 h3 => subst h2 h3; exact h
    | @locl x pre post _ _ _ h1 h2 h3 h4 h5 _ _ h6 =>
      have hnone := hop x h1 h2
      obtain ⟨la, lb, e1, e2, e3⟩ := mem_of_getElem? h1
      have hla : ∀ y ∈ la, inArea p w.st y.1 = false := by
        intro y hy
        apply hnone
        rw [e1, ← e3, List.take_left]
        exact hy
      have hl1 : localLive p w = x :: lb.filter fun x => inArea p w.st x.1 := by
        unfold localLive
        rw [e1, List.filter_append, List.filter_eq_nil_iff.2 (by simpa using hla), List.nil_append,
          List.filter_cons_of_pos (by simpa using h2)]
      have hl2 : localLive p w2 = lb.filter fun x => inArea p w.st x.1 := by
        unfold localLive
        rw [h6, e2, List.filter_append]
        simp only [inArea_congr g1 g2]
        rw [List.filter_eq_nil_iff.2 (by simpa using hla), List.nil_append]
      have hord := h.ordered
      rw [hl1, h3, busyRuns_append, busyRuns_busy, Nat.zero_add, List.map_cons] at hord
      have hlast : busyRuns (blocks pre + (x.2 / p.blockSize + 1)) post = [] := by
        rcases List.eq_nil_or_concat (busyRuns (blocks pre + (x.2 / p.blockSize + 1)) post) with
          hn | ⟨t, r, hn⟩
        · exact hn
        · exfalso
          have hge := busyRuns_ge (x := r) (a := post) (by rw [hn]; simp)
          rw [hn] at hord
          simp only [List.concat_eq_append, List.map_append, List.map_cons, List.map_nil,
            List.reverse_append, List.reverse_cons, List.reverse_nil, List.nil_append,
            List.cons_append, List.cons.injEq, Prod.mk.injEq, h4] at hord
          have := Nat.eq_of_mul_eq_mul_right hB (Nat.add_left_cancel hord.1.1)
          generalize x.2 / p.blockSize = q at hge
          omega
      rw [hlast] at hord h5
      rw [List.append_nil] at h5
      refine ⟨ht, ?_, ?_⟩
      · rw [hl2, h5, g1]
        simp only [List.map_append, List.map_cons, List.map_nil,
            List.reverse_append, List.reverse_cons, List.reverse_nil, List.nil_append,
            List.cons_append, List.cons.injEq] at hord
        exact hord.2
      · rw [h5]
        have := h.contig
        rw [h3, busyRuns_append] at this
        exact contig_append_left this
    | upstream h1 h2 h3 h4 h5 h6 h7 h8 =>
      subst h5
      exact ⟨ht, by rw [h7, h4]; exact h.ordered, h.contig⟩
  | alloc size align =>
    obtain ⟨hr, ha, hx⟩ := hop
    obtain ⟨P, hrs, hP, hbP, hle⟩ := h.shape
    have ha1 : align ∣ w.st.data := align_dvd_data hv h.tracks.placed hr.pow2 ha
    have ha2 : align ∣ p.blockSize := by
      obtain ⟨k, hk⟩ := hr.pow2
      obtain ⟨b, hb⟩ := hv.pow2
      rw [hk, hb] at ha ⊢
      exact Nat.pow_dvd_pow 2 ((Nat.pow_le_pow_iff_right (by decide)).1 ha)
    have hneed : ∀ k, need p w.st size align k = size := by
      intro k
      unfold need
      rw [padding_zero, Nat.zero_add]
      exact Nat.dvd_add ha1 (Nat.dvd_mul_left_of_dvd ha2 _)
    have hpad : ∀ k, padding (w.st.data + k * p.blockSize) align = 0 := fun k =>
      padding_zero (Nat.dvd_add ha1 (Nat.dvd_mul_left_of_dvd ha2 _))
    have hideal : ∀ x : List (Nat × Nat) × σ, idealStep
        (stackPlace p w.st.data w.st.blockCount) (inArea p w.st) up
        (w.live, w.up) (.alloc size align) = x ↔
        (match stackPlace p w.st.data w.st.blockCount (localLive p w) size with
        | some ptr => ((ptr, size) :: w.live, w.up)
        | none =>
          let r := askUpstream up w.up size align
          (if r.1 = 0 then w.live else (r.1, size) :: w.live, r.2)) = x := fun x => Iff.rfl
    generalize hlen : w.st.blockCount - used p (localLive p w) = len at hrs hx
    have hrefused : ∀ w', doAlloc p up fuel w size align = .ok w' → w'.st = w.st →
        Tracks p up w' rs → (w'.live = if (askUpstream up w.up size align).1 = 0 then w.live
        else ((askUpstream up w.up size align).1, size) :: w.live) →
        localLive p w' = localLive p w → w'.up = (askUpstream up w.up size align).2 →
        ¬ size < len * p.blockSize →
        ∃ w' rs', step p up fuel w (.alloc size align) = .ok w' ∧ Stacked p up w' rs' ∧
          w'.st.data = w.st.data ∧ w'.st.blockCount = w.st.blockCount ∧
          (w'.live, w'.up) = idealStep (stackPlace p w.st.data w.st.blockCount) (inArea p w.st) up
            (w.live, w.up) (.alloc size align) := by
      intro w' e h2 h3 h4 h5 h6 hn
      refine ⟨w', rs, e, ⟨h3, by rw [h5, h2]; exact h.ordered, h.contig⟩, by rw [h2], by rw [h2], ?_⟩
      symm
      rw [hideal, stackPlace, hlen, if_neg hn, h4, h6]
    by_cases hz : len = 0
    · subst hz
      rw [show freeRun 0 = [] from rfl, List.append_nil] at hrs
      subst hrs
      obtain ⟨w', e, hres⟩ := doAlloc_good hv h.tracks hu hr (.full hP) hfuel
      cases hres with
      | served h1 h2 h3 =>
        have := noneFits_busy (p := p) (s := w.st) (size := size) (align := align) hP _ _ _ h1
        omega
      | refused h1 h2 h3 h4 h5 h6 => exact hrefused w' e h2 h3 h4 h5 h6 (by omega)
    · rw [(by unfold freeRun; rw [if_neg hz] : freeRun len = [⟨len, false⟩])] at hrs
      subst hrs
      rcases Nat.lt_trichotomy size (len * p.blockSize) with hlt | heq | hgt
      · have hfit : need p w.st size align (blocks P) < len * p.blockSize := by rwa [hneed]
        obtain ⟨w', e, hres⟩ := doAlloc_good hv h.tracks hu hr (.first hP hfit) hfuel
        cases hres with
        | refused h1 =>
          have := h1 (.inl ha1) P len [] rfl
          omega
        | @served ptr pre2 len2 post2 a h1 h2 h3 h4 h5 h6 h7 h8 =>
          obtain ⟨rfl, rfl, rfl⟩ := first_free_unique h1 hP h2 (by omega)
          have ha0 : a = 0 := by
            have := h4.pad
            rw [hpad] at this
            rcases Nat.mul_eq_zero.1 this.symm with h0 | h0 <;> omega
          subst ha0
          refine ⟨w', _, e, ⟨h5, ?_, ?_⟩, h4.data, h4.count, ?_⟩
          · have hord := h.ordered
            rw [busyRuns_append, busyRuns_free, busyRuns_nil, List.append_nil] at hord
            rw [h4.runs, h7, h4.data, List.map_cons, hord, h4.at_block]
            simp
          · rw [h4.runs]
            refine contig_busy hP ?_
            simp [Contig]
          · symm
            rw [hideal, stackPlace, hlen, if_pos hlt, h6, h8, h4.at_block, ← hbP, Nat.add_zero]
      · exact absurd heq hx
      · have hlo : len * p.blockSize < need p w.st size align (blocks P) := by rwa [hneed]
        obtain ⟨w', e, hres⟩ := doAlloc_good hv h.tracks hu hr (.last hP hlo) hfuel
        cases hres with
        | served h1 h2 h3 =>
          have := noneFits_append hP (by simp) hlo _ _ _ h1
          omega
        | refused h1 h2 h3 h4 h5 h6 => exact hrefused w' e h2 h3 h4 h5 h6 (by omega)

/-- A whole history of a stack client. -/
theorem stack_history {fuel : Nat} {w : World σ} {rs : List Region} {ops : List Op} (hv : Valid p)
    (h : Stacked p up w rs) (hu : UpstreamOK p w.st up)
    (hfuel : w.st.blockCount ≤ fuel) (hops : Along p up fuel (StackOp p) w ops) :
    ∃ w', run p up fuel w ops = .ok w' ∧ (∃ rs', Stacked p up w' rs') ∧
      w'.st.data = w.st.data ∧ w'.st.blockCount = w.st.blockCount ∧
      (w'.live, w'.up) = ops.foldl (idealStep
        (stackPlace p w.st.data w.st.blockCount) (inArea p w.st) up)
        (w.live, w.up) := by
  have hst : ∀ (w1 : World σ) (op : Op), ((∃ rs', Stacked p up w1 rs') ∧
      w1.st.data = w.st.data ∧ w1.st.blockCount = w.st.blockCount) → StackOp p w1 op →
      ∃ w2, step p up fuel w1 op = .ok w2 ∧ ((∃ rs', Stacked p up w2 rs') ∧
        w2.st.data = w.st.data ∧ w2.st.blockCount = w.st.blockCount) ∧
      (w2.live, w2.up) = idealStep (stackPlace p w.st.data w.st.blockCount) (inArea p w.st) up
        (w1.live, w1.up) op := by
    rintro w1 op ⟨⟨rs1, t1⟩, g1, g2⟩ hop
    obtain ⟨w2, rs2, e, h1, h3, h4, h5⟩ := stack_step hv t1 (hu.congr g1 g2) (g2 ▸ hfuel) hop
    refine ⟨w2, e, ⟨⟨rs2, h1⟩, h3.trans g1, h4.trans g2⟩, ?_⟩
    rw [h5, g1, g2, show inArea p w1.st = inArea p w.st from funext (inArea_congr g1 g2)]
  obtain ⟨w', e, ⟨h1, h2, h3⟩, h4⟩ := run_refines hst ⟨⟨rs, h⟩, rfl, rfl⟩ hops
  exact ⟨w', e, h1, h2, h3, h4⟩

end Utils.SR
