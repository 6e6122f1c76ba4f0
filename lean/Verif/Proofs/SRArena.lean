import Verif.Proofs.SRStack

/-!
# Arena usage of `simple_resource`
-/

namespace Utils.SR

open Utils Utils.Bits

variable {p : Params} {s : State} {size align : Nat} {σ : Type} {up : Option (Upstream σ)}

theorem busyRuns_top {h : Nat} {rs : List Region} (hne : busyRuns h rs ≠ []) :
    ∃ x ∈ busyRuns h rs, h + ((busyRuns h rs).map Prod.snd).sum ≤ x.1 + x.2 := by
  induction rs generalizing h with
  | nil => exact absurd rfl hne
  | cons q rs ih =>
    obtain ⟨l, u⟩ := q
    cases u with
    | true =>
      rw [busyRuns_busy] at *
      by_cases hr : busyRuns (h + l) rs = []
      · rw [hr]
        exact ⟨(h, l), by simp, by simp⟩
      · obtain ⟨x, hx, hle⟩ := ih hr
        refine ⟨x, List.mem_cons_of_mem _ hx, ?_⟩
        rw [List.map_cons, List.sum_cons]
        omega
    | false =>
      rw [busyRuns_free] at *
      obtain ⟨x, hx, hle⟩ := ih hne
      exact ⟨x, hx, by omega⟩

theorem contig_of_top {h : Nat} {rs : List Region} (hpos : ∀ r ∈ rs, 0 < r.len)
    (ht : ∀ x ∈ busyRuns h rs, x.1 + x.2 ≤ h + ((busyRuns h rs).map Prod.snd).sum) :
    Contig h (busyRuns h rs) := by
  induction rs generalizing h with
  | nil => trivial
  | cons q rs ih =>
    obtain ⟨l, u⟩ := q
    cases u with
    | true =>
      rw [busyRuns_busy] at *
      refine ⟨rfl, ih (fun r hr => hpos r (by simp [hr])) fun x hx => ?_⟩
      have := ht x (List.mem_cons_of_mem _ hx)
      rw [List.map_cons, List.sum_cons] at this
      simp only [] at this ⊢
      omega
    | false =>
      rw [busyRuns_free] at *
      by_cases hn : busyRuns (h + l) rs = []
      · rw [hn]; trivial
      · obtain ⟨x, hx, hle⟩ := busyRuns_top hn
        have h1 := ht x hx
        have h2 := hpos ⟨l, false⟩ (by simp)
        simp only at h2
        omega

theorem noHoles_contig {w : World σ} {rs : List Region} (hv : Valid p) (h : Tracks p up w rs)
    (hn : NoHoles p w) : Contig 0 (busyRuns 0 rs) := by
  obtain ⟨pv, hseg⟩ := h.tiled.seg
  refine contig_of_top hseg.pos fun x hx => ?_
  have hu : used p (localLive p w) = ((busyRuns 0 rs).map Prod.snd).sum := by
    have := ((h.live.map Prod.snd).sum_nat).trans (by
      rw [List.map_map]; rfl : _ = ((busyRuns 0 rs).map Prod.snd).sum)
    rw [List.map_map] at this
    exact this
  have hm := h.live.symm.subset (List.mem_map_of_mem (f := fun r : Nat × Nat =>
    (w.st.data + r.1 * p.blockSize, r.2)) hx)
  obtain ⟨y, hy, e⟩ := List.mem_map.1 hm
  have h1 := hn y hy
  obtain ⟨e1, e2⟩ := Prod.mk.inj e
  rw [e1, e2, hu, Nat.add_assoc, ← Nat.add_mul] at h1
  rw [Nat.zero_add]
  exact Nat.le_of_mul_le_mul_right (Nat.le_of_add_le_add_left h1) hv.pos

theorem packed_shape {w : World σ} {rs : List Region} (h : Tracks p up w rs)
    (hc : Contig 0 (busyRuns 0 rs)) :
    ∃ P, (rs = P ++ freeRun (w.st.blockCount - used p (localLive p w))) ∧
      (∀ r ∈ P, r.busy = true) ∧ blocks P = used p (localLive p w) ∧ blocks P ≤ w.st.blockCount := by
  obtain ⟨t1, t2⟩ := tiled_iff.1 h.tiled
  obtain ⟨pv, hseg⟩ := h.tiled.seg
  obtain ⟨P, len, e, hP⟩ := contig_shape hseg.pos t2 hc
  have hbl := t1.blocks_eq
  rw [e, blocks_append, blocks_freeRun] at hbl
  have hu : used p (localLive p w) = blocks P := by
    have := ((h.live.map Prod.snd).sum_nat).trans (by
      rw [List.map_map]; rfl : _ = ((busyRuns 0 rs).map Prod.snd).sum)
    rw [e, busyRuns_append, busyRuns_freeRun, List.append_nil, busyRuns_sum hP, List.map_map] at this
    exact this
  exact ⟨P, by rw [hu, ← hbl, Nat.add_sub_cancel_left]; exact e, hP, hu.symm, by omega⟩

/-- One call of an arena client. -/
theorem arena_step {fuel : Nat} {w : World σ} {rs : List Region} (hv : Valid p)
    (h : Tracks p up w rs) (hu : UpstreamOK p w.st up)
    (hfuel : w.st.blockCount ≤ fuel) {op : Op} (hop : ArenaOp p w op) :
    ∃ w' rs', step p up fuel w op = .ok w' ∧ Tracks p up w' rs' ∧
      w'.st.data = w.st.data ∧ w'.st.blockCount = w.st.blockCount ∧
      (w'.live, w'.up) = idealStep (stackPlace p w.st.data w.st.blockCount) (inArea p w.st) up
        (w.live, w.up) op := by
  have hB := hv.pos
  cases op with
  | free i =>
    obtain ⟨w2, rs2, e, ht, hres⟩ := doFree_good hv h i
    obtain ⟨g1, g2⟩ := hres.geometry
    exact ⟨w2, rs2, e, ht, g1, g2, free_ideal _ hres⟩
  | alloc size align =>
    obtain ⟨hr, ha, hn, hx⟩ := hop
    obtain ⟨P, hrs, hP, hbP, hle⟩ := packed_shape h (noHoles_contig hv h hn)
    have ha1 : align ∣ w.st.data := align_dvd_data hv h.placed hr.pow2 ha
    have ha2 : align ∣ p.blockSize := by
      obtain ⟨k, hk⟩ := hr.pow2
      obtain ⟨b, hb⟩ := hv.pow2
      rw [hk, hb] at ha ⊢
      exact Nat.pow_dvd_pow 2 ((Nat.pow_le_pow_iff_right (by decide)).1 ha)
    have hneed : ∀ k, need p w.st size align k = size := by
      intro k
      unfold need
      rw [padding_zero, Nat.zero_add]
      exact Nat.dvd_add ha1 (Nat.dvd_mul_left_of_dvd ha2 _)
    have hpad : ∀ k, padding (w.st.data + k * p.blockSize) align = 0 := fun k =>
      padding_zero (Nat.dvd_add ha1 (Nat.dvd_mul_left_of_dvd ha2 _))
    have hideal : ∀ x : List (Nat × Nat) × σ, idealStep
        (stackPlace p w.st.data w.st.blockCount) (inArea p w.st) up
        (w.live, w.up) (.alloc size align) = x ↔
        (match stackPlace p w.st.data w.st.blockCount (localLive p w) size with
        | some ptr => ((ptr, size) :: w.live, w.up)
        | none =>
          let r := askUpstream up w.up size align
          (if r.1 = 0 then w.live else (r.1, size) :: w.live, r.2)) = x := fun x => Iff.rfl
    generalize hlen : w.st.blockCount - used p (localLive p w) = len at hrs hx
    have hrefused : ∀ w', doAlloc p up fuel w size align = .ok w' → w'.st = w.st →
        Tracks p up w' rs → (w'.live = if (askUpstream up w.up size align).1 = 0 then w.live
        else ((askUpstream up w.up size align).1, size) :: w.live) →
        localLive p w' = localLive p w → w'.up = (askUpstream up w.up size align).2 →
        ¬ size < len * p.blockSize →
        ∃ w' rs', step p up fuel w (.alloc size align) = .ok w' ∧ Tracks p up w' rs' ∧
          w'.st.data = w.st.data ∧ w'.st.blockCount = w.st.blockCount ∧
          (w'.live, w'.up) = idealStep (stackPlace p w.st.data w.st.blockCount) (inArea p w.st) up
            (w.live, w.up) (.alloc size align) := by
      intro w' e h2 h3 h4 h5 h6 hn'
      refine ⟨w', rs, e, h3, by rw [h2], by rw [h2], ?_⟩
      symm
      rw [hideal, stackPlace, hlen, if_neg hn', h4, h6]
    by_cases hz : len = 0
    · subst hz
      rw [show freeRun 0 = [] from rfl, List.append_nil] at hrs
      subst hrs
      obtain ⟨w', e, hres⟩ := doAlloc_good hv h hu hr (.full hP) hfuel
      cases hres with
      | served h1 h2 h3 =>
        have := noneFits_busy (p := p) (s := w.st) (size := size) (align := align) hP _ _ _ h1
        omega
      | refused h1 h2 h3 h4 h5 h6 => exact hrefused w' e h2 h3 h4 h5 h6 (by omega)
    · rw [(by unfold freeRun; rw [if_neg hz] : freeRun len = [⟨len, false⟩])] at hrs
      subst hrs
      rcases Nat.lt_trichotomy size (len * p.blockSize) with hlt | heq | hgt
      · have hfit : need p w.st size align (blocks P) < len * p.blockSize := by rwa [hneed]
        obtain ⟨w', e, hres⟩ := doAlloc_good hv h hu hr (.first hP hfit) hfuel
        cases hres with
        | refused h1 =>
          have := h1 (.inl ha1) P len [] rfl
          omega
        | @served ptr pre2 len2 post2 a h1 h2 h3 h4 h5 h6 h7 h8 =>
          obtain ⟨rfl, rfl, rfl⟩ := first_free_unique h1 hP h2 (by omega)
          have ha0 : a = 0 := by
            have := h4.pad
            rw [hpad] at this
            rcases Nat.mul_eq_zero.1 this.symm with h0 | h0 <;> omega
          subst ha0
          refine ⟨w', _, e, h5, h4.data, h4.count, ?_⟩
          · symm
            rw [hideal, stackPlace, hlen, if_pos hlt, h6, h8, h4.at_block, ← hbP, Nat.add_zero]
      · exact absurd heq hx
      · have hlo : len * p.blockSize < need p w.st size align (blocks P) := by rwa [hneed]
        obtain ⟨w', e, hres⟩ := doAlloc_good hv h hu hr (.last hP hlo) hfuel
        cases hres with
        | served h1 h2 h3 =>
          have := noneFits_append hP (by simp) hlo _ _ _ h1
          omega
        | refused h1 h2 h3 h4 h5 h6 => exact hrefused w' e h2 h3 h4 h5 h6 (by omega)

/-- A whole history of an arena client. -/
theorem arena_history {fuel : Nat} {w : World σ} {rs : List Region} {ops : List Op} (hv : Valid p)
    (h : Tracks p up w rs) (hu : UpstreamOK p w.st up)
    (hfuel : w.st.blockCount ≤ fuel) (hops : Along p up fuel (ArenaOp p) w ops) :
    ∃ w', run p up fuel w ops = .ok w' ∧ (∃ rs', Tracks p up w' rs') ∧
      w'.st.data = w.st.data ∧ w'.st.blockCount = w.st.blockCount ∧
      (w'.live, w'.up) = ops.foldl (idealStep
        (stackPlace p w.st.data w.st.blockCount) (inArea p w.st) up)
        (w.live, w.up) := by
  have hst : ∀ (w1 : World σ) (op : Op), ((∃ rs', Tracks p up w1 rs') ∧
      w1.st.data = w.st.data ∧ w1.st.blockCount = w.st.blockCount) → ArenaOp p w1 op →
      ∃ w2, step p up fuel w1 op = .ok w2 ∧ ((∃ rs', Tracks p up w2 rs') ∧
        w2.st.data = w.st.data ∧ w2.st.blockCount = w.st.blockCount) ∧
      (w2.live, w2.up) = idealStep (stackPlace p w.st.data w.st.blockCount) (inArea p w.st) up
        (w1.live, w1.up) op := by
    rintro w1 op ⟨⟨rs1, t1⟩, g1, g2⟩ hop
    obtain ⟨w2, rs2, e, h1, h3, h4, h5⟩ := arena_step hv t1 (hu.congr g1 g2) (g2 ▸ hfuel) hop
    refine ⟨w2, e, ⟨⟨rs2, h1⟩, h3.trans g1, h4.trans g2⟩, ?_⟩
    rw [h5, g1, g2, show inArea p w1.st = inArea p w.st from funext (inArea_congr g1 g2)]
  obtain ⟨w', e, ⟨h1, h2, h3⟩, h4⟩ := run_refines hst ⟨⟨rs, h⟩, rfl, rfl⟩ hops
  exact ⟨w', e, h1, h2, h3, h4⟩

theorem contig_top {h : Nat} {l : List (Nat × Nat)} (hc : Contig h l) {x : Nat × Nat} (hx : x ∈ l) :
    x.1 + x.2 ≤ h + (l.map Prod.snd).sum := by
  induction l generalizing h with
  | nil => cases hx
  | cons y l ih =>
    obtain ⟨h1, h2⟩ := hc
    rw [List.map_cons, List.sum_cons]
    rcases List.mem_cons.1 hx with rfl | hx
    · omega
    · have := ih h2 hx
      omega

theorem contig_noHoles {w : World σ} {rs : List Region} (h : Tracks p up w rs)
    (hc : Contig 0 (busyRuns 0 rs)) : NoHoles p w := by
  intro y hy
  have hu : used p (localLive p w) = ((busyRuns 0 rs).map Prod.snd).sum := by
    have := ((h.live.map Prod.snd).sum_nat).trans (by
      rw [List.map_map]; rfl : _ = ((busyRuns 0 rs).map Prod.snd).sum)
    rw [List.map_map] at this
    exact this
  have hm := h.live.subset (List.mem_map_of_mem hy)
  obtain ⟨x, hx, e⟩ := List.mem_map.1 hm
  obtain ⟨e1, e2⟩ := Prod.mk.inj e
  have := contig_top hc hx
  rw [Nat.zero_add, ← hu] at this
  rw [← e1, ← e2, Nat.add_assoc, ← Nat.add_mul]
  exact Nat.add_le_add_left (Nat.mul_le_mul_right _ this) _

/-- A stack client is an arena client. -/
theorem stack_arena {fuel : Nat} {w : World σ} {rs : List Region} {ops : List Op} (hv : Valid p)
    (h : Stacked p up w rs) (hu : UpstreamOK p w.st up)
    (hfuel : w.st.blockCount ≤ fuel) (hops : Along p up fuel (StackOp p) w ops) :
    Along p up fuel (ArenaOp p) w ops := by
  induction ops generalizing w rs with
  | nil => trivial
  | cons op ops ih =>
    obtain ⟨hop, hrest⟩ := hops
    obtain ⟨w2, rs2, e, h2, g1, g2, -⟩ := stack_step hv h hu hfuel hop
    refine ⟨?_, fun w' e' => ?_⟩
    · cases op with
      | free i => trivial
      | alloc size align => exact ⟨hop.1, hop.2.1, contig_noHoles h.tracks h.contig, hop.2.2⟩
    · rw [e] at e'
      cases e'
      exact ih h2 (hu.congr g1 g2) (g2 ▸ hfuel) (hrest _ e)

end Utils.SR
