import Verif.Spec.SRCycle
import Verif.Proofs.SRChoice
import Verif.Proofs.SRClasses
import Verif.Proofs.SRFresh
import Verif.Proofs.SRNoUB
import Verif.Proofs.SRPool
import Verif.Proofs.SRRelease
import Verif.Proofs.SRReleaseExact

/-!
# Histories with `release`
-/

namespace Utils.SR

open Utils Utils.Bits

variable {p : Params} {s : State} {σ : Type} {up : Option (Upstream σ)}

theorem busyRuns_nodup {rs : List Region} (hpos : ∀ r ∈ rs, 0 < r.len) : (busyRuns 0 rs).Nodup := by
  refine (busyRuns_pairwise 0 rs).imp_of_mem fun {x y} hx hy h => ?_
  rintro rfl
  obtain ⟨q1, q2, e, -, -⟩ := busyRuns_split hx
  have := hpos ⟨x.2, true⟩ (by rw [e]; simp)
  simp only at this
  omega

theorem startBlock_run (hB : 0 < p.blockSize) (b : Nat) (x : Nat × Nat)
    (hx : x.1 = s.data + b * p.blockSize) : startBlock p s x = b := by
  unfold startBlock
  rw [hx, Nat.add_sub_cancel_left, Nat.mul_div_cancel _ hB]

theorem Tiles.len_pos {rs : List Region} (h : Tiles s rs) : ∀ r ∈ rs, 0 < r.len := by
  intro r hr
  obtain ⟨a, b, rfl⟩ := List.append_of_mem hr
  exact h.at.1

/-- The links and marks of a state determine its regions. -/
theorem Tiles.eq {a b : List Region} (ha : Tiles s a) (hn : 1 ≤ s.blockCount) (hb : Tiles s b) :
    a = b := by
  have key : ∀ (x y pre : List Region), Tiles s (pre ++ x) → Tiles s (pre ++ y) →
      (x = [] ↔ y = []) → x = y := by
    intro x
    induction x with
    | nil => intro y pre _ _ h; exact (h.1 rfl).symm
    | cons q x ih =>
      intro y pre hx hy h
      cases y with
      | nil => exact h.2 rfl
      | cons r y =>
        obtain ⟨a1, a2, a3, a4, -, a6⟩ := hx.at
        obtain ⟨b1, b2, b3, b4, -, b6⟩ := hy.at
        have hl : q.len = r.len := by
          rw [a3] at b3
          split at b3 <;> split at b3 <;> omega
        have e : q = r := by
          obtain ⟨l1, u1⟩ := q
          obtain ⟨l2, u2⟩ := r
          simp only at hl a4 b4
          rw [hl, ← a4, ← b4]
        subst e
        rw [ih y (pre ++ [q]) (by simpa using hx) (by simpa using hy) (a6.trans b6.symm)]
  refine key a b [] ha hb ?_
  have h1 := ha.blocks_eq
  have h2 := hb.blocks_eq
  constructor
  · rintro rfl
    rw [blocks_nil] at h1
    omega
  · rintro rfl
    rw [blocks_nil] at h2
    omega

/-- A local allocation starts at the first block of a busy region. -/
theorem Tracks.start_run {w : World σ} {rs : List Region} (hv : Valid p) (h : Tracks p up w rs)
    {x : Nat × Nat} (hx : x ∈ localLive p w) :
    (startBlock p w.st x, x.2 / p.blockSize + 1) ∈ busyRuns 0 rs ∧
      x.1 = w.st.data + startBlock p w.st x * p.blockSize := by
  obtain ⟨r, hr, e⟩ := List.mem_map.1 (h.live.mem_iff.1 (List.mem_map.2 ⟨x, hx, rfl⟩))
  simp only [Prod.mk.injEq] at e
  rw [startBlock_run hv.pos r.1 x e.1.symm, ← e.2]
  exact ⟨hr, e.1.symm⟩

/-- `release` keeps the invariant. -/
theorem Tracks.release {fuel : Nat} {w : World σ} {rs : List Region} (hv : Valid p)
    (h : Tracks p up w rs) (hf : (w.st.blockCount + 1) * (w.st.blockCount + 2) ≤ fuel) :
    ∃ s' rs', SR.release p fuel w.st = .ok s' ∧
      Tracks p up (⟨s', w.up, w.live.filter (stillHeld p s')⟩ : World σ) rs' ∧
      s'.data = w.st.data ∧ s'.blockCount = w.st.blockCount ∧
      ∀ x, x ∈ busyRuns 0 rs' ↔
        x ∈ busyRuns 0 rs ∧ ¬ FirstBusy w.st x.1 ∧ ¬ Path w.st 1 x.1 := by
  obtain ⟨s', rs', h1, h2, h3, h4, h5, h6⟩ := release_exact hv h.placed h.tiled h.links hf
  have hB := hv.pos
  have t := (tiled_iff.1 h.tiled).1
  have t' := (tiled_iff.1 h4).1
  refine ⟨s', rs', h1, ?_, h2, h3, h6⟩
  have hll : localLive p (⟨s', w.up, w.live.filter (stillHeld p s')⟩ : World σ) =
      (localLive p w).filter fun x => s'.inUse (startBlock p w.st x) := by
    unfold localLive
    simp only
    rw [List.filter_filter, List.filter_filter]
    refine List.filter_congr fun x _ => ?_
    rw [inArea_congr h2 h3]
    unfold stillHeld startBlock
    rw [inArea_congr h2 h3, h2]
    cases inArea p w.st x.1 <;> simp
  refine ⟨h.placed.congr h2 h3, h.small.congr h2 h3, h4, h5, ?_, ?_, ?_⟩
  · rw [hll]
    let q : Nat × Nat → Bool := fun y => s'.inUse ((y.1 - w.st.data) / p.blockSize)
    have key := h.live.filter q
    rw [List.filter_map, List.filter_map] at key
    simp only [h2]
    refine key.trans ?_
    refine List.Perm.map _ ?_
    rw [List.perm_ext_iff_of_nodup ((busyRuns_nodup t.len_pos).filter _) (busyRuns_nodup t'.len_pos)]
    intro r
    have e : (q ∘ fun r : Nat × Nat => (w.st.data + r.1 * p.blockSize, r.2)) r = s'.inUse r.1 := by
      show s'.inUse ((w.st.data + r.1 * p.blockSize - w.st.data) / p.blockSize) = _
      rw [Nat.add_sub_cancel_left, Nat.mul_div_cancel _ hB]
    rw [List.mem_filter, e]
    constructor
    · rintro ⟨m1, m2⟩
      have hlt : r.1 < s'.blockCount := by
        have := busyRuns_le m1
        have := t.blocks_eq
        obtain ⟨q1, q2, e, -, -⟩ := busyRuns_split m1
        have := t.len_pos ⟨r.2, true⟩ (by rw [e]; simp)
        simp only at this
        omega
      obtain ⟨l, hl⟩ := (t'.inUse_iff hlt).1 m2
      have := busyRuns_unique t.len_pos ((h6 _).1 hl).1 m1 rfl
      rw [← this]
      exact hl
    · intro m
      have hlt : r.1 < s'.blockCount := by
        have := busyRuns_le m
        have := t'.blocks_eq
        obtain ⟨q1, q2, e, -, -⟩ := busyRuns_split m
        have := t'.len_pos ⟨r.2, true⟩ (by rw [e]; simp)
        simp only at this
        omega
      exact ⟨((h6 r).1 m).1, (t'.inUse_iff hlt).2 ⟨r.2, m⟩⟩
  · intro x hx
    exact h.ptrs x (List.mem_filter.1 hx).1
  · intro hn x hx
    simp only
    rw [inArea_congr h2 h3]
    exact h.routed hn x (List.mem_filter.1 hx).1

theorem crun_inv {fuel : Nat} {A : World σ → Op → Prop} {I : World σ → Prop}
    (hst : ∀ w op, I w → (∀ o, op = .call o → A w o) → ∃ w', cstep p up fuel w op = .ok w' ∧ I w') :
    ∀ {ops : List COp} {w : World σ}, I w → CAlong p up fuel A w ops →
      ∃ w', crun p up fuel w ops = .ok w' ∧ I w'
  | [], w, h, _ => ⟨w, rfl, h⟩
  | op :: ops, w, h, ha => by
    obtain ⟨w1, e1, h1⟩ := hst w op h ha.1
    obtain ⟨w2, e2, h2⟩ := crun_inv hst h1 (ha.2 w1 e1)
    exact ⟨w2, by show (cstep p up fuel w op >>= _) = _; rw [e1]; exact e2, h2⟩

/-- One call of a history of good choices and releases. -/
theorem cycle_step {fuel : Nat} {w : World σ} {op : COp} {rs : List Region} (hv : Valid p)
    (h : Tracks p up w rs) (hu : UpstreamOK p w.st up)
    (hfuel : (w.st.blockCount + 1) * (w.st.blockCount + 2) ≤ fuel)
    (hA : ∀ o, op = .call o → GoodOp p w o) :
    ∃ w', cstep p up fuel w op = .ok w' ∧ (∃ rs', Tracks p up w' rs') ∧
      w'.st.data = w.st.data ∧ w'.st.blockCount = w.st.blockCount := by
  have hf1 : 2 * w.st.blockCount ≤ fuel := by
    have : 2 * (w.st.blockCount + 1) ≤ (w.st.blockCount + 1) * (w.st.blockCount + 2) := by
      rw [Nat.mul_comm 2]
      exact Nat.mul_le_mul_left _ (by omega)
    omega
  cases op with
  | call op =>
    have hA := hA op rfl
    cases op with
    | alloc size align =>
      obtain ⟨w2, e, hres⟩ := doAlloc_choice hv h hu hA.1 (hA.2 _ h.tiled) hf1
      obtain ⟨g1, g2, g3⟩ := hres.tracked
      exact ⟨w2, e, g3, g1, g2⟩
    | free i =>
      obtain ⟨w2, rs2, e, ht, hres⟩ := doFree_good hv h i
      obtain ⟨g1, g2⟩ := hres.geometry
      exact ⟨w2, e, ⟨rs2, ht⟩, g1, g2⟩
  | release =>
    obtain ⟨s', rs', e, ht, g1, g2, -⟩ := h.release (fuel := fuel) hv hfuel
    refine ⟨_, ?_, ⟨rs', ht⟩, g1, g2⟩
    show (SR.release p fuel w.st >>= _) = _
    rw [e]
    rfl

/-- Histories of good choices and releases. -/
theorem cycle_history {fuel : Nat} {w : World σ} {ops : List COp} {rs : List Region} (hv : Valid p)
    (h : Tracks p up w rs) (hu : UpstreamOK p w.st up)
    (hfuel : (w.st.blockCount + 1) * (w.st.blockCount + 2) ≤ fuel)
    (hs : CAlong p up fuel (GoodOp p) w ops) :
    ∃ w', crun p up fuel w ops = .ok w' ∧ (∃ rs', Tracks p up w' rs') ∧
      w'.st.data = w.st.data ∧ w'.st.blockCount = w.st.blockCount := by
  refine crun_inv (I := fun w' => (∃ rs', Tracks p up w' rs') ∧
      w'.st.data = w.st.data ∧ w'.st.blockCount = w.st.blockCount) ?_ ⟨⟨rs, h⟩, rfl, rfl⟩ hs
  rintro w1 op ⟨⟨rs1, h1⟩, h2, h3⟩ hA
  obtain ⟨w2, e, ht, g1, g2⟩ := cycle_step hv h1 (hu.congr h2 h3) (h3 ▸ hfuel) hA
  exact ⟨w2, e, ht, g1.trans h2, g2.trans h3⟩

/-- Good choices are needed at every call. -/
theorem cycle_needed {fuel : Nat} (hv : Valid p) :
    ∀ {ops : List COp} {w : World σ} {rs : List Region}, Tracks p up w rs →
      UpstreamOK p w.st up → (w.st.blockCount + 1) * (w.st.blockCount + 2) ≤ fuel →
      (∀ size align, COp.call (.alloc size align) ∈ ops → Request size align) →
      (∀ ops', ops' <+: ops → ∃ w', crun p up fuel w ops' = .ok w' ∧ ∃ rs', Tracks p up w' rs') →
      CAlong p up fuel (GoodOp p) w ops := by
  intro ops
  induction ops with
  | nil => intros; trivial
  | cons op ops ih =>
    intro w rs h hu hfuel hreq hall
    have hf1 : 2 * w.st.blockCount ≤ fuel := by
      have : 2 * (w.st.blockCount + 1) ≤ (w.st.blockCount + 1) * (w.st.blockCount + 2) := by
        rw [Nat.mul_comm 2]
        exact Nat.mul_le_mul_left _ (by omega)
      omega
    have hgood : ∀ o, op = .call o → GoodOp p w o := by
      rintro o rfl
      cases o with
      | free i => trivial
      | alloc size align =>
        have hr := hreq size align (by simp)
        refine ⟨hr, fun rs1 ht => ?_⟩
        obtain ⟨w', e, rs', h'⟩ := hall [.call (.alloc size align)] ⟨ops, rfl⟩
        obtain ⟨w1, e1, e2⟩ := Outcome.bind_eq_ok.1 e
        cases e2
        have := choice_needed hv h hr hf1 e1 h'
        rwa [(tiled_iff.1 ht).1.eq h.placed.some (tiled_iff.1 h.tiled).1]
    refine ⟨hgood, fun w' e => ?_⟩
    obtain ⟨w1, e1, ⟨rs1, h1⟩, g1, g2⟩ := cycle_step hv h hu hfuel hgood
    rw [e] at e1
    cases e1
    refine ih h1 (hu.congr g1 g2) (g2 ▸ hfuel) (fun size align hm => hreq size align (by simp [hm])) ?_
    intro ops' hp
    obtain ⟨w2, e2, h2⟩ := hall (op :: ops') (by
      obtain ⟨t, rfl⟩ := hp
      exact ⟨t, rfl⟩)
    obtain ⟨w3, e3, e4⟩ := Outcome.bind_eq_ok.1 e2
    rw [e] at e3
    cases e3
    exact ⟨w2, e4, h2⟩

/-- The hypothesis carries over to the beginning of a history. -/
theorem CAlong.prefix {fuel : Nat} {A : World σ → Op → Prop} :
    ∀ {ops ops' : List COp} {w : World σ}, CAlong p up fuel A w ops → ops' <+: ops →
      CAlong p up fuel A w ops'
  | _, [], _, _, _ => trivial
  | [], _ :: _, _, _, hp => by simp at hp
  | op :: ops, op' :: ops', w, h, hp => by
    obtain ⟨rfl, hq⟩ := List.cons_prefix_cons.1 hp
    exact ⟨h.1, fun w' e => (h.2 w' e).prefix hq⟩

/-- Pool usage with single blocks and releases. -/
theorem cycle_pool {fuel : Nat} (hv : Valid p) {s0 : State}
    (hu : UpstreamOK p s0 up) (hfuel : (s0.blockCount + 1) * (s0.blockCount + 2) ≤ fuel) :
    ∀ {ops : List COp} {w : World σ} {rs : List Region}, Tracks p up w rs → PoolRuns 1 rs →
      ForwardFree w.st → w.st.data = s0.data → w.st.blockCount = s0.blockCount →
      (∀ op, COp.call op ∈ ops → PoolOp p s0 1 op) →
    ∃ w', crun p up fuel w ops = .ok w' ∧ Sound p w' ∧
      (w'.live, w'.up) = ops.foldl (idealCycle
        (poolPlace s0.data (s0.blockCount / 1) (1 * p.blockSize)) (inArea p s0) up)
        (w.live, w.up) := by
  have hf1 : s0.blockCount ≤ fuel := by
    have : s0.blockCount + 1 ≤ (s0.blockCount + 1) * (s0.blockCount + 2) :=
      Nat.le_mul_of_pos_right _ (by omega)
    omega
  intro ops
  induction ops with
  | nil => intro w rs h _ _ _ _ _; exact ⟨w, rfl, h.sound hv, rfl⟩
  | cons op ops ih =>
    intro w rs h hpool hff g1 g2 hops
    have hrest : ∀ op, COp.call op ∈ ops → PoolOp p s0 1 op := fun o ho => hops o (by simp [ho])
    cases op with
    | call op =>
      have hop : PoolOp p w.st 1 op := by
        have := hops op (by simp)
        cases op with
        | free i => trivial
        | alloc size align => simp only [PoolOp] at this ⊢; rw [g1, g2]; exact this
      obtain ⟨w1, rs1, e, t1, t2, t3, t4, t5, t6, t7⟩ :=
        pool_step hv h hpool (hu.congr g1 g2) (g2 ▸ hf1) hop
      have hff1 := ForwardFree.step (fuel := fuel) h hpool hff t1 hv hop t6 t7
      obtain ⟨w2, e2, h2, h3⟩ := ih t1 t2 hff1 (t3.trans g1) (t4.trans g2) hrest
      refine ⟨w2, by show (step p up fuel w op >>= _) = _; rw [e]; exact e2, h2, ?_⟩
      rw [h3, List.foldl_cons]
      congr 1
      show _ = idealStep _ _ _ _ _
      rw [t5, g1, g2, show inArea p w.st = inArea p s0 from funext (inArea_congr g1 g2)]
    | release =>
      obtain ⟨s', rs', e, ht, k1, k2, k3⟩ := h.release (fuel := fuel) hv (g2 ▸ hfuel)
      obtain ⟨s'', e', j1, j2, j3⟩ := release_pool (fuel := fuel) hv h.placed h.tiled hpool hff (by
        rw [g2]
        refine le_trans (Nat.mul_le_mul_left _ ?_) hfuel
        omega)
      rw [e] at e'
      obtain rfl := Outcome.ok.inj e'
      have tt := (tiled_iff.1 j3).1
      have hfree : ∀ j, j < s'.blockCount → s'.inUse j = false := by
        intro j hj
        cases hu : s'.inUse j with
        | false => rfl
        | true =>
          obtain ⟨l, hl⟩ := (tt.inUse_iff hj).1 hu
          simp [busyRuns] at hl
      have hnone : busyRuns 0 rs' = [] := by
        rw [List.eq_nil_iff_forall_not_mem]
        intro x hx
        have t' := (tiled_iff.1 ht.tiled).1
        have hlt : x.1 < s'.blockCount := by
          have := busyRuns_le hx
          have := t'.blocks_eq
          obtain ⟨q1, q2, e, -, -⟩ := busyRuns_split hx
          have := t'.len_pos ⟨x.2, true⟩ (by rw [e]; simp)
          simp only at this
          simp only at *
          omega
        have := (t'.inUse_iff hlt).2 ⟨x.2, hx⟩
        simp only at this
        rw [hfree _ hlt] at this
        cases this
      have hff' : ForwardFree s' := by
        intro j hj hjf
        rcases ht.links j hj with h0 | ⟨h0, h1⟩
        · exact Or.inl ⟨h0, fun k _ hk => hfree k hk⟩
        · simp only at h0 h1
          exact Or.inr ⟨h0, h1, fun k _ hk => hfree k (by omega)⟩
      obtain ⟨w2, e2, h2, h3⟩ := ih ht (by rw [PoolRuns, hnone]; simp) hff' (k1.trans g1)
        (k2.trans g2) hrest
      refine ⟨w2, ?_, h2, ?_⟩
      · show ((SR.release p fuel w.st >>= _) >>= _) = _
        rw [e]
        exact e2
      · rw [h3, List.foldl_cons]
        congr 1
        show _ = (w.live.filter _, w.up)
        simp only [Prod.mk.injEq, and_true]
        refine List.filter_congr fun x hx => ?_
        unfold stillHeld
        rw [inArea_congr (k1.trans g1) (k2.trans g2)]
        cases hin : inArea p s0 x.1 with
        | false => rfl
        | true =>
          have hxl : x ∈ localLive p w :=
            List.mem_filter.2 ⟨hx, by rw [inArea_congr g1 g2]; exact hin⟩
          have := (h.start_run hv hxl).1
          have hlt : startBlock p w.st x < s'.blockCount := by
            have t := (tiled_iff.1 h.tiled).1
            have hb := busyRuns_le this
            have := t.blocks_eq
            simp only at hb
            have := Nat.zero_le (x.2 / p.blockSize)
            generalize x.2 / p.blockSize = d at *
            generalize startBlock p w.st x = c at *
            omega
          have e0 : startBlock p s' x = startBlock p w.st x := by
            unfold startBlock
            rw [k1]
          rw [e0, hfree _ hlt]
          rfl

/-- With assertions no history of calls and releases has undefined behaviour. -/
theorem crun_no_ub (hv : Valid p) (hd : p.debug = true) {fuel : Nat} (ops : List COp) :
    ∀ (w : World σ), Placed p w.st → Small p w.st →
      Ensures (crun p up fuel w ops) fun w' => Frame w.st w'.st := by
  induction ops with
  | nil => intro w _ _; exact .ok (.refl _)
  | cons op ops ih =>
    intro w hp hsm
    have hstep : Ensures (cstep p up fuel w op) fun w' => Frame w.st w'.st := by
      cases op with
      | call op =>
        have := run_no_ub (up := up) (fuel := fuel) hv hd [op] w hp hsm
        have e : run p up fuel w [op] = step p up fuel w op := by
          show (step p up fuel w op >>= fun w => Outcome.ok w) = _
          cases step p up fuel w op <;> rfl
        rw [e] at this
        exact this
      | release => exact (ensures_release hd hp.le fuel).bind fun s hs => .pure hs
    refine hstep.bind fun w' h => ?_
    exact (ih w' (hp.congr h.data h.count) (hsm.congr h.data h.count)).mono fun w2 h2 => h.trans h2

end Utils.SR
