import Verif.Proofs.SRClasses

/-!
# Pool usage of `simple_resource`
-/

namespace Utils.SR

open Utils Utils.Bits

variable {p : Params} {s : State} {size align : Nat} {σ : Type} {up : Option (Upstream σ)}

/-- Regions of a pool with slots of `b` blocks. -/
def PoolRuns (b : Nat) (rs : List Region) : Prop := ∀ r ∈ busyRuns 0 rs, r.2 = b ∧ b ∣ r.1

theorem busy_prefix {b h : Nat} {pre : List Region} (hb : ∀ r ∈ pre, r.busy = true)
    (hr : ∀ r ∈ busyRuns h pre, r.2 = b) :
    blocks pre = pre.length * b ∧ ∀ k, k < pre.length → (h + k * b, b) ∈ busyRuns h pre := by
  induction pre generalizing h with
  | nil => simp
  | cons q pre ih =>
    obtain ⟨l, u⟩ := q
    have : u = true := hb ⟨l, u⟩ (by simp)
    subst this
    rw [busyRuns_busy] at hr ⊢
    have hl : l = b := hr (h, l) (by simp)
    subst hl
    obtain ⟨i1, i2⟩ := ih (h := h + l) (fun r hr => hb r (by simp [hr]))
      (fun r hm => hr r (by simp [hm]))
    refine ⟨by simp only [blocks_cons, i1, List.length_cons, Nat.succ_mul]; omega, ?_⟩
    intro k hk
    cases k with
    | zero => simp
    | succ k =>
      have := i2 k (by simpa using hk)
      rw [Nat.succ_mul, Nat.add_comm (k * l), ← Nat.add_assoc]
      exact List.mem_cons_of_mem _ this

/-- A free region of a pool starts at a multiple of the slot size, and ends at one unless it is the
last region. -/
theorem PoolRuns.free {b len : Nat} {pre post : List Region}
    (h : PoolRuns b (pre ++ ⟨len, false⟩ :: post)) (hc : Coalesced (pre ++ ⟨len, false⟩ :: post)) :
    b ∣ blocks pre ∧ (post = [] ∨ b ∣ len) := by
  have h1 : b ∣ blocks pre := by
    rcases List.eq_nil_or_concat pre with rfl | ⟨pre', q, rfl⟩
    · simp
    · obtain ⟨l, u⟩ := q
      have := hc pre' ⟨l, u⟩ ⟨len, false⟩ post (by simp)
      simp only [Bool.false_eq_true, or_false] at this
      subst this
      have := h (blocks pre', l) (by
        rw [List.append_cons, busyRuns_append] at *
        simp [busyRuns_append])
      simp only at this
      simp only [List.concat_eq_append, blocks_append, blocks_cons, blocks_nil, Nat.add_zero]
      exact Nat.dvd_add this.2 (this.1 ▸ Nat.dvd_refl _)
  refine ⟨h1, ?_⟩
  cases post with
  | nil => exact Or.inl rfl
  | cons q post =>
    right
    obtain ⟨l, u⟩ := q
    have := hc pre ⟨len, false⟩ ⟨l, u⟩ post rfl
    simp only [Bool.false_eq_true, false_or] at this
    subst this
    have := h (blocks pre + len, l) (by
      rw [busyRuns_append, busyRuns_free, busyRuns_busy]; simp)
    simp only at this
    exact (Nat.dvd_add_right h1).1 this.2

/-- The first free region is determined. -/
theorem first_free_unique {pre pre' post post' : List Region} {len len' : Nat}
    (e : pre ++ ⟨len, false⟩ :: post = pre' ++ ⟨len', false⟩ :: post')
    (hb : ∀ r ∈ pre, r.busy = true)
    (hn : NoneFits p s size align pre')
    (hf : need p s size align (blocks pre) ≤ len * p.blockSize) :
    pre = pre' ∧ len = len' ∧ post = post' := by
  rcases List.append_eq_append_iff.1 e with ⟨c, h1, h2⟩ | ⟨c, h1, h2⟩
  · cases c with
    | nil => simp_all
    | cons q c =>
      simp only [List.cons_append, List.cons.injEq] at h2
      have := hn pre len c (by rw [h1, h2.1])
      omega
  · cases c with
    | nil => simp_all
    | cons q c =>
      simp only [List.cons_append, List.cons.injEq] at h2
      have := hb ⟨len', false⟩ (by rw [h1, h2.1]; simp)
      simp at this

theorem padding_zero {addr align : Nat} (h : align ∣ addr) : padding addr align = 0 := by
  unfold padding
  rw [Nat.mod_eq_zero_of_dvd h, Nat.sub_zero, Nat.mod_self]

/-- A live allocation starts at an address iff a busy region does. -/
theorem Tracks.starts {w : World σ} {rs : List Region} (h : Tracks p up w rs) (a : Nat) :
    ((localLive p w).any fun y => y.1 == a) = true ↔
      ∃ r ∈ busyRuns 0 rs, w.st.data + r.1 * p.blockSize = a := by
  have hp := (h.live.map Prod.fst).mem_iff (a := a)
  simp only [List.map_map, List.mem_map, Function.comp_apply] at hp
  rw [List.any_eq_true]
  simpa using hp

theorem pool_place {w : World σ} {rs : List Region} {b k : Nat} (hv : Valid p) (hb0 : 0 < b)
    (h : Tracks p up w rs) (hbusy : ∀ j, j < k → ∃ l, (j * b, l) ∈ busyRuns 0 rs)
    (hfree : ∀ l, (k * b, l) ∉ busyRuns 0 rs) (hk : k < w.st.blockCount / b) :
    poolPlace w.st.data (w.st.blockCount / b) (b * p.blockSize) (localLive p w) size
      = some (w.st.data + k * b * p.blockSize) := by
  have hB := hv.pos
  unfold poolPlace
  rw [List.find?_map, List.find?_range_eq_some.2 ⟨?_, List.mem_range.2 hk, ?_⟩]
  · simp [Nat.mul_assoc]
  · simp only [Function.comp_apply, Bool.not_eq_true']
    rw [← Bool.not_eq_true, h.starts]
    rintro ⟨⟨a, l⟩, hr, he⟩
    simp only [← Nat.mul_assoc] at he
    have : a = k * b := Nat.eq_of_mul_eq_mul_right hB (by omega)
    subst this
    exact hfree l hr
  · intro j hj
    simp only [Function.comp_apply, Bool.not_not]
    rw [h.starts]
    obtain ⟨l, hl⟩ := hbusy j hj
    exact ⟨_, hl, by simp [Nat.mul_assoc]⟩

theorem pool_place_none {w : World σ} {rs : List Region} {b : Nat}
    (h : Tracks p up w rs) (hbusy : ∀ j, j < w.st.blockCount / b → ∃ l, (j * b, l) ∈ busyRuns 0 rs) :
    poolPlace w.st.data (w.st.blockCount / b) (b * p.blockSize) (localLive p w) size = none := by
  unfold poolPlace
  rw [List.find?_eq_none]
  intro a ha
  obtain ⟨j, hj, rfl⟩ := List.mem_map.1 ha
  obtain ⟨l, hl⟩ := hbusy j (List.mem_range.1 hj)
  rw [Bool.not_eq_true', Bool.not_eq_false, h.starts]
  exact ⟨_, hl, by simp [Nat.mul_assoc]⟩

/-- Giving back, whatever the class. -/
theorem free_ideal {w w' : World σ} {rs rs' : List Region} {i : Nat}
    (place : List (Nat × Nat) → Nat → Option Nat) (h : FreeResult p up w rs i w' rs') :
    (w'.live, w'.up) = idealStep place (inArea p w.st) up (w.live, w.up) (.free i) := by
  unfold idealStep
  cases h with
  | nothing h1 h2 => simp only [h1]; rw [h2]
  | locl h1 h2 _ _ _ _ _ h3 _ _ h4 =>
    simp only [h1]
    rw [h3, h4]
    cases up with
    | none => rfl
    | some U => simp only [h2, if_true]
  | upstream h1 h2 h3 _ _ h4 _ h5 =>
    subst h3
    simp only [h1, h2]
    rw [h4, h5]; rfl

/-- One call of a pool client. -/
theorem pool_step {fuel b : Nat} {w : World σ} {rs : List Region} (hv : Valid p)
    (h : Tracks p up w rs) (hpool : PoolRuns b rs) (hu : UpstreamOK p w.st up)
    (hfuel : w.st.blockCount ≤ fuel) {op : Op} (hop : PoolOp p w.st b op) :
    ∃ w' rs', step p up fuel w op = .ok w' ∧ Tracks p up w' rs' ∧ PoolRuns b rs' ∧
      w'.st.data = w.st.data ∧ w'.st.blockCount = w.st.blockCount ∧
      (w'.live, w'.up) = idealStep
        (poolPlace w.st.data (w.st.blockCount / b) (b * p.blockSize)) (inArea p w.st) up
        (w.live, w.up) op ∧
      (∀ size align, op = .alloc size align → AllocResult p up w rs size align w') ∧
      (∀ i, op = .free i → FreeResult p up w rs i w' rs') := by
  have hB := hv.pos
  cases op with
  | free i =>
    obtain ⟨w2, rs2, e, ht, hres⟩ := doFree_good hv h i
    obtain ⟨g1, g2⟩ := hres.geometry
    refine ⟨w2, rs2, e, ht, ?_, g1, g2, free_ideal _ hres, fun _ _ h => Op.noConfusion h,
      fun j hj => by cases hj; exact hres⟩
    cases hres with
    | nothing h1 h2 h3 => rw [h3]; exact hpool
    | locl h1 h2 h3 h4 h5 =>
      intro r hr
      apply hpool
      rw [h5] at hr
      rw [h3, busyRuns_append, busyRuns_busy, Nat.zero_add]
      simp only [List.mem_append, List.mem_cons] at hr ⊢
      tauto
    | upstream _ _ _ h1 h2 => rw [h2]; exact hpool
  | alloc size align =>
    obtain ⟨hr, hb, ha1, ha2, hx⟩ := hop
    have hb0 : 0 < b := hb ▸ Nat.succ_pos _
    have hsz : size < b * p.blockSize := by
      rw [← hb, Nat.mul_comm]; exact Nat.lt_mul_div_succ size hB
    have hpad : ∀ h, b ∣ h → need p w.st size align h = size := by
      intro h hh
      unfold need
      rw [padding_zero, Nat.zero_add]
      exact Nat.dvd_add ha1 (Nat.dvd_trans ha2 (Nat.mul_dvd_mul_right hh _))
    have htl := tiled_iff.1 h.tiled
    have hbl := htl.1.blocks_eq
    have hstep : step p up fuel w (.alloc size align) = doAlloc p up fuel w size align := rfl
    have hideal : ∀ x : List (Nat × Nat) × σ, idealStep
        (poolPlace w.st.data (w.st.blockCount / b) (b * p.blockSize)) (inArea p w.st) up
        (w.live, w.up) (.alloc size align) = x ↔
        (match poolPlace w.st.data (w.st.blockCount / b) (b * p.blockSize) (localLive p w) size with
        | some ptr => ((ptr, size) :: w.live, w.up)
        | none =>
          let r := askUpstream up w.up size align
          (if r.1 = 0 then w.live else (r.1, size) :: w.live, r.2)) = x := fun x => Iff.rfl
    rcases exists_first_free rs with hfull | ⟨pre, len, post, hsplit, hpre⟩
    · obtain ⟨w', e, hres⟩ := doAlloc_good hv h hu hr (.full hfull) hfuel
      have hres' := hres
      cases hres with
      | served h1 h2 h3 =>
        have := noneFits_busy (p := p) (s := w.st) (size := size) (align := align) hfull _ _ _ h1
        omega
      | refused h1 h2 h3 h4 h5 h6 =>
        refine ⟨w', rs, e, h3, hpool, by rw [h2], by rw [h2], ?_, fun _ _ h => by cases h; exact hres', fun _ h => Op.noConfusion h⟩
        obtain ⟨i1, i2⟩ := busy_prefix (h := 0) (b := b) hfull (fun r hr => (hpool r hr).1)
        symm
        rw [hideal, pool_place_none h, h4, h6]
        intro j hj
        refine ⟨b, ?_⟩
        have := i2 j (by
          rw [← hbl, i1, Nat.mul_div_cancel _ hb0] at hj; exact hj)
        rwa [Nat.zero_add] at this
    · subst hsplit
      obtain ⟨f1, f2⟩ := hpool.free htl.2
      have hneed := hpad _ f1
      have hruns : ∀ r ∈ busyRuns 0 pre, r.2 = b := fun r hr =>
        (hpool r (by rw [busyRuns_append]; simp [hr])).1
      obtain ⟨i1, i2⟩ := busy_prefix (h := 0) (b := b) hpre hruns
      obtain ⟨a1, a2, -, -, -, a6⟩ := htl.1.at
      simp only at a1 a2 a6
      have hmem : ∀ j, j < pre.length → ∃ l, (j * b, l) ∈ busyRuns 0 (pre ++ ⟨len, false⟩ :: post) := by
        intro j hj
        have := i2 j hj
        rw [Nat.zero_add] at this
        exact ⟨b, by rw [busyRuns_append]; simp [this]⟩
      by_cases hlen : b ≤ len
      · have hfit : need p w.st size align (blocks pre) < len * p.blockSize := by
          rw [hneed]
          exact Nat.lt_of_lt_of_le hsz (Nat.mul_le_mul_right _ hlen)
        obtain ⟨w', e, hres⟩ := doAlloc_good hv h hu hr (.first hpre hfit) hfuel
        have hres' := hres
        cases hres with
        | refused h1 =>
          have := h1 (.inl ha1) pre len post rfl
          omega
        | served h1 h2 h3 h4 h5 h6 h7 h8 =>
          obtain ⟨rfl, rfl, rfl⟩ := first_free_unique h1 hpre h2 (by omega)
          have ha0 : ∀ a, padding (w.st.data + blocks pre * p.blockSize) align = a * p.blockSize →
              a = 0 := by
            intro a ha
            have : padding (w.st.data + blocks pre * p.blockSize) align = 0 := by
              unfold need at hneed; omega
            rw [this] at ha
            rcases Nat.mul_eq_zero.1 ha.symm with h0 | h0 <;> omega
          obtain rfl := ha0 _ h4.pad
          refine ⟨w', _, e, h5, ?_, h4.data, h4.count, ?_, fun _ _ h => by cases h; exact hres', fun _ h => Op.noConfusion h⟩
          · intro r hr
            rw [h4.runs] at hr
            simp only [List.mem_append, List.mem_cons] at hr
            rcases hr with hr | rfl | hr
            · exact hpool r (by rw [busyRuns_append]; simp [hr])
            · exact ⟨hb, f1⟩
            · exact hpool r (by rw [busyRuns_append, busyRuns_free]; simp [hr])
          · symm
            rw [hideal, pool_place (k := pre.length) hv hb0 h hmem ?_ ?_, h6, h8, h4.at_block,
              ← i1, Nat.add_zero]
            · intro l hl
              rw [← i1, busyRuns_append, busyRuns_free] at hl
              rcases List.mem_append.1 hl with hl | hl
              · have := busyRuns_le hl
                have := hruns _ hl
                simp only at *
                omega
              · have := busyRuns_ge hl
                simp only at this
                omega
            · rw [Nat.lt_iff_add_one_le, Nat.le_div_iff_mul_le hb0, Nat.succ_mul, ← i1]
              omega
      · have hpost : post = [] := by
          rcases f2 with f2 | f2
          · exact f2
          · exact absurd (Nat.le_of_dvd a1 f2) hlen
        subst hpost
        have hend : blocks pre + len = w.st.blockCount := a6.1 rfl
        have hmod : w.st.blockCount % b = len := by
          rw [← hend, i1, Nat.add_comm, Nat.add_mul_mod_self_right, Nat.mod_eq_of_lt (by omega)]
        have hdiv : w.st.blockCount / b = pre.length := by
          rw [← hend, i1, Nat.add_comm, Nat.add_mul_div_right _ _ hb0, Nat.div_eq_of_lt (by omega),
            Nat.zero_add]
        have hlow : (b - 1) * p.blockSize ≤ size := by
          rw [← hb, Nat.add_sub_cancel]; exact Nat.div_mul_le_self _ _
        have hlo : len * p.blockSize < need p w.st size align (blocks pre) := by
          rw [hneed]
          rcases Nat.lt_or_ge len (b - 1) with hl | hl
          · refine Nat.lt_of_lt_of_le ?_ hlow
            exact Nat.mul_lt_mul_of_pos_right hl hB
          · have hl' : len = b - 1 := by omega
            rcases hx with hx | hx
            · rw [hl']
              refine Nat.lt_of_le_of_ne hlow ?_
              intro he
              rw [← he, Nat.mul_mod_left] at hx
              exact hx rfl
            · omega
        obtain ⟨w', e, hres⟩ := doAlloc_good hv h hu hr (.last hpre hlo) hfuel
        have hres' := hres
        cases hres with
        | served h1 h2 h3 =>
          have := noneFits_append hpre (by simp) hlo _ _ _ h1
          omega
        | refused h1 h2 h3 h4 h5 h6 =>
          refine ⟨w', _, e, h3, hpool, by rw [h2], by rw [h2], ?_, fun _ _ h => by cases h; exact hres', fun _ h => Op.noConfusion h⟩
          symm
          rw [hideal, pool_place_none h, h4, h6]
          rw [hdiv]
          exact hmem

/-- A whole history of a pool client. -/
theorem pool_history {fuel b : Nat} {w : World σ} {rs : List Region} {ops : List Op} (hv : Valid p)
    (h : Tracks p up w rs) (hpool : PoolRuns b rs) (hu : UpstreamOK p w.st up)
    (hfuel : w.st.blockCount ≤ fuel) (hops : ∀ op ∈ ops, PoolOp p w.st b op) :
    ∃ w', run p up fuel w ops = .ok w' ∧ (∃ rs', Tracks p up w' rs' ∧ PoolRuns b rs') ∧
      w'.st.data = w.st.data ∧ w'.st.blockCount = w.st.blockCount ∧
      (w'.live, w'.up) = ops.foldl (idealStep
        (poolPlace w.st.data (w.st.blockCount / b) (b * p.blockSize)) (inArea p w.st) up)
        (w.live, w.up) := by
  have hst : ∀ (w1 : World σ) (op : Op), ((∃ rs', Tracks p up w1 rs' ∧ PoolRuns b rs') ∧
      w1.st.data = w.st.data ∧ w1.st.blockCount = w.st.blockCount) → PoolOp p w.st b op →
      ∃ w2, step p up fuel w1 op = .ok w2 ∧ ((∃ rs', Tracks p up w2 rs' ∧ PoolRuns b rs') ∧
        w2.st.data = w.st.data ∧ w2.st.blockCount = w.st.blockCount) ∧
      (w2.live, w2.up) = idealStep
        (poolPlace w.st.data (w.st.blockCount / b) (b * p.blockSize)) (inArea p w.st) up
        (w1.live, w1.up) op := by
    rintro w1 op ⟨⟨rs1, t1, t2⟩, g1, g2⟩ hop
    have hop' : PoolOp p w1.st b op := by
      cases op with
      | free i => trivial
      | alloc size align => simp only [PoolOp] at hop ⊢; rw [g1, g2]; exact hop
    obtain ⟨w2, rs2, e, h1, h2, h3, h4, h5, -, -⟩ := pool_step hv t1 t2 (hu.congr g1 g2) (g2 ▸ hfuel) hop'
    refine ⟨w2, e, ⟨⟨rs2, h1, h2⟩, h3.trans g1, h4.trans g2⟩, ?_⟩
    rw [h5, g1, g2, show inArea p w1.st = inArea p w.st from funext (inArea_congr g1 g2)]
  obtain ⟨w', e, ⟨h1, h2, h3⟩, h4⟩ := run_refines hst ⟨⟨rs, h, hpool⟩, rfl, rfl⟩
    (Along.of_forall w hops)
  exact ⟨w', e, h1, h2, h3, h4⟩

end Utils.SR
