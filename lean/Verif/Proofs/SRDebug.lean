import Verif.Proofs.SRNoUB

/-!
# Debug builds: what holds for every history, whatever the sizes and alignments
-/

namespace Utils.SR

open Utils Utils.Bits

variable {p : Params} {s : State} {size align : Nat} {σ : Type} {up : Option (Upstream σ)}

/-- One region of the scan, without assumptions on the size. -/
theorem tryRegion_raw {i ptr k : Nat} (hv : Valid p) (hp : Placed p s) (hl : LinksForward s)
    (hi : i < s.blockCount) (hk : k < 64) (hak : align = 2 ^ k) :
    tryRegion p size align s ptr i =
      if (padding (s.data + i * p.blockSize) align + size) % 2 ^ 64
          ≤ (regionEnd s i - i) * p.blockSize then do
        let s' ← allocateBlocks p s i
          ((s.data + i * p.blockSize + padding (s.data + i * p.blockSize) align) % 2 ^ 64) size
        pure (s', (s.data + i * p.blockSize + padding (s.data + i * p.blockSize) align) % 2 ^ 64, false)
      else pure (s, ptr, decide (s.next i ≠ 0)) := by
  have hle := hp.le
  have hnw := hp.noWrap
  have hB := hv.pos
  have hre : i < regionEnd s i ∧ regionEnd s i ≤ s.blockCount := by
    unfold regionEnd
    have := hl i hi
    split <;> omega
  have hlB : (i + (regionEnd s i - i)) * p.blockSize ≤ p.maxBlocks * p.blockSize :=
    Nat.mul_le_mul_right _ (by omega)
  rw [Nat.add_mul] at hlB
  have hsk : padding (s.data + i * p.blockSize) align < align :=
    padding_lt _ (by rw [hak]; exact Nat.two_pow_pos k)
  have hk2 : 2 ^ k < 2 ^ 64 := Nat.pow_lt_pow_right (by decide) hk
  have hmx := hv.max_lt
  unfold tryRegion blockSizeInBytes blockIndexToPointer
  rw [nextAt_ok (by omega) hle, Outcome.ok_bind, decide_eq_true (by omega), cassert_true]
  simp only [Outcome.ok_bind, Outcome.pure_eq]
  rw [Nat.mod_eq_of_lt (by omega : s.data + i * p.blockSize < 2 ^ 64)]
  have hskip : skipToAlign p.debug (BitVec.ofNat 64 (s.data + i * p.blockSize))
      (BitVec.ofNat 64 align)
      = .ok (BitVec.ofNat 64 (padding (s.data + i * p.blockSize) align)) := by
    have e1 : (BitVec.ofNat 64 align).toNat = 2 ^ k := by
      rw [BitVec.toNat_ofNat, ← hak, Nat.mod_eq_of_lt (by omega)]
    rw [skipToAlign_eq p.debug hk e1, BitVec.toNat_ofNat, Nat.mod_eq_of_lt (by omega), hak]
    rfl
  rw [hskip, Outcome.ok_bind, BitVec.toNat_ofNat, Nat.mod_eq_of_lt
    (by omega : padding (s.data + i * p.blockSize) align < 2 ^ 64)]
  have hsz : ((if s.next i = 0 then s.blockCount else s.next i)
      + (2 ^ 64 - i)) % 2 ^ 64 * p.blockSize % 2 ^ 64 = (regionEnd s i - i) * p.blockSize := by
    change (regionEnd s i + (2 ^ 64 - i)) % 2 ^ 64 * p.blockSize % 2 ^ 64 = _
    rw [(by omega : regionEnd s i + (2 ^ 64 - i) = regionEnd s i - i + 2 ^ 64),
      Nat.add_mod_right, Nat.mod_eq_of_lt (by omega : regionEnd s i - i < 2 ^ 64),
      Nat.mod_eq_of_lt (by omega)]
  rw [hsz]

/-- A pointer that debug builds hand out: inside the area with room for the request, aligned as
requested and to `BlockSize`. -/
structure Handed (p : Params) (s : State) (size align ptr : Nat) : Prop where
  low : s.data ≤ ptr
  high : ptr + size ≤ s.data + s.blockCount * p.blockSize
  aligned : align ∣ ptr
  block : p.blockSize ∣ ptr

/-- In debug builds a region is only taken if the request really fits. -/
theorem tryRegion_debug {i ptr k : Nat} (hv : Valid p) (hd : p.debug = true) (hp : Placed p s)
    (hl : LinksForward s) (hi : i < s.blockCount) (hk : k < 64) (hak : align = 2 ^ k)
    (hsz : size < 2 ^ 64) :
    Ensures (tryRegion p size align s ptr i) fun r =>
      r = (s, ptr, decide (s.next i ≠ 0)) ∨
      (Same inc64 s r.1 ∧ r.2.2 = false ∧ Handed p s size align r.2.1) := by
  have hle := hp.le
  have hnw := hp.noWrap
  have hB := hv.pos
  have hre : i < regionEnd s i ∧ regionEnd s i ≤ s.blockCount := by
    unfold regionEnd
    have := hl i hi
    split <;> omega
  have hlB : (i + (regionEnd s i - i)) * p.blockSize ≤ s.blockCount * p.blockSize :=
    Nat.mul_le_mul_right _ (by omega)
  rw [Nat.add_mul] at hlB
  have hlB2 : s.blockCount * p.blockSize ≤ p.maxBlocks * p.blockSize := Nat.mul_le_mul_right _ hle
  have hap : 0 < align := by rw [hak]; exact Nat.two_pow_pos k
  have hk2 : 2 ^ k < 2 ^ 64 := Nat.pow_lt_pow_right (by decide) hk
  have hsk : padding (s.data + i * p.blockSize) align < align := padding_lt _ hap
  have hdv : align ∣ s.data + i * p.blockSize + padding (s.data + i * p.blockSize) align :=
    skipNat_dvd hap
  have hmr : p.maxResourceSize = p.maxBlocks * p.blockSize := by
    unfold Params.maxResourceSize
    rw [Nat.mul_comm, Nat.mod_eq_of_lt (by omega)]
  have hbA : p.blockSize ∣ s.data + i * p.blockSize :=
    Nat.dvd_add hp.aligned (Nat.dvd_mul_left _ _)
  -- the padding is a whole number of blocks
  have hpadB : p.blockSize ∣ padding (s.data + i * p.blockSize) align := by
    obtain ⟨b, hb⟩ := hv.pow2
    rcases Nat.le_total k b with h | h
    · have : align ∣ s.data + i * p.blockSize := by
        rw [hak]
        exact Nat.dvd_trans (Nat.pow_dvd_pow 2 h) (hb ▸ hbA)
      have h0 := skipNat_least (a := align) (p := s.data + i * p.blockSize) hap (d := 0)
        (by simpa using this)
      have : padding (s.data + i * p.blockSize) align = 0 := Nat.le_zero.1 h0
      rw [this]
      exact Nat.dvd_zero _
    · have h1 : p.blockSize ∣ align := by rw [hak, hb]; exact Nat.pow_dvd_pow 2 h
      exact (Nat.dvd_add_right hbA).1 (Nat.dvd_trans h1 hdv)
  rw [tryRegion_raw hv hp hl hi hk hak]
  generalize hA : s.data + i * p.blockSize = A at *
  generalize hpad : padding A align = pad at *
  split
  · rename_i hfit
    refine (ensures_allocateBlocks hd hle _ _ _).bind fun s' h => .pure (Or.inr ?_)
    obtain ⟨h1, h2, h3, h4, h5, h6⟩ := h
    rw [hmr, Nat.mod_eq_of_lt hnw] at h3 h5
    -- the pointer does not wrap
    have hnwrap : A + pad < 2 ^ 64 := by
      apply Nat.lt_of_not_le
      intro hge
      have h64 : align ∣ 2 ^ 64 := by rw [hak]; exact Nat.pow_dvd_pow 2 (by omega)
      have h0 := hp.data
      have hm : A + pad - 2 ^ 64 < align := by omega
      have hdv2 : align ∣ A + pad - 2 ^ 64 := Nat.dvd_sub hdv h64
      have := Nat.eq_zero_of_dvd_of_lt hdv2 hm
      have : (A + pad) % 2 ^ 64 = 0 := by omega
      omega
    rw [Nat.mod_eq_of_lt hnwrap] at h2 h3 h4 h5 h6 ⊢
    have hno : pad + size < 2 ^ 64 := by
      apply Nat.lt_of_not_le
      intro hge
      have hq : (A + pad + size) % 2 ^ 64 = A + pad + size - 2 ^ 64 := by omega
      rw [hq] at h4 h5 h6
      have e1 : (A + pad + (2 ^ 64 - s.data)) % 2 ^ 64 = A + pad - s.data := by omega
      have e2 : (A + pad + size - 2 ^ 64 + (2 ^ 64 - s.data)) % 2 ^ 64
          = A + pad + size - 2 ^ 64 - s.data := by omega
      rw [e1, e2] at h6
      obtain ⟨c, hc⟩ : p.blockSize ∣ A + pad - s.data :=
        Nat.dvd_sub (Nat.dvd_add hbA hpadB) hp.aligned
      have d1 : (A + pad - s.data) / p.blockSize = c := by
        rw [hc, Nat.mul_div_cancel_left _ hB]
      have d2 : (A + pad + size - 2 ^ 64 - s.data) / p.blockSize < c := by
        rw [Nat.div_lt_iff_lt_mul hB, Nat.mul_comm, ← hc]
        omega
      have hcm : c < p.maxBlocks := by
        apply Nat.lt_of_mul_lt_mul_left (a := p.blockSize)
        rw [← hc, Nat.mul_comm p.blockSize p.maxBlocks]
        omega
      rw [d1, hv.trunc_eq hcm, hv.trunc_eq (by omega)] at h6
      rcases h6 with h6 | h6
      · -- the block itself: no padding, no overflow
        have : A + pad = A := by
          have : A + pad - s.data = i * p.blockSize := by rw [hc, h6, Nat.mul_comm]
          omega
        omega
      · omega
    rw [Nat.mod_eq_of_lt hno] at hfit
    exact ⟨h1, rfl, ⟨h2, by show A + pad + size ≤ _; omega, hdv, Nat.dvd_add hbA hpadB⟩⟩
  · exact .pure (Or.inl rfl)

theorem scan_debug {k fuel : Nat} (hv : Valid p) (hd : p.debug = true) (hp : Placed p s)
    (hl : LinksForward s) (hk : k < 64) (hak : align = 2 ^ k) (hsz : size < 2 ^ 64) :
    ∀ i, i < s.blockCount →
    Ensures (applyLoop p (isFree p) (tryRegion p size align) fuel s 0 i) fun r =>
      r = (s, 0) ∨ (Same inc64 s r.1 ∧ Handed p s size align r.2) := by
  have hle := hp.le
  induction fuel with
  | zero => intro i _; exact ⟨nofun, nofun⟩
  | succ fuel ih =>
    intro i hi
    have hli := hl i hi
    unfold applyLoop
    refine (ensures_checkIdx hd hle _).bind fun _ _ =>
      Ensures.bind (P := fun _ => True)
        ((ensures_inUseAt hd hle i).bind fun _ _ => .pure trivial) fun c _ => ?_
    split
    · refine (tryRegion_debug hv hd hp hl hi hk hak hsz).bind fun r hr => ?_
      rcases hr with rfl | ⟨h1, h2, h3⟩
      · by_cases hz : s.next i = 0
        · simp only [hz, ne_eq, not_true_eq_false, decide_false, Bool.false_eq_true, if_false]
          exact .pure (Or.inl rfl)
        · simp only [hz, ne_eq, not_false_eq_true, decide_true, if_true, Nat.one_ne_zero]
          exact ih 1 (by omega)
      · obtain ⟨r1, r2, r3⟩ := r
        simp only at h1 h2 h3
        subst h2
        simp only [Bool.false_eq_true, if_false, ne_eq, not_true_eq_false]
        exact .pure (Or.inr ⟨h1, h3⟩)
    · by_cases hz : s.next i = 0
      · simp only [hz, ne_eq, not_true_eq_false, if_false]
        exact .pure (Or.inl rfl)
      · simp only [hz, ne_eq, not_false_eq_true, if_true]
        exact ih _ (by omega)

/-- What debug builds guarantee for every allocation that returns. -/
theorem allocate_debug {fuel : Nat} {u : σ} (hv : Valid p) (hd : p.debug = true) (hp : Placed p s)
    (hsm : Small p s) (hl : LinksForward s) (hsz : size < 2 ^ 64) (hal : align < 2 ^ 64) :
    Ensures (allocate p up fuel s u size align) fun r =>
      (size = 0 ∧ r = (0, s, u)) ∨
      (r = ((askUpstream up u size align).1, s, (askUpstream up u size align).2)) ∨
      (0 < size ∧ r.2.2 = u ∧ Same inc64 s r.2.1 ∧ Handed p s size align r.1) := by
  unfold allocate
  split
  · rename_i hz
    exact .pure (Or.inl ⟨hz, rfl⟩)
  · rename_i hz
    refine (Ensures.assert hd _).bind fun _ h2 => ?_
    obtain ⟨k, hk, hak⟩ : ∃ k, k < 64 ∧ align = 2 ^ k := by
      obtain ⟨k, hk, e⟩ := (isPowerOf2_iff _).1 h2
      rw [BitVec.toNat_ofNat, Nat.mod_eq_of_lt hal] at e
      exact ⟨k, hk, e⟩
    obtain ⟨c, m, -, -, -, -, hloc⟩ := allocateLocal_eq hv hp hsm
    refine Ensures.bind (P := fun r => r = (s, 0) ∨ (Same inc64 s r.1 ∧ Handed p s size align r.2))
      ?_ fun r hr => ?_
    · rw [hloc]
      split
      · exact scan_debug hv hd hp hl hk hak hsz 0 (by have := hp.some; omega)
      · exact .ok (Or.inl rfl)
    · refine (ensures_isAligned hd _ _).bind fun _ _ => (Ensures.assert hd _).bind fun _ _ => .pure ?_
      rcases hr with rfl | ⟨h3, h4⟩
      · right; left
        cases up <;> rfl
      · right; right
        have h0 : r.2 ≠ 0 := by have := h4.low; have := hp.data; omega
        cases up with
        | none => exact ⟨by omega, rfl, h3, h4⟩
        | some U =>
          simp only [if_neg h0]
          exact ⟨by omega, trivial, h3, h4⟩

/-- The invariant of debug builds. -/
structure DebugInv (p : Params) (w : World σ) : Prop where
  placed : Placed p w.st
  small : Small p w.st
  links : LinksForward w.st
  busy : w.st.busyCount = (localLive p w).length
  inside : ∀ x ∈ localLive p w, x.1 + x.2 ≤ w.st.data + w.st.blockCount * p.blockSize
  ptrs : ∀ x ∈ w.live, x.1 ≠ 0

theorem localLive_congr {w w' : World σ} (hd : w'.st.data = w.st.data)
    (hn : w'.st.blockCount = w.st.blockCount) :
    localLive p w' = w'.live.filter fun x => inArea p w.st x.1 := by
  unfold localLive
  congr 1
  funext x
  rw [inArea_congr hd hn]

theorem step_debug {fuel : Nat} {w : World σ} {op : Op} (hv : Valid p) (hd : p.debug = true)
    (hu : UpstreamApart p w.st up) (h : DebugInv p w) (hop : SizeT op)
    (hlen : w.live.length + 1 < 2 ^ 64) :
    Ensures (step p up fuel w op) fun w' => DebugInv p w' ∧ w'.st.data = w.st.data ∧
      w'.st.blockCount = w.st.blockCount ∧ w'.live.length ≤ w.live.length + 1 := by
  cases op with
  | alloc size align =>
    unfold step doAlloc
    refine (allocate_debug hv hd h.placed h.small h.links hop.1 hop.2).bind fun r hr => ?_
    rcases hr with ⟨rfl, rfl⟩ | rfl | ⟨h0, h1, h2, h3⟩
    · exact .pure ⟨⟨h.placed, h.small, h.links, h.busy, h.inside, h.ptrs⟩, rfl, rfl, by simp⟩
    · refine .pure ⟨?_, rfl, rfl, ?_⟩
      · by_cases hz : (askUpstream up w.up size align).1 = 0
        · simp only [if_pos hz]
          exact ⟨h.placed, h.small, h.links, h.busy, h.inside, h.ptrs⟩
        · simp only [if_neg hz]
          have hout : inArea p w.st (askUpstream up w.up size align).1 = false := by
            cases up with
            | none => exact absurd rfl hz
            | some U => exact hu U rfl w.up size align
          have e : localLive p (⟨w.st, (askUpstream up w.up size align).2,
              ((askUpstream up w.up size align).1, size) :: w.live⟩ : World σ) = localLive p w := by
            unfold localLive
            rw [List.filter_cons_of_neg]
            simp only [hout]
            simp
          refine ⟨h.placed, h.small, h.links, by rw [e]; exact h.busy, by rw [e]; exact h.inside, ?_⟩
          intro x hx
          rcases List.mem_cons.1 hx with rfl | hx
          · exact hz
          · exact h.ptrs x hx
      · simp only
        split <;> simp
    · have hne : r.1 ≠ 0 := by have := h3.low; have := h.placed.data; omega
      have hin : inArea p w.st r.1 = true := inArea_iff.2 ⟨h3.low, by have := h3.high; omega⟩
      simp only [if_neg hne]
      refine .pure ⟨?_, h2.data, h2.count, by simp⟩
      have e : localLive p (⟨r.2.1, r.2.2, (r.1, size) :: w.live⟩ : World σ)
          = (r.1, size) :: localLive p w := by
        rw [localLive_congr (w := w) h2.data h2.count]
        simp only
        rw [List.filter_cons_of_pos (by simpa using hin)]
        rfl
      refine ⟨h.placed.congr h2.data h2.count, h.small.congr h2.data h2.count, h2.links h.links,
        ?_, ?_, ?_⟩
      · rw [e, List.length_cons]
        have h1 := h2.busy
        have h4 := h.busy
        have h5 : (localLive p w).length ≤ w.live.length := List.length_filter_le _ _
        simp only at h1 ⊢
        rw [h1]
        unfold inc64
        rw [if_neg (by omega), h4]
      · rw [e]
        intro x hx
        simp only [h2.data, h2.count]
        rcases List.mem_cons.1 hx with rfl | hx
        · exact h3.high
        · exact h.inside x hx
      · intro x hx
        rcases List.mem_cons.1 hx with rfl | hx
        · exact hne
        · exact h.ptrs x hx
  | free i =>
    unfold step doFree
    simp only
    cases hx : w.live[i]? with
    | none => exact .pure ⟨h, rfl, rfl, by omega⟩
    | some x =>
      obtain ⟨la, lb, hl1, hl2, -⟩ := mem_of_getElem? hx
      have hxm : x ∈ w.live := by rw [hl1]; simp
      have hx0 := h.ptrs x hxm
      have hsub : ∀ y ∈ w.live.eraseIdx i, y ∈ w.live := by
        intro y hy
        rw [hl2] at hy
        rw [hl1]
        simp only [List.mem_append, List.mem_cons] at hy ⊢
        rcases hy with h | h
        · exact Or.inl h
        · exact Or.inr (Or.inr h)
      have hll : (w.live.eraseIdx i).length ≤ w.live.length + 1 := by
        rw [hl2, hl1, List.length_append, List.length_append, List.length_cons]; omega
      have hnw := h.placed.noWrap
      have g2 : w.st.blockCount * p.blockSize ≤ p.maxBlocks * p.blockSize :=
        Nat.mul_le_mul_right _ h.placed.le
      simp only
      unfold deallocate
      rw [if_neg hx0, size_eq hv h.placed, Nat.mod_eq_of_lt (by omega)]
      have fin : ∀ (s' : State) (u' : σ), s'.data = w.st.data → s'.blockCount = w.st.blockCount →
          LinksForward s' →
          s'.busyCount = ((w.live.eraseIdx i).filter fun x => inArea p w.st x.1).length →
          DebugInv p (⟨s', u', w.live.eraseIdx i⟩ : World σ) := by
        intro s' u' e1 e2 e3 e4
        refine ⟨h.placed.congr e1 e2, h.small.congr e1 e2, e3, ?_, ?_, fun y hy => h.ptrs y (hsub y hy)⟩
        · rw [localLive_congr (w := w) e1 e2]; exact e4
        · rw [localLive_congr (w := w) e1 e2]
          intro y hy
          simp only [e1, e2]
          rw [List.mem_filter] at hy
          exact h.inside y (List.mem_filter.2 ⟨hsub y hy.1, hy.2⟩)
      have hb := h.busy
      unfold localLive at hb
      refine Ensures.bind (P := fun r => DebugInv p (⟨r.1, r.2, w.live.eraseIdx i⟩ : World σ) ∧
        r.1.data = w.st.data ∧ r.1.blockCount = w.st.blockCount) ?_ fun r hr => .pure
          ⟨hr.1, hr.2.1, hr.2.2, hll⟩
      refine (ensures_isAligned hd _ _).bind fun _ _ => (Ensures.abort _).bind fun _ _ => ?_
      split
      · rename_i hin
        have hin' : inArea p w.st x.1 = true := inArea_iff.2 hin
        refine (ensures_index hd _).bind fun _ _ =>
          (ensures_deallocateBlocks hd h.placed.le _).bind fun r hr => .pure ?_
        refine ⟨fin _ _ hr.1.data hr.1.count (hr.1.links h.links) ?_, hr.1.data, hr.1.count⟩
        rw [hr.1.busy]
        rw [hb, hl2]
        conv_lhs => rw [hl1]
        simp [List.filter_append, hin']
      · rename_i hin
        have hin' : inArea p w.st x.1 = false := by
          cases e : inArea p w.st x.1 with
          | false => rfl
          | true => exact absurd (inArea_iff.1 e) hin
        have hbz : w.st.busyCount
            = ((w.live.eraseIdx i).filter fun x => inArea p w.st x.1).length := by
          rw [hb, hl2]
          conv_lhs => rw [hl1]
          simp [List.filter_append, hin']
        cases up with
        | none =>
          refine (Ensures.abort _).bind fun _ q1 => (Ensures.abort _).bind fun _ q2 => ?_
          have q1 := of_decide_eq_false q1
          have q2 := of_decide_eq_false q2
          exact absurd ⟨by omega, by omega⟩ hin
        | some U => exact .pure ⟨fin _ _ rfl rfl h.links hbz, rfl, rfl⟩

theorem run_debug {fuel : Nat} (hv : Valid p) (hd : p.debug = true) (ops : List Op) :
    ∀ (w : World σ), UpstreamApart p w.st up → DebugInv p w → (∀ op ∈ ops, SizeT op) →
      w.live.length + ops.length < 2 ^ 64 →
      Ensures (run p up fuel w ops) fun w' => DebugInv p w' ∧ w'.st.data = w.st.data ∧
        w'.st.blockCount = w.st.blockCount := by
  induction ops with
  | nil => intro w _ h _ _; exact .ok ⟨h, rfl, rfl⟩
  | cons op ops ih =>
    intro w hu h hops hlen
    rw [List.length_cons] at hlen
    unfold run
    refine (step_debug hv hd hu h (hops op (by simp)) (by omega)).bind fun w' hw => ?_
    obtain ⟨h1, h2, h3, h4⟩ := hw
    have hu' : UpstreamApart p w'.st up := fun U e u a b => by
      rw [inArea_congr h2 h3]; exact hu U e u a b
    refine (ih w' hu' h1 (fun o ho => hops o (by simp [ho])) (by omega)).mono fun w2 h5 => ?_
    exact ⟨h5.1, h5.2.1.trans h2, h5.2.2.trans h3⟩

theorem Fresh.debugInv {buffer bytes : Nat} (hv : Valid p) (hf : Fresh p buffer bytes s) (u : σ) :
    DebugInv p (⟨s, u, []⟩ : World σ) := by
  obtain ⟨ht, -⟩ := hf.start (up := (none : Option (Upstream σ))) hv u
  refine ⟨ht.placed, ht.small, ht.links, ?_, ?_, ?_⟩
  · show s.busyCount = _
    rw [ht.tiled.busy]
    rfl
  · intro x hx; cases hx
  · intro x hx; cases hx

end Utils.SR
