import Verif.Props.SRExact

/-!
# How much fragmentation costs a client of `simple_resource` (C119)

The worst a client can do is to leave free regions that are all one block too short.  There are never
more of them than allocations in between, plus one, so free space above that always contains a region
that is long enough.
-/

namespace Utils.Props

open Utils Utils.Bits Utils.SR

variable {σ : Type} {p : Params} {up : Option (Upstream σ)} {size align : Nat}

private theorem free_le_busy {rs : List Region}
    (h : rs.IsChain fun x y => x.busy = true ∨ y.busy = true) :
    (rs.countP fun r => !r.busy) ≤ (rs.countP fun r => r.busy) + 1 ∧
    (∀ r, rs.head? = some r → r.busy = true →
      (rs.countP fun r => !r.busy) ≤ rs.countP fun r => r.busy) := by
  induction rs with
  | nil => simp
  | cons x rs ih =>
    have ih' := ih h.tail
    rw [List.countP_cons, List.countP_cons]
    cases hx : x.busy with
    | true =>
      refine ⟨by simp; omega, fun r hr _ => by simp; omega⟩
    | false =>
      refine ⟨?_, fun r hr hb => ?_⟩
      · cases rs with
        | nil => simp
        | cons y rs =>
          have hy : y.busy = true := by
            have := (List.isChain_cons_cons.1 h).1
            simpa [hx] using this
          have := ih'.2 y rfl hy
          simp
          omega
      · simp only [List.head?_cons, Option.some.injEq] at hr
        rw [← hr, hx] at hb
        cases hb

private theorem busyRuns_length (rs : List Region) (h : Nat) :
    (busyRuns h rs).length = rs.countP fun r => r.busy := by
  induction rs generalizing h with
  | nil => rfl
  | cons x rs ih =>
    rw [busyRuns, List.countP_cons]
    cases x.busy <;> simp [ih]

private theorem blocks_le {m : Nat} {rs : List Region}
    (hm : ∀ r ∈ rs, r.busy = false → r.len ≤ m) (h : Nat) :
    blocks rs ≤ ((busyRuns h rs).map Prod.snd).sum + (rs.countP fun r => !r.busy) * m := by
  induction rs generalizing h with
  | nil => simp [blocks]
  | cons x rs ih =>
    have ih := ih (fun r hr => hm r (List.mem_cons_of_mem _ hr)) (h + x.len)
    have hx := hm x (by simp)
    rw [busyRuns, List.countP_cons, blocks_cons]
    cases hb : x.busy with
    | true => simp; omega
    | false =>
      have := hx hb
      simp only [Bool.false_eq_true, ↓reduceIte, Bool.not_false]
      rw [Nat.add_mul, Nat.one_mul]
      omega

private theorem free_regions {w : World σ} {rs : List Region} (h : Tracks p up w rs) :
    w.st.freeCount ≤ (localLive p w).length + 1 := by
  have hl : (localLive p w).length = rs.countP fun r => r.busy := by
    have := h.live.length_eq
    rwa [List.length_map, List.length_map, busyRuns_length] at this
  rw [hl, h.tiled.free]
  exact (free_le_busy (coalesced_iff.1 h.tiled.coalesced)).1

/-- After any history of calls whose scans go right, there are at most as many free regions as allocations
held from the area, plus one. -/
theorem C119_free_regions_partial (hv : Valid p) {s : State} {buffer bytes : Nat}
    (hf : Fresh p buffer bytes s) (hu : UpstreamOK p s up) (u : σ) {fuel : Nat}
    (hfuel : s.blockCount ≤ fuel) {ops : List Op}
    (hops : Along p up fuel (SafeOp p) ⟨s, u, []⟩ ops) :
    ∃ w, run p up fuel ⟨s, u, []⟩ ops = .ok w ∧
      w.st.freeCount ≤ (localLive p w).length + 1 := by
  obtain ⟨w, h1, rs, h2⟩ := C46_tracks hv hf hu u hfuel hops
  exact ⟨w, h1, free_regions h2⟩

private theorem long_region {w : World σ} {rs : List Region} {m : Nat} (h : Tracks p up w rs)
    (hroom : ((localLive p w).length + 1) * m < w.st.blockCount - used p (localLive p w)) :
    ∃ r ∈ rs, r.busy = false ∧ m < r.len := by
  refine Classical.byContradiction fun hc => ?_
  have hm : ∀ r ∈ rs, r.busy = false → r.len ≤ m := fun r hr hb =>
    Nat.le_of_not_lt fun hlt => hc ⟨r, hr, hb, hlt⟩
  have h1 := blocks_le hm 0
  have h2 := free_regions h
  rw [h.tiled.free] at h2
  have hu : used p (localLive p w) = ((busyRuns 0 rs).map Prod.snd).sum := by
    have := ((h.live.map Prod.snd).sum_nat).trans (by
      rw [List.map_map]; rfl : _ = ((busyRuns 0 rs).map Prod.snd).sum)
    rw [List.map_map] at this
    exact this
  have h3 := (tiled_iff.1 h.tiled).1.blocks_eq
  have h4 := Nat.mul_le_mul_right m h2
  omega

private theorem padding_le (hv : Valid p) {s : State} (hp : Placed p s) (ha : ∃ k, align = 2 ^ k)
    (h : Nat) : padding (s.data + h * p.blockSize) align ≤ align - p.blockSize := by
  obtain ⟨a, e⟩ := padding_blocks hv hp ha h
  obtain ⟨k, hk⟩ := ha
  obtain ⟨b, hb⟩ := hv.pow2
  have hlt : padding (s.data + h * p.blockSize) align < align :=
    padding_lt _ (by rw [hk]; exact Nat.two_pow_pos k)
  have hB := hv.pos
  by_cases hle : align ≤ p.blockSize
  · have : a = 0 := by
      have : a * p.blockSize < 1 * p.blockSize := by omega
      have := Nat.lt_of_mul_lt_mul_right this
      omega
    rw [e, this, Nat.zero_mul]
    exact Nat.zero_le _
  · obtain ⟨c, hc⟩ : p.blockSize ∣ align := by
      rw [hk, hb] at hle ⊢
      exact Nat.pow_dvd_pow 2 (Nat.le_of_not_lt fun hkb =>
        hle (Nat.pow_le_pow_right (by decide) (Nat.le_of_lt hkb)))
    rw [e] at hlt ⊢
    rw [hc, Nat.mul_comm p.blockSize c] at hlt ⊢
    have h1 := Nat.lt_of_mul_lt_mul_right hlt
    have h2 := Nat.mul_le_mul_right p.blockSize (Nat.le_sub_one_of_lt h1)
    rwa [Nat.sub_mul, Nat.one_mul] at h2

/-- The blocks that the client does not hold exceed `m` times one more than the number of allocations it
holds from the area, where `m * BlockSize` bytes are what the request may need at most, rounded down. -/
def Roomy (p : Params) (w : World σ) (size align : Nat) : Prop :=
  ((localLive p w).length + 1) * ((size + (align - p.blockSize)) / p.blockSize) <
    w.st.blockCount - used p (localLive p w)

private theorem served (hv : Valid p) {w : World σ} {rs : List Region} (h : Tracks p up w rs)
    (hu : UpstreamOK p w.st up) (hr : Request size align) (hal : GateOpen p w.st align)
    (hs : SafeScan p w.st size align rs) (hroom : Roomy p w size align)
    {fuel : Nat} (hf : w.st.blockCount ≤ fuel) :
    ∃ ptr w', step p up fuel w (.alloc size align) = .ok w' ∧
      w'.live = (ptr, size) :: w.live ∧ inArea p w.st ptr = true ∧ align ∣ ptr ∧
      w'.up = w.up ∧ Sound p w' ∧ (∃ rs', Tracks p up w' rs') ∧ w'.st.data = w.st.data ∧
      w'.st.blockCount = w.st.blockCount := by
  obtain ⟨w', e, hres⟩ := doAlloc_good hv h hu hr hs hf
  have hgeo := hres.geometry
  cases hres with
  | served h2 h3 h4 h5 t1 t2 t3 t4 =>
    subst h2
    obtain ⟨b1, b2, -⟩ := h5.bounds hv h.placed (tiled_iff.1 h.tiled).1
    refine ⟨_, w', e, t2, ?_, h5.aligned, t4, t1.sound hv, ⟨_, t1⟩, hgeo.1, hgeo.2.1⟩
    simp only [inArea, Bool.and_eq_true, decide_eq_true_eq]
    exact ⟨b1, by omega⟩
  | refused h2 =>
    exfalso
    obtain ⟨r, hr1, hr2, hr3⟩ := long_region h hroom
    obtain ⟨pre, post, hsplit⟩ := List.append_of_mem hr1
    obtain ⟨l, b⟩ := r
    simp only at hr2 hr3
    subst hr2
    have h1 := h2 hal pre l post hsplit
    have h3 := padding_le hv h.placed hr.pow2 (blocks pre)
    unfold need at h1
    have h4 : size + (align - p.blockSize) < l * p.blockSize := by
      rw [Nat.div_lt_iff_lt_mul hv.pos] at hr3
      exact hr3
    omega

/-- With that much room the request is served from the area, whatever history scattered the
allocations: the client gets an aligned address in the area, apart from all that it holds there, and
upstream is not asked.  For alignments up to `BlockSize` the room is one more than the number of
allocations held, times one block less than the request takes.  Missing for the full claim: scans that
do not go right (`C119_counterexample`). -/
theorem C119_served_partial (hv : Valid p) {s : State} {buffer bytes : Nat}
    (hf : Fresh p buffer bytes s) (hu : UpstreamOK p s up) (u : σ) {fuel : Nat}
    (hfuel : s.blockCount ≤ fuel) {ops : List Op}
    (hops : Along p up fuel (SafeOp p) ⟨s, u, []⟩ ops) :
    ∃ w, run p up fuel ⟨s, u, []⟩ ops = .ok w ∧
      (SafeOp p w (.alloc size align) → GateOpen p s align → Roomy p w size align →
        ∃ ptr w', step p up fuel w (.alloc size align) = .ok w' ∧
          w'.live = (ptr, size) :: w.live ∧ inArea p s ptr = true ∧ align ∣ ptr ∧
          w'.up = w.up ∧ Sound p w') := by
  obtain ⟨w, h1, ⟨rs, h2⟩, h3, h4⟩ := safe_history hv (hf.start (up := up) hv u).1 hu hfuel hops
  refine ⟨w, h1, fun hs hg hroom => ?_⟩
  have hA : ∀ a, inArea p w.st a = inArea p s a := fun a => by unfold inArea; rw [h3, h4]
  have hu' : UpstreamOK p w.st up := fun U e u size align => by
    rw [hA]; exact hu U e u size align
  have hg' : GateOpen p w.st align := by unfold GateOpen; rw [h3, h4]; exact hg
  obtain ⟨ptr, w', e1, e2, e3, e4, e5, e6, -⟩ := served (fuel := fuel) hv h2 hu' hs.1 hg'
    (hs.2 rs h2.tiled) hroom (by rw [h4]; exact hfuel)
  exact ⟨ptr, w', e1, e2, by rw [← hA]; exact e3, e4, e5, e6⟩

/-- The hypotheses hold in a fresh area of 32 blocks for a request of 31 blocks and a bit; after one
allocation was given back below another one, a free block is left on each side, and the bound is sharp:
two blocks are free, which is `(1 + 1) * 1`, and a request of nine bytes is refused. -/
example : Roomy pDebug (⟨fresh pDebug 4096 32, (), []⟩ : World Unit) 255 8 := by
  unfold Roomy; decide
example : liveAfter pDebug (fresh pDebug 4096 3) [.alloc 1 1, .alloc 1 1, .free 1, .alloc 9 1]
    = .ok [(4104, 1)] := by decide +kernel
example : 3 - used pDebug [(4104, 1)] = ([(4104, 1)].length + 1) * (9 / pDebug.blockSize) := by decide

/-- What a client holds if every request is served: the sizes, newest first. -/
def sizesHeld : List Nat → List Op → List Nat
  | l, [] => l
  | l, .alloc size _ :: ops => sizesHeld (size :: l) ops
  | l, .free i :: ops => sizesHeld (l.eraseIdx i) ops

/-- The client asks for less than `k` blocks, aligned to at most a block, and only while it holds fewer than
`n` allocations. -/
def Modest (p : Params) (n k : Nat) (w : World σ) : Op → Prop
  | .alloc size align => size < k * p.blockSize ∧ align ≤ p.blockSize ∧ w.live.length < n
  | .free _ => True

private theorem map_eraseIdx {α β : Type} (f : α → β) (l : List α) (i : Nat) :
    (l.eraseIdx i).map f = (l.map f).eraseIdx i := by
  induction l generalizing i with
  | nil => rfl
  | cons x l ih =>
    cases i with
    | zero => rfl
    | succ i => simp [ih]

private theorem used_le {l : List (Nat × Nat)} {k : Nat}
    (h : ∀ x ∈ l, x.2 / p.blockSize + 1 ≤ k) : used p l ≤ l.length * k := by
  unfold used
  induction l with
  | nil => simp
  | cons x l ih =>
    have := h x (by simp)
    have := ih fun y hy => h y (by simp [hy])
    rw [List.map_cons, List.sum_cons, List.length_cons, Nat.add_mul]
    omega

private theorem capacity (hv : Valid p) {n k : Nat} {s : State} {fuel : Nat} {ops : List Op}
    (hu : UpstreamOK p s up) (hfuel : s.blockCount ≤ fuel)
    (hcap : 2 * n * k + 1 ≤ s.blockCount + n + k) {w : World σ} {rs : List Region}
    (h : Tracks p up w rs) (hdata : w.st.data = s.data) (hcount : w.st.blockCount = s.blockCount)
    (hloc : ∀ x ∈ w.live, inArea p s x.1 = true) (hsize : ∀ x ∈ w.live, x.2 / p.blockSize + 1 ≤ k)
    (hops : Along p up fuel (fun w op => SafeOp p w op ∧ Modest p n k w op) w ops) :
    ∃ w', run p up fuel w ops = .ok w' ∧ w'.up = w.up ∧ (∀ x ∈ w'.live, inArea p s x.1 = true) ∧
      w'.live.map Prod.snd = sizesHeld (w.live.map Prod.snd) ops ∧ Sound p w' := by
  induction ops generalizing w rs with
  | nil => exact ⟨w, rfl, rfl, hloc, rfl, h.sound hv⟩
  | cons op ops ih =>
    obtain ⟨⟨hs, hm⟩, hrest⟩ := hops
    have hA : ∀ a, inArea p w.st a = inArea p s a := fun a => by unfold inArea; rw [hdata, hcount]
    have hu' : UpstreamOK p w.st up := fun U e u size align => by
      rw [hA]; exact hu U e u size align
    have hB := hv.pos
    have hll : localLive p w = w.live :=
      List.filter_eq_self.2 fun x hx => by rw [hA]; exact hloc x hx
    cases op with
    | free i =>
      obtain ⟨w1, rs1, e, ht, hres⟩ := doFree_good hv h i
      obtain ⟨g1, g2⟩ := hres.geometry
      have hlive : w1.live = w.live.eraseIdx i ∧ w1.up = w.up := by
        cases hres with
        | nothing h1 h2 =>
          subst h2
          exact ⟨(List.eraseIdx_of_length_le (by simpa using h1)).symm, rfl⟩
        | locl _ _ _ _ _ _ _ h1 _ _ h2 => exact ⟨h1, h2⟩
        | upstream h1 h2 =>
          have := hloc _ (List.mem_of_getElem? h1)
          rw [← hA] at this
          simp_all
      have hsub : ∀ x ∈ w1.live, x ∈ w.live := fun x hx => by
        rw [hlive.1] at hx; exact List.mem_of_mem_eraseIdx hx
      obtain ⟨w', e', c1, c2, c3, c4⟩ := ih ht (g1.trans hdata) (g2.trans hcount)
        (fun x hx => hloc x (hsub x hx)) (fun x hx => hsize x (hsub x hx)) (hrest w1 e)
      refine ⟨w', ?_, c1.trans hlive.2, c2, ?_, c4⟩
      · change (doFree p up w i).bind _ = _
        rw [e]
        exact e'
      · rw [c3, hlive.1, sizesHeld]
        congr 1
        exact map_eraseIdx _ _ _
    | alloc size align =>
      obtain ⟨m1, m2, m3⟩ := hm
      have hroom : Roomy p w size align := by
        unfold Roomy
        rw [hll, hcount, Nat.sub_eq_zero_of_le m2]
        change (w.live.length + 1) * (size / p.blockSize) < _
        have h1 := used_le hsize
        have h2 : size / p.blockSize < k := (Nat.div_lt_iff_lt_mul hB).2 m1
        have h3 : (w.live.length + 1) * (size / p.blockSize) ≤ (w.live.length + 1) * (k - 1) :=
          Nat.mul_le_mul_left _ (by omega)
        have h4 : w.live.length * k ≤ (n - 1) * k := Nat.mul_le_mul_right _ (by omega)
        have h5 : (w.live.length + 1) * (k - 1) ≤ n * (k - 1) := Nat.mul_le_mul_right _ (by omega)
        have h6 : (n - 1) * k = n * k - k := by rw [Nat.sub_mul, Nat.one_mul]
        have h7 : n * (k - 1) = n * k - n := by rw [Nat.mul_sub, Nat.mul_one]
        have h8 : 2 * n * k = n * k + n * k := by rw [Nat.mul_assoc, Nat.two_mul]
        have h9 : k ≤ n * k := Nat.le_mul_of_pos_left _ (by omega)
        have h10 : n ≤ n * k := Nat.le_mul_of_pos_right _ (Nat.zero_lt_of_lt h2)
        omega
      have hgate : GateOpen p w.st align := by
        have : 0 < w.st.blockCount := by unfold Roomy at hroom; omega
        exact .inr (Nat.le_trans m2 (Nat.le_mul_of_pos_left _ this))
      obtain ⟨ptr, w1, e, t1, t2, -, t4, -, ⟨rs1, ht⟩, g1, g2⟩ := served (fuel := fuel) hv h hu' hs.1
        hgate (hs.2 rs h.tiled) hroom (by rw [hcount]; exact hfuel)
      obtain ⟨w', e', c1, c2, c3, c4⟩ := ih ht (g1.trans hdata) (g2.trans hcount)
        (fun x hx => by
          rw [t1] at hx
          rcases List.mem_cons.1 hx with rfl | hx
          · rw [← hA]; exact t2
          · exact hloc x hx)
        (fun x hx => by
          rw [t1] at hx
          rcases List.mem_cons.1 hx with rfl | hx
          · exact (Nat.div_lt_iff_lt_mul hB).2 m1
          · exact hsize x hx)
        (hrest w1 e)
      refine ⟨w', ?_, c1.trans t4, c2, ?_, c4⟩
      · change (step p up fuel w (.alloc size align)).bind _ = _
        rw [e]
        exact e'
      · rw [c3, t1, sizesHeld]
        rfl

/-- A client that never holds more than `n` allocations, each of at most `k` blocks, gets every request from
an area of `2nk - n - k + 1` blocks, in any order of giving back; upstream is never called.  Missing for
the full claim: as in `C119_served_partial`. -/
theorem C119_capacity_partial (hv : Valid p) {s : State} {buffer bytes : Nat}
    (hf : Fresh p buffer bytes s) (hu : UpstreamOK p s up) (u : σ) {fuel : Nat}
    (hfuel : s.blockCount ≤ fuel) {n k : Nat} (hcap : 2 * n * k + 1 ≤ s.blockCount + n + k)
    {ops : List Op}
    (hops : Along p up fuel (fun w op => SafeOp p w op ∧ Modest p n k w op) ⟨s, u, []⟩ ops) :
    ∃ w, run p up fuel ⟨s, u, []⟩ ops = .ok w ∧ w.up = u ∧
      (∀ x ∈ w.live, inArea p s x.1 = true) ∧ w.live.map Prod.snd = sizesHeld [] ops ∧ Sound p w :=
  capacity hv hu hfuel hcap (hf.start (up := up) hv u).1 rfl rfl nofun nofun hops

/-- Two allocations of at most two blocks need five blocks.  With four, a client that keeps the blocks in
the middle is not served. -/
example : Along pDebug none 1000 (fun w op => SafeOp pDebug w op ∧ Modest pDebug 2 2 w op)
    (⟨fresh pDebug 4096 5, (), []⟩ : World Unit) [.alloc 9 1, .free 0] := by
  refine ⟨⟨⟨⟨⟨0, rfl⟩, by decide, by decide⟩, fun rs ht => ?_⟩, by decide, by decide, by decide⟩,
    fun w' _ => ⟨⟨trivial, trivial⟩, fun _ _ => trivial⟩⟩
  have h0 := ht.all_free (by decide) (fun j _ => rfl)
  rw [h0]
  exact .first (pre := []) (post := []) (by simp) (by decide)
example : 2 * 2 * 2 + 1 ≤ (fresh pDebug 4096 5).blockCount + 2 + 2 := by decide
example : liveAfter pDebug (fresh pDebug 4096 4) [.alloc 1 1, .alloc 9 1, .free 1, .alloc 9 1]
    = .ok [(4104, 9)] := by decide +kernel
example : sizesHeld [] [.alloc 1 1, .alloc 9 1, .free 1, .alloc 9 1] = [9, 9] := by decide

/-- The full claim is false: three one-byte allocations, the second one given back.  Two allocations are
held, 30 of 32 blocks are free, and a request of nine bytes, for which more than three free blocks are
room enough, never returns. -/
theorem C119_counterexample :
    ∃ w', run pDebug none 1000 (⟨fresh pDebug 4096 32, (), []⟩ : World Unit)
        [.alloc 1 1, .alloc 1 1, .alloc 1 1, .free 1] = .ok w' ∧
      Roomy pDebug w' 9 1 ∧ ∀ fuel, step pDebug none fuel w' (.alloc 9 1) = .outOfFuel := by
  obtain ⟨w', h1, h2, h3⟩ := C49_counterexample
  have hst : ((run pDebug none 1000 (⟨fresh pDebug 4096 32, (), []⟩ : World Unit)
      [.alloc 1 1, .alloc 1 1, .alloc 1 1, .free 1]).map fun w => (w.st.data, w.st.blockCount))
      = .ok (4096, 32) := by decide +kernel
  rw [h1] at hst
  obtain ⟨e1, e2⟩ := Prod.mk.inj (Outcome.ok.inj hst)
  refine ⟨w', h1, ?_, fun fuel => ?_⟩
  · have hl : localLive pDebug w' = [(4112, 1), (4096, 1)] := by
      unfold localLive inArea
      rw [h2, e1, e2]
      decide
    unfold Roomy
    rw [hl, e2]
    decide
  · change doAlloc pDebug none fuel w' 9 1 = _
    unfold doAlloc
    have := h3 fuel
    rw [show w'.up = () from rfl, this]
    rfl

end Utils.Props
