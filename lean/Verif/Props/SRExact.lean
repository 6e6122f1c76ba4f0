import Verif.Proofs.SRReleaseExact
import Verif.Props.SimpleResource

/-!
# Properties C79 and C80: what `allocate` and `release` of `simple_resource` do on every
well-formed state

C48-C51 and C55 give conditions under which they do what they should.  These theorems say what they
do in all cases, in terms of the recorded links (`Verif.Spec.SRExact`).
-/

namespace Utils.Props

open Utils Utils.Bits Utils.SR

variable {p : Params} {s : State} {size align : Nat} {σ : Type} {up : Option (Upstream σ)}

/-- The address at which a request is placed in the region at block `i`. -/
def placedAt (p : Params) (s : State) (align i : Nat) : Nat :=
  s.data + i * p.blockSize + padding (s.data + i * p.blockSize) align

/-! ## C79 -/

/-- Exactly one answer is decided for a request. -/
theorem C79_decided (hp : Placed p s) (hl : LinksForward s) :
    ∃ r, Decides p s size align r ∧ ∀ r', Decides p s size align r' → r' = r := by
  obtain ⟨r, h⟩ := decides_total (size := size) (align := align) hp hl
  exact ⟨r, h, fun r' h' => h'.unique h⟩

/-- Never: `allocate` does not return, whatever the number of iterations. -/
theorem C79_never (hv : Valid p) {w : World σ} {rs : List Region} (h : Tracks p up w rs)
    (hr : Request size align) (hd : Decides p w.st size align .never) (fuel : Nat) :
    allocate p up fuel w.st w.up size align = .outOfFuel :=
  (allocate_stuck hr (o := .outOfFuel)
    (local_exact hv h.placed h.small h.links hr hd (Or.inl rfl))).1 rfl

/-- Refuse: the upstream resource answers, the bookkeeping stays as it is. -/
theorem C79_refuse (hv : Valid p) {w : World σ} {rs : List Region} (h : Tracks p up w rs)
    (hu : UpstreamOK p w.st up) (hr : Request size align)
    (hd : Decides p w.st size align .refuse) {fuel : Nat} (hf : 2 * w.st.blockCount ≤ fuel) :
    allocate p up fuel w.st w.up size align = .ok
      ((askUpstream up w.up size align).1, w.st, (askUpstream up w.up size align).2) := by
  obtain ⟨u1, u2, -, -⟩ := askUpstream_ok (u := w.up) (size := size) (align := align) hu
  exact allocate_refused hv hr (local_exact hv h.placed h.small h.links hr hd (Or.inr hf)) u1
    (fun _ => u2)

/-- Take, with a byte to spare: the request is placed in the region recorded at this block, without
asking upstream. -/
theorem C79_take (hv : Valid p) {w : World σ} {rs : List Region} (h : Tracks p up w rs)
    (hr : Request size align) {i : Nat} (hd : Decides p w.st size align (.take i))
    (hs : need p w.st size align i ≠ (stop w.st i - i) * p.blockSize)
    {fuel : Nat} (hf : 2 * w.st.blockCount ≤ fuel) :
    ∃ s', allocate p up fuel w.st w.up size align = .ok (placedAt p w.st align i, s', w.up) := by
  obtain ⟨hi, -, hn⟩ := hd.bound h.placed h.links
  obtain ⟨a, ha⟩ := padding_blocks hv h.placed hr.pow2 i
  have hfit : need p w.st size align i < (stop w.st i - i) * p.blockSize := by
    unfold TooSmall at hn
    omega
  unfold need at hfit
  rw [ha] at hfit
  obtain ⟨s', hs'⟩ := allocateBlocks_spare hv h.placed h.links hi hfit
  have hm := local_exact hv h.placed h.small h.links hr hd (fuel := fuel) (Or.inr hf)
  have e : w.st.data + (i + a) * p.blockSize = placedAt p w.st align i := by
    unfold placedAt
    rw [ha, Nat.add_mul, Nat.add_assoc]
  simp only [Means] at hm
  rw [show w.st.data + i * p.blockSize + padding (w.st.data + i * p.blockSize) align
    = w.st.data + (i + a) * p.blockSize from e.symm, hs', Outcome.ok_bind, e] at hm
  have hB := hv.pos
  have hnw := h.placed.noWrap
  have hd0 := h.placed.data
  have hle := h.placed.le
  have hst : stop w.st i ≤ w.st.blockCount := by
    unfold stop
    have := h.links i hi
    split <;> omega
  have hlB : (i + (stop w.st i - i)) * p.blockSize ≤ p.maxBlocks * p.blockSize :=
    Nat.mul_le_mul_right _ (by omega)
  rw [Nat.add_mul] at hlB
  have e1 : (i + a) * p.blockSize = i * p.blockSize + a * p.blockSize := Nat.add_mul _ _ _
  refine ⟨s', allocate_served hv hr hm (by omega) (by omega) ?_⟩
  rw [← e]
  exact Nat.dvd_add h.placed.aligned (Nat.dvd_mul_left _ _)

/-- Take, filling the region to its last byte: an assertion fails in debug builds. -/
theorem C79_take_exact (hv : Valid p) (hdb : p.debug = true) {w : World σ} {rs : List Region}
    (h : Tracks p up w rs) (hr : Request size align) {i : Nat}
    (hd : Decides p w.st size align (.take i))
    (hs : need p w.st size align i = (stop w.st i - i) * p.blockSize)
    {fuel : Nat} (hf : 2 * w.st.blockCount ≤ fuel) :
    allocate p up fuel w.st w.up size align = .assertFailed := by
  obtain ⟨hi, -, hn⟩ := hd.bound h.placed h.links
  obtain ⟨a, ha⟩ := padding_blocks hv h.placed hr.pow2 i
  have hfit := hs
  unfold need at hfit
  rw [ha] at hfit
  have hs' := allocateBlocks_exact hv h.placed h.links hdb hi hr.pos hfit
  have hm := local_exact hv h.placed h.small h.links hr hd (fuel := fuel) (Or.inr hf)
  have e : w.st.data + i * p.blockSize + padding (w.st.data + i * p.blockSize) align
      = w.st.data + (i + a) * p.blockSize := by
    rw [ha, Nat.add_mul, Nat.add_assoc]
  simp only [Means] at hm
  rw [e, hs'] at hm
  exact (allocate_stuck hr (o := .assertFailed) hm).2 rfl

/-- Termination, decided: `allocate` never returns iff the alignment passes the gate, the first
unmarked block and the first unmarked block after block 1 are both recorded as too small, and neither
is recorded as the last region. -/
theorem C79_hangs_iff (hv : Valid p) {w : World σ} {rs : List Region} (h : Tracks p up w rs)
    (hu : UpstreamOK p w.st up) (hr : Request size align) :
    (∀ fuel, allocate p up fuel w.st w.up size align = .outOfFuel) ↔
      Gate p w.st align ∧ ∃ i j, Finds w.st 0 (some i) ∧ TooSmall p w.st size align i ∧
        w.st.next i ≠ 0 ∧ Finds w.st 1 (some j) ∧ TooSmall p w.st size align j ∧
        w.st.next j ≠ 0 := by
  constructor
  · intro hall
    obtain ⟨r, hd, -⟩ := C79_decided (size := size) (align := align) h.placed h.links
    have ho := hall (2 * w.st.blockCount)
    cases r with
    | never =>
      cases hd with
      | @never i j g h0 hs hn h1 hs1 hn1 => exact ⟨g, i, j, h0, hs, hn, h1, hs1, hn1⟩
    | refuse =>
      rw [C79_refuse hv h hu hr hd (Nat.le_refl _)] at ho
      cases ho
    | take i =>
      exfalso
      have hm := local_exact hv h.placed h.small h.links hr hd (fuel := 2 * w.st.blockCount)
        (Or.inr (Nat.le_refl _))
      refine loopFree_allocate ?_ ho
      rw [show allocateLocal p (2 * w.st.blockCount) w.st size align = _ from hm]
      exact loopFree_bind (loopFree_allocateBlocks _ _ _) fun _ => loopFree_pure _
  · rintro ⟨g, i, j, h0, hs, hn, h1, hs1, hn1⟩ fuel
    exact C79_never hv h hr (.never g h0 hs hn h1 hs1 hn1) fuel

/-- The state after a history without upstream. -/
def stateAfter (p : Params) (s : State) (ops : List Op) : Outcome State :=
  (run p none 1000 (⟨s, (), []⟩ : World Unit) ops).map World.st

/-- The answers occur: after three one-byte allocations, the second one given back, a request of one
byte takes block 1 (the first unmarked one); one of nine bytes is never answered, since block 1 is
too small both times and not the last region. -/
example : (stateAfter pDebug (fresh pDebug 4096 32) [.alloc 1 1, .alloc 1 1, .alloc 1 1, .free 1]).map
    (fun s => (s.inUse 0, s.next 0, s.inUse 1, s.next 1))
    = .ok (true, 1, false, 2) := by decide +kernel
example {s : State} (h0 : s.inUse 0 = true) (h1 : s.next 0 = 1) (h2 : s.inUse 1 = false)
    (h3 : s.next 1 = 2) (hd : s.data = 4096) (hn : s.blockCount = 32) :
    Decides pDebug s 1 1 (.take 1) ∧ Decides pDebug s 9 1 .never := by
  have g : Gate pDebug s 1 := ⟨0, Nat.one_dvd _, by rw [hn]; decide⟩
  have f1 : Finds s 1 (some 1) := .here h2
  have f0 : Finds s 0 (some 1) := .next h0 (by rw [h1]; decide) (h1 ▸ f1)
  have e : ∀ n, TooSmall pDebug s n 1 1 ↔ 8 < n := by
    intro n
    simp only [TooSmall, stop, need, padding, h3, hd, pDebug, if_neg (by decide : ¬ (2 = 0))]
    omega
  exact ⟨.first g f0 (by rw [e]; decide),
    .never g f0 ((e 9).2 (by decide)) (by rw [h3]; decide) f1 ((e 9).2 (by decide))
      (by rw [h3]; decide)⟩

/-! ## C80 -/

/-- `release()` returns, and frees exactly the first busy region and the busy regions whose first
block is reached from block 1 along the recorded links; all others stay as they are. -/
theorem C80_release (hv : Valid p) {w : World σ} {rs : List Region} (h : Tracks p up w rs)
    {fuel : Nat} (hf : (w.st.blockCount + 1) * (w.st.blockCount + 2) ≤ fuel) :
    ∃ s' rs', release p fuel w.st = .ok s' ∧ s'.data = w.st.data ∧
      s'.blockCount = w.st.blockCount ∧ Tiled s' rs' ∧
      ∀ x, x ∈ busyRuns 0 rs' ↔
        x ∈ busyRuns 0 rs ∧ ¬ FirstBusy w.st x.1 ∧ ¬ Path w.st 1 x.1 := by
  obtain ⟨s', rs', h1, h2, h3, h4, -, h5⟩ := release_exact hv h.placed h.tiled h.links hf
  exact ⟨s', rs', h1, h2, h3, h4, h5⟩

/-- Everything is freed if the first region has one block, or if only one region is busy. -/
theorem C80_frees_all (hv : Valid p) {w : World σ} {rs : List Region} (h : Tracks p up w rs)
    (hc : (∃ b rest, rs = ⟨1, b⟩ :: rest) ∨ (busyRuns 0 rs).length ≤ 1)
    {fuel : Nat} (hf : (w.st.blockCount + 1) * (w.st.blockCount + 2) ≤ fuel) :
    ∃ s', release p fuel w.st = .ok s' ∧ Tiled s' [⟨w.st.blockCount, false⟩] ∧
      s'.busyCount = 0 ∧ s'.freeCount = 1 := by
  obtain ⟨s', rs', h1, h2, h3, h4, h5⟩ := C80_release hv h hf
  have t := (tiled_iff.1 h.tiled).1
  have hmark : ∀ x ∈ busyRuns 0 rs, x.1 < w.st.blockCount ∧ w.st.inUse x.1 = true := by
    intro x hx
    obtain ⟨q1, q2, e1, e2, -⟩ := busyRuns_split hx
    rw [Nat.zero_add] at e2
    subst e1
    have a := t.at
    simp only at a
    rw [e2]
    exact ⟨by omega, a.2.2.2.1⟩
  have hnone : busyRuns 0 rs' = [] := by
    rw [List.eq_nil_iff_forall_not_mem]
    intro x hx
    obtain ⟨k1, k2, k3⟩ := (h5 x).1 hx
    obtain ⟨m1, m2⟩ := hmark x k1
    rcases hc with ⟨b, rest, rfl⟩ | hc
    · rcases Nat.eq_zero_or_pos x.1 with h0 | h0
      · exact k2 ⟨m1, m2, fun k hk => by omega⟩
      · cases rest with
        | nil =>
          have := t.blocks_eq
          simp only [blocks_cons, blocks_nil, Nat.add_zero] at this
          omega
        | cons q rest =>
          have t' : Tiles w.st ([⟨1, b⟩] ++ q :: rest) := t
          have := t'.path_busy k1 (by simp only [blocks_cons, blocks_nil]; omega)
          exact k3 (by simpa using this)
    · refine k2 ⟨m1, m2, fun k hk => ?_⟩
      rw [← Bool.not_eq_true]
      intro hu
      obtain ⟨l, hl⟩ := (t.inUse_iff (by omega)).1 hu
      have : (k, l) = x := by
        match hb : busyRuns 0 rs, hc with
        | [], _ => rw [hb] at hl; simp at hl
        | [y], _ =>
          rw [hb] at hl k1
          simp only [List.mem_singleton] at hl k1
          rw [hl, k1]
      rw [← this] at hk
      exact Nat.lt_irrefl _ hk
  have hfree : ∀ j, j < s'.blockCount → s'.inUse j = false := by
    intro j hj
    rw [← Bool.not_eq_true]
    intro hu
    obtain ⟨l, hl⟩ := ((tiled_iff.1 h4).1.inUse_iff hj).1 hu
    rw [hnone] at hl
    simp at hl
  have hs := h.placed.some
  have e := h4.all_free (by omega) hfree
  rw [e, h3] at h4
  exact ⟨s', h1, h4, by rw [h4.busy]; rfl, by rw [h4.free]; rfl⟩

/-- If the first region is busy with two blocks or more and block 1 records no link, `release()`
frees the first region only; every other busy region stays busy. -/
theorem C80_leaks (hv : Valid p) {w : World σ} {rest : List Region} {len : Nat}
    (h : Tracks p up w (⟨len, true⟩ :: rest)) (hlen : 2 ≤ len) (h1 : w.st.next 1 = 0)
    {fuel : Nat} (hf : (w.st.blockCount + 1) * (w.st.blockCount + 2) ≤ fuel) :
    ∃ s' rs', release p fuel w.st = .ok s' ∧ Tiled s' rs' ∧
      ∀ x, x ∈ busyRuns 0 rs' ↔ x ∈ busyRuns len rest := by
  obtain ⟨s', rs', g1, g2, g3, g4, g5⟩ := C80_release hv h hf
  refine ⟨s', rs', g1, g4, fun x => ?_⟩
  have t := (tiled_iff.1 h.tiled).1
  obtain ⟨a1, a2, a3, a4, a5, a6⟩ := Tiles.at (pre := []) t
  simp only [blocks_nil, Nat.zero_add] at a1 a2 a3 a4 a5 a6
  rw [g5, busyRuns_busy, Nat.zero_add, List.mem_cons]
  constructor
  · rintro ⟨hx | hx, k2, -⟩
    · rw [hx] at k2
      exact absurd ⟨by have := h.placed.some; omega, a4, by omega⟩ k2
    · exact hx
  · intro hx
    have hge := busyRuns_ge hx
    refine ⟨Or.inr hx, ?_, ?_⟩
    · rintro ⟨-, -, h3⟩
      have := h3 0 (by omega)
      rw [a4] at this
      simp at this
    · intro hpath
      generalize hx1 : x.1 = y at hpath
      cases hpath with
      | refl => omega
      | step hn _ => exact hn h1

/-- The hypotheses of `C80_leaks` hold after two allocations of nine bytes: the first region has two
blocks and block 1 records no link; the second allocation, at block 2, stays in use. -/
example : (stateAfter pDebug (fresh pDebug 4096 32) [.alloc 9 1, .alloc 9 1]).map
    (fun s => (s.inUse 0, s.next 0, s.next 1, s.inUse 2)) = .ok (true, 2, 0, true) ∧
    afterRelease pDebug (fresh pDebug 4096 32) [.alloc 9 1, .alloc 9 1] = .ok (1, 2) ∧
    afterRelease pDebug (fresh pDebug 4096 32) [.alloc 1 1, .alloc 9 1, .alloc 20 1] = .ok (0, 1) := by
  refine ⟨?_, ?_, ?_⟩ <;> decide +kernel

end Utils.Props
