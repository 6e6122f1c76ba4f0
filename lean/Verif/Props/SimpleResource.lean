import Verif.Proofs.SRDebug

/-!
# Properties C45-C60: `simple_resource`

`Valid p`: template arguments that compile.  `Fresh p buffer bytes s`: `s` was just constructed over
a usable buffer.  `run` executes a history; `Tracks p up w rs` is the relation between bookkeeping and
client that C46 shows to hold after every history of safely scanned calls; theorems about single
calls assume it.
-/

namespace Utils.Props

open Utils Utils.Bits Utils.SR

variable {p : Params} {s : State} {size align : Nat} {σ : Type} {up : Option (Upstream σ)}

/-! ## Concrete resources used in the examples and counterexamples -/

/-- 32 blocks of 8 bytes, debug build. -/
def pDebug : Params := ⟨32, 8, true⟩
/-- 32 blocks of 8 bytes, `NDEBUG`. -/
def pRelease : Params := ⟨32, 8, false⟩

/-- A resource with `n` blocks at address `a`. -/
def fresh (p : Params) (a n : Nat) : State := construct p (a, n)

/-- The client's list after a history without upstream. -/
def liveAfter (p : Params) (s : State) (ops : List Op) : Outcome (List (Nat × Nat)) :=
  (run p none 1000 (⟨s, (), []⟩ : World Unit) ops).map World.live

theorem pDebug_valid : Valid pDebug := ⟨⟨3, rfl⟩, by decide, by decide⟩
theorem pRelease_valid : Valid pRelease := ⟨⟨3, rfl⟩, by decide, by decide⟩

theorem fresh_debug : Fresh pDebug 4096 256 (fresh pDebug 4096 32) :=
  ⟨rfl, by decide, by decide, by decide, small_of_le (by decide) (by decide)⟩
theorem fresh_release : Fresh pRelease 4096 256 (fresh pRelease 4096 32) :=
  ⟨rfl, by decide, by decide, by decide, small_of_le (by decide) (by decide)⟩

theorem liveAfter_ok {s : State} {ops : List Op} {l : List (Nat × Nat)}
    (h : liveAfter p s ops = .ok l) :
    ∃ w', run p none 1000 (⟨s, (), []⟩ : World Unit) ops = .ok w' ∧ w'.live = l := by
  unfold liveAfter at h
  cases hr : run p none 1000 (⟨s, (), []⟩ : World Unit) ops with
  | ok w => rw [hr] at h; exact ⟨w, rfl, by cases h; rfl⟩
  | _ => rw [hr] at h; cases h

/-! ## C45 -/

/-- The managed area is the first `BlockSize`-aligned part of the buffer: it starts at the least
aligned address, has as many whole blocks as fit, up to `MaxBlockCount`, and lies in the buffer. If
not even one block fits (or there is no buffer), `data()` is null and `size()` is 0. -/
theorem C45_geometry (hv : Valid p) {buffer bytes : Nat} (hw : buffer + bytes ≤ 2 ^ 64) :
    ∃ s, create p buffer bytes = .ok s ∧
      ((buffer ≠ 0 ∧ ∃ a, buffer ≤ a ∧ p.blockSize ∣ a ∧ a + p.blockSize ≤ buffer + bytes) →
        p.blockSize ∣ s.data ∧ buffer ≤ s.data ∧
        (∀ a, buffer ≤ a → p.blockSize ∣ a → s.data ≤ a) ∧
        s.blockCount = min p.maxBlocks ((buffer + bytes - s.data) / p.blockSize) ∧
        1 ≤ s.blockCount ∧ SR.size p s = s.blockCount * p.blockSize ∧
        s.data + s.blockCount * p.blockSize ≤ buffer + bytes) ∧
      (¬ (buffer ≠ 0 ∧ ∃ a, buffer ≤ a ∧ p.blockSize ∣ a ∧ a + p.blockSize ≤ buffer + bytes) →
        s.data = 0 ∧ s.blockCount = 0 ∧ SR.size p s = 0) := by
  have hB := hv.pos
  have hleast : ∀ a, buffer ≤ a → p.blockSize ∣ a → buffer + padding buffer p.blockSize ≤ a := by
    intro a h1 h2
    obtain ⟨d, rfl⟩ := Nat.exists_eq_add_of_le h1
    have := skipNat_least hB h2
    have : padding buffer p.blockSize ≤ d := this
    omega
  rcases create_cases hv hw with ⟨h1, h2⟩ | ⟨h1, h2, h3⟩
  · refine ⟨_, h1, ?_, fun _ => ⟨rfl, ?_, ?_⟩⟩
    · rintro ⟨g1, a, g2, g3, g4⟩
      have := hleast a g2 g3
      omega
    · show min 0 p.maxBlocks = 0
      omega
    · show p.blockSize * min 0 p.maxBlocks % 2 ^ 64 = 0
      simp
  · refine ⟨_, h3, fun _ => ?_, ?_⟩
    · have hm := hv.two
      have hq : 1 ≤ (bytes - padding buffer p.blockSize) / p.blockSize :=
        Nat.div_pos (by omega) hB
      have hd : p.blockSize ∣ buffer + padding buffer p.blockSize := skipNat_dvd hB
      have e : buffer + bytes - (buffer + padding buffer p.blockSize)
          = bytes - padding buffer p.blockSize := by omega
      have hle : min ((bytes - padding buffer p.blockSize) / p.blockSize) p.maxBlocks * p.blockSize
          ≤ bytes - padding buffer p.blockSize := by
        refine Nat.le_trans (Nat.mul_le_mul_right _ (Nat.min_le_left _ _)) ?_
        exact Nat.div_mul_le_self _ _
      have hle2 : min ((bytes - padding buffer p.blockSize) / p.blockSize) p.maxBlocks * p.blockSize
          ≤ p.maxBlocks * p.blockSize := Nat.mul_le_mul_right _ (Nat.min_le_right _ _)
      have harea := hv.area
      refine ⟨hd, Nat.le_add_right _ _, hleast, ?_, ?_, ?_, ?_⟩
      · show min _ p.maxBlocks = min p.maxBlocks _
        rw [Nat.min_comm]
        show _ = min p.maxBlocks ((buffer + bytes - (buffer + padding buffer p.blockSize)) / p.blockSize)
        rw [e]
      · show 1 ≤ min _ p.maxBlocks
        omega
      · show p.blockSize * min ((bytes - padding buffer p.blockSize) / p.blockSize) p.maxBlocks % 2 ^ 64
          = min ((bytes - padding buffer p.blockSize) / p.blockSize) p.maxBlocks * p.blockSize
        rw [Nat.mul_comm, Nat.mod_eq_of_lt (by omega)]
      · show buffer + padding buffer p.blockSize
          + min ((bytes - padding buffer p.blockSize) / p.blockSize) p.maxBlocks * p.blockSize ≤ _
        omega
    · intro hn
      exfalso
      apply hn
      refine ⟨h1, buffer + padding buffer p.blockSize, Nat.le_add_right _ _, skipNat_dvd hB, by omega⟩

/-- A buffer of 100 bytes at address 4099 gives 11 blocks of 8 bytes at 4104. -/
example : (create pDebug 4099 100).map (fun s => (s.data, s.blockCount)) = .ok (4104, 11) := by
  decide +kernel
/-- A buffer of 10 bytes at address 4099 holds no block. -/
example : (create pDebug 4099 10).map (fun s => (s.data, s.blockCount)) = .ok (0, 0) := by
  decide +kernel

/-! ## C46 -/

/-- After any history of allocations that are scanned safely and deallocations in any order, the
links, marks and counters describe regions `rs` that tile the managed area, free neighbours are
merged, and the busy regions are exactly the live allocations (`size / BlockSize + 1` blocks
each). -/
theorem C46_bookkeeping (hv : Valid p) {buffer bytes : Nat} (hf : Fresh p buffer bytes s)
    (hu : UpstreamOK p s up) (u : σ) {fuel : Nat} (hfuel : s.blockCount ≤ fuel) {ops : List Op}
    (hops : Along p up fuel (SafeOp p) ⟨s, u, []⟩ ops) :
    ∃ w', run p up fuel ⟨s, u, []⟩ ops = .ok w' ∧ ∃ rs, Tiled w'.st rs ∧
      w'.st.data = s.data ∧ w'.st.blockCount = s.blockCount ∧
      ((localLive p w').map fun x => (x.1, x.2 / p.blockSize + 1)).Perm
        ((busyRuns 0 rs).map fun r => (s.data + r.1 * p.blockSize, r.2)) := by
  obtain ⟨w', h1, ⟨rs, h2⟩, h3, h4⟩ :=
    safe_history hv (hf.start (up := up) hv u).1 hu hfuel hops
  refine ⟨w', h1, rs, h2.tiled, h3, h4, ?_⟩
  have := h2.live
  rw [h3] at this
  exact this

/-- The relation used by the theorems about single calls holds in every such state. -/
theorem C46_tracks (hv : Valid p) {buffer bytes : Nat} (hf : Fresh p buffer bytes s)
    (hu : UpstreamOK p s up) (u : σ) {fuel : Nat} (hfuel : s.blockCount ≤ fuel) {ops : List Op}
    (hops : Along p up fuel (SafeOp p) ⟨s, u, []⟩ ops) :
    ∃ w', run p up fuel ⟨s, u, []⟩ ops = .ok w' ∧ ∃ rs, Tracks p up w' rs := by
  obtain ⟨w', h1, h2, -⟩ := safe_history hv (hf.start (up := up) hv u).1 hu hfuel hops
  exact ⟨w', h1, h2⟩

/-- A history that meets the hypotheses: the first allocation in a fresh area is safe. -/
example : Along pDebug none 1000 (SafeOp pDebug) (⟨fresh pDebug 4096 32, (), []⟩ : World Unit)
    [.alloc 20 16, .free 0] := by
  refine ⟨⟨⟨⟨4, rfl⟩, by decide, by decide⟩, fun rs ht => ?_⟩, fun w' _ => ⟨trivial, fun _ _ => trivial⟩⟩
  have h0 := ht.all_free (by decide) (fun j _ => rfl)
  rw [h0]
  exact .first (pre := []) (post := []) (by simp) (by decide)

/-! ## C47 -/

/-- Pool usage refines the ideal pool allocator: whatever the history, the call never hangs, no
assertion fails, and the client's list is the one of an allocator that always takes the lowest free
slot of `n / b` slots of `b` blocks and goes upstream only when all slots are taken. -/
theorem C47_pool_refinement (hv : Valid p) {buffer bytes : Nat} (hf : Fresh p buffer bytes s)
    (hu : UpstreamOK p s up) (u : σ) {fuel b : Nat} (hfuel : s.blockCount ≤ fuel) {ops : List Op}
    (hops : ∀ op ∈ ops, PoolOp p s b op) :
    ∃ w', run p up fuel ⟨s, u, []⟩ ops = .ok w' ∧
      (w'.live, w'.up) = ops.foldl
        (idealStep (poolPlace s.data (s.blockCount / b) (b * p.blockSize)) (inArea p s) up) ([], u) := by
  obtain ⟨w', h1, -, -, -, h2⟩ := pool_history hv (hf.start (up := up) hv u).1
    (by intro r hr; simp [busyRuns] at hr) hu hfuel hops
  exact ⟨w', h1, h2⟩

/-- Pool usage: live allocations are inside the area, do not overlap, and are aligned as every
slot is. -/
theorem C47_pool_sound (hv : Valid p) {buffer bytes : Nat} (hf : Fresh p buffer bytes s)
    (hu : UpstreamOK p s up) (u : σ) {fuel b : Nat} (hfuel : s.blockCount ≤ fuel) {ops : List Op}
    (hops : ∀ op ∈ ops, PoolOp p s b op) :
    ∃ w', run p up fuel ⟨s, u, []⟩ ops = .ok w' ∧ Sound p w' ∧
      w'.st.data = s.data ∧ w'.st.blockCount = s.blockCount ∧
      ∀ x ∈ localLive p w', ∀ a, a ∣ s.data → a ∣ b * p.blockSize → a ∣ x.1 := by
  obtain ⟨w', h1, ⟨rs, h2, h3⟩, h4, h5, -⟩ := pool_history hv (hf.start (up := up) hv u).1
    (by intro r hr; simp [busyRuns] at hr) hu hfuel hops
  refine ⟨w', h1, h2.sound hv, h4, h5, ?_⟩
  intro x hx a ha1 ha2
  obtain ⟨r, hr, he⟩ := List.mem_map.1 (h2.live.mem_iff.1 (List.mem_map.2 ⟨x, hx, rfl⟩))
  simp only [Prod.mk.injEq] at he
  rw [← he.1, h4]
  exact Nat.dvd_add ha1 (Nat.dvd_trans ha2 (Nat.mul_dvd_mul_right (h3 r hr).2 _))

/-- Two-block slots aligned to 16, freed out of order. -/
example : ∀ op ∈ [Op.alloc 9 16, .alloc 15 8, .alloc 12 1, .free 1, .alloc 10 16, .free 0],
    PoolOp pDebug (fresh pDebug 4096 32) 2 op := by
  intro op h
  simp only [List.mem_cons, List.not_mem_nil, or_false] at h
  have r16 : ∀ n, 0 < n → n ≤ 16 → Request n 16 := fun n h1 h2 => ⟨⟨4, rfl⟩, h1, by omega⟩
  have r8 : Request 15 8 := ⟨⟨3, rfl⟩, by decide, by decide⟩
  have r1 : Request 12 1 := ⟨⟨0, rfl⟩, by decide, by decide⟩
  rcases h with rfl | rfl | rfl | rfl | rfl | rfl
  · exact ⟨r16 _ (by decide) (by decide), by decide, by decide, by decide, by decide⟩
  · exact ⟨r8, by decide, by decide, by decide, by decide⟩
  · exact ⟨r1, by decide, by decide, by decide, by decide⟩
  · trivial
  · exact ⟨r16 _ (by decide) (by decide), by decide, by decide, by decide, by decide⟩
  · trivial
example : liveAfter pDebug (fresh pDebug 4096 32)
    [.alloc 9 16, .alloc 15 8, .alloc 12 1, .free 1, .alloc 10 16, .free 0]
    = .ok [(4128, 12), (4096, 9)] := by decide +kernel

/-! ## C48 -/

/-- For every history whose allocations are scanned safely, the live allocations lie inside the area
and do not overlap.  Missing for the full claim: histories with a scan that rejects a free region
which is neither the last region nor a first region of one block, or that fits a request exactly; for
those the claim is false, see `C48_counterexample` and `C51_counterexample`. -/
theorem C48_no_overlap_partial (hv : Valid p) {buffer bytes : Nat} (hf : Fresh p buffer bytes s)
    (hu : UpstreamOK p s up) (u : σ) {fuel : Nat} (hfuel : s.blockCount ≤ fuel) {ops : List Op}
    (hops : Along p up fuel (SafeOp p) ⟨s, u, []⟩ ops) :
    ∃ w', run p up fuel ⟨s, u, []⟩ ops = .ok w' ∧ Sound p w' := by
  obtain ⟨w', h1, ⟨rs, h2⟩, -⟩ := safe_history hv (hf.start (up := up) hv u).1 hu hfuel hops
  exact ⟨w', h1, h2.sound hv⟩

/-- With assertions, every history whatsoever (sizes and alignments of any value, an upstream that
keeps away from the area) that runs to its end has all local allocations inside the area. -/
theorem C48_in_bounds_debug (hv : Valid p) (hd : p.debug = true) {buffer bytes : Nat}
    (hf : Fresh p buffer bytes s) (hu : UpstreamApart p s up) (u : σ) {fuel : Nat} {ops : List Op}
    (hops : ∀ op ∈ ops, SizeT op) (hlen : ops.length < 2 ^ 64) {w' : World σ}
    (hrun : run p up fuel ⟨s, u, []⟩ ops = .ok w') :
    ∀ x ∈ localLive p w', s.data ≤ x.1 ∧ x.1 + x.2 ≤ s.data + s.blockCount * p.blockSize := by
  obtain ⟨h1, h2, h3⟩ := (run_debug (up := up) (fuel := fuel) hv hd ops ⟨s, u, []⟩ hu
    (hf.debugInv hv u) hops (by simpa using hlen)).2 w' hrun
  intro x hx
  have := h1.inside x hx
  rw [h2, h3] at this
  refine ⟨?_, this⟩
  have hin := (List.mem_filter.1 hx).2
  have := (inArea_iff.1 hin).1
  rw [h2] at this
  exact this

/-- A history with a hanging-prone scan, an alignment larger than the area and an oversized request
meets the hypotheses and leaves two local allocations. -/
example : UpstreamApart pDebug (fresh pDebug 4096 32) (none : Option (Upstream Unit)) ∧
    (∀ op ∈ [Op.alloc 16 1, .alloc 1 1, .free 1, .alloc 25 1, .alloc (2 ^ 63) (2 ^ 40)], SizeT op) ∧
    ((run pDebug none 1000 (⟨fresh pDebug 4096 32, (), []⟩ : World Unit)
      [.alloc 16 1, .alloc 1 1, .free 1, .alloc 25 1, .alloc (2 ^ 63) (2 ^ 40)]).map fun w =>
        localLive pDebug w) = .ok [(4104, 25), (4120, 1)] := by
  refine ⟨?_, ?_, ?_⟩
  · intro up h; cases h
  · simp [SizeT]
  · decide +kernel

/-- The full claim is false, even in debug builds: with `p = allocate(16)`, `q = allocate(1)`,
`deallocate(p)`, the request `allocate(25)` is given memory that overlaps `q`. -/
theorem C48_counterexample :
    ∃ w', run pDebug none 1000 (⟨fresh pDebug 4096 32, (), []⟩ : World Unit)
      [.alloc 16 1, .alloc 1 1, .free 1, .alloc 25 1] = .ok w' ∧
      w'.live = [(4104, 25), (4120, 1)] ∧ ¬ Apart (4104, 25) (4120, 1) := by
  obtain ⟨w', h1, h2⟩ := liveAfter_ok (p := pDebug) (s := fresh pDebug 4096 32)
    (ops := [.alloc 16 1, .alloc 1 1, .free 1, .alloc 25 1]) (l := [(4104, 25), (4120, 1)])
    (by decide +kernel)
  refine ⟨w', h1, h2, ?_⟩
  unfold Apart
  decide

/-! ## C49 -/

/-- A safely scanned request returns, and the number of loop iterations is at most the number of
blocks.  Missing for the full claim: other scans; the claim is false for them, see `C49_hang`. -/
theorem C49_terminates_partial (hv : Valid p) {w : World σ} {rs : List Region}
    (h : Tracks p up w rs) (hu : UpstreamOK p w.st up) (hr : Request size align)
    (hs : SafeScan p w.st size align rs) :
    ∃ r, ∀ fuel, w.st.blockCount ≤ fuel →
      allocate p up fuel w.st w.up size align = .ok r := by
  obtain ⟨w', e, -⟩ := doAlloc_good hv h hu hr hs (Nat.le_refl _)
  obtain ⟨r, hr1, -⟩ := Outcome.bind_eq_ok.1 e
  refine ⟨r, fun fuel hf => ?_⟩
  rw [allocate_mono hf (by rw [hr1]; nofun), hr1]

/-- Whatever the request: a scan that has not ended after `2 * block_count()` iterations never
ends. -/
theorem C49_dichotomy (hv : Valid p) {w : World σ} {rs : List Region} (h : Tracks p up w rs)
    (hr : Request size align) (fuel : Nat) (hfuel : 2 * w.st.blockCount ≤ fuel) :
    scan p fuel w.st size align = scan p (2 * w.st.blockCount) w.st size align := by
  obtain ⟨o, ho⟩ := scan_dichotomy hv h.placed h.links hr
  rw [ho fuel hfuel, ho _ (Nat.le_refl _)]

/-- With assertions this holds after every history that runs to its end, whatever the scans before. -/
theorem C49_dichotomy_debug (hv : Valid p) (hd : p.debug = true) {buffer bytes : Nat}
    (hf : Fresh p buffer bytes s) (hu : UpstreamApart p s up) (u : σ) {fuel : Nat} {ops : List Op}
    (hops : ∀ op ∈ ops, SizeT op) (hlen : ops.length < 2 ^ 64) {w' : World σ}
    (hrun : run p up fuel ⟨s, u, []⟩ ops = .ok w') (hr : Request size align) (fuel' : Nat)
    (hfuel : 2 * s.blockCount ≤ fuel') :
    scan p fuel' w'.st size align = scan p (2 * s.blockCount) w'.st size align := by
  obtain ⟨h1, -, h3⟩ := (run_debug (up := up) (fuel := fuel) hv hd ops ⟨s, u, []⟩ hu
    (hf.debugInv hv u) hops (by simpa using hlen)).2 w' hrun
  obtain ⟨o, ho⟩ := scan_dichotomy hv h1.placed h1.links hr
  simp only at h3
  rw [ho fuel' (by omega), ho _ (by omega)]

/-- The full claim is false: when block 0 is a live allocation of one block and the first free
region is too small and not the last region, `allocate` never returns. -/
theorem C49_hang (hv : Valid p) {w : World σ} {mid post : List Region} {len : Nat}
    (h : Tracks p up w (⟨1, true⟩ :: mid ++ ⟨len, false⟩ :: post))
    (hb : ∀ r ∈ mid, r.busy = true) (hpost : post ≠ []) (hr : Request size align)
    (hal : GateOpen p w.st align)
    (hn : len * p.blockSize < need p w.st size align (1 + blocks mid)) (fuel : Nat) :
    allocate p up fuel w.st w.up size align = .outOfFuel := by
  refine (allocate_stuck hr (o := .outOfFuel) ?_).1 rfl
  rw [allocateLocal_scan hv h.placed h.small hr.pow2 hal]
  exact scan_hang hv h.placed h.tiled hb hpost hr hn fuel

/-- A reachable state in which it happens: three one-byte allocations, the second one given back,
then a request of nine bytes never returns, whatever the number of iterations. -/
theorem C49_counterexample :
    ∃ w', run pDebug none 1000 (⟨fresh pDebug 4096 32, (), []⟩ : World Unit)
        [.alloc 1 1, .alloc 1 1, .alloc 1 1, .free 1] = .ok w' ∧
      w'.live = [(4112, 1), (4096, 1)] ∧
      ∀ fuel, allocate pDebug none fuel w'.st () 9 1 = .outOfFuel := by
  have hr : Request 1 1 := ⟨⟨0, rfl⟩, by decide, by decide⟩
  have hr9 : Request 9 1 := ⟨⟨0, rfl⟩, by decide, by decide⟩
  have hn : (fresh pDebug 4096 32).blockCount = 32 := by decide
  have hu : UpstreamOK pDebug (fresh pDebug 4096 32) (none : Option (Upstream Unit)) := nofun
  obtain ⟨w', h1, ⟨rs, ht, -⟩, h3, h4, -⟩ := pool_history (b := 1) (fuel := 1000)
    (ops := [.alloc 1 1, .alloc 1 1, .alloc 1 1, .free 1]) pDebug_valid
    (fresh_debug.start pDebug_valid ()).1 (by intro r hr; simp [busyRuns] at hr) hu (by rw [hn]; decide)
    (by
      intro op h
      simp only [List.mem_cons, List.not_mem_nil, or_false] at h
      rcases h with rfl | rfl | rfl | rfl
      · exact ⟨hr, by decide, by decide, by decide, by decide⟩
      · exact ⟨hr, by decide, by decide, by decide, by decide⟩
      · exact ⟨hr, by decide, by decide, by decide, by decide⟩
      · trivial)
  have hlive : liveAfter pDebug (fresh pDebug 4096 32)
      [.alloc 1 1, .alloc 1 1, .alloc 1 1, .free 1] = .ok [(4112, 1), (4096, 1)] := by
    decide +kernel
  have hscan : ((run pDebug none 1000 (⟨fresh pDebug 4096 32, (), []⟩ : World Unit)
      [.alloc 1 1, .alloc 1 1, .alloc 1 1, .free 1]).bind fun w =>
        (scan pDebug 64 w.st 9 1).map Prod.snd) = .outOfFuel := by
    decide +kernel
  unfold liveAfter at hlive
  rw [h1] at hlive hscan
  refine ⟨w', h1, Outcome.ok.inj hlive, fun fuel => ?_⟩
  have h64 : scan pDebug 64 w'.st 9 1 = .outOfFuel := by
    change ((scan pDebug 64 w'.st 9 1).map Prod.snd) = .outOfFuel at hscan
    cases e : scan pDebug 64 w'.st 9 1 with
    | ok r => rw [e] at hscan; cases hscan
    | assertFailed => rw [e] at hscan; cases hscan
    | aborted => rw [e] at hscan; cases hscan
    | ub => rw [e] at hscan; cases hscan
    | outOfFuel => rfl
  have hc : w'.st.blockCount = 32 := h4.trans hn
  have hall : ∀ f, 64 ≤ f → scan pDebug f w'.st 9 1 = .outOfFuel := by
    intro f hf
    rw [C49_dichotomy pDebug_valid ht hr9 f (by rw [hc]; exact hf), hc]
    exact h64
  have hbig : ∀ f, 64 ≤ f → allocate pDebug none f w'.st () 9 1 = .outOfFuel := by
    intro f hf
    refine (allocate_stuck hr9 (o := .outOfFuel) ?_).1 rfl
    rw [allocateLocal_scan pDebug_valid ht.placed ht.small hr9.pow2 (.inl (Nat.one_dvd _))]
    exact hall f hf
  by_contra hne
  have := allocate_mono (fuel' := fuel + 64) (by omega) hne
  rw [hbig _ (by omega)] at this
  exact hne this.symm

/-! ## C50 -/

/-- Two descriptions of the first fitting free region agree. -/
theorem firstFit_unique {pre pre' post post' : List Region} {len len' : Nat}
    (he : pre ++ ⟨len, false⟩ :: post = pre' ++ ⟨len', false⟩ :: post')
    (h1 : NoneFits p s size align pre) (h2 : NoneFits p s size align pre')
    (f1 : need p s size align (blocks pre) ≤ len * p.blockSize)
    (f2 : need p s size align (blocks pre') ≤ len' * p.blockSize) : pre = pre' := by
  rcases List.append_eq_append_iff.1 he with ⟨c, e1, e2⟩ | ⟨c, e1, e2⟩
  · cases c with
    | nil => simpa using e1.symm
    | cons x c =>
      simp only [List.cons_append, List.cons.injEq] at e2
      have := h2 pre len c (by rw [e1, ← e2.1])
      omega
  · cases c with
    | nil => simpa using e1
    | cons x c =>
      simp only [List.cons_append, List.cons.injEq] at e2
      have := h1 pre' len' c (by rw [e1, ← e2.1])
      omega

/-- First fit: if `⟨len, false⟩` is the first free region that holds the request, the request is
served at the first aligned address of that region.  Missing for the full claim: scans that are not
safe (C48, C49, C51) and alignments that are neither an alignment of the area nor at most its size
(`C50_counterexample`). -/
theorem C50_first_fit_partial (hv : Valid p) {w : World σ} {pre post : List Region} {len : Nat}
    (h : Tracks p up w (pre ++ ⟨len, false⟩ :: post)) (hu : UpstreamOK p w.st up)
    (hr : Request size align) (hal : GateOpen p w.st align)
    (hs : SafeScan p w.st size align (pre ++ ⟨len, false⟩ :: post))
    (hnone : NoneFits p w.st size align pre)
    (hfit : need p w.st size align (blocks pre) ≤ len * p.blockSize)
    {fuel : Nat} (hf : w.st.blockCount ≤ fuel) :
    ∃ s', allocate p up fuel w.st w.up size align = .ok
      (w.st.data + blocks pre * p.blockSize
        + padding (w.st.data + blocks pre * p.blockSize) align, s', w.up) := by
  have hlen : (pre ++ Region.mk len false :: post).length ≤ fuel := by
    obtain ⟨pv, hseg⟩ := h.tiled.seg
    have := hseg.length_le
    have := (tiled_iff.1 h.tiled).1.blocks_eq
    omega
  obtain ⟨u1, u2, -, -⟩ := askUpstream_ok (u := w.up) (size := size) (align := align) hu
  rcases allocate_good hv h.placed h.small h.tiled hr hs hlen u1 (fun _ => u2) with
    ⟨s', ptr, pre', len', post', a, h1, h2, h3, h4, h5⟩ | ⟨h1, h2⟩
  · have := firstFit_unique h2 hnone h3 hfit (by omega)
    subst this
    refine ⟨s', ?_⟩
    rw [h1, h5.at_block, h5.pad, Nat.add_mul, Nat.add_assoc]
  · have := h2 hal pre len post rfl
    omega

/-- If no free region holds the request, it goes to upstream, once, and nothing else changes. -/
theorem C50_refused_partial (hv : Valid p) {w : World σ} {rs : List Region}
    (h : Tracks p up w rs) (hu : UpstreamOK p w.st up) (hr : Request size align)
    (hs : SafeScan p w.st size align rs) (hnone : NoneFits p w.st size align rs)
    {fuel : Nat} (hf : w.st.blockCount ≤ fuel) :
    allocate p up fuel w.st w.up size align = .ok
      ((askUpstream up w.up size align).1, w.st, (askUpstream up w.up size align).2) := by
  have hlen : rs.length ≤ fuel := by
    obtain ⟨pv, hseg⟩ := h.tiled.seg
    have := hseg.length_le
    have := (tiled_iff.1 h.tiled).1.blocks_eq
    omega
  obtain ⟨u1, u2, -, -⟩ := askUpstream_ok (u := w.up) (size := size) (align := align) hu
  rcases allocate_good hv h.placed h.small h.tiled hr hs hlen u1 (fun _ => u2) with
    ⟨s', ptr, pre', len', post', a, h1, h2, h3, h4, h5⟩ | ⟨h1, h2⟩
  · have := hnone pre' len' post' h2
    omega
  · exact h1

/-- The two theorems apply: after one allocation of 20 bytes the first free region starts at block
3, and a request of 10 bytes aligned to 64 is served at 4160, five blocks further on. -/
example : liveAfter pDebug (fresh pDebug 4096 32) [.alloc 20 1, .alloc 10 64]
    = .ok [(4160, 10), (4096, 20)] := by decide +kernel
example : ∃ rs, Tracks pDebug none (⟨fresh pDebug 4096 32, (), []⟩ : World Unit) rs :=
  ⟨_, (fresh_debug.start pDebug_valid ()).1⟩

/-- The full claim is false: an area of 16 bytes at address 24 contains the address 32, yet a
request of one byte aligned to 32 is refused although nothing is allocated. -/
theorem C50_counterexample :
    liveAfter pDebug (fresh pDebug 24 2) [.alloc 1 32] = .ok [] ∧
    padding 24 32 + 1 ≤ 2 * pDebug.blockSize := by
  constructor <;> decide +kernel

/-! ## C51 -/

/-- In debug builds a request that fills the first free region to its last byte always fails an
assertion. -/
theorem C51_exact_fit_asserts (hv : Valid p) (hd : p.debug = true) {w : World σ}
    {pre post : List Region} {len : Nat} (h : Tracks p up w (pre ++ ⟨len, false⟩ :: post))
    (hb : ∀ r ∈ pre, r.busy = true) (hr : Request size align) (hal : GateOpen p w.st align)
    (hn : need p w.st size align (blocks pre) = len * p.blockSize)
    {fuel : Nat} (hf : w.st.blockCount ≤ fuel) :
    allocate p up fuel w.st w.up size align = .assertFailed := by
  have hlen : (pre ++ Region.mk len false :: post).length ≤ fuel := by
    obtain ⟨pv, hseg⟩ := h.tiled.seg
    have := hseg.length_le
    have := (tiled_iff.1 h.tiled).1.blocks_eq
    omega
  refine (allocate_stuck hr (o := .assertFailed) ?_).2 rfl
  rw [allocateLocal_scan hv h.placed h.small hr.pow2 hal]
  refine scan_exact hv h.placed h.tiled hb hr hd hn ?_
  rw [List.length_append, List.length_cons] at hlen
  omega

/-- The claim is false: asking a fresh resource for its whole area fails an assertion in debug
builds and is undefined without assertions; and without assertions a later exact fit gives memory
that overlaps a live allocation. -/
theorem C51_counterexample :
    liveAfter pDebug (fresh pDebug 4096 32) [.alloc 256 1] = .assertFailed ∧
    liveAfter pRelease (fresh pRelease 4096 32) [.alloc 256 1] = .ub ∧
    liveAfter pRelease (fresh pRelease 4096 8)
      [.alloc 1 1, .alloc 9 1, .alloc 1 1, .free 1, .alloc 16 1, .free 0, .alloc 30 1]
      = .ok [(4104, 30), (4120, 1), (4096, 1)] ∧
    ¬ Apart (4104, 30) (4120, 1) := by
  refine ⟨by decide +kernel, by decide +kernel, by decide +kernel, ?_⟩
  unfold Apart
  decide

/-! ## C52 -/

/-- A request that is larger than the area is never served from it: if the call returns, it returns
what upstream answers, and the bookkeeping is untouched.  Missing for the full claim: sizes so close
to `SIZE_MAX` that `align + size` overflows (`C52_counterexample`). -/
theorem C52_impossible_partial (hv : Valid p) {w : World σ} {rs : List Region}
    (h : Tracks p up w rs) (hu : UpstreamOK p w.st up) (hr : Request size align)
    (hbig : w.st.blockCount * p.blockSize < size) (fuel : Nat) :
    allocate p up fuel w.st w.up size align = .outOfFuel ∨
    allocate p up fuel w.st w.up size align = .ok
      ((askUpstream up w.up size align).1, w.st, (askUpstream up w.up size align).2) := by
  obtain ⟨u1, u2, -, -⟩ := askUpstream_ok (u := w.up) (size := size) (align := align) hu
  obtain ⟨c, m, -, -, -, -, hloc⟩ := allocateLocal_eq hv h.placed h.small
  have hloc := hloc fuel size align
  by_cases hg : align ≤ 2 ^ m
  · rw [if_pos hg] at hloc
    rcases scanFrom_impossible (fuel := fuel) hv h.placed h.links (i := 0)
      (by have := h.placed.some; omega) hr hbig with e | e
    · right
      exact allocate_refused hv hr (hloc.trans e) u1 (fun _ => u2)
    · left
      exact (allocate_stuck hr (hloc.trans e)).1 rfl
  · right
    rw [if_neg hg] at hloc
    exact allocate_refused hv hr hloc u1 (fun _ => u2)

/-- With assertions the claim holds for every size and alignment, after every history. -/
theorem C52_impossible_debug (hv : Valid p) (hd : p.debug = true) {buffer bytes : Nat}
    (hf : Fresh p buffer bytes s) (hu : UpstreamApart p s up) (u : σ) {fuel : Nat} {ops : List Op}
    (hops : ∀ op ∈ ops, SizeT op) (hlen : ops.length < 2 ^ 64) {w' : World σ}
    (hrun : run p up fuel ⟨s, u, []⟩ ops = .ok w') (hsz : size < 2 ^ 64) (hal : align < 2 ^ 64)
    (hbig : s.blockCount * p.blockSize < size) {fuel' : Nat} {r : Nat × State × σ}
    (hr : allocate p up fuel' w'.st w'.up size align = .ok r) :
    r = ((askUpstream up w'.up size align).1, w'.st, (askUpstream up w'.up size align).2) := by
  obtain ⟨h1, h2, h3⟩ := (run_debug (up := up) (fuel := fuel) hv hd ops ⟨s, u, []⟩ hu
    (hf.debugInv hv u) hops (by simpa using hlen)).2 w' hrun
  rcases (allocate_debug (up := up) (fuel := fuel') (u := w'.up) hv hd h1.placed h1.small h1.links
    hsz hal).2 r hr with ⟨h, -⟩ | h | ⟨-, -, -, h⟩
  · omega
  · exact h
  · have g1 := h.high
    have g2 := h.low
    rw [h3] at g1
    simp only at g1
    omega

example : Request (2 ^ 64 - 64) 64 := ⟨⟨6, rfl⟩, by decide, by decide⟩

/-- The full claim is false without assertions: `skip + size` overflows and a request of `2^64 - 56`
bytes is "served" from an area of 256 bytes. -/
theorem C52_counterexample :
    liveAfter pRelease (fresh pRelease 8 32) [.alloc (2 ^ 64 - 56) 64] = .ok [(64, 2 ^ 64 - 56)] ∧
    liveAfter pDebug (fresh pDebug 8 32) [.alloc (2 ^ 64 - 56) 64] = .assertFailed := by
  constructor <;> decide +kernel

/-! ## C53 -/

/-- Giving back a live allocation of the area succeeds; exactly its region becomes free, and the
result is again coalesced. -/
theorem C53_deallocate (hv : Valid p) {w : World σ} {rs : List Region} (h : Tracks p up w rs)
    {i : Nat} {x : Nat × Nat} (hx : w.live[i]? = some x) (ha : inArea p w.st x.1 = true) :
    ∃ w' pre post rs', doFree p up w i = .ok w' ∧
      rs = pre ++ ⟨x.2 / p.blockSize + 1, true⟩ :: post ∧
      x.1 = w.st.data + blocks pre * p.blockSize ∧
      Tiled w'.st rs' ∧
      busyRuns 0 rs' = busyRuns 0 (pre ++ ⟨x.2 / p.blockSize + 1, false⟩ :: post) ∧
      w'.live = w.live.eraseIdx i ∧ w'.up = w.up := by
  obtain ⟨w', rs', e, ht, hres⟩ := doFree_good hv h i
  cases hres with
  | nothing h1 => rw [h1] at hx; cases hx
  | @locl x' pre post pre' post' l h1 h2 h3 h4 h5 h6 h7 h8 h9 h10 h11 =>
    rw [h1] at hx
    cases hx
    refine ⟨w', pre, post, rs', e, h3, h4, ht.tiled, ?_, h8, h11⟩
    rw [h5, busyRuns_append, busyRuns_free, Nat.zero_add]
  | upstream h1 h2 =>
    rw [h1] at hx
    cases hx
    rw [h2] at ha
    cases ha

theorem split_unique {α : Type} {A B C D : List α} {x : α} (he : A ++ x :: B = C ++ x :: D)
    (hA : x ∉ A) (hC : x ∉ C) : A = C ∧ B = D := by
  rcases List.append_eq_append_iff.1 he with ⟨c, e1, e2⟩ | ⟨c, e1, e2⟩
  · cases c with
    | nil => simp at e1 e2; exact ⟨e1.symm, e2⟩
    | cons y c =>
      simp only [List.cons_append, List.cons.injEq] at e2
      exact absurd (by rw [e1, ← e2.1]; simp) hC
  · cases c with
    | nil => simp at e1 e2; exact ⟨e1, e2.symm⟩
    | cons y c =>
      simp only [List.cons_append, List.cons.injEq] at e2
      exact absurd (by rw [e1, ← e2.1]; simp) hA

/-- `allocate` followed by `deallocate` of the result restores the regions and the counters. -/
theorem C53_round_trip (hv : Valid p) {w : World σ} {rs : List Region} (h : Tracks p up w rs)
    (hu : UpstreamOK p w.st up) (hr : Request size align) (hs : SafeScan p w.st size align rs)
    {fuel : Nat} (hf : w.st.blockCount ≤ fuel) {w1 : World σ}
    (h1 : doAlloc p up fuel w size align = .ok w1) (hgot : w1.live ≠ w.live) :
    ∃ w2, doFree p up w1 0 = .ok w2 ∧ w2.live = w.live ∧ Tiled w2.st rs ∧
      w2.st.freeCount = w.st.freeCount ∧ w2.st.busyCount = w.st.busyCount := by
  obtain ⟨w1', e, hres⟩ := doAlloc_good hv h hu hr hs hf
  rw [h1] at e
  cases e
  have fin : ∀ (w2 : World σ), Tiled w2.st rs →
      w2.st.freeCount = w.st.freeCount ∧ w2.st.busyCount = w.st.busyCount := by
    intro w2 ht
    rw [ht.free, h.tiled.free, ht.busy, h.tiled.busy]
    exact ⟨rfl, rfl⟩
  cases hres with
  | @served ptr pre len post a g1 g2 g3 g4 g5 g6 g7 g8 =>
    obtain ⟨w2, rs2, e2, t2, hres2⟩ := doFree_good hv g5 0
    obtain ⟨b1, b2, b3, b4, b5⟩ := g4.bounds hv h.placed (g1 ▸ (tiled_iff.1 h.tiled).1)
    have hin : inArea p w1.st ptr = true := by
      rw [inArea_congr g4.data g4.count]
      exact inArea_iff.2 ⟨b1, by omega⟩
    have h0 : w1.live[0]? = some (ptr, size) := by rw [g6]; rfl
    have hB := hv.pos
    have main : busyRuns 0 rs2 = busyRuns 0 rs → w2.live = w.live →
        w2.st.blockCount = w1.st.blockCount →
        ∃ w2, doFree p up w1 0 = .ok w2 ∧ w2.live = w.live ∧ Tiled w2.st rs ∧
          w2.st.freeCount = w.st.freeCount ∧ w2.st.busyCount = w.st.busyCount := by
      intro hbr hlive hcount
      have : rs2 = rs := t2.tiled.unique h.tiled (by rw [hcount, g4.count]) hbr
      subst this
      exact ⟨w2, e2, hlive, t2.tiled, fin w2 t2.tiled⟩
    cases hres2 with
    | nothing n1 => rw [n1] at h0; cases h0
    | @locl x' pre2 post2 pre' post' l k1 k2 k3 k4 k5 k6 k7 k8 k9 k10 k11 =>
      rw [k1] at h0
      cases h0
      refine main ?_ (by rw [k8, g6]; rfl) k10
      have hpos : blocks pre2 = blocks pre + a := by
        have := g4.at_block
        simp only at k4
        rw [g4.data] at k4
        have e1 : blocks pre2 * p.blockSize = (blocks pre + a) * p.blockSize := by omega
        exact Nat.eq_of_mul_eq_mul_right hB e1
      have hr1 := g4.runs
      rw [k3, busyRuns_append, busyRuns_busy, Nat.zero_add, hpos] at hr1
      obtain ⟨q1, q2⟩ := split_unique hr1
        (by intro hm
            have := busyRuns_le hm
            simp only at this
            generalize size / p.blockSize = q at this
            omega)
        (by intro hm
            have := busyRuns_le hm
            simp only at this
            generalize size / p.blockSize = q at this
            omega)
      rw [k5, hpos, q1, q2, g1, busyRuns_append, busyRuns_free, Nat.zero_add]
    | upstream k1 k2 =>
      rw [k1] at h0
      cases h0
      rw [hin] at k2
      cases k2
  | refused g1 g2 g3 g4 g5 g6 =>
    obtain ⟨w2, rs2, e2, t2, hres2⟩ := doFree_good hv g3 0
    split at g4
    · exact absurd g4 hgot
    · rename_i hz
      have hout := (askUpstream_ok (u := w.up) (size := size) (align := align) hu).2.2.2 hz
      have h0 : w1.live[0]? = some ((askUpstream up w.up size align).1, size) := by rw [g4]; rfl
      cases hres2 with
      | nothing n1 => rw [n1] at h0; cases h0
      | locl k1 k2 =>
        rw [k1] at h0
        cases h0
        simp only [g2] at k2
        rw [hout] at k2
        cases k2
      | upstream k1 k2 k3 k4 k5 k6 =>
        have ht : Tiled w2.st rs := by rw [k4, g2]; exact h.tiled
        exact ⟨w2, e2, by rw [k6, g4]; rfl, ht, fin w2 ht⟩

/-- A round trip in the middle of other allocations. -/
example : liveAfter pDebug (fresh pDebug 4096 32)
      [.alloc 9 1, .alloc 9 1, .free 1, .alloc 9 1, .free 0] = .ok [(4112, 9)] ∧
    (run pDebug none 1000 (⟨fresh pDebug 4096 32, (), []⟩ : World Unit)
      [.alloc 9 1, .alloc 9 1, .free 1, .alloc 9 1, .free 0]).map
      (fun w => (w.st.busyCount, w.st.freeCount)) = .ok (1, 2) := by
  constructor <;> decide +kernel

/-! ## C54 -/

/-- `deallocate` aborts exactly for a pointer that is misaligned, or inside the area but not a live
allocation, or outside the area without upstream. -/
theorem C54_aborts_iff (hv : Valid p) {w : World σ} {rs : List Region} (h : Tracks p up w rs)
    {ptr : Nat} (h0 : ptr ≠ 0) (hlt : ptr < 2 ^ 64) :
    deallocate p up w.st w.up ptr = .aborted ↔
      ¬ p.blockSize ∣ ptr ∨ (inArea p w.st ptr = true ∧ ∀ x ∈ w.live, x.1 ≠ ptr) ∨
      (inArea p w.st ptr = false ∧ up = none) := by
  rcases deallocate_any hv h h0 hlt with e | ⟨s', e, h1, h2, x, h3, h4⟩ | ⟨U, e1, e, h1, h2⟩
  · refine iff_of_true e ?_
    by_cases hal : p.blockSize ∣ ptr
    · right
      cases ha : inArea p w.st ptr with
      | true =>
        left
        refine ⟨rfl, ?_⟩
        rintro x hx rfl
        obtain ⟨i, hi⟩ := List.mem_iff_getElem?.1 hx
        obtain ⟨w', pre, post, rs', e2, -⟩ := C53_deallocate hv h hi ha
        unfold doFree at e2
        rw [hi] at e2
        simp only [e] at e2
        cases e2
      | false =>
        right
        refine ⟨rfl, ?_⟩
        cases up with
        | none => rfl
        | some U =>
          rw [deallocate_upstream hv h.placed h0 hlt hal ha] at e
          cases e
    · exact Or.inl hal
  · rw [e]
    refine iff_of_false nofun ?_
    rintro (h5 | ⟨-, h5⟩ | ⟨h5, -⟩)
    · exact h5 h1
    · exact h5 x h3 h4
    · rw [h2] at h5; cases h5
  · rw [e]
    refine iff_of_false nofun ?_
    rintro (h5 | ⟨h5, -⟩ | ⟨-, h5⟩)
    · exact h5 h1
    · rw [h2] at h5; cases h5
    · rw [e1] at h5; cases h5

/-- Every other pointer is accepted; a null pointer changes nothing. -/
theorem C54_accepts (hv : Valid p) {w : World σ} {rs : List Region} (h : Tracks p up w rs)
    {ptr : Nat} (hlt : ptr < 2 ^ 64) (hna : deallocate p up w.st w.up ptr ≠ .aborted) :
    (∃ r, deallocate p up w.st w.up ptr = .ok r) ∧
    (ptr = 0 → deallocate p up w.st w.up ptr = .ok (w.st, w.up)) := by
  by_cases h0 : ptr = 0
  · subst h0
    exact ⟨⟨_, rfl⟩, fun _ => rfl⟩
  · refine ⟨?_, fun h => absurd h h0⟩
    rcases deallocate_any hv h h0 hlt with e | ⟨s', e, -⟩ | ⟨U, -, e, -⟩
    · exact absurd e hna
    · exact ⟨_, e⟩
    · exact ⟨_, e⟩

/-- Double free, interior pointer, misaligned pointer, foreign pointer. -/
example :
    (deallocate pDebug none (fresh pDebug 4096 32) () 4096).isOk = false ∧
    ((run pDebug none 1000 (⟨fresh pDebug 4096 32, (), []⟩ : World Unit) [.alloc 20 1]).bind fun w =>
      (deallocate pDebug none w.st () 4104).map fun _ => ()) = .aborted ∧
    ((run pDebug none 1000 (⟨fresh pDebug 4096 32, (), []⟩ : World Unit) [.alloc 20 1]).bind fun w =>
      (deallocate pDebug none w.st () 4097).map fun _ => ()) = .aborted ∧
    ((run pDebug none 1000 (⟨fresh pDebug 4096 32, (), []⟩ : World Unit) [.alloc 20 1]).bind fun w =>
      (deallocate pDebug none w.st () 4096).map fun _ => ()) = .ok () ∧
    ((run pDebug none 1000 (⟨fresh pDebug 4096 32, (), []⟩ : World Unit) [.alloc 20 1]).bind fun w =>
      (deallocate pDebug none w.st () 8192).map fun _ => ()) = .aborted := by
  refine ⟨?_, ?_, ?_, ?_, ?_⟩ <;> decide +kernel

/-! ## C55 -/

/-- After any history of allocations of one block each (in any order, with any number given back),
`release()` returns and the whole area is one free region again.  Missing for the full claim:
histories with larger allocations, for which the claim is false (`C55_counterexample`), and a
resource without a buffer. -/
theorem C55_release_partial (hv : Valid p) {buffer bytes : Nat} (hf : Fresh p buffer bytes s)
    (hu : UpstreamOK p s up) (u : σ) {fuel : Nat} (hfuel : s.blockCount ≤ fuel) {ops : List Op}
    (hops : ∀ op ∈ ops, PoolOp p s 1 op) {fuel' : Nat}
    (hfuel' : (s.blockCount + 1) * (s.blockCount + 1) ≤ fuel') :
    ∃ w' s', run p up fuel ⟨s, u, []⟩ ops = .ok w' ∧ release p fuel' w'.st = .ok s' ∧
      Tiled s' [⟨s.blockCount, false⟩] ∧ s'.busyCount = 0 ∧ s'.freeCount = 1 ∧
      ∀ j, j < s.blockCount → s'.inUse j = false := by
  obtain ⟨ht, hff⟩ := hf.start (up := up) hv u
  obtain ⟨w', h1, ⟨rs', h2, h3, h4⟩, h5, h6⟩ := single_history hv ht
    (by intro r hr; simp [busyRuns] at hr) hff hu hfuel hops
  obtain ⟨s', e, g1, g2, g3⟩ := release_pool (fuel := fuel') hv h2.placed h2.tiled h3 h4
    (by rw [h6]; exact hfuel')
  rw [h6] at g3 g2
  refine ⟨w', s', h1, e, g3, by rw [g3.busy]; rfl, by rw [g3.free]; rfl, ?_⟩
  intro j hj
  have t := (tiled_iff.1 g3).1
  cases hu : s'.inUse j with
  | false => rfl
  | true =>
    obtain ⟨l, hl⟩ := (t.inUse_iff (by rw [g2]; exact hj)).1 hu
    simp [busyRuns] at hl

example : ∀ op ∈ [Op.alloc 3 1, .alloc 7 8, .alloc 1 4, .free 1],
    PoolOp pDebug (fresh pDebug 4096 32) 1 op := by
  intro op h
  simp only [List.mem_cons, List.not_mem_nil, or_false] at h
  rcases h with rfl | rfl | rfl | rfl
  · exact ⟨⟨⟨0, rfl⟩, by decide, by decide⟩, by decide, by decide, by decide, by decide⟩
  · exact ⟨⟨⟨3, rfl⟩, by decide, by decide⟩, by decide, by decide, by decide, by decide⟩
  · exact ⟨⟨⟨2, rfl⟩, by decide, by decide⟩, by decide, by decide, by decide, by decide⟩
  · trivial

/-- The counters after a history followed by `release()`. -/
def afterRelease (p : Params) (s : State) (ops : List Op) : Outcome (Nat × Nat) :=
  ((run p none 1000 (⟨s, (), []⟩ : World Unit) ops).bind fun w => release p 5000 w.st).map
    fun s => (s.busyCount, s.freeCount)

/-- The full claim is false: after two allocations of nine bytes `release()` leaves one of them in
use; and without a buffer `release()` fails an assertion in debug builds. -/
theorem C55_counterexample :
    afterRelease pDebug (fresh pDebug 4096 32) [.alloc 9 1, .alloc 9 1] = .ok (1, 2) ∧
    afterRelease pDebug (construct pDebug (0, 0)) [] = .assertFailed := by
  constructor <;> decide +kernel

/-! ## C56 -/

/-- LIFO usage refines the ideal stack allocator: each allocation starts right above the previous
ones, a request is refused (and goes upstream) iff it does not fit in the rest of the area with a
byte to spare. -/
theorem C56_stack_refinement (hv : Valid p) {buffer bytes : Nat} (hf : Fresh p buffer bytes s)
    (hu : UpstreamOK p s up) (u : σ) {fuel : Nat} (hfuel : s.blockCount ≤ fuel) {ops : List Op}
    (hops : Along p up fuel (StackOp p) ⟨s, u, []⟩ ops) :
    ∃ w', run p up fuel ⟨s, u, []⟩ ops = .ok w' ∧ Sound p w' ∧
      (w'.live, w'.up) = ops.foldl
        (idealStep (stackPlace p s.data s.blockCount) (inArea p s) up) ([], u) := by
  have h0 : Stacked p up ⟨s, u, []⟩ [⟨s.blockCount, false⟩] := by
    refine ⟨(hf.start (up := up) hv u).1, ?_, ?_⟩
    · simp [localLive, busyRuns]
    · simp [busyRuns, Contig]
  obtain ⟨w', h1, ⟨rs', h2⟩, -, -, h3⟩ := stack_history hv h0 hu hfuel hops
  exact ⟨w', h1, h2.tracks.sound hv, h3⟩

example : Along pDebug none 1000 (StackOp pDebug) (⟨fresh pDebug 4096 32, (), []⟩ : World Unit)
    [.alloc 20 8, .free 0] := by
  refine ⟨⟨⟨⟨3, rfl⟩, by decide, by decide⟩, by decide, by decide⟩, fun w' _ => ⟨?_, fun _ _ => trivial⟩⟩
  intro x _ _ y hy
  simp at hy
example : liveAfter pDebug (fresh pDebug 4096 32)
    [.alloc 20 8, .alloc 16 4, .alloc 1 1, .free 0, .free 0, .alloc 100 8]
    = .ok [(4120, 100), (4096, 20)] := by decide +kernel

/-! ## C57 -/

/-- In every state, whatever the request: if `allocate` returns, upstream has received nothing, or
exactly one `allocate` with the same arguments whose answer is returned unchanged. -/
theorem C57_at_most_one_call {U : Upstream σ} {fuel ptr : Nat} {u u' : σ} {log log' : List Call}
    {s' : State}
    (h : allocate p (some (logged U)) fuel s (u, log) size align = .ok (ptr, s', u', log')) :
    (u' = u ∧ log' = log ∧ (size = 0 ∧ ptr = 0 ∨ ptr ≠ 0)) ∨
    (ptr = (U.alloc u size align).1 ∧ u' = (U.alloc u size align).2 ∧
      log' = log ++ [.alloc size align]) := by
  unfold allocate at h
  by_cases hz : size = 0
  · rw [if_pos hz] at h
    cases h
    exact Or.inl ⟨rfl, rfl, Or.inl ⟨hz, rfl⟩⟩
  · rw [if_neg hz] at h
    obtain ⟨_, -, h⟩ := Outcome.bind_eq_ok.1 h
    obtain ⟨⟨s1, p1⟩, -, h⟩ := Outcome.bind_eq_ok.1 h
    simp only at h
    by_cases h1 : p1 = 0
    · rw [if_pos h1] at h
      obtain ⟨_, -, h⟩ := Outcome.bind_eq_ok.1 h
      obtain ⟨_, -, h⟩ := Outcome.bind_eq_ok.1 h
      cases h
      exact Or.inr ⟨rfl, rfl, rfl⟩
    · rw [if_neg h1] at h
      obtain ⟨_, -, h⟩ := Outcome.bind_eq_ok.1 h
      obtain ⟨_, -, h⟩ := Outcome.bind_eq_ok.1 h
      cases h
      exact Or.inl ⟨rfl, rfl, Or.inr h1⟩

/-- A request that no free region holds reaches upstream exactly once, and the bookkeeping is
unchanged; a request that the area serves does not reach upstream. -/
theorem C57_allocate_routing {U : Upstream σ} (hv : Valid p) {w : World (σ × List Call)}
    {rs : List Region} (h : Tracks p (some (logged U)) w rs)
    (hu : UpstreamOK p w.st (some (logged U))) (hr : Request size align)
    (hs : SafeScan p w.st size align rs) {fuel : Nat} (hf : w.st.blockCount ≤ fuel) :
    (NoneFits p w.st size align rs →
      allocate p (some (logged U)) fuel w.st w.up size align = .ok
        ((U.alloc w.up.1 size align).1, w.st, (U.alloc w.up.1 size align).2,
          w.up.2 ++ [.alloc size align])) ∧
    (¬ NoneFits p w.st size align rs → GateOpen p w.st align →
      ∃ ptr s', allocate p (some (logged U)) fuel w.st w.up size align = .ok (ptr, s', w.up) ∧
        inArea p w.st ptr = true) := by
  refine ⟨fun hn => C50_refused_partial hv h hu hr hs hn hf, fun hn hal => ?_⟩
  have hlen : rs.length ≤ fuel := by
    obtain ⟨pv, hseg⟩ := h.tiled.seg
    have := hseg.length_le
    have := (tiled_iff.1 h.tiled).1.blocks_eq
    omega
  obtain ⟨u1, u2, -, -⟩ := askUpstream_ok (u := w.up) (size := size) (align := align) hu
  rcases allocate_good hv h.placed h.small h.tiled hr hs hlen u1 (fun _ => u2) with
    ⟨s', ptr, pre', len', post', a, h1, h2, h3, h4, h5⟩ | ⟨h1, h2⟩
  · obtain ⟨b1, b2, -⟩ := h5.bounds hv h.placed (h2 ▸ (tiled_iff.1 h.tiled).1)
    exact ⟨ptr, s', h1, inArea_iff.2 ⟨b1, by omega⟩⟩
  · exact absurd (h2 hal) hn

/-- Deallocation: a pointer outside the area is forwarded exactly once and the bookkeeping is
unchanged; a pointer inside the area never reaches upstream. -/
theorem C57_deallocate_routing {U : Upstream σ} (hv : Valid p) {w : World (σ × List Call)}
    {rs : List Region} (h : Tracks p (some (logged U)) w rs) {ptr : Nat} (h0 : ptr ≠ 0)
    (hlt : ptr < 2 ^ 64) (hal : p.blockSize ∣ ptr) :
    (inArea p w.st ptr = false →
      deallocate p (some (logged U)) w.st w.up ptr
        = .ok (w.st, U.dealloc w.up.1 ptr, w.up.2 ++ [.dealloc ptr])) ∧
    (inArea p w.st ptr = true → ∀ s' u', deallocate p (some (logged U)) w.st w.up ptr = .ok (s', u') →
      u' = w.up) := by
  refine ⟨fun ha => deallocate_upstream hv h.placed h0 hlt hal ha, fun ha s' u' e => ?_⟩
  rcases deallocate_any hv h h0 hlt with e1 | ⟨s1, e1, -⟩ | ⟨U', -, e1, -, h2⟩
  · rw [e1] at e; cases e
  · rw [e1] at e; cases e; rfl
  · rw [ha] at h2; cases h2

/-- An upstream that hands out multiples of 64 above `2^20` and counts. -/
def bump : Upstream Nat where
  alloc n _ _ := (2 ^ 20 + n % 1024 * 64, n + 1)
  dealloc n _ := n

theorem bump_ok : UpstreamOK pDebug (fresh pDebug 4096 32) (some (logged bump)) := by
  rintro U hU u size align
  cases hU
  refine ⟨?_, ?_, ?_⟩
  · show 2 ^ 20 + u.1 % 1024 * 64 < 2 ^ 64
    omega
  · show 8 ∣ 2 ^ 20 + u.1 % 1024 * 64
    omega
  · show inArea pDebug (fresh pDebug 4096 32) (2 ^ 20 + u.1 % 1024 * 64) = false
    have e : (fresh pDebug 4096 32).data + (fresh pDebug 4096 32).blockCount * pDebug.blockSize
        = 4352 := by decide
    unfold inArea
    rw [e, decide_eq_false (p := _ < 4352) (by omega), Bool.and_false]

example : (run pDebug (some (logged bump)) 1000
    (⟨fresh pDebug 4096 32, (0, []), []⟩ : World (Nat × List Call))
    [.alloc 300 16, .alloc 9 1, .free 1]).map (fun w => (w.live, w.up.2))
    = .ok ([(4096, 9)], [.alloc 300 16, .dealloc (2 ^ 20)]) := by decide +kernel

/-! ## C58 -/

/-- With an upstream whose addresses are aligned to `BlockSize`, every allocation that the client
holds after any history of safely scanned calls can be given back.  Missing for the full claim: an
upstream that delivers only the requested alignment (`C58_counterexample`), and unsafe scans. -/
theorem C58_returnable_partial (hv : Valid p) {buffer bytes : Nat} (hf : Fresh p buffer bytes s)
    (hu : UpstreamOK p s up) (u : σ) {fuel : Nat} (hfuel : s.blockCount ≤ fuel) {ops : List Op}
    (hops : Along p up fuel (SafeOp p) ⟨s, u, []⟩ ops) :
    ∃ w', run p up fuel ⟨s, u, []⟩ ops = .ok w' ∧
      ∀ x ∈ w'.live, ∃ r, deallocate p up w'.st w'.up x.1 = .ok r := by
  obtain ⟨w', h1, ⟨rs, h2⟩, -⟩ := safe_history hv (hf.start (up := up) hv u).1 hu hfuel hops
  refine ⟨w', h1, fun x hx => ?_⟩
  obtain ⟨q1, q2, q3⟩ := h2.ptrs x hx
  refine (C54_accepts hv h2 q1 ?_).1
  rw [ne_eq, C54_aborts_iff hv h2 q2 q1]
  rintro (h | ⟨-, h⟩ | ⟨h, hn⟩)
  · exact h q3
  · exact h x hx rfl
  · rw [h2.routed hn x hx] at h
    cases h

/-- An upstream that meets the alignment contract and no more. -/
def tight : Upstream Unit where
  alloc _ _ align := (1000003 / align * align, ())
  dealloc _ _ := ()

/-- The full claim is false: upstream answers a request for alignment 1 with an odd address. Without
assertions the pointer is returned and giving it back aborts; with assertions the allocation already
fails. -/
theorem C58_counterexample :
    (∀ align, align ∣ (tight.alloc () 300 align).1) ∧
    (run pRelease (some tight) 1000 (⟨fresh pRelease 4096 32, (), []⟩ : World Unit)
      [.alloc 300 1]).map World.live = .ok [(1000003, 300)] ∧
    (run pRelease (some tight) 1000 (⟨fresh pRelease 4096 32, (), []⟩ : World Unit)
      [.alloc 300 1, .free 0]).map World.live = .aborted ∧
    (run pDebug (some tight) 1000 (⟨fresh pDebug 4096 32, (), []⟩ : World Unit)
      [.alloc 300 1]).map World.live = .assertFailed := by
  refine ⟨fun align => Nat.dvd_mul_left _ _, ?_, ?_, ?_⟩ <;> decide +kernel

/-! ## C59 -/

/-- Destroying the resource aborts iff some allocation of the area is live, after any history of
safely scanned calls. -/
theorem C59_destructor_partial (hv : Valid p) {buffer bytes : Nat} (hf : Fresh p buffer bytes s)
    (hu : UpstreamOK p s up) (u : σ) {fuel : Nat} (hfuel : s.blockCount ≤ fuel) {ops : List Op}
    (hops : Along p up fuel (SafeOp p) ⟨s, u, []⟩ ops) :
    ∃ w', run p up fuel ⟨s, u, []⟩ ops = .ok w' ∧
      (localLive p w' ≠ [] → destroy w'.st = .aborted) ∧
      (localLive p w' = [] → destroy w'.st = .ok ()) := by
  obtain ⟨w', h1, ⟨rs, h2⟩, -⟩ := safe_history hv (hf.start (up := up) hv u).1 hu hfuel hops
  have hlen : (localLive p w').length = w'.st.busyCount := by
    have := h2.live.length_eq
    rw [List.length_map, List.length_map] at this
    rw [this, h2.tiled.busy]
    clear this h2
    generalize 0 = k
    induction rs generalizing k with
    | nil => rfl
    | cons r rs ih =>
      obtain ⟨l, b⟩ := r
      cases b with
      | true => rw [busyRuns_busy, List.length_cons, ih]; simp
      | false => rw [busyRuns_free, ih]; simp
  refine ⟨w', h1, fun h => ?_, fun h => ?_⟩
  · unfold destroy
    rw [decide_eq_true, abortIf_true]
    rw [← hlen]
    intro h3
    exact h (List.eq_nil_of_length_eq_zero h3)
  · unfold destroy
    rw [← hlen, h]
    rfl

/-- With assertions the same holds for every history that runs to its end, whatever the scans. -/
theorem C59_destructor_debug (hv : Valid p) (hd : p.debug = true) {buffer bytes : Nat}
    (hf : Fresh p buffer bytes s) (hu : UpstreamApart p s up) (u : σ) {fuel : Nat} {ops : List Op}
    (hops : ∀ op ∈ ops, SizeT op) (hlen : ops.length < 2 ^ 64) {w' : World σ}
    (hrun : run p up fuel ⟨s, u, []⟩ ops = .ok w') :
    (localLive p w' ≠ [] → destroy w'.st = .aborted) ∧
    (localLive p w' = [] → destroy w'.st = .ok ()) := by
  obtain ⟨h1, -, -⟩ := (run_debug (up := up) (fuel := fuel) hv hd ops ⟨s, u, []⟩ hu
    (hf.debugInv hv u) hops (by simpa using hlen)).2 w' hrun
  refine ⟨fun h => ?_, fun h => ?_⟩
  · unfold destroy
    rw [decide_eq_true, abortIf_true]
    rw [h1.busy]
    intro h3
    exact h (List.eq_nil_of_length_eq_zero h3)
  · unfold destroy
    rw [h1.busy, h]
    rfl

/-- The history of `C48_counterexample` is one of them: two allocations, overlapping. -/
example : ((run pDebug none 1000 (⟨fresh pDebug 4096 32, (), []⟩ : World Unit)
      [.alloc 16 1, .alloc 1 1, .free 1, .alloc 25 1]).bind fun w => destroy w.st) = .aborted := by
  decide +kernel
example : ((run pDebug none 1000 (⟨fresh pDebug 4096 32, (), []⟩ : World Unit)
      [.alloc 9 1, .alloc 3 1, .free 0]).bind fun w => destroy w.st) = .aborted ∧
    ((run pDebug none 1000 (⟨fresh pDebug 4096 32, (), []⟩ : World Unit)
      [.alloc 9 1, .alloc 3 1, .free 0, .free 0]).bind fun w => destroy w.st) = .ok () := by
  constructor <;> decide +kernel

/-! ## C60 -/

/-- With assertions, and for areas whose address alignment plus size is at most `2^31`, no history
of calls with any arguments has undefined behaviour, whatever state the bookkeeping was in.  Missing
for the full claim: larger areas (`C60_counterexample`) and builds without assertions
(`C51_counterexample`). -/
theorem C60_defined_partial (hv : Valid p) (hd : p.debug = true) {fuel : Nat} (ops : List Op)
    (w : World σ) (hp : Placed p w.st) (hsm : Small p w.st) :
    run p up fuel w ops ≠ .ub :=
  (run_no_ub hv hd ops w hp hsm).1

/-- The same for `deallocate` of any pointer and for `release`. -/
theorem C60_deallocate_defined_partial (hd : p.debug = true) (hp : Placed p s) (fuel : Nat) (u : σ)
    (ptr : Nat) : deallocate p up s u ptr ≠ .ub ∧ release p fuel s ≠ .ub :=
  ⟨(ensures_deallocate hd hp.le u ptr).1, (ensures_release hd hp.le fuel).1⟩

/-- Without assertions, the histories that stay inside C46 have no undefined behaviour either. -/
theorem C60_release_build_partial (hv : Valid p) {buffer bytes : Nat} (hf : Fresh p buffer bytes s)
    (hu : UpstreamOK p s up) (u : σ) {fuel : Nat} (hfuel : s.blockCount ≤ fuel) {ops : List Op}
    (hops : Along p up fuel (SafeOp p) ⟨s, u, []⟩ ops) :
    run p up fuel ⟨s, u, []⟩ ops ≠ .ub := by
  obtain ⟨w', h1, -⟩ := C46_tracks hv hf hu u hfuel hops
  rw [h1]
  nofun

example : Placed pDebug (fresh pDebug 4096 32) ∧ Small pDebug (fresh pDebug 4096 32) :=
  ⟨(fresh_debug.start (up := (none : Option (Upstream Unit))) pDebug_valid ()).1.placed,
    fresh_debug.small⟩

/-- The full claim is false: with an area at address `2^32` (a 4 GiB aligned buffer) every request is
undefined behaviour, at `2^31` an assertion fails. -/
theorem C60_counterexample :
    liveAfter pDebug (fresh pDebug (2 ^ 32) 32) [.alloc 1 1] = .ub ∧
    liveAfter pRelease (fresh pRelease (2 ^ 32) 32) [.alloc 1 1] = .ub ∧
    liveAfter pDebug (fresh pDebug (2 ^ 31) 32) [.alloc 1 1] = .assertFailed := by
  refine ⟨?_, ?_, ?_⟩ <;> decide +kernel

end Utils.Props
