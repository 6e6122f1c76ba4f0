import Verif.Proofs.SRCost
import Verif.Props.SRExact

/-!
# Property C135: the number of rounds of `allocate` and `release` of `simple_resource`

Both functions are loops over blocks (`apply_if`, modelled by `applyLoop`); `fuel` is the number of
rounds they are given, and `.outOfFuel` says that they are not done by then.
-/

namespace Utils.Props

open Utils Utils.Bits Utils.SR

variable {p : Params} {s : State} {size align : Nat} {σ : Type} {up : Option (Upstream σ)}

/-- `allocate` needs at most as many rounds as there are regions, or it never returns: nothing
changes with more rounds. -/
theorem C135_allocate (hv : Valid p) {w : World σ} {rs : List Region} (h : Tracks p up w rs)
    (hr : Request size align) {fuel : Nat} (hf : rs.length ≤ fuel) :
    allocate p up fuel w.st w.up size align = allocate p up rs.length w.st w.up size align := by
  have hloc : allocateLocal p fuel w.st size align
      = allocateLocal p rs.length w.st size align := by
    by_cases hg : Gate p w.st align
    · rw [(gate_iff hv h.placed h.small hr.pow2 _).1 hg,
        (gate_iff hv h.placed h.small hr.pow2 _).1 hg]
      obtain ⟨o, ho⟩ := scan_rounds hv h.placed h.tiled h.links hr
      have h1 := ho (fuel - rs.length)
      have h2 := ho 0
      rw [Nat.sub_add_cancel hf] at h1
      rw [Nat.zero_add] at h2
      rw [h1, h2]
    · rw [(gate_iff hv h.placed h.small hr.pow2 _).2 hg,
        (gate_iff hv h.placed h.small hr.pow2 _).2 hg]
  unfold allocate
  rw [hloc]

/-- A request that fits into the first free region takes one round more than there are regions
before it. -/
theorem C135_first (hv : Valid p) {w : World σ} {pre post : List Region} {len : Nat}
    (h : Tracks p up w (pre ++ ⟨len, false⟩ :: post)) (hb : ∀ r ∈ pre, r.busy = true)
    (hr : Request size align) (hal : GateOpen p w.st align)
    (hfit : need p w.st size align (blocks pre) ≤ len * p.blockSize) (fuel : Nat) :
    allocate p up fuel w.st w.up size align = .outOfFuel ↔ fuel ≤ pre.length := by
  have hle := h.placed.le
  have t := (tiled_iff.1 h.tiled).1
  obtain ⟨a1, a2, a3, a4, a5, a6⟩ := t.at
  simp only at a1 a2 a3 a4 a5 a6
  have hend : regionEnd w.st (blocks pre) = blocks pre + len := by
    unfold regionEnd
    rw [a3]
    by_cases he : blocks pre + len = w.st.blockCount
    · rw [if_pos he, if_pos rfl, he]
    · rw [if_neg he, if_neg (by omega)]
  constructor
  · intro ho
    apply Nat.le_of_not_lt
    intro hlt
    refine loopFree_allocate ?_ ho
    rw [allocateLocal_scan hv h.placed h.small hr.pow2 hal]
    obtain ⟨f, rfl⟩ : ∃ f, fuel = f + 1 + pre.length := ⟨fuel - 1 - pre.length, by omega⟩
    have := scanFrom_skip (p := p) (size := size) (align := align) (pre := []) (mid := pre)
      (post := ⟨len, false⟩ :: post) (fuel := f + 1) hle hb (by simp) t
    rw [show scan p (f + 1 + pre.length) w.st size align = _ from this, List.nil_append,
      (scanFrom_link hv h.placed h.links (by omega) hr).2.2 a4 (by
        rw [hend, Nat.add_sub_cancel_left]; exact hfit)]
    exact loopFree_bind (loopFree_allocateBlocks _ _ _) fun _ => loopFree_pure _
  · intro hf
    refine (allocate_stuck hr (o := .outOfFuel) ?_).1 rfl
    rw [allocateLocal_scan hv h.placed h.small hr.pow2 hal]
    exact scanFrom_short (pre := []) (mid := pre) (post := ⟨len, false⟩ :: post) hle hb t hf
      (Or.inr (by simp))

/-- With everything in use it takes a round for every region, so that the bound of `C135_allocate`
is reached. -/
theorem C135_full (hv : Valid p) {w : World σ} {rs : List Region} (h : Tracks p up w rs)
    (hb : ∀ r ∈ rs, r.busy = true) (hr : Request size align) (hal : GateOpen p w.st align)
    (fuel : Nat) :
    allocate p up fuel w.st w.up size align = .outOfFuel ↔ fuel < rs.length := by
  have hle := h.placed.le
  have hsome := h.placed.some
  have t := (tiled_iff.1 h.tiled).1
  constructor
  · intro ho
    apply Nat.lt_of_not_le
    intro hlt
    refine loopFree_allocate ?_ ho
    rw [allocateLocal_scan hv h.placed h.small hr.pow2 hal]
    obtain ⟨f, rfl⟩ : ∃ f, fuel = f + rs.length := ⟨fuel - rs.length, by omega⟩
    have hne : rs ≠ [] := by
      rintro rfl
      have := t.blocks_eq
      simp at this
      omega
    rw [show scan p (f + rs.length) w.st size align = _ from
      scanFrom_full (pre := []) (mid := rs) hle hb hne t]
    nofun
  · intro hf
    refine (allocate_stuck hr (o := .outOfFuel) ?_).1 rfl
    rw [allocateLocal_scan hv h.placed h.small hr.pow2 hal]
    exact scanFrom_short (pre := []) (mid := rs) (post := []) hle hb (by simpa using t)
      (Nat.le_of_lt hf) (Or.inl hf)

/-- Filling the area with requests of one byte makes every block a region of its own. -/
theorem C135_filled (hv : Valid p) (hB : 1 < p.blockSize) {buffer bytes : Nat}
    (hf : Fresh p buffer bytes s) (hu : UpstreamOK p s up) (u : σ) {fuel : Nat}
    (hfuel : s.blockCount ≤ fuel) :
    ∃ w', run p up fuel ⟨s, u, []⟩ (List.replicate s.blockCount (.alloc 1 1)) = .ok w' ∧
      Tracks p up w' (List.replicate s.blockCount ⟨1, true⟩) := by
  have hr1 : Request 1 1 := ⟨⟨0, rfl⟩, by decide, by decide⟩
  have h0 := (hf.start (up := up) hv u).1
  have hdiv : 1 / p.blockSize + 1 = 1 := by rw [Nat.div_eq_of_lt hB]
  have hbl : ∀ m : Nat, blocks (List.replicate m ⟨1, true⟩) = m := by
    intro m
    simp [blocks]
  suffices hh : ∀ m (w : World σ) k, k + m = s.blockCount → w.st.blockCount = s.blockCount →
      w.st.data = s.data → Tracks p up w (List.replicate k ⟨1, true⟩ ++ freeRun m) →
      ∃ w', run p up fuel w (List.replicate m (.alloc 1 1)) = .ok w' ∧
        Tracks p up w' (List.replicate s.blockCount ⟨1, true⟩) by
    have hs : 1 ≤ s.blockCount := h0.placed.some
    refine hh s.blockCount ⟨s, u, []⟩ 0 (by omega) rfl rfl ?_
    unfold freeRun
    rw [if_neg (by omega)]
    exact h0
  intro m
  induction m with
  | zero =>
    intro w k hk h1 h2 ht
    refine ⟨w, rfl, ?_⟩
    obtain rfl : k = s.blockCount := by omega
    simpa [freeRun] using ht
  | succ m ih =>
    intro w k hk h1 h2 ht
    have hfr : freeRun (m + 1) = [⟨m + 1, false⟩] := rfl
    rw [hfr] at ht
    have hu' : UpstreamOK p w.st up := by
      intro U hU
      have := hu U hU
      simpa [inArea_congr h2 h1] using this
    have hneed : need p w.st 1 1 (blocks (List.replicate k ⟨1, true⟩)) < (m + 1) * p.blockSize := by
      have : p.blockSize ≤ (m + 1) * p.blockSize := Nat.le_mul_of_pos_left _ (by omega)
      simp only [need, padding, Nat.mod_one]
      omega
    have hbusy : ∀ r ∈ List.replicate k (Region.mk 1 true), r.busy = true := by
      intro r hr
      rw [List.eq_of_mem_replicate hr]
    obtain ⟨w1, e1, hres⟩ := doAlloc_good hv ht hu' hr1
      (.first hbusy hneed) (fuel := fuel) (by omega)
    cases hres with
    | @served ptr pre len post a split firstFit fits served tracks live locl up_eq =>
      have hpre := firstFit_unique split (noneFits_busy hbusy) firstFit (by omega) (by omega)
      subst hpre
      simp only [List.append_cancel_left_eq, List.cons.injEq, Region.mk.injEq, and_true] at split
      obtain ⟨rfl, rfl⟩ := split
      have ha : a = 0 := by
        have := served.pad
        simp only [padding, Nat.mod_one] at this
        rcases Nat.eq_zero_or_pos a with h | h
        · exact h
        · have := Nat.mul_pos h hv.pos
          omega
      subst ha
      rw [hdiv] at tracks
      obtain ⟨w', g1, g2⟩ := ih w1 (k + 1) (by omega) (served.count.trans h1)
        (served.data.trans h2) (by
          have e : List.replicate k (Region.mk 1 true) ++ carve 0 1 (m + 1) ++ []
              = List.replicate (k + 1) ⟨1, true⟩ ++ freeRun m := by
            rw [List.replicate_succ']
            simp [carve, freeRun]
          rwa [e] at tracks)
      refine ⟨w', ?_, g2⟩
      rw [List.replicate_succ]
      unfold run
      rw [show step p up fuel w (.alloc 1 1) = _ from e1]
      exact g1
    | refused none st tracks live locl up_eq =>
      have := none (Or.inl (Nat.one_dvd _)) _ _ _ rfl
      omega

/-- `release` is not that quick: after each region it frees it starts again at block 1, so that it
takes `n * (n - 1) / 2 + 1` rounds to free `n` regions of one block. -/
theorem C135_release (hv : Valid p) {w : World σ} {n : Nat}
    (h : Tracks p up w (List.replicate n ⟨1, true⟩)) (fuel : Nat) :
    (release p fuel w.st = .outOfFuel ↔ fuel < n * (n - 1) / 2 + 1) ∧
    (n * (n - 1) / 2 + 1 ≤ fuel → ∃ s', release p fuel w.st = .ok s' ∧
      ∀ j, j < s'.blockCount → s'.inUse j = false) := by
  obtain ⟨s', h1, h2, h3, h4⟩ := release_stairs hv h.placed h.tiled h.links
  have hok : n * (n - 1) / 2 + 1 ≤ fuel → release p fuel w.st = .ok s' := by
    intro hf
    rw [← h1 (fuel - (n * (n - 1) / 2 + 1)), Nat.sub_add_cancel hf]
  refine ⟨⟨fun ho => ?_, h2 fuel⟩, fun hf => ⟨s', hok hf, fun j hj => h4 j (h3 ▸ hj)⟩⟩
  apply Nat.lt_of_not_le
  intro hf
  rw [hok hf] at ho
  cases ho

/-- That is the worst case: with `n` blocks, whatever the regions, `n * (n - 1) / 2 + 1` rounds are
enough for `release`. -/
theorem C135_release_bound (hv : Valid p) {w : World σ} {rs : List Region} (h : Tracks p up w rs) :
    ∃ s', ∀ fuel, w.st.blockCount * (w.st.blockCount - 1) / 2 + 1 ≤ fuel →
      release p fuel w.st = .ok s' := by
  obtain ⟨s', rs', h1, -⟩ := release_exact hv h.placed h.tiled h.links (Nat.le_refl _)
  refine ⟨s', fun fuel hf => ?_⟩
  have hr := release_rounds hv h.placed h.tiled h.links hf
  have h2 := applyLoop_mono (p := p) (fuel := fuel)
    (fuel' := max fuel ((w.st.blockCount + 1) * (w.st.blockCount + 2))) (Nat.le_max_left _ _) hr
  have h3 := applyLoop_mono (p := p) (pred := inUseAt p) (act := releaseRegion p) (s := w.st)
    (b := ()) (i := 0) (fuel := (w.st.blockCount + 1) * (w.st.blockCount + 2))
    (fuel' := max fuel ((w.st.blockCount + 1) * (w.st.blockCount + 2))) (Nat.le_max_right _ _)
    (by
      intro hc
      unfold release at h1
      rw [hc] at h1
      cases h1)
  unfold release at h1 ⊢
  rw [← h2, h3]
  exact h1

/-- The two together: no multiple of the number of regions, and no multiple of the number of blocks,
is enough for `release`. -/
theorem C135_not_linear (hv : Valid p) (hB : 1 < p.blockSize) {buffer bytes : Nat}
    (hf : Fresh p buffer bytes s) (hu : UpstreamOK p s up) (u : σ) {fuel c : Nat}
    (hfuel : s.blockCount ≤ fuel) (hc : 2 * c + 1 ≤ s.blockCount) :
    ∃ w', run p up fuel ⟨s, u, []⟩ (List.replicate s.blockCount (.alloc 1 1)) = .ok w' ∧
      release p (c * s.blockCount) w'.st = .outOfFuel := by
  obtain ⟨w', h1, h2⟩ := C135_filled hv hB hf hu u hfuel
  refine ⟨w', h1, ((C135_release hv h2 _).1).2 ?_⟩
  have : c * s.blockCount ≤ s.blockCount * (s.blockCount - 1) / 2 := by
    rw [Nat.le_div_iff_mul_le (by decide), Nat.mul_comm s.blockCount, Nat.mul_right_comm]
    exact Nat.mul_le_mul_right _ (by omega)
  omega

/-- The theorems apply: a fresh resource of four blocks, filled with four requests of one byte, takes
seven rounds to be released; the next request would take four rounds to be refused. -/
theorem fresh_four : Fresh pDebug 4096 32 (fresh pDebug 4096 4) :=
  ⟨rfl, by decide, by decide, by decide, small_of_le (by decide) (by decide)⟩

example : ∃ w', run pDebug none 4 (⟨fresh pDebug 4096 4, (), []⟩ : World Unit)
      (List.replicate 4 (.alloc 1 1)) = .ok w' ∧
    Tracks pDebug none w' (List.replicate 4 ⟨1, true⟩) ∧
    release pDebug 6 w'.st = .outOfFuel ∧ release pDebug 7 w'.st ≠ .outOfFuel ∧
    allocate pDebug none 3 w'.st w'.up 1 1 = .outOfFuel ∧
    allocate pDebug none 4 w'.st w'.up 1 1 ≠ .outOfFuel := by
  have hn : (fresh pDebug 4096 4).blockCount = 4 := by decide
  obtain ⟨w', h1, h2⟩ := C135_filled (up := none) pDebug_valid (by decide) fresh_four nofun ()
    (fuel := 4) (by rw [hn])
  rw [hn] at h1 h2
  have hr1 : Request 1 1 := ⟨⟨0, rfl⟩, by decide, by decide⟩
  have hf := C135_full pDebug_valid h2 (fun r hr => by rw [List.eq_of_mem_replicate hr]) hr1
    (Or.inl (Nat.one_dvd _))
  exact ⟨w', h1, h2, (C135_release pDebug_valid h2 6).1.2 (by decide),
    fun h => absurd ((C135_release pDebug_valid h2 7).1.1 h) (by decide), (hf 3).2 (by decide),
    fun h => absurd ((hf 4).1 h) (by decide)⟩

/-- In a fresh resource the first free region is the first one: one round. -/
example (fuel : Nat) : allocate pDebug none fuel (fresh pDebug 4096 4) () 9 1 = .outOfFuel ↔
    fuel ≤ 0 :=
  C135_first (pre := []) (post := []) (up := none) (w := ⟨fresh pDebug 4096 4, (), []⟩) pDebug_valid
    (fresh_four.start pDebug_valid ()).1 (by simp) ⟨⟨0, rfl⟩, by decide, by decide⟩
    (Or.inl (Nat.one_dvd _)) (by decide) fuel

/-- Any reachable state will do for the bound, such as the fresh resource. -/
example : ∃ s', ∀ fuel, 7 ≤ fuel → release pDebug fuel (fresh pDebug 4096 4) = .ok s' :=
  C135_release_bound (up := none) (w := ⟨fresh pDebug 4096 4, (), []⟩) pDebug_valid
    (fresh_four.start pDebug_valid ()).1

end Utils.Props
