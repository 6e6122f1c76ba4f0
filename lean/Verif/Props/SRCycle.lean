import Verif.Props.SimpleResource
import Verif.Proofs.SRCycle

/-!
# Property C91: histories of `simple_resource` that include `release`

`crun` executes such a history.  After `release` the client's list keeps what the resource did not take
back: allocations of the upstream resource, and allocations of the area that are still marked in use
(`stillHeld`).  A client that regards those as returned too simply never passes them to `deallocate`.
-/

namespace Utils.Props

open Utils Utils.Bits Utils.SR

variable {p : Params} {s : State} {σ : Type} {up : Option (Upstream σ)}

/-- Any number of releases between calls that are good choices (C81): every call returns, the
bookkeeping still describes the allocations held, and these lie in the area without overlap.  Missing
for the full claim: other choices, for which it is false already without `release`
(`C48_counterexample`, `C49_hang`). -/
theorem C91_sound_partial (hv : Valid p) {buffer bytes : Nat} (hf : Fresh p buffer bytes s)
    (hu : UpstreamOK p s up) (u : σ) {fuel : Nat}
    (hfuel : (s.blockCount + 1) * (s.blockCount + 2) ≤ fuel) {ops : List COp}
    (hs : CAlong p up fuel (GoodOp p) ⟨s, u, []⟩ ops) :
    ∃ w', crun p up fuel ⟨s, u, []⟩ ops = .ok w' ∧ (∃ rs, Tracks p up w' rs) ∧ Sound p w' ∧
      w'.st.data = s.data ∧ w'.st.blockCount = s.blockCount := by
  obtain ⟨w', h1, ⟨rs, h2⟩, h3, h4⟩ := cycle_history hv (hf.start (up := up) hv u).1 hu hfuel hs
  exact ⟨w', h1, ⟨rs, h2⟩, h2.sound hv, h3, h4⟩

/-- Exactly then: the bookkeeping describes the allocations held at every point of the history iff
every request is a good choice when it is made; releases never do harm. -/
theorem C91_iff (hv : Valid p) {buffer bytes : Nat} (hf : Fresh p buffer bytes s)
    (hu : UpstreamOK p s up) (u : σ) {fuel : Nat}
    (hfuel : (s.blockCount + 1) * (s.blockCount + 2) ≤ fuel) {ops : List COp}
    (hr : ∀ size align, COp.call (.alloc size align) ∈ ops → Request size align) :
    (∀ ops', ops' <+: ops →
      ∃ w', crun p up fuel ⟨s, u, []⟩ ops' = .ok w' ∧ ∃ rs, Tracks p up w' rs) ↔
      CAlong p up fuel (GoodOp p) ⟨s, u, []⟩ ops := by
  constructor
  · exact cycle_needed hv (hf.start (up := up) hv u).1 hu hfuel hr
  · intro h ops' hp
    obtain ⟨w', h1, h2, -⟩ := cycle_history hv (hf.start (up := up) hv u).1 hu hfuel (h.prefix hp)
    exact ⟨w', h1, h2⟩

/-- A history that meets the hypotheses. -/
example : CAlong pDebug none 5000 (GoodOp pDebug) (⟨fresh pDebug 4096 32, (), []⟩ : World Unit)
    [.call (.alloc 20 16), .release, .call (.free 0), .release] := by
  refine ⟨?_, fun _ _ => ⟨nofun, fun _ _ => ⟨?_, fun _ _ => ⟨nofun, fun _ _ => trivial⟩⟩⟩⟩
  · rintro o h
    cases h
    refine ⟨⟨⟨4, rfl⟩, by decide, by decide⟩, fun rs ht => ?_⟩
    have h0 := ht.all_free (by decide) (fun j _ => rfl)
    rw [h0]
    have e : (fresh pDebug 4096 32).blockCount = 32 ∧ (fresh pDebug 4096 32).data = 4096 ∧
        (fresh pDebug 4096 32).inUse 0 = false ∧ (fresh pDebug 4096 32).next 0 = 0 := by
      decide
    obtain ⟨e1, e2, e3, e4⟩ := e
    refine Or.inr ⟨[], 32, [], by rw [e1]; rfl, .first ⟨4, by rw [e2]; decide, by rw [e1]; decide⟩
      (.here e3) ?_, ?_⟩
    · simp only [TooSmall, stop, need, padding, e1, e2, e4]
      decide
    · simp only [need, padding, e2]
      decide
  · rintro o h
    cases h
    trivial

/-- What one release takes back, after any such history: exactly the allocations of the area whose
first block is the first busy block, or is reached from block 1 along the recorded links. -/
theorem C91_taken_back (hv : Valid p) {w : World σ} {rs : List Region} (h : Tracks p up w rs)
    {fuel : Nat} (hfuel : (w.st.blockCount + 1) * (w.st.blockCount + 2) ≤ fuel) :
    ∃ w', cstep p up fuel w .release = .ok w' ∧ w'.up = w.up ∧ (∃ rs', Tracks p up w' rs') ∧
      ∀ x, x ∈ w'.live ↔ x ∈ w.live ∧ (inArea p w.st x.1 = true →
        ¬ FirstBusy w.st (startBlock p w.st x) ∧ ¬ Path w.st 1 (startBlock p w.st x)) := by
  obtain ⟨s', rs', e, ht, g1, g2, g3⟩ := h.release (fuel := fuel) hv hfuel
  refine ⟨⟨s', w.up, w.live.filter (stillHeld p s')⟩, ?_, rfl, ⟨rs', ht⟩, ?_⟩
  · show (SR.release p fuel w.st >>= _) = _
    rw [e]
    rfl
  intro x
  have e0 : startBlock p s' x = startBlock p w.st x := by unfold startBlock; rw [g1]
  simp only [List.mem_filter, stillHeld, inArea_congr g1 g2, e0]
  refine and_congr_right fun hx => ?_
  cases hin : inArea p w.st x.1 with
  | false => simp
  | true =>
    have hl : x ∈ localLive p w := List.mem_filter.2 ⟨hx, hin⟩
    obtain ⟨hr, -⟩ := h.start_run hv hl
    have t := (tiled_iff.1 h.tiled).1
    have t' := (tiled_iff.1 ht.tiled).1
    have hlt : startBlock p w.st x < s'.blockCount := by
      have hb := busyRuns_le hr
      have := t.blocks_eq
      simp only at hb
      generalize x.2 / p.blockSize = d at *
      generalize startBlock p w.st x = c at *
      omega
    simp only [Bool.not_true, Bool.false_or, true_imp_iff]
    constructor
    · intro hin
      obtain ⟨l, hm⟩ := (t'.inUse_iff hlt).1 hin
      exact ((g3 _).1 hm).2
    · intro hn
      exact (t'.inUse_iff hlt).2 ⟨_, (g3 _).2 ⟨hr, hn⟩⟩

/-- With allocations of one block the resource with `release` refines the ideal pool on which
`release` takes back everything in the area, however calls and releases alternate. -/
theorem C91_pool_refinement (hv : Valid p) {buffer bytes : Nat} (hf : Fresh p buffer bytes s)
    (hu : UpstreamOK p s up) (u : σ) {fuel : Nat}
    (hfuel : (s.blockCount + 1) * (s.blockCount + 2) ≤ fuel) {ops : List COp}
    (hops : ∀ op, COp.call op ∈ ops → PoolOp p s 1 op) :
    ∃ w', crun p up fuel ⟨s, u, []⟩ ops = .ok w' ∧ Sound p w' ∧
      (w'.live, w'.up) = ops.foldl (idealCycle
        (poolPlace s.data s.blockCount p.blockSize) (inArea p s) up) ([], u) := by
  obtain ⟨ht, hff⟩ := hf.start (up := up) hv u
  have := cycle_pool (ops := ops) (s0 := s) hv hu hfuel ht
    (by intro r hr; simp [busyRuns] at hr) hff rfl rfl hops
  rwa [Nat.div_one, Nat.one_mul] at this

/-- With assertions no history of calls and releases whatever has undefined behaviour. -/
theorem C91_no_ub_debug (hv : Valid p) (hd : p.debug = true) (hp : Placed p s) (hsm : Small p s)
    (u : σ) (live : List (Nat × Nat)) (fuel : Nat) (ops : List COp) :
    crun p up fuel ⟨s, u, live⟩ ops ≠ .ub := by
  exact (crun_no_ub (up := up) (fuel := fuel) hv hd ops ⟨s, u, live⟩ hp hsm).1

/-- The list after a history with releases, without upstream. -/
def heldAfter (p : Params) (s : State) (ops : List COp) : Outcome (List (Nat × Nat)) :=
  (crun p none 5000 (⟨s, (), []⟩ : World Unit) ops).map World.live

/-- The full claim (`release` always empties the area, so that everything can be handed out again) is
false: of two allocations of nine bytes the first two blocks come back, and the third request of the
next round is placed behind blocks that nobody holds. -/
theorem C91_counterexample :
    heldAfter pDebug (fresh pDebug 4096 32)
      [.call (.alloc 9 1), .call (.alloc 9 1), .release] = .ok [(4112, 9)] ∧
    heldAfter pDebug (fresh pDebug 4096 32)
      [.call (.alloc 9 1), .call (.alloc 9 1), .release, .call (.alloc 9 1), .call (.alloc 9 1)] =
      .ok [(4128, 9), (4096, 9), (4112, 9)] := by
  constructor <;> decide +kernel

/-- One-block requests, some freed, three releases in between. -/
def rounds : List COp :=
  [.call (.alloc 3 1), .call (.alloc 7 8), .call (.free 1), .release, .call (.alloc 1 4),
    .call (.alloc 5 1), .release, .release, .call (.alloc 6 2), .call (.alloc 2 1)]

example : ∀ op, COp.call op ∈ rounds → PoolOp pDebug (fresh pDebug 4096 32) 1 op := by
  intro op h
  have r : ∀ n k, 0 < n → n < 8 → k ≤ 3 → PoolOp pDebug (fresh pDebug 4096 32) 1 (.alloc n (2 ^ k)) := by
    intro n k h1 h2 h3
    have hk : (2 : Nat) ^ k ∣ 8 := Nat.pow_dvd_pow 2 h3
    have := Nat.le_of_dvd (by decide) hk
    refine ⟨⟨⟨k, rfl⟩, h1, ?_⟩, ?_, ?_, ?_, ?_⟩
    all_goals first
      | exact Nat.dvd_trans hk (by decide)
      | exact hk
      | (simp [pDebug]; omega)
  simp only [rounds, List.mem_cons, COp.call.injEq, List.not_mem_nil, or_false, reduceCtorEq,
    false_or] at h
  rcases h with rfl | rfl | rfl | rfl | rfl | rfl | rfl
  · exact r 3 0 (by decide) (by decide) (by decide)
  · exact r 7 3 (by decide) (by decide) (by decide)
  · trivial
  · exact r 1 2 (by decide) (by decide) (by decide)
  · exact r 5 0 (by decide) (by decide) (by decide)
  · exact r 6 1 (by decide) (by decide) (by decide)
  · exact r 2 0 (by decide) (by decide) (by decide)
example : heldAfter pDebug (fresh pDebug 4096 32) rounds = .ok [(4104, 2), (4096, 6)] := by
  decide +kernel

end Utils.Props
