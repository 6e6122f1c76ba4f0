import Verif.Props.SimpleResource
import Verif.Proofs.SRArena

/-!
# C102: arena usage of `simple_resource`
-/

namespace Utils.Props

open Utils Utils.Bits Utils.SR

variable {p : Params} {s : State} {size align : Nat} {σ : Type} {up : Option (Upstream σ)}

/-- Arena usage: whatever is given back and in whatever order, as long as requests are made only
when what is still held lies without a gap at the start of the area, every call returns, what is held
is sound, and every answer is that of an ideal allocator that puts each request right above what is
held. -/
theorem C102_arena_refinement (hv : Valid p) {buffer bytes : Nat} (hf : Fresh p buffer bytes s)
    (hu : UpstreamOK p s up) (u : σ) {fuel : Nat} (hfuel : s.blockCount ≤ fuel) {ops : List Op}
    (hops : Along p up fuel (ArenaOp p) ⟨s, u, []⟩ ops) :
    ∃ w', run p up fuel ⟨s, u, []⟩ ops = .ok w' ∧ Sound p w' ∧
      (w'.live, w'.up) = ops.foldl
        (idealStep (stackPlace p s.data s.blockCount) (inArea p s) up) ([], u) := by
  obtain ⟨w', h1, ⟨rs', h2⟩, -, -, h3⟩ :=
    arena_history hv (hf.start (up := up) hv u).1 hu hfuel hops
  exact ⟨w', h1, h2.sound hv, h3⟩

/-- When nothing of the area is held, whatever came before, there is no hole: everything may be given
back in any order between two rounds of requests. -/
theorem C102_empty {w : World σ} (h : ∀ x ∈ w.live, inArea p w.st x.1 = false) : NoHoles p w := by
  intro x hx
  obtain ⟨h1, h2⟩ := List.mem_filter.1 hx
  simp [h x h1] at h2

/-- Stack usage (C56) is a special case. -/
theorem C102_stack (hv : Valid p) {buffer bytes : Nat} (hf : Fresh p buffer bytes s)
    (hu : UpstreamOK p s up) (u : σ) {fuel : Nat} (hfuel : s.blockCount ≤ fuel) {ops : List Op}
    (hops : Along p up fuel (StackOp p) ⟨s, u, []⟩ ops) :
    Along p up fuel (ArenaOp p) ⟨s, u, []⟩ ops := by
  have h0 : Stacked p up ⟨s, u, []⟩ [⟨s.blockCount, false⟩] := by
    refine ⟨(hf.start (up := up) hv u).1, ?_, ?_⟩
    · simp [localLive, busyRuns]
    · simp [busyRuns, Contig]
  exact stack_arena hv h0 hu hfuel hops

/-- Two twoRounds; the first is given back in the order of the requests, so the list of regions keeps stale
links, and the second starts at the beginning again. -/
def twoRounds : List Op :=
  [.alloc 20 8, .alloc 9 4, .alloc 1 1, .free 2, .free 1, .free 0, .alloc 5 8, .alloc 30 2]

instance (p : Params) (w : World σ) : Decidable (NoHoles p w) :=
  inferInstanceAs (Decidable (∀ x ∈ localLive p w, _))

example : liveAfter pDebug (fresh pDebug 4096 64) twoRounds = .ok [(4104, 30), (4096, 5)] := by
  decide +kernel

/-- The history of `twoRounds` up to a call. -/
def twoRoundsAt (n : Nat) : Outcome (World Unit) :=
  run pDebug none 1000 ⟨fresh pDebug 4096 64, (), []⟩ (twoRounds.take n)

/-- Whether there is a hole before each of the calls: only while things are being given back. -/
example : (List.range 8).map (fun n => match twoRoundsAt n with
    | .ok w => decide (NoHoles pDebug w)
    | _ => false) = [true, true, true, true, false, false, true, true] := by decide +kernel

/-- `Along` by evaluation. -/
def alongB (p : Params) (up : Option (Upstream σ)) (fuel : Nat) (A : World σ → Op → Bool) :
    World σ → List Op → Bool
  | _, [] => true
  | w, op :: ops => A w op && match step p up fuel w op with
    | .ok w' => alongB p up fuel A w' ops
    | _ => true

theorem alongB_sound {fuel : Nat} {A : World σ → Op → Bool} {B : World σ → Op → Prop}
    (hAB : ∀ w op, A w op = true → B w op) {w : World σ} {ops : List Op}
    (h : alongB p up fuel A w ops = true) : Along p up fuel B w ops := by
  induction ops generalizing w with
  | nil => trivial
  | cons op ops ih =>
    rw [alongB, Bool.and_eq_true] at h
    refine ⟨hAB _ _ h.1, fun w' e => ih ?_⟩
    rw [e] at h
    exact h.2

/-- A sufficient test for `ArenaOp`. -/
def arenaB (p : Params) (w : World σ) : Op → Bool
  | .alloc size align => decide (0 < size ∧ size ≤ 100 ∧ align ∈ [1, 2, 4, 8] ∧
      align ≤ p.blockSize ∧ NoHoles p w ∧
      size ≠ (w.st.blockCount - used p (localLive p w)) * p.blockSize)
  | .free _ => true

theorem arenaB_sound (w : World σ) (op : Op) (h : arenaB p w op = true) : ArenaOp p w op := by
  cases op with
  | free i => trivial
  | alloc size align =>
    obtain ⟨h1, h2, h3, h4, h5, h6⟩ := of_decide_eq_true h
    refine ⟨?_, h4, h5, h6⟩
    simp only [List.mem_cons, List.not_mem_nil, or_false] at h3
    rcases h3 with rfl | rfl | rfl | rfl
    · exact ⟨⟨0, rfl⟩, h1, by omega⟩
    · exact ⟨⟨1, rfl⟩, h1, by omega⟩
    · exact ⟨⟨2, rfl⟩, h1, by omega⟩
    · exact ⟨⟨3, rfl⟩, h1, by omega⟩

example : Along pDebug none 1000 (ArenaOp pDebug) (⟨fresh pDebug 4096 64, (), []⟩ : World Unit)
    twoRounds :=
  alongB_sound (A := arenaB pDebug) arenaB_sound (by decide +kernel)

/-- The condition on holes is needed: with a hole, the address is not the one right above what is
held. -/
theorem C102_hole_matters :
    liveAfter pDebug (fresh pDebug 4096 64) [.alloc 20 8, .alloc 9 4, .free 1, .alloc 5 8]
      = .ok [(4096, 5), (4120, 9)] := by
  decide +kernel

end Utils.Props
