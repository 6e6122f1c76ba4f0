import Verif.Proofs.Assign
import Verif.Props.SRCycle

/-! # Property C95: assigning one resource to another -/

namespace Utils.Props

open Utils Utils.Bits Utils.SR Utils.Res Utils.Spec Utils.Assign

variable {σ : Type}

/-- Several monotonic resources, each made on a buffer with an upstream. -/
def monoStore (bufs : Nat → Nat × Nat) (ups : Nat → Option (Upstream σ)) (u : σ) :
    Store (MonoHeld σ) σ :=
  ⟨fun k => ⟨⟨Mono.make (bufs k).1 (bufs k).2, ups k⟩, []⟩, u, []⟩

/-- Several simple resources. -/
def simpleStore (sts : Nat → State) (ups : Nat → Option (Upstream σ)) (u : σ) :
    Store (SimpleHeld σ) σ :=
  ⟨fun k => ⟨⟨sts k, ups k⟩, []⟩, u, []⟩

/-- Any number of monotonic resources over separate buffers, and any history of calls and assignments
in which a resource that was assigned from is not used before it is assigned to again (and in which no
request wraps around): everything runs, all that is held is aligned, inside its buffer and disjoint,
also what was held through resources that were overwritten.  Missing from C95: going on to use the
source of an assignment; `C95_mono_shared` says what happens then. -/
theorem C95_mono_moves_partial {debug : Bool} {bufs : Nat → Nat × Nat}
    {ups : Nat → Option (Upstream σ)} (u : σ)
    (hbuf : ∀ k, (bufs k).1 + (bufs k).2 < 2 ^ 64)
    (hsep : ∀ k l, k ≠ l → (bufs k).1 + (bufs k).2 ≤ (bufs l).1 ∨ (bufs l).1 + (bufs l).2 ≤ (bufs k).1)
    (hap : ∀ k l, ApartFrom (Mono.make (bufs k).1 (bufs k).2) (ups l)) {ops : List (AOp MonoOp)}
    (hm : Moves (fun _ => false) ops)
    (hops : AAlong (monoKind σ debug) (fun x _ c => Unwrapped x.obj.res c) (monoStore bufs ups u) ops) :
    ∃ w, aRun (monoKind σ debug) (monoStore bufs ups u) ops = .ok w ∧
      ∀ a x, w.holds (spentAll (fun _ => false) ops) a = some x →
        MonoSound (x.world w.up) ∧
        ∀ b y, w.holds (spentAll (fun _ => false) ops) b = some y → a ≠ b →
          ∀ g ∈ fromBuffer (x.world w.up), ∀ h ∈ fromBuffer (y.world w.up),
            g.ptr + g.size ≤ h.ptr ∨ h.ptr + h.size ≤ g.ptr := by
  obtain ⟨w, e, hw⟩ := Owned.run (K := monoKind σ debug) (Inv := MonoOn bufs ups)
    (fun k x u c => monoOn_call hap k x u c) (fun k x y h => h)
    (Owned.start (w := monoStore bufs ups u)
      (fun k => ⟨⟨k, rfl⟩, rfl, rfl, fun u => make_inv u (hbuf k)⟩) rfl) hm hops
  refine ⟨w, e, fun a x ha => ?_⟩
  obtain ⟨h1, h2⟩ := hw.holders ha
  constructor
  · rcases h1 with ⟨y, rfl⟩ | ⟨k, -, -, -, h⟩
    · refine ⟨?_, ?_, List.Pairwise.nil⟩
      · intro g hg; cases hg
      · intro g hg; cases hg
    · exact (h w.up).sound
  · intro b y hb hab g hg h hh
    rcases h2 b y hb hab with ⟨z, rfl⟩ | ⟨z, rfl⟩ | ⟨k, l, hkl, hx, hy⟩
    · cases hg
    · cases hh
    · have g1 := (hx.2.2.2 w.up).sound.inside g hg
      have g2 := (hy.2.2.2 w.up).sound.inside h hh
      simp only [MonoHeld.world, hx.2.1, hx.2.2.1] at g1
      simp only [MonoHeld.world, hy.2.1, hy.2.2.1] at g2
      have b1 : (bufs k).1 ≤ g.ptr ∧ g.ptr + g.size ≤ (bufs k).1 + (bufs k).2 ∨ g.ptr + g.size = 0 := by
        revert g1; simp only [Mono.make]; split <;> split <;> omega
      have b2 : (bufs l).1 ≤ h.ptr ∧ h.ptr + h.size ≤ (bufs l).1 + (bufs l).2 ∨ h.ptr + h.size = 0 := by
        revert g2; simp only [Mono.make]; split <;> split <;> omega
      have := hsep k l hkl
      omega

/-- In particular: every such history with sizes up to `PTRDIFF_MAX` on buffers in the lower half of the
address space. -/
theorem C95_mono_sane_partial {debug : Bool} {bufs : Nat → Nat × Nat}
    {ups : Nat → Option (Upstream σ)} (u : σ)
    (hbuf : ∀ k, (bufs k).1 + (bufs k).2 ≤ 2 ^ 63)
    (hsep : ∀ k l, k ≠ l → (bufs k).1 + (bufs k).2 ≤ (bufs l).1 ∨ (bufs l).1 + (bufs l).2 ≤ (bufs k).1)
    (hap : ∀ k l, ApartFrom (Mono.make (bufs k).1 (bufs k).2) (ups l)) {ops : List (AOp MonoOp)}
    (hm : Moves (fun _ => false) ops) (hops : ∀ i c, AOp.on i c ∈ ops → SaneCall c) :
    ∃ w, aRun (monoKind σ debug) (monoStore bufs ups u) ops = .ok w ∧
      ∀ a x, w.holds (spentAll (fun _ => false) ops) a = some x →
        MonoSound (x.world w.up) ∧
        ∀ b y, w.holds (spentAll (fun _ => false) ops) b = some y → a ≠ b →
          ∀ g ∈ fromBuffer (x.world w.up), ∀ h ∈ fromBuffer (y.world w.up),
            g.ptr + g.size ≤ h.ptr ∨ h.ptr + h.size ≤ g.ptr := by
  have h64 : ∀ k, (bufs k).1 + (bufs k).2 < 2 ^ 64 := fun k => by have := hbuf k; omega
  exact C95_mono_moves_partial u h64 hsep hap hm
    (Owned.along (K := monoKind σ debug) (Inv := MonoOn bufs ups) (S := SaneCall)
      (fun k x u c => monoOn_call hap k x u c) (fun k x y h => h)
      (fun k x u c => monoOn_sane hbuf k x u c)
      (Owned.start (fun k => ⟨⟨k, rfl⟩, rfl, rfl, fun u => make_inv u (h64 k)⟩) rfl) hm hops)

/-- The same for simple resources and requests that are good choices (C91): everything runs, what is
held is inside its area and disjoint.  Missing: as above, see `C95_simple_shared`, and destruction of
the sources, see `C95_source_destructor`. -/
theorem C95_simple_moves_partial {p : Params} {fuel : Nat} {sts : Nat → State}
    {ups : Nat → Option (Upstream σ)} (u : σ) (hv : Valid p)
    (hf : ∀ k, ∃ buffer bytes, Fresh p buffer bytes (sts k))
    (hsep : ∀ k l, k ≠ l → (sts k).data + (sts k).blockCount * p.blockSize ≤ (sts l).data ∨
      (sts l).data + (sts l).blockCount * p.blockSize ≤ (sts k).data)
    (hup : ∀ k l, UpstreamOK p (sts k) (ups l))
    (hfuel : ∀ k, ((sts k).blockCount + 1) * ((sts k).blockCount + 2) ≤ fuel) {ops : List (AOp COp)}
    (hm : Moves (fun _ => false) ops)
    (hops : AAlong (simpleKind σ p fuel) (fun x u c => ∀ o, c = .call o → GoodOp p (x.world u) o)
      (simpleStore sts ups u) ops) :
    ∃ w, aRun (simpleKind σ p fuel) (simpleStore sts ups u) ops = .ok w ∧
      ∀ a x, w.holds (spentAll (fun _ => false) ops) a = some x →
        Sound p (x.world w.up) ∧
        ∀ b y, w.holds (spentAll (fun _ => false) ops) b = some y → a ≠ b →
          ∀ g ∈ localLive p (x.world w.up), ∀ h ∈ localLive p (y.world w.up), Apart g h := by
  obtain ⟨w, e, hw⟩ := Owned.run (K := simpleKind σ p fuel) (Inv := SimpleOn p sts ups)
    (fun k x u c => simpleOn_call hv hup hfuel k x u c) (fun k x y h => h)
    (Owned.start (w := simpleStore sts ups u)
      (fun k => ⟨⟨k, rfl⟩, rfl, rfl, fun u => by
        obtain ⟨buffer, bytes, h⟩ := hf k
        exact ⟨_, (h.start (up := ups k) hv u).1⟩⟩) rfl) hm hops
  refine ⟨w, e, fun a x ha => ?_⟩
  obtain ⟨h1, h2⟩ := hw.holders ha
  constructor
  · rcases h1 with ⟨y, rfl⟩ | ⟨k, -, -, -, h⟩
    · refine ⟨?_, List.Pairwise.nil⟩
      intro g hg; cases hg
    · obtain ⟨rs, h⟩ := h w.up
      exact h.sound hv
  · intro b y hb hab g hg h hh
    rcases h2 b y hb hab with ⟨z, rfl⟩ | ⟨z, rfl⟩ | ⟨k, l, hkl, hx, hy⟩
    · cases hg
    · cases hh
    · obtain ⟨rx, tx⟩ := hx.2.2.2 w.up
      obtain ⟨ry, ty⟩ := hy.2.2.2 w.up
      have g1 := (tx.sound hv).inside g hg
      have g2 := (ty.sound hv).inside h hh
      have g3 := (List.mem_filter.1 hg).2
      have g4 := (List.mem_filter.1 hh).2
      simp only [inArea, SimpleHeld.world, Bool.and_eq_true] at g1 g2 g3 g4
      simp only [hx.2.1, hx.2.2.1] at g1 g3
      simp only [hy.2.1, hy.2.2.1] at g2 g4
      have := hsep k l hkl
      unfold Apart
      have e1 := of_decide_eq_true g3.1
      have e2 := of_decide_eq_true g4.1
      omega

/-- After `i = j` both monotonic resources hand out the same address: whatever the source would serve
next from the buffer, it is served by the target, and then again by the source. -/
theorem C95_mono_shared {debug : Bool} (w : Store (MonoHeld σ) σ) {i j size align r : Nat} {m : Mono}
    (hij : i ≠ j) (hs : size ≠ 0) (hp : IsPow2 align) (hlt : align < 2 ^ 64)
    (h : (w.objs j).obj.res.allocateLocal debug size align = .ok (m, r)) (hr : r ≠ 0) :
    ∃ w', aRun (monoKind σ debug) w
        [.assign i j, .on i (.alloc size align), .on j (.alloc size align)] = .ok w' ∧
      (w'.objs i).given = ⟨r, size, align⟩ :: (w.objs j).given ∧
      (w'.objs j).given = [⟨r, size, align⟩] := by
  have hx : ∀ (x : MonoHeld σ) (u : σ), x.obj.res = (w.objs j).obj.res →
      (monoKind σ debug).call x u (.alloc size align) =
        .ok (⟨⟨m, x.obj.upstream⟩, ⟨r, size, align⟩ :: x.given⟩, u) := by
    intro x u hx
    rw [← hx] at h
    have := mono_allocate (up := x.obj.upstream) (u := u) hs hp hlt h
    rw [if_neg hr] at this
    simp only [monoKind, monoStep, MonoHeld.world, this, Outcome.ok_bind, Outcome.pure_eq, if_neg hr]
  obtain ⟨w', e, h1, h2⟩ := aRun_both (K := monoKind σ debug) (w := w) hij
    (hx ((monoKind σ debug).assign (w.objs i) (w.objs j)) w.up rfl)
    (hx ((monoKind σ debug).empty (w.objs j)) w.up rfl)
  exact ⟨w', e, by rw [h1]; rfl, by rw [h2]; rfl⟩

/-- The same for simple resources: if the source would serve a request without its upstream taking
notice, the target serves it, and the source serves it again at the same address. -/
theorem C95_simple_shared {p : Params} {fuel : Nat} (w : Store (SimpleHeld σ) σ)
    {i j size align r : Nat} {s : State} (hij : i ≠ j)
    (h : allocate p (w.objs j).obj.upstream fuel (w.objs j).obj.st w.up size align = .ok (r, s, w.up))
    (hr : r ≠ 0) :
    ∃ w', aRun (simpleKind σ p fuel) w
        [.assign i j, .on i (.call (.alloc size align)), .on j (.call (.alloc size align))] = .ok w' ∧
      (w'.objs i).live = (r, size) :: (w.objs j).live ∧ (w'.objs j).live = [(r, size)] := by
  have hx : ∀ (x : SimpleHeld σ), x.obj.st = (w.objs j).obj.st →
      x.obj.upstream = (w.objs j).obj.upstream →
      (simpleKind σ p fuel).call x w.up (.call (.alloc size align)) =
        .ok (⟨⟨s, x.obj.upstream⟩, (r, size) :: x.live⟩, w.up) := by
    intro x h1 h2
    rw [← h1, ← h2] at h
    simp only [simpleKind, cstep, step, doAlloc, SimpleHeld.world, h, Outcome.ok_bind, Outcome.pure_eq,
      if_neg hr]
  obtain ⟨w', e, h1, h2⟩ := aRun_both (K := simpleKind σ p fuel) (w := w) hij
    (hx ((simpleKind σ p fuel).assign (w.objs i) (w.objs j)) rfl rfl)
    (hx ((simpleKind σ p fuel).empty (w.objs j)) rfl rfl)
  exact ⟨w', e, by rw [h1]; rfl, by rw [h2]; rfl⟩

/-- The source of an assignment stays as busy as it was: if it is not used again, its destructor aborts
exactly if something of its area was held when it was assigned from, whatever has been given back
through the target since. -/
theorem C95_source_destructor {p : Params} {fuel : Nat} {w w' : Store (SimpleHeld σ) σ} {i j : Nat}
    {rs : List Region} (ht : Tracks p (w.objs j).obj.upstream ((w.objs j).world w.up) rs)
    {ops : List (AOp COp)} (hops : ∀ o ∈ ops, ¬ o.involves j)
    (hrun : aRun (simpleKind σ p fuel) w (.assign i j :: ops) = .ok w') :
    (destroy (w'.objs j).obj.st = .aborted ↔ localLive p ((w.objs j).world w.up) ≠ []) ∧
    (destroy (w'.objs j).obj.st = .ok () ↔ localLive p ((w.objs j).world w.up) = []) := by
  unfold aRun at hrun
  obtain ⟨w1, e1, e2⟩ := Outcome.bind_eq_ok.1 hrun
  have hj : (w'.objs j).obj.st = (w.objs j).obj.st := by
    rw [aRun_untouched hops e2]
    simp only [aStep] at e1
    split at e1
    · cases e1; rfl
    · cases e1
      show SimpleObj.st (SimpleHeld.obj (put _ _ _ _)) = _
      rw [put_same]
      rfl
  have hb : (localLive p ((w.objs j).world w.up)).length = (w.objs j).obj.st.busyCount := tracks_busy ht
  rw [hj]
  unfold destroy
  rw [← hb]
  cases localLive p ((w.objs j).world w.up) with
  | nil => exact ⟨⟨nofun, fun h => absurd rfl h⟩, fun _ => rfl, fun _ => rfl⟩
  | cons a l => exact ⟨⟨fun _ => nofun, fun _ => rfl⟩, nofun, nofun⟩

/-- What is held after a history of monotonic resources on 64 bytes each, every 4096 bytes. -/
def monoHeldAfter (n : Nat) (ops : List (AOp MonoOp)) : Outcome (List (List Grant)) :=
  (aRun (monoKind Unit true) (monoStore (fun k => (4096 * (k + 1), 64)) (fun _ => none) ()) ops).map
    fun w => (List.range n).map fun k => (w.objs k).given

/-- What is held after a history of simple resources on 32 blocks each, every 4096 bytes. -/
def simpleHeldAfter (n : Nat) (ops : List (AOp COp)) : Outcome (List (List (Nat × Nat))) :=
  (aRun (simpleKind Unit pDebug 5000)
    (simpleStore (fun k => fresh pDebug (4096 * (k + 1)) 32) (fun _ => none) ()) ops).map
    fun w => (List.range n).map fun k => (w.objs k).live

/-- Two assignments used like moves, on resources without upstream. -/
example : (∀ k l, ApartFrom (Mono.make (4096 * (k + 1)) 64)
      ((fun _ => none : Nat → Option (Upstream Unit)) l)) ∧
    (∀ k l, k ≠ l → 4096 * (k + 1) + 64 ≤ 4096 * (l + 1) ∨ 4096 * (l + 1) + 64 ≤ 4096 * (k + 1)) ∧
    Moves (fun _ => false)
    [.on 0 (MonoOp.alloc 8 8), .on 1 (.alloc 4 4), .assign 0 1, .on 0 (.alloc 8 8), .assign 1 0,
      .on 1 (.alloc 1 1)] ∧
    monoHeldAfter 2 [.on 0 (.alloc 8 8), .on 1 (.alloc 4 4), .assign 0 1, .on 0 (.alloc 8 8),
      .assign 1 0, .on 1 (.alloc 1 1)] =
    .ok [[], [⟨8208, 1, 1⟩, ⟨8200, 8, 8⟩, ⟨8192, 4, 4⟩]] := by
  refine ⟨fun _ _ => nofun, fun k l h => by omega, ⟨rfl, rfl, rfl, rfl, rfl, rfl, trivial⟩,
    by decide +kernel⟩

/-- A simple resource is moved while something is held, which is given back through the target. -/
example : AAlong (simpleKind Unit pDebug 5000)
      (fun x u c => ∀ o, c = .call o → GoodOp pDebug (x.world u) o)
      (simpleStore (fun _ => fresh pDebug 4096 32) (fun _ => none) ())
      [.on 1 (.call (.alloc 20 16)), .assign 0 1, .on 0 (.call (.free 0)), .on 0 .release] ∧
    Moves (fun _ => false)
      [.on 1 (COp.call (.alloc 20 16)), .assign 0 1, .on 0 (.call (.free 0)), .on 0 .release] ∧
    simpleHeldAfter 2 [.on 1 (.call (.alloc 20 16)), .assign 0 1] = .ok [[(8192, 20)], []] ∧
    simpleHeldAfter 2 [.on 1 (.call (.alloc 20 16)), .assign 0 1, .on 0 (.call (.free 0))] =
      .ok [[], []] := by
  refine ⟨⟨?_, fun _ _ => ⟨nofun, fun _ _ => ⟨?_, fun _ _ => ⟨?_, fun _ _ => trivial⟩⟩⟩⟩,
    ⟨rfl, rfl, rfl, rfl, trivial⟩, by decide +kernel, by decide +kernel⟩
  · rintro i c ⟨⟩ o ⟨⟩
    refine ⟨⟨⟨4, rfl⟩, by decide, by decide⟩, fun rs ht => ?_⟩
    have h0 := ht.all_free (s := fresh pDebug 4096 32) (by decide) (fun j _ => rfl)
    rw [h0]
    have e : (fresh pDebug 4096 32).blockCount = 32 ∧ (fresh pDebug 4096 32).data = 4096 ∧
        (fresh pDebug 4096 32).inUse 0 = false ∧ (fresh pDebug 4096 32).next 0 = 0 := by
      decide
    obtain ⟨e1, e2, e3, e4⟩ := e
    refine Or.inr ⟨[], 32, [], by rw [e1]; rfl, .first (s := fresh pDebug 4096 32)
      ⟨4, by rw [e2]; decide, by rw [e1]; decide⟩ (.here e3) ?_, ?_⟩
    · simp only [TooSmall, stop, need, padding, e1, e2]
      decide
    · show need pDebug (fresh pDebug 4096 32) 20 16 (blocks []) ≠ 32 * pDebug.blockSize
      simp only [need, padding, e2]
      decide
  · rintro i c ⟨⟩ o ⟨⟩
    trivial
  · rintro i c ⟨⟩ o ⟨⟩

/-- C95 is false for monotonic resources: after `a = b` both hand out the same 16 bytes. -/
theorem C95_counterexample_mono :
    monoHeldAfter 2 [.assign 0 1, .on 0 (.alloc 16 8), .on 1 (.alloc 16 8)] =
      .ok [[⟨8192, 16, 8⟩], [⟨8192, 16, 8⟩]] := by
  decide +kernel

/-- It is false for simple resources: both hand out the same block; an allocation made through `a`
before it was assigned to cannot be given back to it; and the destructor of `b` aborts although
everything was given back. -/
theorem C95_counterexample_simple :
    simpleHeldAfter 2 [.assign 0 1, .on 0 (.call (.alloc 4 4)), .on 1 (.call (.alloc 4 4))] =
      .ok [[(8192, 4)], [(8192, 4)]] ∧
    ((aRun (simpleKind Unit pDebug 5000)
      (simpleStore (fun k => fresh pDebug (4096 * (k + 1)) 32) (fun _ => none) ())
      [.on 0 (.call (.alloc 4 4)), .assign 0 1]).bind fun w =>
        (deallocate pDebug none (w.objs 0).obj.st () 4096).map fun _ => ()) = .aborted ∧
    ((aRun (simpleKind Unit pDebug 5000)
      (simpleStore (fun k => fresh pDebug (4096 * (k + 1)) 32) (fun _ => none) ())
      [.on 1 (.call (.alloc 4 4)), .assign 0 1, .on 0 (.call (.free 0))]).bind fun w =>
        destroy (w.objs 0).obj.st) = .ok () ∧
    ((aRun (simpleKind Unit pDebug 5000)
      (simpleStore (fun k => fresh pDebug (4096 * (k + 1)) 32) (fun _ => none) ())
      [.on 1 (.call (.alloc 4 4)), .assign 0 1, .on 0 (.call (.free 0))]).bind fun w =>
        destroy (w.objs 1).obj.st) = .aborted := by
  refine ⟨?_, ?_, ?_, ?_⟩ <;> decide +kernel

end Utils.Props
