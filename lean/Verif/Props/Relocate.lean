import Verif.Proofs.Relocate
import Verif.Proofs.Agree
import Verif.Props.SimpleResource

/-!
# C132: where the buffer lies

The full claim: moving the buffer by a multiple of every alignment in use (and of `BlockSize`) moves the results
of every history and changes nothing else.  It is false at addresses at which the code itself goes wrong.
-/

namespace Utils.Props

open Utils Utils.Bits Utils.SR Utils.Res Utils.Spec

variable {p : Params} {s : State} {d : Nat} {σ : Type} {up : Option (Upstream σ)}

/-- **C132**, `simple_resource` with assertions: from any state of the bookkeeping with forward links, a history
of calls with any arguments, moved by `d`, ends the same way, moved by `d`: it returns the moved pointers, fails
the same assertions, aborts at the same place.  Missing: areas for which the computation of the largest alignment
leaves `int` (`Small`), see `C132_counterexample`. -/
theorem C132_run_partial {fuel : Nat} {w : World σ} {ops : List COp} (hv : Valid p) (hd : p.debug = true)
    (hp : Placed p w.st) (hp' : Placed p (moved d w.st)) (hsm : Small p w.st) (hsm' : Small p (moved d w.st))
    (hl : LinksForward w.st) (hu : UpstreamApart p w.st up) (hu' : UpstreamApart p (moved d w.st) up)
    (hs : StaysApart p d w) (ho : AlignedOps d ops) :
    crun p up fuel (movedWorld p d w) ops = (crun p up fuel w ops).map (movedWorld p d) :=
  crun_moved hv hd ops w hp hp' hsm hsm' hl hu hu' hs ho

/-- **C132**, from the constructor on: over the buffer at `buffer + d` every history goes as over the buffer at
`buffer`. -/
theorem C132_fresh_partial {fuel buffer bytes : Nat} {s' : State} {u : σ} {ops : List COp} (hv : Valid p)
    (hd : p.debug = true) (hf : Fresh p buffer bytes s) (hf' : Fresh p (buffer + d) bytes s')
    (hb : p.blockSize ∣ d) (hu : UpstreamApart p s up) (hu' : UpstreamApart p s' up) (ho : AlignedOps d ops) :
    crun p up fuel ⟨s', u, []⟩ ops = (crun p up fuel ⟨s, u, []⟩ ops).map (movedWorld p d) := by
  have e := hf.moved_eq hv hb hf'
  subst e
  obtain ⟨ht, -⟩ := hf.start (up := (none : Option (Upstream σ))) hv u
  obtain ⟨ht', -⟩ := hf'.start (up := (none : Option (Upstream σ))) hv u
  exact C132_run_partial (w := ⟨s, u, []⟩) hv hd ht.placed ht'.placed ht.small ht'.small ht.links hu hu'
    (fun x hx => nomatch hx) ho

/-- The area of `fresh_debug`, 2^28 bytes further up. -/
theorem fresh_moved : Fresh pDebug (4096 + 2 ^ 28) 256 (fresh pDebug (4096 + 2 ^ 28) 32) :=
  ⟨rfl, by decide, by decide, by decide, small_of_le (by decide) (by decide)⟩

example : crun pDebug none 1000 (⟨fresh pDebug (4096 + 2 ^ 28) 32, (), []⟩ : World Unit)
      [.call (.alloc 20 64), .call (.alloc 300 8), .call (.alloc 7 16), .release, .call (.alloc 7 16)] =
    (crun pDebug none 1000 (⟨fresh pDebug 4096 32, (), []⟩ : World Unit)
      [.call (.alloc 20 64), .call (.alloc 300 8), .call (.alloc 7 16), .release, .call (.alloc 7 16)]).map
      (movedWorld pDebug (2 ^ 28)) := by
  refine C132_fresh_partial pDebug_valid rfl fresh_debug fresh_moved ⟨2 ^ 25, rfl⟩ (fun U h => nomatch h)
    (fun U h => nomatch h) fun size align h => ?_
  simp only [List.mem_cons, COp.call.injEq, Op.alloc.injEq, reduceCtorEq, List.not_mem_nil, or_false,
    false_or] at h
  rcases h with ⟨rfl, rfl⟩ | ⟨rfl, rfl⟩ | ⟨rfl, rfl⟩ | ⟨rfl, rfl⟩ <;> decide

/-- What the client holds is what it would hold, moved. -/
example : ((crun pDebug none 1000 (⟨fresh pDebug (4096 + 2 ^ 28) 32, (), []⟩ : World Unit)
      [.call (.alloc 20 64), .call (.alloc 300 8), .call (.alloc 7 16)]).map World.live) =
    .ok [(4096 + 2 ^ 28 + 32, 7), (4096 + 2 ^ 28, 20)] := by decide +kernel

/-- **C132**, without assertions: a history that passes the assertions when they are compiled in ends, compiled
without them and moved, in the moved state. -/
theorem C132_release_build_partial {fuel : Nat} {w w' : World σ} {ops : List COp} (hv : Valid p)
    (hd : p.debug = true) (hp : Placed p w.st) (hp' : Placed p (moved d w.st)) (hsm : Small p w.st)
    (hsm' : Small p (moved d w.st)) (hl : LinksForward w.st) (hu : UpstreamApart p w.st up)
    (hu' : UpstreamApart p (moved d w.st) up) (hs : StaysApart p d w) (ho : AlignedOps d ops)
    (h : crun p up fuel w ops = .ok w') :
    crun p.ndebug up fuel w ops = .ok w' ∧
    crun p.ndebug up fuel (movedWorld p d w) ops = .ok (movedWorld p d w') := by
  have e := C132_run_partial (fuel := fuel) hv hd hp hp' hsm hsm' hl hu hu' hs ho
  rw [h] at e
  constructor
  · rcases crun_agree (p := p) up fuel ops w hp.le with q | q
    · rw [h] at q; cases q
    · rw [← q, h]
  · rcases crun_agree (p := p) up fuel ops (movedWorld p d w) hp'.le with q | q
    · rw [e] at q; cases q
    · rw [← q, e]; rfl

example : ∃ w', crun pRelease none 1000 (⟨fresh pRelease 4096 32, (), []⟩ : World Unit)
      [.call (.alloc 20 64), .call (.alloc 7 16)] = .ok w' ∧
    crun pRelease none 1000 (⟨fresh pRelease (4096 + 2 ^ 28) 32, (), []⟩ : World Unit)
      [.call (.alloc 20 64), .call (.alloc 7 16)] = .ok (movedWorld pDebug (2 ^ 28) w') := by
  obtain ⟨ht, -⟩ := fresh_debug.start (up := (none : Option (Upstream Unit))) pDebug_valid ()
  obtain ⟨ht', -⟩ := fresh_moved.start (up := (none : Option (Upstream Unit))) pDebug_valid ()
  have hk : (crun pDebug none 1000 (⟨fresh pDebug 4096 32, (), []⟩ : World Unit)
      [.call (.alloc 20 64), .call (.alloc 7 16)]).map World.live = .ok [(4096 + 32, 7), (4096, 20)] := by
    decide +kernel
  cases hr : crun pDebug none 1000 (⟨fresh pDebug 4096 32, (), []⟩ : World Unit)
      [.call (.alloc 20 64), .call (.alloc 7 16)] with
  | ok w' =>
    refine ⟨w', C132_release_build_partial (d := 2 ^ 28) pDebug_valid rfl ht.placed ht'.placed ht.small ht'.small
      ht.links (fun U h => nomatch h) (fun U h => nomatch h) (fun x hx => nomatch hx) (fun size align h => ?_) hr⟩
    simp only [List.mem_cons, COp.call.injEq, Op.alloc.injEq, List.not_mem_nil, or_false] at h
    rcases h with ⟨rfl, rfl⟩ | ⟨rfl, rfl⟩ <;> decide
  | _ => rw [hr] at hk; cases hk

/-- The full claim is false: an area of 256 bytes at 4096 serves a byte; 2^32 - 4096 bytes further up, still
aligned, the same call is undefined (`1 << 32`, C60). -/
theorem C132_counterexample :
    (crun pDebug none 1000 (⟨fresh pDebug 4096 32, (), []⟩ : World Unit) [.call (.alloc 1 8)]).map World.live =
      .ok [(4096, 1)] ∧
    (crun pDebug none 1000 (movedWorld pDebug (2 ^ 32 - 4096) (⟨fresh pDebug 4096 32, (), []⟩ : World Unit))
      [.call (.alloc 1 8)]).map World.live = .ub ∧
    8 ∣ 2 ^ 32 - 4096 ∧ Placed pDebug (moved (2 ^ 32 - 4096) (fresh pDebug 4096 32)) :=
  ⟨by decide +kernel, by decide +kernel, by decide,
    ⟨by decide, by decide, by decide, by decide, by decide⟩⟩

/-- Nor can the distance be any multiple of `BlockSize`: the alignments of the requests count.  At 4096 a request
with alignment 64 gets the first block, eight bytes further up the eighth. -/
theorem C132_distance_counterexample :
    liveAfter pDebug (fresh pDebug 4096 32) [.alloc 1 64] = .ok [(4096, 1)] ∧
    liveAfter pDebug (moved 8 (fresh pDebug 4096 32)) [.alloc 1 64] = .ok [(4096 + 64, 1)] := by
  constructor <;> decide +kernel

/-! ## `monotonic_buffer_resource` -/

/-- **C132**, `monotonic_buffer_resource`: every history of calls with power-of-two alignments that divide `d`,
moved by `d`, hands out the moved addresses, in both builds.  Missing: buffers that do not end in the lower half of
the address space, and sizes of 2^63 or more, see `C132_mono_counterexample`. -/
theorem C132_mono_partial {debug : Bool} {w : MonoWorld σ} {ops : List MonoOp} (h0 : w.res.data ≠ 0)
    (hl : w.res.data ≤ w.res.next) (hh : w.res.next ≤ w.res.data + w.res.size)
    (ht : w.res.data + d + w.res.size ≤ 2 ^ 63) (hu : MonoApart w.res up) (ho : ∀ op ∈ ops, SaneCall op)
    (hd : ∀ size align, MonoOp.alloc size align ∈ ops → align ∣ d) :
    ∃ w', monoRun debug up w ops = .ok w' ∧ monoRun debug up (movedMono d w) ops = .ok (movedMono d w') :=
  monoRun_moved ops w ⟨h0, hl, hh, by omega⟩
    ⟨by simp only [Mono.moved]; omega, by simp only [Mono.moved]; omega, by simp only [Mono.moved]; omega, ht⟩ hu ho hd

example : ∃ w', monoRun true none (⟨⟨4099, 100, 4100⟩, (), []⟩ : MonoWorld Unit)
      [.alloc 3 8, .alloc 200 4, .alloc 5 16, .release, .alloc 1 1] = .ok w' ∧
    monoRun true none (⟨⟨4099 + 2 ^ 60, 100, 4100 + 2 ^ 60⟩, (), []⟩ : MonoWorld Unit)
      [.alloc 3 8, .alloc 200 4, .alloc 5 16, .release, .alloc 1 1] = .ok (movedMono (2 ^ 60) w') := by
  refine C132_mono_partial (d := 2 ^ 60) (by decide) (by decide) (by decide) (by decide) (fun U h => nomatch h) ?_ ?_
  · intro op h
    simp only [List.mem_cons, List.not_mem_nil, or_false] at h
    rcases h with rfl | rfl | rfl | rfl | rfl
    · exact ⟨by decide, ⟨3, rfl⟩, by decide⟩
    · exact ⟨by decide, ⟨2, rfl⟩, by decide⟩
    · exact ⟨by decide, ⟨4, rfl⟩, by decide⟩
    · exact trivial
    · exact ⟨by decide, ⟨0, rfl⟩, by decide⟩
  · intro size align h
    simp only [List.mem_cons, MonoOp.alloc.injEq, reduceCtorEq, List.not_mem_nil, or_false, false_or] at h
    rcases h with ⟨rfl, rfl⟩ | ⟨rfl, rfl⟩ | ⟨rfl, rfl⟩ | ⟨rfl, rfl⟩ <;> decide

/-- The full claim is false: 16 bytes at 4096 refuse a request of 40 bytes; near the end of the address space the
comparison wraps around (C38) and they are handed out. -/
theorem C132_mono_counterexample :
    (monoRun true none (⟨⟨4096, 16, 4096⟩, (), []⟩ : MonoWorld Unit) [.alloc 40 8]).map MonoWorld.given = .ok [] ∧
    (monoRun true none (movedMono (2 ^ 64 - 32 - 4096) (⟨⟨4096, 16, 4096⟩, (), []⟩ : MonoWorld Unit))
      [.alloc 40 8]).map MonoWorld.given = .ok [⟨2 ^ 64 - 32, 40, 8⟩] ∧ 8 ∣ 2 ^ 64 - 32 - 4096 := by
  refine ⟨by decide +kernel, by decide +kernel, by decide⟩

end Utils.Props
