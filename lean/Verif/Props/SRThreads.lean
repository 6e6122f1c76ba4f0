import Verif.Proofs.SRThreads
import Verif.Props.SimpleResource

/-! # Property C138: threads that share a simple_resource -/

namespace Utils.Props

open Utils Utils.Bits Utils.SR

variable {p : Params} {s : State} {programs : List (List Op)}

/-- With a mutex around every call, every schedule of every programs, however they mix requests and deallocations,
does what the same calls do one after another in the order in which they return. -/
theorem C138_mutex_serial {sched : List Nat} {w : SRShared} (h : srLockedRun p (srStart s programs) sched = .ok w) :
    ∃ fuel, run p none fuel (⟨s, (), []⟩ : World Unit) w.calls = .ok ⟨w.st, (), w.pieces⟩ :=
  srLockedRun_serial (srStart_serial s programs) (srStart_fitting s programs) h

/-- The same without a mutex, for the schedules in which the bookkeeping does not change while another thread is
inside `allocate`. -/
theorem C138_serial_partial {sched : List Nat} {w : SRShared} (h : srRun p (srStart s programs) sched = .ok w)
    (hq : SRUndisturbed p (srStart s programs) sched) :
    ∃ fuel, run p none fuel (⟨s, (), []⟩ : World Unit) w.calls = .ok ⟨w.st, (), w.pieces⟩ :=
  srRun_serial (srStart_serial s programs) (srStart_fitting s programs) h hq

/-- In that order every thread makes its calls in the order of its program; what is missing is what it has still to
do. -/
theorem C138_order {sched : List Nat} {w : SRShared} (h : srLockedRun p (srStart s programs) sched = .ok w)
    {j : Nat} {l : List Op} (hl : programs[j]? = some l) :
    ∃ t, w.threads[j]? = some t ∧
      ((w.log.reverse.filter (·.1 == j)).map (·.2.kind)) ++ t.todo.map Op.kind = l.map Op.kind := by
  have h1 := srLockedRun_order h j
  have hlen : ∀ (is : List Nat) (w w' : SRShared), srLockedRun p w is = .ok w' → w'.threads.length = w.threads.length := by
    intro is
    induction is with
    | nil => intro w w' h; cases h; rfl
    | cons i is ih =>
      intro w w' h
      obtain ⟨w1, a, b⟩ := Outcome.bind_eq_ok.1 h
      rw [ih _ _ b]
      unfold srLockedStep at a
      split at a
      · unfold srStep at a
        split at a
        · cases a; rfl
        · cases a; rfl
        · obtain ⟨⟨s', r⟩, -, h2⟩ := Outcome.bind_eq_ok.1 a
          cases r <;> cases h2 <;> simp
        · simp only at a
          split at a
          · cases a; simp
          · obtain ⟨⟨s', r⟩, -, h2⟩ := Outcome.bind_eq_ok.1 a
            cases h2
            simp
      · cases a; rfl
  have hlt := (List.getElem?_eq_some_iff.1 hl).1
  have h2 := hlen sched _ _ h
  simp only [srStart, List.length_map] at h2
  have h3 : w.threads[j]? = some w.threads[j] := List.getElem?_eq_getElem (by omega)
  refine ⟨w.threads[j], h3, ?_⟩
  rw [h3] at h1
  simpa [srStart, hl] using h1

/-- **C138**, with a mutex around every call: threads that use the resource as a pool, with slots of `b` blocks, may
be scheduled in any way.  No assertion fails, no call aborts, and what they hold lies inside the area, does not
overlap, and is aligned as every slot is. -/
theorem C138_mutex (hv : Valid p) {buffer bytes b : Nat} (hf : Fresh p buffer bytes s)
    (hp : ∀ l ∈ programs, ∀ op ∈ l, PoolOp p s b op) (sched : List Nat) :
    ∃ w, srLockedRun p (srStart s programs) sched = .ok w ∧
      (∀ x ∈ w.pieces, s.data ≤ x.1 ∧ x.1 + x.2 ≤ s.data + s.blockCount * p.blockSize) ∧
      w.pieces.Pairwise Apart ∧
      ∀ x ∈ w.pieces, ∀ a, a ∣ s.data → a ∣ b * p.blockSize → a ∣ x.1 := by
  have hu : UpstreamOK p s (none : Option (Upstream Unit)) := by intro U hU; cases hU
  obtain ⟨w, h1, ⟨N, h2⟩, h3⟩ := srLockedRun_ok (p := p) (A := PoolOp p s b) (fun _ => trivial) (s0 := s)
    (N0 := s.blockCount) (fun ops hops fuel hfuel => by
      obtain ⟨w', e, -⟩ := C47_pool_sound hv hf hu () hfuel hops
      exact ⟨w', e⟩) (is := sched) (srStart_serial s programs) (srStart_fitting s programs)
    (by
      intro t ht op hop
      obtain ⟨l, hl, rfl⟩ := List.mem_map.1 ht
      exact hp l hl op hop)
    (by intro op hop; cases hop)
  obtain ⟨w', e, hs, hd, hb, ha⟩ := C47_pool_sound hv hf hu () (Nat.le_max_right N s.blockCount) h3
  obtain ⟨w2, e2, ⟨rs, h5, -⟩, -, -, -⟩ := pool_history (up := (none : Option (Upstream Unit))) hv
    (hf.start (up := none) hv ()).1 (by intro r hr; simp [busyRuns] at hr) hu (Nat.le_max_right N s.blockCount) h3
  rw [e] at e2
  cases e2
  rw [run_mono (Nat.le_max_left _ _) h2] at e
  cases e
  have hloc : localLive p (⟨w.st, (), w.pieces⟩ : World Unit) = w.pieces :=
    List.filter_eq_self.2 (h5.routed rfl)
  have h6 := h5.routed rfl
  refine ⟨w, h1, fun x hx => ?_, ?_, ?_⟩
  · have h7 := hs.inside x (by rw [hloc]; exact hx)
    have h8 := (inArea_iff.1 (h6 x hx)).1
    simp only at h7 h8 hd hb
    rw [hd, hb] at h7
    rw [hd] at h8
    exact ⟨h8, h7⟩
  · rw [← hloc]
    exact hs.apart
  · rw [hloc] at ha
    exact ha

/-- Two threads: one asks twice and gives the first back, the other asks once. -/
def exThreads : List (List Op) := [[.alloc 4 4, .alloc 7 8, .free 1], [.alloc 3 1, .free 0]]

theorem exThreads_pool : ∀ l ∈ exThreads, ∀ op ∈ l, PoolOp pDebug (fresh pDebug 4096 32) 1 op := by
  intro l hl op hop
  simp only [exThreads, List.mem_cons, List.not_mem_nil, or_false] at hl
  have r4 : Request 4 4 := ⟨⟨2, rfl⟩, by decide, by decide⟩
  have r8 : Request 7 8 := ⟨⟨3, rfl⟩, by decide, by decide⟩
  have r1 : Request 3 1 := ⟨⟨0, rfl⟩, by decide, by decide⟩
  rcases hl with rfl | rfl <;> simp only [List.mem_cons, List.not_mem_nil, or_false] at hop <;>
    rcases hop with rfl | rfl | rfl
  · exact ⟨r4, by decide, by decide, by decide, by decide⟩
  · exact ⟨r8, by decide, by decide, by decide, by decide⟩
  · trivial
  · exact ⟨r1, by decide, by decide, by decide, by decide⟩
  · trivial

/-- A thread gives back its own allocations only: a step of thread `i` leaves what the others hold as it is, and
`.free k` takes the `k`-th of its own away. -/
theorem C138_own {w w' : SRShared} {i : Nat} (h : srStep p w i = .ok w') :
    (w'.live.filter fun x => decide (x.1 ≠ i)) = (w.live.filter fun x => decide (x.1 ≠ i)) ∧
    ∀ k rest phase, w.threads[i]? = some ⟨.free k :: rest, phase⟩ →
      (w'.live.filter fun x => decide (x.1 = i)) = (w.live.filter fun x => decide (x.1 = i)).eraseIdx k ∧
      ∀ x, (w.live.filter fun x => decide (x.1 = i))[k]? = some x →
        deallocate p none w.st () x.2.1 = .ok (w'.st, ()) := by
  rw [srStep.eq_def] at h
  split at h
  · next hn =>
    cases h
    exact ⟨rfl, fun k rest phase e => by rw [hn] at e; cases e⟩
  · next hn =>
    cases h
    exact ⟨rfl, fun k rest phase e => by rw [hn] at e; cases e⟩
  · next size align rest phase hn =>
    obtain ⟨⟨s1, r⟩, -, h⟩ := Outcome.bind_eq_ok.1 h
    refine ⟨?_, fun k rest phase e => by rw [hn] at e; cases e⟩
    cases r with
    | inl ph => cases h; rfl
    | inr ptr =>
      cases h
      simp only
      split
      · rfl
      · simp
  · next k rest phase hn =>
    simp only at h
    obtain ⟨e1, e2⟩ := ownPlace_erase w.live i k
    have e3 := ownPlace_get w.live i k
    split at h
    · next hx =>
      cases h
      rw [List.eraseIdx_of_length_le (List.getElem?_eq_none_iff.1 hx)] at e1
      refine ⟨rfl, fun k' rest' phase' e => ?_⟩
      rw [hn] at e
      cases e
      refine ⟨e1, fun x h => ?_⟩
      rw [← e3, hx] at h
      cases h
    · next x hx =>
      obtain ⟨⟨s1, u⟩, h1, h⟩ := Outcome.bind_eq_ok.1 h
      cases h
      refine ⟨e2, fun k' rest' phase' e => ?_⟩
      rw [hn] at e
      cases e
      refine ⟨e1, fun y h => ?_⟩
      rw [← e3, hx] at h
      cases h
      exact h1

/-- Thread 0 gives back its second allocation, between two of thread 1. -/
example : (match srStep pDebug ⟨fresh pDebug 4096 32, [⟨[.free 1], .start⟩, ⟨[], .start⟩],
      [(1, 4096, 4), (0, 0, 9), (1, 4104, 4), (0, 0, 3), (1, 4112, 4)], []⟩ 0 with
    | .ok w => w.live
    | _ => []) = [(1, 4096, 4), (0, 0, 9), (1, 4104, 4), (1, 4112, 4)] := by
  decide +kernel

/-- What the threads hold in the end, and the two counters. -/
def threadsAfter (o : Outcome SRShared) : Outcome (List (Nat × Nat) × Nat × Nat) :=
  o.map fun w => (w.pieces, w.st.freeCount, w.st.busyCount)

theorem threadsAfter_ok {o : Outcome SRShared} {x : List (Nat × Nat) × Nat × Nat} (h : threadsAfter o = .ok x) :
    ∃ w, o = .ok w ∧ w.pieces = x.1 ∧ w.st.freeCount = x.2.1 ∧ w.st.busyCount = x.2.2 := by
  cases o with
  | ok w => cases h; exact ⟨w, rfl, rfl, rfl, rfl⟩
  | _ => cases h

/-- The hypotheses can be met; in this schedule the threads wait for each other, and hold two allocations in the
end. -/
example : ∃ w, srLockedRun pDebug (srStart (fresh pDebug 4096 32) exThreads) [0, 1, 0, 0, 1, 0, 1, 1, 1, 0, 0, 0, 0, 0, 0] = .ok w ∧
    (∀ x ∈ w.pieces, 4096 ≤ x.1 ∧ x.1 + x.2 ≤ 4096 + 256) ∧ w.pieces.Pairwise Apart := by
  obtain ⟨w, h1, h2, h3, -⟩ := C138_mutex pDebug_valid fresh_debug exThreads_pool
    [0, 1, 0, 0, 1, 0, 1, 1, 1, 0, 0, 0, 0, 0, 0]
  exact ⟨w, h1, h2, h3⟩
example : threadsAfter (srLockedRun pDebug (srStart (fresh pDebug 4096 32) exThreads)
    [0, 1, 0, 0, 1, 0, 1, 1, 1, 0, 0, 0, 0, 0]) = .ok ([(4112, 7), (4104, 3), (4096, 4)], 1, 3) := by
  decide +kernel
example : threadsAfter (srLockedRun pDebug (srStart (fresh pDebug 4096 32) exThreads)
    [0, 1, 0, 0, 1, 0, 1, 1, 1, 0, 0, 0, 0, 0, 0]) = .ok ([(4112, 7), (4104, 3)], 2, 2) := by
  decide +kernel

/-- Two requests; the first is still looking when the second is refused, so nobody is disturbed. -/
example : ∃ w, srRun pDebug (srStart (fresh pDebug 4096 32) [[.alloc 4 4], [.alloc 300 1]]) [0, 1, 0, 1, 0] = .ok w ∧
    w.pieces = [(4096, 4)] ∧
    ∃ fuel, run pDebug none fuel (⟨fresh pDebug 4096 32, (), []⟩ : World Unit) w.calls = .ok ⟨w.st, (), w.pieces⟩ := by
  obtain ⟨w, h1, h2, -⟩ := threadsAfter_ok
    (o := srRun pDebug (srStart (fresh pDebug 4096 32) [[.alloc 4 4], [.alloc 300 1]]) [0, 1, 0, 1, 0])
    (x := ([(4096, 4)], 1, 1)) (by decide +kernel)
  exact ⟨w, h1, h2, C138_serial_partial h1 (undisturbed_of_quiet (by decide +kernel))⟩

/-- C138 is false.  Two threads look at the first block before either has taken it: both are given it, with or
without assertions, and the resource counts no free region although 31 blocks are free.  When both give it back the
program is aborted. -/
theorem C138_counterexample (debug : Bool) :
    (∃ w, srRun ⟨32, 8, debug⟩ (srStart (fresh pDebug 4096 32) [[.alloc 4 4, .free 0], [.alloc 3 1, .free 0]])
        [0, 0, 1, 1, 0, 1] = .ok w ∧ w.pieces = [(4096, 3), (4096, 4)] ∧ w.st.freeCount = 0 ∧ w.st.busyCount = 2) ∧
    srRun ⟨32, 8, debug⟩ (srStart (fresh pDebug 4096 32) [[.alloc 4 4, .free 0], [.alloc 3 1, .free 0]])
      [0, 0, 1, 1, 0, 1, 0, 1] = .aborted := by
  have h2 : threadsAfter (srRun ⟨32, 8, debug⟩ (srStart (fresh pDebug 4096 32)
      [[.alloc 4 4, .free 0], [.alloc 3 1, .free 0]]) [0, 0, 1, 1, 0, 1, 0, 1]) = .aborted := by
    cases debug <;> decide +kernel
  refine ⟨threadsAfter_ok (x := ([(4096, 3), (4096, 4)], 0, 2)) (by cases debug <;> decide +kernel), ?_⟩
  revert h2
  generalize srRun _ _ _ = o
  cases o <;> simp [threadsAfter, Outcome.map, Outcome.bind]

end Utils.Props
