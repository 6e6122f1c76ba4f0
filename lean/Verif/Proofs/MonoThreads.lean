import Verif.Spec.MonoThreads
import Verif.Proofs.Resources

/-! # Lemmas about threads that share a monotonic_buffer_resource -/

namespace Utils.Res

open Utils.Bits Utils.Spec

variable {debug : Bool}

theorem lockFree_iff (w : SharedMono) (i : Nat) :
    lockFree w i = true ↔ ∀ j t, j ≠ i → w.threads[j]? = some t → t.phase = .start := by
  unfold lockFree
  rw [List.all_eq_true]
  constructor
  · intro h j t hj ht
    obtain ⟨hlt, hget⟩ := List.getElem?_eq_some_iff.1 ht
    have := h j (List.mem_range.2 hlt)
    simpa [ht, hj] using this
  · intro h j hj
    rw [List.mem_range] at hj
    by_cases hji : j = i
    · simp [hji]
    · have := h j _ hji (List.getElem?_eq_getElem hj)
      simp [List.getElem?_eq_getElem hj, this]

/-! ## One call after another -/

/-- The local variables of a thread fit the present position. -/
def Current (debug : Bool) (m : Mono) (t : MonoThread) : Prop :=
  match t.phase, t.todo with
  | .start, _ => True
  | _, [] => False
  | .skipped k, (size, align) :: _ => callStep debug m size align .start = .ok (m, .inl (.skipped k))
  | .placed p, (size, align) :: _ => ∃ k, callStep debug m size align .start = .ok (m, .inl (.skipped k)) ∧
      p = (m.next + k) % 2 ^ 64

/-- The three steps of a call, taken together, are the call. -/
theorem allocate_of_start {m : Mono} {size align ptr : Nat} {u : Unit}
    (h : callStep debug m size align .start = .ok (m, .inr ptr)) :
    m.allocate debug none u size align = .ok (ptr, m, u) := by
  unfold callStep at h
  unfold Mono.allocate Mono.allocateLocal
  by_cases hs : size = 0
  · rw [if_pos hs] at h ⊢
    cases h
    rfl
  · rw [if_neg hs] at h ⊢
    obtain ⟨⟨⟩, h1, h2⟩ := Outcome.bind_eq_ok.1 h
    rw [h1, Outcome.ok_bind]
    by_cases hd : m.data ≠ 0
    · rw [if_pos hd] at h2
      obtain ⟨k, -, h3⟩ := Outcome.bind_eq_ok.1 h2
      cases h3
    · rw [if_neg hd] at h2 ⊢
      cases h2
      rfl

theorem allocate_of_placed {m m' : Mono} {size align ptr k : Nat} {u : Unit}
    (h0 : callStep debug m size align .start = .ok (m, .inl (.skipped k)))
    (h : callStep debug m size align (.placed ((m.next + k) % 2 ^ 64)) = .ok (m', .inr ptr)) :
    m.allocate debug none u size align = .ok (ptr, m', u) := by
  unfold callStep at h0
  unfold Mono.allocate Mono.allocateLocal
  by_cases hs : size = 0
  · rw [if_pos hs] at h0
    cases h0
  · rw [if_neg hs] at h0 ⊢
    obtain ⟨⟨⟩, h1, h2⟩ := Outcome.bind_eq_ok.1 h0
    rw [h1, Outcome.ok_bind]
    by_cases hd : m.data ≠ 0
    · rw [if_pos hd] at h2 ⊢
      obtain ⟨b, h3, h4⟩ := Outcome.bind_eq_ok.1 h2
      cases h4
      rw [h3, Outcome.ok_bind]
      simp only [callStep] at h
      split at h
      · rename_i hc
        cases h
        rw [if_pos hc]
        rfl
      · rename_i hc
        cases h
        rw [if_neg hc]
        rfl
    · rw [if_neg hd] at h2
      cases h2

theorem callStep_next {m m' : Mono} {size align : Nat} {ph ph' : CallPhase}
    (h : callStep debug m size align ph = .ok (m', .inl ph')) : m' = m := by
  cases ph with
  | start =>
    simp only [callStep] at h
    split at h
    · cases h
    · obtain ⟨⟨⟩, -, h2⟩ := Outcome.bind_eq_ok.1 h
      split at h2
      · obtain ⟨b, -, h4⟩ := Outcome.bind_eq_ok.1 h2
        cases h4
        rfl
      · cases h2
  | skipped k => cases h; rfl
  | placed p =>
    simp only [callStep] at h
    split at h <;> cases h

theorem callStep_fixed {m m' : Mono} {size align : Nat} {ph : CallPhase} {r : CallPhase ⊕ Nat}
    (h : callStep debug m size align ph = .ok (m', r)) : m'.data = m.data ∧ m'.size = m.size := by
  cases ph with
  | start =>
    simp only [callStep] at h
    split at h
    · cases h; exact ⟨rfl, rfl⟩
    · obtain ⟨⟨⟩, -, h2⟩ := Outcome.bind_eq_ok.1 h
      split at h2
      · obtain ⟨b, -, h4⟩ := Outcome.bind_eq_ok.1 h2
        cases h4
        exact ⟨rfl, rfl⟩
      · cases h2; exact ⟨rfl, rfl⟩
  | skipped k => cases h; exact ⟨rfl, rfl⟩
  | placed p =>
    simp only [callStep] at h
    split at h <;> cases h <;> exact ⟨rfl, rfl⟩

theorem callStep_start {m m' : Mono} {size align ptr : Nat}
    (h : callStep debug m size align .start = .ok (m', .inr ptr)) : m' = m := by
  simp only [callStep] at h
  split at h
  · cases h; rfl
  · obtain ⟨⟨⟩, -, h2⟩ := Outcome.bind_eq_ok.1 h
    split at h2
    · obtain ⟨b, -, h4⟩ := Outcome.bind_eq_ok.1 h2
      cases h4
    · cases h2; rfl

theorem monoRun_snoc {up : Option (SR.Upstream σ)} {ops : List MonoOp} {op : MonoOp} :
    ∀ {w w1 w2 : MonoWorld σ}, monoRun debug up w ops = .ok w1 → monoStep debug up w1 op = .ok w2 →
      monoRun debug up w (ops ++ [op]) = .ok w2 := by
  induction ops with
  | nil =>
    intro w w1 w2 h1 h2
    cases h1
    simp [monoRun, h2]
  | cons o ops ih =>
    intro w w1 w2 h1 h2
    obtain ⟨w', a, b⟩ := Outcome.bind_eq_ok.1 h1
    simp only [List.cons_append, monoRun]
    rw [a, Outcome.ok_bind]
    exact ih b h2

/-- One step of a schedule without disturbance. -/
theorem sharedStep_serial {w w' : SharedMono} {i : Nat} {m0 : Mono}
    (hrun : monoRun debug none ⟨m0, (), []⟩ w.calls = .ok ⟨w.res, (), w.pieces⟩)
    (hc : ∀ t ∈ w.threads, Current debug w.res t) (h : sharedStep debug w i = .ok w')
    (hq : w'.res.next ≠ w.res.next → ∀ j t, j ≠ i → w.threads[j]? = some t → t.phase = .start) :
    monoRun debug none ⟨m0, (), []⟩ w'.calls = .ok ⟨w'.res, (), w'.pieces⟩ ∧
      ∀ t ∈ w'.threads, Current debug w'.res t := by
  unfold sharedStep at h
  split at h
  · cases h; exact ⟨hrun, hc⟩
  · cases h; exact ⟨hrun, hc⟩
  · rename_i size align rest phase ht
    have hcur := hc _ (List.mem_of_getElem? ht)
    obtain ⟨⟨m, r⟩, h1, h2⟩ := Outcome.bind_eq_ok.1 h
    cases r with
    | inl ph =>
      have := callStep_next h1
      subst this
      cases h2
      refine ⟨hrun, fun t hmem => ?_⟩
      rcases List.mem_or_eq_of_mem_set hmem with hmem | rfl
      · exact hc t hmem
      · cases phase with
        | start =>
          have hph : ∃ k, ph = .skipped k := by
            simp only [callStep] at h1
            split at h1
            · cases h1
            · obtain ⟨⟨⟩, -, h2⟩ := Outcome.bind_eq_ok.1 h1
              split at h2
              · obtain ⟨b, -, h4⟩ := Outcome.bind_eq_ok.1 h2
                cases h4
                exact ⟨_, rfl⟩
              · cases h2
          obtain ⟨k, rfl⟩ := hph
          exact h1
        | skipped k =>
          cases h1
          exact ⟨k, hcur, rfl⟩
        | placed p =>
          simp only [callStep] at h1
          split at h1 <;> simp at h1
    | inr ptr =>
      cases h2
      have hall : w.res.allocate debug none () size align = .ok (ptr, m, ()) := by
        cases phase with
        | start =>
          have := callStep_start h1
          subst this
          exact allocate_of_start h1
        | skipped k => cases h1
        | placed p =>
          obtain ⟨k, h0, rfl⟩ := hcur
          exact allocate_of_placed h0 h1
      have hstep : monoStep debug none ⟨w.res, (), w.pieces⟩ (.alloc size align) =
          .ok ⟨m, (), if ptr = 0 then w.pieces else ⟨ptr, size, align⟩ :: w.pieces⟩ := by
        simp only [monoStep]
        rw [hall]
        rfl
      have hnew := monoRun_snoc hrun hstep
      refine ⟨?_, fun t hmem => ?_⟩
      · have e1 : SharedMono.calls ⟨m, w.threads.set i ⟨rest, .start⟩, (i, ⟨ptr, size, align⟩) :: w.log⟩ =
            w.calls ++ [.alloc size align] := by
          simp [SharedMono.calls]
        have e2 : SharedMono.pieces ⟨m, w.threads.set i ⟨rest, .start⟩, (i, ⟨ptr, size, align⟩) :: w.log⟩ =
            if ptr = 0 then w.pieces else ⟨ptr, size, align⟩ :: w.pieces := by
          simp only [SharedMono.pieces, List.map_cons]
          by_cases hz : ptr = 0
          · simp [hz]
          · simp [hz]
        rw [e1, e2]
        exact hnew
      · simp only at hmem hq ⊢
        obtain ⟨hd, hsz⟩ := callStep_fixed h1
        by_cases hn : m.next = w.res.next
        · have : m = w.res := by
            obtain ⟨a, b, c⟩ := m
            cases hw : w.res
            simp_all
          subst this
          rcases List.mem_or_eq_of_mem_set hmem with hmem | rfl
          · exact hc t hmem
          · exact trivial
        · obtain ⟨j, hj⟩ := List.getElem?_of_mem hmem
          rw [List.getElem?_set] at hj
          by_cases hij : i = j
          · rw [if_pos hij] at hj
            split at hj
            · cases hj
              exact trivial
            · cases hj
          · rw [if_neg hij] at hj
            have := hq hn j t (Ne.symm hij) hj
            unfold Current
            rw [this]
            trivial

theorem sharedRun_serial {is : List Nat} : ∀ {w w' : SharedMono} {m0 : Mono},
    monoRun debug none ⟨m0, (), []⟩ w.calls = .ok ⟨w.res, (), w.pieces⟩ →
    (∀ t ∈ w.threads, Current debug w.res t) → sharedRun debug w is = .ok w' → Undisturbed debug w is →
    monoRun debug none ⟨m0, (), []⟩ w'.calls = .ok ⟨w'.res, (), w'.pieces⟩ := by
  induction is with
  | nil => intro w w' m0 h1 _ h2 _; cases h2; exact h1
  | cons i is ih =>
    intro w w' m0 h1 hc h2 hq
    obtain ⟨w1, a, b⟩ := Outcome.bind_eq_ok.1 h2
    obtain ⟨q1, q2⟩ := hq w1 a
    obtain ⟨c, d⟩ := sharedStep_serial h1 hc a q1
    exact ih c d b q2

theorem lockedRun_serial {is : List Nat} : ∀ {w w' : SharedMono} {m0 : Mono},
    monoRun debug none ⟨m0, (), []⟩ w.calls = .ok ⟨w.res, (), w.pieces⟩ →
    (∀ t ∈ w.threads, Current debug w.res t) → lockedRun debug w is = .ok w' →
    monoRun debug none ⟨m0, (), []⟩ w'.calls = .ok ⟨w'.res, (), w'.pieces⟩ := by
  induction is with
  | nil => intro w w' m0 h1 _ h2; cases h2; exact h1
  | cons i is ih =>
    intro w w' m0 h1 hc h2
    obtain ⟨w1, a, b⟩ := Outcome.bind_eq_ok.1 h2
    unfold lockedStep at a
    split at a
    · rename_i hfree
      obtain ⟨c, d⟩ := sharedStep_serial h1 hc a (fun _ => (lockFree_iff w i).1 hfree)
      exact ih c d b
    · cases a
      exact ih h1 hc b

/-! ## Any schedule -/

/-- What holds whatever the schedule: positions and pieces stay inside the buffer. -/
structure Within (w : SharedMono) : Prop where
  low : w.res.data + w.res.size ≤ 2 ^ 62
  next1 : w.res.data ≤ w.res.next
  next2 : w.res.next ≤ w.res.data + w.res.size
  todo : ∀ t ∈ w.threads, ∀ r ∈ t.todo, SaneRequest r
  skip : ∀ t ∈ w.threads, ∀ k, t.phase = .skipped k → k < 2 ^ 62
  place : ∀ t ∈ w.threads, ∀ p, t.phase = .placed p → w.res.data ≤ p ∧ p < 2 ^ 63
  pieces : ∀ g ∈ w.pieces, w.res.data ≤ g.ptr ∧ g.ptr + g.size ≤ w.res.data + w.res.size

theorem callStep_within {m : Mono} {size align : Nat} {ph : CallPhase} (hlow : m.data + m.size ≤ 2 ^ 62)
    (h1 : m.data ≤ m.next) (h2 : m.next ≤ m.data + m.size) (hr : SaneRequest (size, align))
    (hk : ∀ k, ph = .skipped k → k < 2 ^ 62) (hp : ∀ p, ph = .placed p → m.data ≤ p ∧ p < 2 ^ 63) :
    ∃ m' r, callStep debug m size align ph = .ok (m', r) ∧ m'.data = m.data ∧ m'.size = m.size ∧
      m.data ≤ m'.next ∧ m'.next ≤ m.data + m.size ∧
      (∀ k, r = .inl (.skipped k) → k < 2 ^ 62) ∧
      (∀ p, r = .inl (.placed p) → m.data ≤ p ∧ p < 2 ^ 63) ∧
      ∀ p, r = .inr p → p ≠ 0 → m.data ≤ p ∧ p + size ≤ m.data + m.size := by
  obtain ⟨hs, hpow, ha⟩ := hr
  simp only at hs hpow ha
  cases ph with
  | start =>
    by_cases hz : size = 0
    · exact ⟨m, .inr 0, by simp [callStep, hz], rfl, rfl, h1, h2, nofun, nofun, by simp⟩
    · obtain ⟨k, hk', rfl, hkb⟩ := pow2_ofNat hpow (by omega)
      have hpos : 0 < 2 ^ k := Nat.two_pow_pos k
      have hass : cassert debug (isPowerOf2 (BitVec.ofNat 64 (2 ^ k))) = .ok () := by
        have : isPowerOf2 (BitVec.ofNat 64 (2 ^ k)) = true := by
          rw [isPowerOf2_iff, hkb]
          exact ⟨k, hk', rfl⟩
        rw [this]
        simp [cassert]
      by_cases hd : m.data = 0
      · exact ⟨m, .inr 0, by simp [callStep, hz, hass, hd], rfl, rfl, h1, h2, nofun, nofun, by simp⟩
      · have hskip : skipNat m.next (2 ^ k) < 2 ^ k := skipNat_lt hpos
        refine ⟨m, .inl (.skipped (skipNat m.next (2 ^ k))), ?_, rfl, rfl, h1, h2, ?_, nofun, nofun⟩
        · simp only [callStep]
          rw [if_neg hz, hass, Outcome.ok_bind, if_pos hd, skipToAlign_eq debug hk' hkb, Outcome.ok_bind,
            BitVec.toNat_ofNat, BitVec.toNat_ofNat, Nat.mod_eq_of_lt (a := m.next) (by omega),
            Nat.mod_eq_of_lt (by omega)]
          rfl
        · intro j hj
          cases hj
          omega
  | skipped k =>
    have := hk k rfl
    refine ⟨m, _, rfl, rfl, rfl, h1, h2, nofun, ?_, nofun⟩
    intro p hp'
    cases hp'
    omega
  | placed p =>
    obtain ⟨p1, p2⟩ := hp p rfl
    have e1 : (p + size) % 2 ^ 64 = p + size := Nat.mod_eq_of_lt (by omega)
    have e2 : (m.data + m.size) % 2 ^ 64 = m.data + m.size := Nat.mod_eq_of_lt (by omega)
    simp only [callStep]
    rw [e1, e2]
    by_cases hc : p + size ≤ m.data + m.size
    · rw [if_pos hc]
      refine ⟨_, _, rfl, rfl, rfl, ?_, hc, nofun, nofun, ?_⟩
      · simp only
        omega
      · intro q hq _
        cases hq
        exact ⟨p1, hc⟩
    · rw [if_neg hc]
      exact ⟨_, _, rfl, rfl, rfl, h1, h2, nofun, nofun, by simp⟩

theorem sharedStep_within {w : SharedMono} (h : Within w) (i : Nat) :
    ∃ w', sharedStep debug w i = .ok w' ∧ Within w' ∧ w'.res.data = w.res.data ∧ w'.res.size = w.res.size := by
  unfold sharedStep
  split
  · exact ⟨w, rfl, h, rfl, rfl⟩
  · exact ⟨w, rfl, h, rfl, rfl⟩
  · rename_i size align rest phase ht
    have hmem := List.mem_of_getElem? ht
    have hreq := h.todo _ hmem
    obtain ⟨m, r, e, d1, d2, n1, n2, k1, k2, k3⟩ := callStep_within (debug := debug) h.low h.next1 h.next2
      (hreq _ List.mem_cons_self) (h.skip _ hmem) (h.place _ hmem)
    rw [e, Outcome.ok_bind]
    have hlow := h.low
    cases r with
    | inl ph =>
      refine ⟨_, rfl, ⟨by simp only; omega, by simp only; omega, by simp only; omega, ?_, ?_, ?_, ?_⟩, d1, d2⟩
      · intro t hm
        rcases List.mem_or_eq_of_mem_set hm with hm | rfl
        · exact h.todo t hm
        · exact hreq
      · intro t hm k hk
        rcases List.mem_or_eq_of_mem_set hm with hm | rfl
        · exact h.skip t hm k hk
        · exact k1 k (by rw [← hk])
      · intro t hm p hp
        simp only [d1]
        rcases List.mem_or_eq_of_mem_set hm with hm | rfl
        · exact h.place t hm p hp
        · exact k2 p (by rw [← hp])
      · simp only [d1, d2]
        exact h.pieces
    | inr ptr =>
      refine ⟨_, rfl, ⟨by simp only; omega, by simp only; omega, by simp only; omega, ?_, ?_, ?_, ?_⟩, d1, d2⟩
      · intro t hm
        rcases List.mem_or_eq_of_mem_set hm with hm | rfl
        · exact h.todo t hm
        · exact fun r hr => hreq r (List.mem_cons_of_mem _ hr)
      · intro t hm k hk
        rcases List.mem_or_eq_of_mem_set hm with hm | rfl
        · exact h.skip t hm k hk
        · cases hk
      · intro t hm p hp
        simp only [d1]
        rcases List.mem_or_eq_of_mem_set hm with hm | rfl
        · exact h.place t hm p hp
        · cases hp
      · simp only [d1, d2]
        intro g hg
        simp only [SharedMono.pieces, List.map_cons, List.mem_filter, List.mem_cons, ne_eq,
          decide_not, Bool.not_eq_eq_eq_not, Bool.not_true, decide_eq_false_iff_not] at hg
        obtain ⟨rfl | hg, hz⟩ := hg
        · exact k3 ptr rfl hz
        · refine h.pieces g ?_
          simp only [SharedMono.pieces, List.mem_filter]
          exact ⟨hg, by simpa using hz⟩

theorem sharedRun_within {is : List Nat} : ∀ {w : SharedMono}, Within w →
    ∃ w', sharedRun debug w is = .ok w' ∧ Within w' ∧ w'.res.data = w.res.data ∧ w'.res.size = w.res.size := by
  induction is with
  | nil => intro w h; exact ⟨w, rfl, h, rfl, rfl⟩
  | cons i is ih =>
    intro w h
    obtain ⟨w1, a, b, c, d⟩ := sharedStep_within (debug := debug) h i
    obtain ⟨w2, e, f, g, k⟩ := ih b
    refine ⟨w2, ?_, f, by omega, by omega⟩
    simp only [sharedRun]
    rw [a]
    exact e

theorem sharedStart_within {buffer bytes : Nat} {programs : List (List (Nat × Nat))}
    (hbuf : buffer + bytes ≤ 2 ^ 62) (hp : ∀ p ∈ programs, ∀ r ∈ p, SaneRequest r) :
    Within (sharedStart buffer bytes programs) := by
  have hd : (Mono.make buffer bytes).data + (Mono.make buffer bytes).size ≤ 2 ^ 62 := by
    simp only [Mono.make]
    split <;> split <;> omega
  refine ⟨hd, Nat.le_refl _, Nat.le_add_right _ _, ?_, ?_, ?_, by simp [sharedStart, SharedMono.pieces]⟩
  · intro t ht r hr
    simp only [sharedStart, List.mem_map] at ht
    obtain ⟨p, h1, rfl⟩ := ht
    exact hp p h1 r hr
  · intro t ht k hk
    simp only [sharedStart, List.mem_map] at ht
    obtain ⟨p, h1, rfl⟩ := ht
    cases hk
  · intro t ht k hk
    simp only [sharedStart, List.mem_map] at ht
    obtain ⟨p, h1, rfl⟩ := ht
    cases hk

theorem lockedRun_within {is : List Nat} : ∀ {w : SharedMono}, Within w →
    ∃ w', lockedRun debug w is = .ok w' ∧ Within w' ∧ w'.res.data = w.res.data ∧ w'.res.size = w.res.size := by
  induction is with
  | nil => intro w h; exact ⟨w, rfl, h, rfl, rfl⟩
  | cons i is ih =>
    intro w h
    obtain ⟨w1, a, b, c, d⟩ : ∃ w1, lockedStep debug w i = .ok w1 ∧ Within w1 ∧ w1.res.data = w.res.data ∧
        w1.res.size = w.res.size := by
      unfold lockedStep
      split
      · exact sharedStep_within h i
      · exact ⟨w, rfl, h, rfl, rfl⟩
    obtain ⟨w2, e, f, g, k⟩ := ih b
    refine ⟨w2, ?_, f, by omega, by omega⟩
    simp only [lockedRun]
    rw [a]
    exact e

theorem sharedStart_current {buffer bytes : Nat} {programs : List (List (Nat × Nat))} :
    ∀ t ∈ (sharedStart buffer bytes programs).threads,
      Current debug (sharedStart buffer bytes programs).res t := by
  intro t ht
  simp only [sharedStart, List.mem_map] at ht
  obtain ⟨p, -, rfl⟩ := ht
  trivial

/-- The requests of the calls made are those of the programs. -/
theorem sharedStep_calls {w w' : SharedMono} {i : Nat} {P : Nat × Nat → Prop}
    (h : sharedStep debug w i = .ok w') (ht : ∀ t ∈ w.threads, ∀ r ∈ t.todo, P r)
    (hl : ∀ x ∈ w.log, P (x.2.size, x.2.align)) :
    (∀ t ∈ w'.threads, ∀ r ∈ t.todo, P r) ∧ ∀ x ∈ w'.log, P (x.2.size, x.2.align) := by
  unfold sharedStep at h
  split at h
  · cases h; exact ⟨ht, hl⟩
  · cases h; exact ⟨ht, hl⟩
  · rename_i size align rest phase hi
    have hreq := ht _ (List.mem_of_getElem? hi)
    obtain ⟨⟨m, r⟩, -, h2⟩ := Outcome.bind_eq_ok.1 h
    cases r with
    | inl ph =>
      cases h2
      refine ⟨fun t hm => ?_, hl⟩
      rcases List.mem_or_eq_of_mem_set hm with hm | rfl
      · exact ht t hm
      · exact hreq
    | inr ptr =>
      cases h2
      refine ⟨fun t hm => ?_, fun x hx => ?_⟩
      · rcases List.mem_or_eq_of_mem_set hm with hm | rfl
        · exact ht t hm
        · exact fun r hr => hreq r (List.mem_cons_of_mem _ hr)
      · rcases List.mem_cons.1 hx with rfl | hx
        · exact hreq _ List.mem_cons_self
        · exact hl x hx

theorem lockedRun_calls {is : List Nat} {P : Nat × Nat → Prop} : ∀ {w w' : SharedMono},
    lockedRun debug w is = .ok w' → (∀ t ∈ w.threads, ∀ r ∈ t.todo, P r) →
    (∀ x ∈ w.log, P (x.2.size, x.2.align)) → ∀ x ∈ w'.log, P (x.2.size, x.2.align) := by
  induction is with
  | nil => intro w w' h _ hl; cases h; exact hl
  | cons i is ih =>
    intro w w' h ht hl
    obtain ⟨w1, a, b⟩ := Outcome.bind_eq_ok.1 h
    unfold lockedStep at a
    split at a
    · obtain ⟨c, d⟩ := sharedStep_calls a ht hl
      exact ih b c d
    · cases a
      exact ih b ht hl

theorem sharedRun_calls {is : List Nat} {P : Nat × Nat → Prop} : ∀ {w w' : SharedMono},
    sharedRun debug w is = .ok w' → (∀ t ∈ w.threads, ∀ r ∈ t.todo, P r) →
    (∀ x ∈ w.log, P (x.2.size, x.2.align)) → ∀ x ∈ w'.log, P (x.2.size, x.2.align) := by
  induction is with
  | nil => intro w w' h _ hl; cases h; exact hl
  | cons i is ih =>
    intro w w' h ht hl
    obtain ⟨w1, a, b⟩ := Outcome.bind_eq_ok.1 h
    obtain ⟨c, d⟩ := sharedStep_calls a ht hl
    exact ih b c d

/-- The first step of a call. -/
theorem callStep_first {m : Mono} {size align r : Nat} (hs : size ≠ 0) (hd : m.data ≠ 0) (hp : IsPow2 align)
    (hlt : align < 2 ^ 64) (hn : m.next < 2 ^ 64) (hr : LeastMultiple align m.next r) (hr64 : r < 2 ^ 64) :
    callStep debug m size align .start = .ok (m, .inl (.skipped (r - m.next))) := by
  obtain ⟨k, hk, rfl, hkb⟩ := pow2_ofNat hp hlt
  have hpos : 0 < 2 ^ k := Nat.two_pow_pos k
  have hskip : m.next + skipNat m.next (2 ^ k) = r := by
    apply leastMultiple_unique _ hr
    refine ⟨skipNat_dvd hpos, Nat.le_add_right _ _, fun s hs hps => ?_⟩
    obtain ⟨d, rfl⟩ := Nat.exists_eq_add_of_le hps
    have := skipNat_least hpos hs
    omega
  have hass : cassert debug (isPowerOf2 (BitVec.ofNat 64 (2 ^ k))) = .ok () := by
    have : isPowerOf2 (BitVec.ofNat 64 (2 ^ k)) = true := by
      rw [isPowerOf2_iff, hkb]
      exact ⟨k, hk, rfl⟩
    rw [this]
    simp [cassert]
  simp only [callStep]
  rw [if_neg hs, hass, Outcome.ok_bind, if_pos hd, skipToAlign_eq debug hk hkb, Outcome.ok_bind,
    BitVec.toNat_ofNat, BitVec.toNat_ofNat, Nat.mod_eq_of_lt hn,
    Nat.mod_eq_of_lt (a := skipNat _ _) (by omega), show r - m.next = skipNat m.next (2 ^ k) by omega]
  rfl

/-- Nothing of size zero is handed out. -/
theorem monoRun_positive {up : Option (SR.Upstream σ)} {ops : List MonoOp} : ∀ {w w' : MonoWorld σ},
    monoRun debug up w ops = .ok w' → (∀ g ∈ w.given, g.size ≠ 0) → ∀ g ∈ w'.given, g.size ≠ 0 := by
  induction ops with
  | nil => intro w w' h hg; cases h; exact hg
  | cons op ops ih =>
    intro w w' h hg
    obtain ⟨w1, a, b⟩ := Outcome.bind_eq_ok.1 h
    refine ih b ?_
    cases op with
    | free ptr => cases a; exact hg
    | release => cases a; exact nofun
    | alloc size align =>
      obtain ⟨⟨ptr, m, u⟩, c, d⟩ := Outcome.bind_eq_ok.1 a
      cases d
      intro g hmem
      simp only at hmem
      split at hmem
      · exact hg g hmem
      · rename_i hz
        rcases List.mem_cons.1 hmem with rfl | hmem
        · intro h0
          simp only at h0
          unfold Mono.allocate at c
          rw [if_pos h0] at c
          cases c
          exact hz rfl
        · exact hg g hmem

/-- `Undisturbed` as a computation, for the examples. -/
def quiet (debug : Bool) : SharedMono → List Nat → Bool
  | _, [] => true
  | w, i :: is =>
    match sharedStep debug w i with
    | .ok w' => (w'.res.next == w.res.next || lockFree w i) && quiet debug w' is
    | _ => true

theorem undisturbed_of_quiet {is : List Nat} : ∀ {w : SharedMono}, quiet debug w is = true →
    Undisturbed debug w is := by
  induction is with
  | nil => intro w _; trivial
  | cons i is ih =>
    intro w h w' hw
    simp only [quiet, hw, Bool.and_eq_true, Bool.or_eq_true, beq_iff_eq] at h
    refine ⟨fun hn => ?_, ih h.2⟩
    rcases h.1 with h1 | h1
    · exact absurd h1 hn
    · exact (lockFree_iff w i).1 h1

end Utils.Res
