import Verif.Props.SRInspect
import Verif.Proofs.SRWrap

/-!
# C93: a `simple_resource` without blocks
-/

namespace Utils.SR

/-- A client that calls the upstream resource itself; it asks for no empty memory, and without an
upstream gets nothing. -/
def directStep {σ : Type} (up : Option (Upstream σ)) (x : List (Nat × Nat) × σ) :
    Op → List (Nat × Nat) × σ
  | .alloc size align =>
    match up with
    | none => x
    | some U =>
      if size = 0 then x
      else
        let r := U.alloc x.2 size align
        (if r.1 = 0 then x.1 else (r.1, size) :: x.1, r.2)
  | .free i =>
    match up, x.1[i]? with
    | some U, some y => (x.1.eraseIdx i, U.dealloc x.2 y.1)
    | _, _ => x

end Utils.SR

namespace Utils.Props

open Utils Utils.SR Utils.Bits

variable {p : Params} {s : State} {σ : Type} {up : Option (Upstream σ)}

/-- Over a buffer without room for an aligned block, every history of allocations (of any sizes, with
any powers of two as alignments) and deallocations goes to the upstream unchanged, and the bookkeeping
is never touched, with assertions and without. Required of the upstream: its addresses are multiples of
`BlockSize`.  Missing for the full claim: `release` (`C93_release`). -/
theorem C93_transparent_partial (hv : Valid p) {buffer bytes : Nat} (hw : buffer + bytes ≤ 2 ^ 64)
    (hn : ¬ (buffer ≠ 0 ∧ ∃ a, buffer ≤ a ∧ p.blockSize ∣ a ∧ a + p.blockSize ≤ buffer + bytes))
    (hu : ∀ U, up = some U → ∀ u size align,
      (U.alloc u size align).1 < 2 ^ 64 ∧ p.blockSize ∣ (U.alloc u size align).1)
    (u : σ) (fuel : Nat) (ops : List Op)
    (hops : ∀ size align, Op.alloc size align ∈ ops → ∃ k, k < 64 ∧ align = 2 ^ k) :
    ∃ s, create p buffer bytes = .ok s ∧
      run p up fuel ⟨s, u, []⟩ ops =
        .ok ⟨s, (ops.foldl (directStep up) ([], u)).2, (ops.foldl (directStep up) ([], u)).1⟩ := by
  obtain ⟨s, h1, -, h3⟩ := C45_geometry hv hw
  obtain ⟨hd, hb, hsz⟩ := h3 hn
  refine ⟨s, h1, ?_⟩
  have hloc : ∀ size align, allocateLocal p fuel s size align = .ok (s, 0) := by
    intro size align
    unfold allocateLocal
    rw [if_neg (by simp [hd])]
    rfl
  suffices H : ∀ (ops : List Op) (live : List (Nat × Nat)) (u : σ),
      (∀ size align, Op.alloc size align ∈ ops → ∃ k, k < 64 ∧ align = 2 ^ k) →
      (∀ x ∈ live, x.1 ≠ 0 ∧ x.1 < 2 ^ 64 ∧ p.blockSize ∣ x.1) →
      (up = none → live = []) →
      run p up fuel ⟨s, u, live⟩ ops = .ok ⟨s, (ops.foldl (directStep up) (live, u)).2,
        (ops.foldl (directStep up) (live, u)).1⟩ from H ops [] u hops (by simp) (by simp)
  intro ops
  induction ops with
  | nil => intro live u _ _ _; rfl
  | cons op ops ih =>
    intro live u hops hlive hnone
    have hstep : ∃ x : List (Nat × Nat) × σ, directStep up (live, u) op = x ∧
        step p up fuel ⟨s, u, live⟩ op = .ok ⟨s, x.2, x.1⟩ ∧
        (∀ y ∈ x.1, y.1 ≠ 0 ∧ y.1 < 2 ^ 64 ∧ p.blockSize ∣ y.1) ∧ (up = none → x.1 = []) := by
      cases op with
      | alloc size align =>
        obtain ⟨k, hk, hak⟩ := hops size align (by simp)
        show ∃ x, _ = x ∧ doAlloc p up fuel ⟨s, u, live⟩ size align = _ ∧ _
        unfold doAlloc
        by_cases h0 : size = 0
        · subst h0
          refine ⟨(live, u), by cases up <;> rfl, rfl, hlive, hnone⟩
        · cases up with
          | none =>
            have e := (allocate_eq (up := none) (u := u) hv hk hak (Nat.pos_of_ne_zero h0) (hloc size align)).1 rfl
              (by simp [askUpstream]) (by simp [askUpstream])
            refine ⟨(live, u), rfl, ?_, hlive, hnone⟩
            simp only
            rw [e]
            rfl
          | some U =>
            obtain ⟨u1, u2⟩ := hu U rfl u size align
            have e := (allocate_eq (up := some U) (u := u) hv hk hak (Nat.pos_of_ne_zero h0) (hloc size align)).1 rfl
              u1 (fun _ => u2)
            refine ⟨_, rfl, ?_, ?_, nofun⟩
            · simp only
              rw [e]
              simp only [directStep, if_neg h0]
              rfl
            · simp only [directStep, if_neg h0]
              by_cases hp0 : (U.alloc u size align).1 = 0
              · rw [if_pos hp0]; exact hlive
              · rw [if_neg hp0]
                intro x hx
                rcases List.mem_cons.1 hx with rfl | hx
                · exact ⟨hp0, u1, u2⟩
                · exact hlive x hx
      | free i =>
        show ∃ x, _ = x ∧ doFree p up ⟨s, u, live⟩ i = _ ∧ _
        unfold doFree
        cases up with
        | none =>
          rw [hnone rfl]
          exact ⟨([], u), rfl, rfl, by simp, by simp⟩
        | some U =>
          simp only
          cases hi : live[i]? with
          | none =>
            refine ⟨(live, u), ?_, rfl, hlive, nofun⟩
            simp [directStep, hi]
          | some y =>
            obtain ⟨y0, y1, y2⟩ := hlive y (List.mem_of_getElem? hi)
            refine ⟨(live.eraseIdx i, U.dealloc u y.1), by simp [directStep, hi], ?_,
              fun x hx => hlive x (List.mem_of_mem_eraseIdx hx), nofun⟩
            have : deallocate p (some U) s u y.1 = .ok (s, U.dealloc u y.1) := by
              unfold deallocate
              rw [if_neg y0, isAligned_block hv y1, Outcome.ok_bind, decide_eq_true y2, Bool.not_true,
                abortIf_false, Outcome.ok_bind, hsz, hd, if_neg (by omega)]
              rfl
            simp only
            rw [this]
            rfl
    obtain ⟨x, e1, e2, e3, e4⟩ := hstep
    rw [run, e2, Outcome.ok_bind, List.foldl_cons, e1]
    exact ih x.1 x.2 (fun size align h => hops size align (by simp [h])) e3 e4

/-- A buffer of 8 bytes at an odd address, a history and an upstream that meet the hypotheses. -/
example : ¬ ((4097 : Nat) ≠ 0 ∧ ∃ a, 4097 ≤ a ∧ pDebug.blockSize ∣ a ∧
      a + pDebug.blockSize ≤ 4097 + 8) ∧
    ((run pDebug (some ⟨fun n _ _ => (4096 + 64 * n, n + 1), fun n _ => n + 100⟩) 100
      ⟨fresh pDebug 0 0, 0, []⟩ [.alloc 9 16, .alloc 0 1, .alloc 300 4096, .free 1]).map fun w =>
        (w.up, w.live)) = .ok (102, [(4160, 300)]) := by
  refine ⟨?_, by decide +kernel⟩
  rintro ⟨-, a, h1, h2, h3⟩
  change 8 ∣ a at h2
  change a + 8 ≤ _ at h3
  omega

/-- The full claim is false: with assertions `release()` of such a resource always fails one; without
them it does nothing. -/
theorem C93_release (hv : Valid p) {buffer bytes : Nat} (hw : buffer + bytes ≤ 2 ^ 64)
    (hn : ¬ (buffer ≠ 0 ∧ ∃ a, buffer ≤ a ∧ p.blockSize ∣ a ∧ a + p.blockSize ≤ buffer + bytes))
    (fuel : Nat) :
    ∃ s, create p buffer bytes = .ok s ∧
      release p (fuel + 1) s = if p.debug then .assertFailed else .ok s := by
  obtain ⟨s, h1, -, h3⟩ := C45_geometry hv hw
  obtain ⟨hd, hb, hsz⟩ := h3 hn
  refine ⟨s, h1, ?_⟩
  have hmb := hv.two
  unfold create at h1
  obtain ⟨o, -, h1⟩ := Outcome.bind_eq_ok.1 h1
  cases h1
  unfold release
  rw [applyLoop]
  cases hdb : p.debug with
  | true =>
    have : checkIdx p (construct p o) 0 = .assertFailed := by
      unfold checkIdx
      rw [hdb, hb]
      rfl
    rw [this]
    rfl
  | false =>
    have : checkIdx p (construct p o) 0 = .ok () := by
      unfold checkIdx
      rw [hdb, cassert_ndebug, Outcome.ok_bind, if_pos (by omega)]
      rfl
    unfold inUseAt
    rw [this]
    rfl

/-- A buffer of eight bytes at an odd address. -/
theorem C93_counterexample :
    (create pDebug 4097 8).bind (fun s => (release pDebug 100 s).map fun _ => ()) = .assertFailed := by
  decide +kernel

end Utils.Props
