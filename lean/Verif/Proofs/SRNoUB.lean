import Verif.Proofs.SRFresh

/-!
# No undefined behaviour in debug builds; more iterations do not change a result
-/

namespace Utils.SR

open Utils Utils.Bits

variable {p : Params} {s : State} {size align : Nat} {σ : Type} {up : Option (Upstream σ)}

/-- The call has no undefined behaviour, and if it returns, the result satisfies `P`. -/
def Ensures {α : Type} (o : Outcome α) (P : α → Prop) : Prop := o ≠ .ub ∧ ∀ a, o = .ok a → P a

theorem Ensures.ok {α : Type} {P : α → Prop} {a : α} (h : P a) : Ensures (.ok a) P :=
  ⟨nofun, fun _ e => by cases e; exact h⟩

theorem Ensures.pure {α : Type} {P : α → Prop} {a : α} (h : P a) : Ensures (Pure.pure a) P :=
  Ensures.ok h

theorem Ensures.bind {α β : Type} {o : Outcome α} {P : α → Prop} {f : α → Outcome β} {Q : β → Prop}
    (h : Ensures o P) (hf : ∀ a, P a → Ensures (f a) Q) : Ensures (o >>= f) Q := by
  cases o with
  | ok a => exact hf a (h.2 a rfl)
  | ub => exact absurd rfl h.1
  | _ => exact ⟨nofun, nofun⟩

theorem Ensures.mono {α : Type} {o : Outcome α} {P Q : α → Prop} (h : Ensures o P)
    (hpq : ∀ a, P a → Q a) : Ensures o Q := ⟨h.1, fun a e => hpq a (h.2 a e)⟩

theorem Ensures.assert (hd : p.debug = true) (c : Bool) :
    Ensures (cassert p.debug c) fun _ => c = true := by
  rw [hd]
  cases c
  · exact ⟨nofun, nofun⟩
  · exact .ok rfl

theorem Ensures.abort (c : Bool) : Ensures (abortIf c) fun _ => c = false := by
  cases c
  · exact .ok rfl
  · exact ⟨nofun, nofun⟩

/-- How a step of the bookkeeping changes the state: geometry stays, links keep pointing forward,
`busy_count_` changes by `f`. -/
structure Same (f : Nat → Nat) (s s' : State) : Prop where
  count : s'.blockCount = s.blockCount
  data : s'.data = s.data
  links : LinksForward s → LinksForward s'
  busy : s'.busyCount = f s.busyCount

theorem Same.refl (s : State) : Same id s s := ⟨rfl, rfl, id, rfl⟩

theorem Same.trans {f : Nat → Nat} {s s1 s2 : State} (h1 : Same id s s1) (h2 : Same f s1 s2) :
    Same f s s2 :=
  ⟨h2.count.trans h1.count, h2.data.trans h1.data, fun h => h2.links (h1.links h), by
    rw [h2.busy, h1.busy]; rfl⟩

theorem Same.then {f : Nat → Nat} {s s1 s2 : State} (h1 : Same f s s1) (h2 : Same id s1 s2) :
    Same f s s2 :=
  ⟨h2.count.trans h1.count, h2.data.trans h1.data, fun h => h2.links (h1.links h), by
    rw [h2.busy, h1.busy]; rfl⟩

theorem Same.incBusy {s s' : State} (h : Same id s s') : Same inc64 s (incBusy s') :=
  ⟨h.count, h.data, h.links, congrArg inc64 h.busy⟩

theorem ensures_checkIdx (hd : p.debug = true) (hle : s.blockCount ≤ p.maxBlocks) (i : Nat) :
    Ensures (checkIdx p s i) fun _ => i < s.blockCount := by
  unfold checkIdx
  refine (Ensures.assert hd _).bind fun _ h => ?_
  have h := of_decide_eq_true h
  rw [if_pos (by omega)]
  exact .ok h

theorem links_upd {i nx : Nat} (hn : nx < s.blockCount) (hi : i < nx ∨ nx = 0) (h : LinksForward s)
    {s' : State} (h1 : s'.next = upd s.next i nx) (h2 : s'.blockCount = s.blockCount) :
    LinksForward s' := by
  intro j hj
  rw [h1, h2]
  unfold upd
  split
  · omega
  · exact h j (h2 ▸ hj)

section
variable (hd : p.debug = true) (hle : s.blockCount ≤ p.maxBlocks)
include hd hle

theorem ensures_nextAt (i : Nat) : Ensures (nextAt p s i) fun x => x = s.next i ∧ i < s.blockCount :=
  (ensures_checkIdx hd hle i).bind fun _ h => .pure ⟨rfl, h⟩

theorem ensures_inUseAt (i : Nat) : Ensures (inUseAt p s i) fun _ => True :=
  (ensures_checkIdx hd hle i).bind fun _ _ => .pure trivial

theorem ensures_setInUse (i : Nat) (v : Bool) : Ensures (setInUse p s i v) (Same id s) :=
  (ensures_checkIdx hd hle i).bind fun _ _ => .pure ⟨rfl, rfl, id, rfl⟩

theorem ensures_setPrev (i pv : Nat) : Ensures (setPrev p s i pv) (Same id s) := by
  unfold setPrev
  refine (Ensures.assert hd _).bind fun _ _ => ?_
  split
  · exact (ensures_checkIdx hd hle i).bind fun _ _ => .pure ⟨rfl, rfl, id, rfl⟩
  · exact .pure ⟨rfl, rfl, id, rfl⟩

theorem ensures_setNext (i nx : Nat) : Ensures (setNext p s i nx) (Same id s) := by
  unfold setNext
  refine (Ensures.assert hd _).bind fun _ h => ?_
  have h := of_decide_eq_true h
  split
  · rename_i hi
    exact (ensures_checkIdx hd hle i).bind fun _ _ =>
      .pure ⟨rfl, rfl, fun hl => links_upd h hi hl rfl rfl, rfl⟩
  · exact .pure ⟨rfl, rfl, id, rfl⟩

theorem ensures_setPrevNext (i pv nx : Nat) : Ensures (setPrevNext p s i pv nx) (Same id s) := by
  unfold setPrevNext
  refine (Ensures.assert hd _).bind fun _ _ => (Ensures.assert hd _).bind fun _ h =>
    (ensures_checkIdx hd hle i).bind fun _ _ => .pure ?_
  have h := of_decide_eq_true h
  refine Same.trans (s1 := if pv < i ∨ pv = 0 then { s with prev := upd s.prev i pv } else s) ?_ ?_
  · split <;> exact ⟨rfl, rfl, id, rfl⟩
  · have hb : (if pv < i ∨ pv = 0 then { s with prev := upd s.prev i pv } else s).blockCount
        = s.blockCount := by split <;> rfl
    generalize (if pv < i ∨ pv = 0 then { s with prev := upd s.prev i pv } else s) = s1 at hb ⊢
    by_cases hi : i < nx ∨ nx = 0
    · rw [if_pos hi]
      exact ⟨rfl, rfl, fun hl => links_upd (by omega) hi hl rfl rfl, rfl⟩
    · rw [if_neg hi]
      exact .refl _

theorem ensures_notMatched (a b c d : Nat) :
    Ensures (allocateNotMatched p s a b c d) fun s' => Same inc64 s s' ∧ a < b ∧ b ≤ c := by
  unfold allocateNotMatched
  refine (Ensures.assert hd _).bind fun _ q1 => (Ensures.assert hd _).bind fun _ q2 =>
    (Ensures.assert hd _).bind fun _ _ => (ensures_setInUse hd hle _ _).bind fun s1 h1 => ?_
  have g1 := h1.count.trans_le hle
  refine (ensures_checkIdx hd g1 _).bind fun _ _ => (ensures_setPrevNext hd g1 _ _ _).bind
    fun s2 h2 => ?_
  have g2 := h2.count.trans_le g1
  refine (ensures_setPrevNext hd g2 _ _ _).bind fun s3 h3 => ?_
  have g3 := h3.count.trans_le g2
  refine (ensures_setPrev hd g3 _ _).bind fun s4 h4 => ?_
  have g4 := h4.count.trans_le g3
  refine (ensures_setNext hd g4 _ _).bind fun s5 h5 => .pure ?_
  refine ⟨?_, of_decide_eq_true q1, of_decide_eq_true q2⟩
  have := h1.trans (h2.trans (h3.trans (h4.trans h5)))
  exact ⟨this.count, this.data, this.links, congrArg inc64 this.busy⟩

theorem ensures_beginMatched (a c d : Nat) :
    Ensures (allocateBeginMatched p s a c d) fun s' => Same inc64 s s' ∧ a ≤ c := by
  unfold allocateBeginMatched
  refine (Ensures.assert hd _).bind fun _ q1 => (Ensures.assert hd _).bind fun _ _ =>
    (ensures_setInUse hd hle _ _).bind fun s1 h1 => ?_
  have g1 := h1.count.trans_le hle
  refine (ensures_checkIdx hd g1 _).bind fun _ _ => (ensures_setPrevNext hd g1 _ _ _).bind
    fun s2 h2 => ?_
  have g2 := h2.count.trans_le g1
  refine (ensures_setPrev hd g2 _ _).bind fun s4 h4 => ?_
  have g4 := h4.count.trans_le g2
  refine (ensures_setNext hd g4 _ _).bind fun s5 h5 => .pure ?_
  exact ⟨(h1.trans (h2.trans (h4.trans h5))).incBusy, of_decide_eq_true q1⟩

theorem ensures_endMatched (a c d : Nat) :
    Ensures (allocateEndMatched p s a c d) fun s' => Same inc64 s s' ∧ a < c ∧ c ≤ d := by
  unfold allocateEndMatched
  refine (Ensures.assert hd _).bind fun _ q1 => (Ensures.assert hd _).bind fun _ q2 =>
    (ensures_setInUse hd hle _ _).bind fun s1 h1 => ?_
  have g1 := h1.count.trans_le hle
  refine (ensures_checkIdx hd g1 _).bind fun _ _ => (ensures_setPrevNext hd g1 _ _ _).bind
    fun s2 h2 => ?_
  have g2 := h2.count.trans_le g1
  refine (ensures_setPrev hd g2 _ _).bind fun s4 h4 => ?_
  have g4 := h4.count.trans_le g2
  refine (ensures_setNext hd g4 _ _).bind fun s5 h5 => .pure ?_
  exact ⟨(h1.trans (h2.trans (h4.trans h5))).incBusy, of_decide_eq_true q1, of_decide_eq_true q2⟩

theorem ensures_matched (a : Nat) : Ensures (allocateMatched p s a) (Same inc64 s) := by
  unfold allocateMatched
  exact (Ensures.assert hd _).bind fun _ _ => (ensures_setInUse hd hle _ _).bind fun s1 h1 =>
    .pure ⟨h1.count, h1.data, h1.links, congrArg inc64 h1.busy⟩

omit hle in
theorem ensures_index (ptr : Nat) :
    Ensures (pointerToBlockIndex p s ptr) fun x =>
      s.data ≤ ptr ∧ ptr < (s.data + p.maxResourceSize) % 2 ^ 64 ∧
      x = p.trunc ((ptr + (2 ^ 64 - s.data)) % 2 ^ 64 / p.blockSize) := by
  unfold pointerToBlockIndex
  exact (Ensures.assert hd _).bind fun _ h1 => (Ensures.assert hd _).bind fun _ h2 =>
    .pure ⟨of_decide_eq_true h1, of_decide_eq_true h2, rfl⟩

/-- In debug builds, blocks are only handed out if the pointer and the end of the request are
addresses in the range of the block indices, in this order. -/
theorem ensures_allocateBlocks (f ptr size : Nat) :
    Ensures (allocateBlocks p s f ptr size) fun s' => Same inc64 s s' ∧
      s.data ≤ ptr ∧ ptr < (s.data + p.maxResourceSize) % 2 ^ 64 ∧
      s.data ≤ (ptr + size) % 2 ^ 64 ∧ (ptr + size) % 2 ^ 64 < (s.data + p.maxResourceSize) % 2 ^ 64 ∧
      (f = p.trunc ((ptr + (2 ^ 64 - s.data)) % 2 ^ 64 / p.blockSize) ∨
        p.trunc ((ptr + (2 ^ 64 - s.data)) % 2 ^ 64 / p.blockSize)
          ≤ p.trunc (((ptr + size) % 2 ^ 64 + (2 ^ 64 - s.data)) % 2 ^ 64 / p.blockSize)) := by
  unfold allocateBlocks
  refine (ensures_index hd _).bind fun x ⟨a1, a2, a3⟩ => (ensures_index hd _).bind
    fun y ⟨b1, b2, b3⟩ => (ensures_nextAt hd hle _).bind fun nx _ => ?_
  generalize (if nx ≠ 0 then nx - 1 else p.trunc (dec64 s.blockCount)) = lastOfFree
  rw [← a3, ← b3]
  simp only
  split
  · rename_i hf
    split
    · exact (ensures_beginMatched hd hle _ _ _).mono fun s' h => ⟨h.1, a1, a2, b1, b2, Or.inl hf⟩
    · exact (ensures_matched hd hle _).mono fun s' h => ⟨h, a1, a2, b1, b2, Or.inl hf⟩
  · split
    · exact (ensures_notMatched hd hle _ _ _ _).mono fun s' h =>
        ⟨h.1, a1, a2, b1, b2, Or.inr h.2.2⟩
    · exact (ensures_endMatched hd hle _ _ _).mono fun s' h =>
        ⟨h.1, a1, a2, b1, b2, Or.inr h.2.2⟩

omit hle in
theorem ensures_skip {w : Nat} (a b : BitVec w) : Ensures (skipToAlign p.debug a b) fun _ => True := by
  unfold skipToAlign nextMultipleOf
  exact (Ensures.assert hd _).bind fun _ _ => (Ensures.bind (P := fun _ => True)
    ((Ensures.assert hd _).bind fun _ _ => .pure trivial) fun _ _ => .pure trivial)

omit hle in
theorem ensures_isAligned {w : Nat} (a b : BitVec w) :
    Ensures (isAligned p.debug a b) fun _ => True := by
  unfold isAligned
  exact (Ensures.assert hd _).bind fun _ _ => .pure trivial

/-- One region of the scan, for any links, sizes and alignments. -/
theorem ensures_tryRegion (ptr i : Nat) :
    Ensures (tryRegion p size align s ptr i) fun r =>
      (r = (s, ptr, decide (s.next i ≠ 0)) ∧ i < s.blockCount) ∨
      (Same inc64 s r.1 ∧ r.2.2 = false) := by
  unfold tryRegion
  refine Ensures.bind (P := fun _ => True) ?_ fun _ _ => Ensures.bind (P := fun _ => True) ?_
    fun _ _ => (ensures_skip hd _ _).bind fun _ _ => ?_
  · unfold blockSizeInBytes
    exact (ensures_nextAt hd hle _).bind fun _ _ => .pure trivial
  · unfold blockIndexToPointer
    exact (Ensures.assert hd _).bind fun _ _ => .pure trivial
  · split
    · exact (ensures_allocateBlocks hd hle _ _ _).bind fun _ h => .pure (Or.inr ⟨h.1, rfl⟩)
    · exact (ensures_nextAt hd hle _).bind fun _ h => .pure (Or.inl ⟨by rw [h.1], h.2⟩)

theorem ensures_merge (l r : Nat) : Ensures (mergeIfBothNotInUse p s l r) fun x => Same id s x.1 := by
  unfold mergeIfBothNotInUse
  split
  · exact .pure (.refl _)
  · refine (Ensures.assert hd _).bind fun _ _ => (ensures_inUseAt hd hle _).bind fun _ _ => ?_
    split
    · refine (ensures_inUseAt hd hle _).bind fun _ _ => ?_
      split
      · refine (Ensures.assert hd _).bind fun _ _ => (ensures_checkIdx hd hle _).bind fun _ _ =>
          (ensures_setPrev hd hle _ _).bind fun s1 h1 => ?_
        refine (ensures_setNext hd (h1.count.trans_le hle) _ _).bind fun s2 h2 => .pure ?_
        have := h1.trans h2
        exact ⟨this.count, this.data, this.links, this.busy⟩
      · exact .pure (.refl _)
    · refine Ensures.bind (P := fun _ => True) ?_ fun _ _ => .pure (.refl _)
      unfold assertNotInUse
      rw [if_pos hd]
      exact (ensures_inUseAt hd hle _).bind fun _ _ => (Ensures.assert hd _).mono fun _ _ => trivial

theorem ensures_deallocateBlocks (i : Nat) :
    Ensures (deallocateBlocks p s i) fun x => Same (· - 1) s x.1 ∧ 0 < s.busyCount := by
  unfold deallocateBlocks
  refine (Ensures.assert hd _).bind fun _ _ => (ensures_inUseAt hd hle _).bind fun _ _ =>
    (Ensures.abort _).bind fun _ _ => (ensures_setInUse hd hle _ _).bind fun s1 h1 =>
    (Ensures.assert hd _).bind fun _ q => (Ensures.assert hd _).bind fun _ _ => ?_
  unfold mergeAdjacentBlocks
  have q := of_decide_eq_true q
  have h2 : Same (· - 1) s (incFree (decBusy s1)) := by
    refine ⟨h1.count, h1.data, h1.links, ?_⟩
    have := h1.busy
    change dec64 s1.busyCount = s.busyCount - 1
    unfold dec64
    rw [if_neg (by omega), this]
    rfl
  have g : (incFree (decBusy s1)).blockCount ≤ p.maxBlocks := h2.count.trans_le hle
  refine (ensures_checkIdx hd g _).bind fun _ _ => (ensures_inUseAt hd g _).bind fun _ _ =>
    (Ensures.assert hd _).bind fun _ _ => (ensures_merge hd g _ _).bind fun x hx => ?_
  refine (ensures_merge hd (hx.count.trans_le g) _ _).mono fun y hy => ⟨h2.then (hx.trans hy), ?_⟩
  have := h1.busy
  simp only [id] at this
  omega

end

/-- The geometry is unchanged and links still point forward. -/
def Frame (s s' : State) : Prop := ∃ f, Same f s s'

theorem Frame.refl (s : State) : Frame s s := ⟨id, .refl s⟩

theorem Frame.trans {s s1 s2 : State} (h1 : Frame s s1) (h2 : Frame s1 s2) : Frame s s2 := by
  obtain ⟨f, h1⟩ := h1
  obtain ⟨g, h2⟩ := h2
  exact ⟨fun n => g (f n), h2.count.trans h1.count, h2.data.trans h1.data,
    fun h => h2.links (h1.links h), by rw [h2.busy, h1.busy]⟩

theorem Frame.count {s s' : State} (h : Frame s s') : s'.blockCount = s.blockCount :=
  h.choose_spec.count
theorem Frame.data {s s' : State} (h : Frame s s') : s'.data = s.data := h.choose_spec.data
theorem Frame.links {s s' : State} (h : Frame s s') : LinksForward s → LinksForward s' :=
  h.choose_spec.links

theorem ensures_loop {β : Type} {pred : State → Nat → Outcome Bool}
    {act : State → β → Nat → Outcome (State × β × Bool)} (hd : p.debug = true)
    (hpred : ∀ (s : State) i, s.blockCount ≤ p.maxBlocks → Ensures (pred s i) fun _ => True)
    (hact : ∀ (s : State) b i, s.blockCount ≤ p.maxBlocks →
      Ensures (act s b i) fun r => Frame s r.1) :
    ∀ (fuel : Nat) (s : State) (b : β) (i : Nat), s.blockCount ≤ p.maxBlocks →
      Ensures (applyLoop p pred act fuel s b i) fun r => Frame s r.1 := by
  intro fuel
  induction fuel with
  | zero => intro s b i _; exact ⟨nofun, nofun⟩
  | succ fuel ih =>
    intro s b i hle
    unfold applyLoop
    refine (ensures_checkIdx hd hle _).bind fun _ _ => (hpred s i hle).bind fun c _ => ?_
    split
    · refine (hact s b i hle).bind fun r hr => ?_
      simp only
      split
      · exact (ih _ _ _ (hr.count.trans_le hle)).mono fun x hx => hr.trans hx
      · exact .pure hr
    · simp only
      split
      · exact ih _ _ _ hle
      · exact .pure (.refl _)

theorem ensures_scan (hd : p.debug = true) (hle : s.blockCount ≤ p.maxBlocks) (fuel : Nat) :
    Ensures (scan p fuel s size align) fun r => Frame s r.1 :=
  ensures_loop hd
    (fun _ i h => (ensures_inUseAt hd h i).bind fun _ _ => .pure trivial)
    (fun _ b i h => (ensures_tryRegion hd h b i).mono fun r hr => by
      rcases hr with ⟨rfl, -⟩ | ⟨hr, -⟩
      · exact .refl _
      · exact ⟨_, hr⟩) fuel s 0 0 hle

theorem ensures_allocate (hv : Valid p) (hd : p.debug = true) (hp : Placed p s) (hsm : Small p s)
    (fuel : Nat) (u : σ) (size align : Nat) :
    Ensures (allocate p up fuel s u size align) fun r => Frame s r.2.1 := by
  unfold allocate
  split
  · exact .pure (.refl _)
  · refine (Ensures.assert hd _).bind fun _ _ => ?_
    obtain ⟨c, m, -, -, -, -, hloc⟩ := allocateLocal_eq hv hp hsm
    refine Ensures.bind (P := fun r => Frame s r.1) ?_ fun r hr => ?_
    · rw [hloc]
      split
      · exact ensures_scan hd hp.le fuel
      · exact .ok (.refl _)
    · exact (ensures_isAligned hd _ _).bind fun _ _ => (Ensures.assert hd _).bind fun _ _ => .pure hr

theorem ensures_deallocate (hd : p.debug = true) (hle : s.blockCount ≤ p.maxBlocks) (u : σ)
    (ptr : Nat) : Ensures (deallocate p up s u ptr) fun r => Frame s r.1 := by
  unfold deallocate
  split
  · exact .pure (.refl _)
  · refine (ensures_isAligned hd _ _).bind fun _ _ => (Ensures.abort _).bind fun _ _ => ?_
    split
    · exact (ensures_index hd _).bind fun _ _ => (ensures_deallocateBlocks hd hle _).bind
        fun _ h => .pure ⟨_, h.1⟩
    · cases up with
      | none =>
        exact (Ensures.abort _).bind fun _ _ => (Ensures.abort _).bind fun _ _ => .pure (.refl _)
      | some U => exact .pure (.refl _)

theorem ensures_release (hd : p.debug = true) (hle : s.blockCount ≤ p.maxBlocks) (fuel : Nat) :
    Ensures (release p fuel s) (Frame s) := by
  unfold release
  refine (ensures_loop hd (fun s i h => ensures_inUseAt hd h i) ?_ fuel s () 0 hle).bind
    fun r hr => .pure hr
  intro s b i h
  unfold releaseRegion
  refine (ensures_deallocateBlocks hd h i).bind fun x hx => ?_
  exact (ensures_nextAt hd (hx.1.count.trans_le h) _).bind fun _ _ => .pure ⟨_, hx.1⟩

/-- Histories of arbitrary calls, in debug builds, from a state with any bookkeeping. -/
theorem run_no_ub (hv : Valid p) (hd : p.debug = true) {fuel : Nat} (ops : List Op) :
    ∀ (w : World σ), Placed p w.st → Small p w.st →
      Ensures (run p up fuel w ops) fun w' => Frame w.st w'.st := by
  induction ops with
  | nil => intro w _ _; exact .ok (.refl _)
  | cons op ops ih =>
    intro w hp hsm
    unfold run
    have hstep : Ensures (step p up fuel w op) fun w' => Frame w.st w'.st := by
      cases op with
      | alloc size align =>
        exact (ensures_allocate hv hd hp hsm _ _ _ _).bind fun r hr => .pure hr
      | free i =>
        unfold step doFree
        simp only
        split
        · exact .pure (.refl _)
        · exact (ensures_deallocate hd hp.le _ _).bind fun r hr => .pure hr
    refine hstep.bind fun w' h => ?_
    exact (ih w' (hp.congr h.data h.count) (hsm.congr h.data h.count)).mono fun w2 h2 => h.trans h2

/-! ## Iterations -/

theorem applyLoop_mono {β : Type} {pred : State → Nat → Outcome Bool}
    {act : State → β → Nat → Outcome (State × β × Bool)} {fuel : Nat} :
    ∀ {s : State} {b : β} {i fuel' : Nat}, fuel ≤ fuel' →
      applyLoop p pred act fuel s b i ≠ .outOfFuel →
      applyLoop p pred act fuel' s b i = applyLoop p pred act fuel s b i := by
  induction fuel with
  | zero => intro s b i fuel' _ h; exact absurd rfl h
  | succ fuel ih =>
    intro s b i fuel' hf h
    obtain ⟨f, rfl⟩ : ∃ f, fuel' = f + 1 := ⟨fuel' - 1, by omega⟩
    unfold applyLoop at h ⊢
    cases hc : checkIdx p s i with
    | ok _ =>
      rw [hc] at h
      rw [Outcome.ok_bind] at h ⊢
      rw [Outcome.ok_bind]
      cases hp : pred s i with
      | ok c =>
        rw [hp] at h
        rw [Outcome.ok_bind] at h ⊢
        rw [Outcome.ok_bind]
        cases c with
        | true =>
          rw [if_pos rfl] at h ⊢
          rw [if_pos rfl]
          cases ha : act s b i with
          | ok r =>
            rw [ha] at h
            rw [Outcome.ok_bind] at h ⊢
            rw [Outcome.ok_bind]
            simp only at h ⊢
            generalize (if r.2.2 = true then 1 else 0) = j at h ⊢
            by_cases hz : j ≠ 0
            · rw [if_pos hz] at h ⊢
              rw [if_pos hz]
              exact ih (by omega) h
            · rw [if_neg hz, if_neg hz]
          | _ => rfl
        | false =>
          simp only [Bool.false_eq_true, if_false] at h ⊢
          by_cases hz : s.next i ≠ 0
          · rw [if_pos hz] at h ⊢
            rw [if_pos hz]
            exact ih (by omega) h
          · rw [if_neg hz, if_neg hz]
      | _ => rfl
    | _ => rfl

theorem allocateLocal_mono {fuel fuel' : Nat} (hf : fuel ≤ fuel')
    (h : allocateLocal p fuel s size align ≠ .outOfFuel) :
    allocateLocal p fuel' s size align = allocateLocal p fuel s size align := by
  unfold allocateLocal at h ⊢
  split
  · rename_i hz
    rw [if_pos hz] at h
    cases hc : ctz64 p.debug (BitVec.ofNat 64 s.data) with
    | ok c =>
      rw [hc] at h
      rw [Outcome.ok_bind] at h ⊢
      rw [Outcome.ok_bind]
      cases hb : CVal.shl ⟨.int, 1⟩ c with
      | ok b =>
        rw [hb] at h
        rw [Outcome.ok_bind] at h ⊢
        rw [Outcome.ok_bind]
        cases hm : maxAlignmentInsideBlock p.debug (BitVec.ofInt 64 b.val)
            (BitVec.ofNat 64 (s.blockCount * p.blockSize)) with
        | ok m =>
          rw [hm] at h
          rw [Outcome.ok_bind] at h ⊢
          rw [Outcome.ok_bind]
          split
          · rename_i hg
            rw [if_pos hg] at h
            exact applyLoop_mono hf h
          · rfl
        | _ => rfl
      | _ => rfl
    | _ => rfl
  · rfl

/-- A result does not depend on the number of iterations granted. -/
theorem allocate_mono {fuel fuel' : Nat} {u : σ} (hf : fuel ≤ fuel')
    (h : allocate p up fuel s u size align ≠ .outOfFuel) :
    allocate p up fuel' s u size align = allocate p up fuel s u size align := by
  unfold allocate at h ⊢
  split
  · rfl
  · rename_i hz
    rw [if_neg hz] at h
    cases hc : cassert p.debug (isPowerOf2 (BitVec.ofNat 64 align)) with
    | ok _ =>
      rw [hc] at h
      rw [Outcome.ok_bind] at h ⊢
      rw [Outcome.ok_bind]
      have : allocateLocal p fuel' s size align = allocateLocal p fuel s size align := by
        apply allocateLocal_mono hf
        intro h2
        rw [h2] at h
        exact h rfl
      rw [this]
    | _ => rfl

end Utils.SR
