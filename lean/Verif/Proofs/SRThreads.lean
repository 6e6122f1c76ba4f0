import Verif.Spec.SRThreads
import Verif.Proofs.SRNoUB

/-! # Lemmas about threads that share a simple_resource -/

namespace Utils.SR

open Utils.Bits

variable {p : Params} {s : State} {size align : Nat}

/-- The return value of a call as `allocate` gives it. -/
def asResult (x : State × (AllocPhase ⊕ Nat)) : Outcome (Nat × State × Unit) :=
  match x.2 with
  | .inl _ => .outOfFuel
  | .inr ptr => .ok (ptr, x.1, ())

/-- What is left of a call. -/
def rest (p : Params) (s : State) (size align : Nat) : AllocPhase → Nat → Outcome (Nat × State × Unit)
  | .start, f => allocate p none f s () size align
  | .looking i, f => do
    let x ← applyLoop p (isFree p) (tryRegion p size align) f s 0 i
    let r ← allocReturn p x.1 x.2
    asResult r
  | .found i pointer, _ => do
    let s ← allocateBlocks p s i pointer size
    let r ← allocReturn p s pointer
    asResult r

theorem bind_assoc' {α β γ : Type} (x : Outcome α) (f : α → Outcome β) (g : β → Outcome γ) :
    ((x >>= f) >>= g) = x >>= fun a => f a >>= g := by
  cases x <;> rfl

theorem allocReturn_inr {x : State × (AllocPhase ⊕ Nat)} {pointer : Nat} (h : allocReturn p s pointer = .ok x) :
    x = (s, .inr pointer) := by
  unfold allocReturn at h
  obtain ⟨_, -, h⟩ := Outcome.bind_eq_ok.1 h
  obtain ⟨_, -, h⟩ := Outcome.bind_eq_ok.1 h
  cases h
  rfl

theorem map_eraseIdx {α β : Type} (f : α → β) : ∀ (l : List α) (i : Nat), (l.eraseIdx i).map f = (l.map f).eraseIdx i
  | [], _ => rfl
  | _ :: _, 0 => rfl
  | x :: l, i + 1 => congrArg (f x :: ·) (map_eraseIdx f l i)

/-- What follows a step. -/
def follow (p : Params) (size align f : Nat) (x : State × (AllocPhase ⊕ Nat)) : Outcome (Nat × State × Unit) :=
  match x.2 with
  | .inl ph => rest p x.1 size align ph f
  | .inr ptr => .ok (ptr, x.1, ())

theorem allocReturn_follow {pointer f : Nat} :
    (allocReturn p s pointer >>= follow p size align f) = allocReturn p s pointer >>= asResult := by
  cases h : allocReturn p s pointer with
  | ok x =>
    have := allocReturn_inr h
    subst this
    rfl
  | _ => rfl

/-- A call is its first step and what is left then. -/
theorem rest_step (ph : AllocPhase) : ∃ k, ∀ f,
    rest p s size align ph (f + k) = allocStep p s size align ph >>= follow p size align f := by
  cases ph with
  | start =>
    refine ⟨0, fun f => ?_⟩
    simp only [rest, allocStep, Nat.add_zero]
    unfold allocate allocateLocal
    by_cases hz : size = 0
    · rw [if_pos hz, if_pos hz]
      rfl
    · rw [if_neg hz, if_neg hz, bind_assoc']
      congr 1
      funext _
      by_cases hd : s.data ≠ 0
      · rw [if_pos hd, if_pos hd]
        simp only [bind_assoc']
        congr 1
        funext c
        congr 1
        funext b
        congr 1
        funext m
        by_cases ha : align ≤ m.toNat
        · rw [if_pos ha, if_pos ha]
          simp only [scan, Outcome.pure_eq, Outcome.ok_bind, follow, rest, allocReturn, bind_assoc', asResult]
        · rw [if_neg ha, if_neg ha, allocReturn_follow]
          simp only [Outcome.pure_eq, Outcome.ok_bind, allocReturn, bind_assoc', asResult]
      · rw [if_neg hd, if_neg hd, allocReturn_follow]
        simp only [Outcome.pure_eq, Outcome.ok_bind, allocReturn, bind_assoc', asResult]
  | looking i =>
    refine ⟨1, fun f => ?_⟩
    simp only [rest, allocStep, applyLoop, bind_assoc']
    congr 1
    funext _
    congr 1
    funext c
    cases c with
    | true =>
      simp only [if_true, tryRegion, bind_assoc']
      congr 1
      funext bs
      congr 1
      funext bp
      congr 1
      funext k
      by_cases hc : (k.toNat + size) % 2 ^ 64 ≤ bs
      · rw [if_pos hc, if_pos hc]
        simp only [bind_assoc', Outcome.pure_eq, Outcome.ok_bind, follow, rest]
        congr 1
      · rw [if_neg hc, if_neg hc]
        simp only [bind_assoc', Outcome.pure_eq, Outcome.ok_bind]
        congr 1
        funext nx
        by_cases hn : nx = 0
        · subst hn
          exact allocReturn_follow.symm
        · rw [if_pos hn, decide_eq_true hn]
          rfl
    | false =>
      simp only [Bool.false_eq_true, if_false]
      by_cases hn : s.next i ≠ 0
      · rw [if_pos hn, if_pos hn]
        rfl
      · rw [if_neg hn, if_neg hn]
        exact allocReturn_follow.symm
  | found i pointer =>
    refine ⟨0, fun f => ?_⟩
    simp only [rest, allocStep, bind_assoc']
    congr 1
    funext s'
    exact allocReturn_follow.symm

/-- Looking changes nothing. -/
theorem allocStep_next {s' : State} {ph ph' : AllocPhase}
    (h : allocStep p s size align ph = .ok (s', .inl ph')) : s' = s := by
  have hret : ∀ t q, allocReturn p t q ≠ .ok (s', .inl ph') := by
    intro t q e
    have := allocReturn_inr e
    simp at this
  cases ph with
  | start =>
    simp only [allocStep] at h
    split at h
    · cases h
    · obtain ⟨_, -, h⟩ := Outcome.bind_eq_ok.1 h
      split at h
      · obtain ⟨_, -, h⟩ := Outcome.bind_eq_ok.1 h
        obtain ⟨_, -, h⟩ := Outcome.bind_eq_ok.1 h
        obtain ⟨_, -, h⟩ := Outcome.bind_eq_ok.1 h
        split at h
        · cases h; rfl
        · exact absurd h (hret _ _)
      · exact absurd h (hret _ _)
  | looking i =>
    simp only [allocStep] at h
    obtain ⟨_, -, h⟩ := Outcome.bind_eq_ok.1 h
    obtain ⟨_, -, h⟩ := Outcome.bind_eq_ok.1 h
    split at h
    · obtain ⟨_, -, h⟩ := Outcome.bind_eq_ok.1 h
      obtain ⟨_, -, h⟩ := Outcome.bind_eq_ok.1 h
      obtain ⟨_, -, h⟩ := Outcome.bind_eq_ok.1 h
      split at h
      · cases h; rfl
      · obtain ⟨_, -, h⟩ := Outcome.bind_eq_ok.1 h
        split at h
        · cases h; rfl
        · exact absurd h (hret _ _)
    · split at h
      · cases h; rfl
      · exact absurd h (hret _ _)
  | found i pointer =>
    simp only [allocStep] at h
    obtain ⟨_, -, h⟩ := Outcome.bind_eq_ok.1 h
    exact absurd h (hret _ _)

/-- Only taking a region changes anything. -/
theorem allocStep_looks {s' : State} {ph : AllocPhase} {r : AllocPhase ⊕ Nat} (hph : ∀ i q, ph ≠ .found i q)
    (h : allocStep p s size align ph = .ok (s', r)) : s' = s := by
  have hret : ∀ q, allocReturn p s q = .ok (s', r) → s' = s := by
    intro q e
    have := allocReturn_inr e
    cases this
    rfl
  cases ph with
  | start =>
    simp only [allocStep] at h
    split at h
    · cases h; rfl
    · obtain ⟨_, -, h⟩ := Outcome.bind_eq_ok.1 h
      split at h
      · obtain ⟨_, -, h⟩ := Outcome.bind_eq_ok.1 h
        obtain ⟨_, -, h⟩ := Outcome.bind_eq_ok.1 h
        obtain ⟨_, -, h⟩ := Outcome.bind_eq_ok.1 h
        split at h
        · cases h; rfl
        · exact hret _ h
      · exact hret _ h
  | looking i =>
    simp only [allocStep] at h
    obtain ⟨_, -, h⟩ := Outcome.bind_eq_ok.1 h
    obtain ⟨_, -, h⟩ := Outcome.bind_eq_ok.1 h
    split at h
    · obtain ⟨_, -, h⟩ := Outcome.bind_eq_ok.1 h
      obtain ⟨_, -, h⟩ := Outcome.bind_eq_ok.1 h
      obtain ⟨_, -, h⟩ := Outcome.bind_eq_ok.1 h
      split at h
      · cases h; rfl
      · obtain ⟨_, -, h⟩ := Outcome.bind_eq_ok.1 h
        split at h
        · cases h; rfl
        · exact hret _ h
    · split at h
      · cases h; rfl
      · exact hret _ h
  | found i q => exact absurd rfl (hph i q)

/-- The next step of thread `i` only looks. -/
def onlyLooks (w : SRShared) (i : Nat) : Bool :=
  match w.threads[i]? with
  | some ⟨.alloc _ _ :: _, .found _ _⟩ => false
  | some ⟨.alloc _ _ :: _, _⟩ => true
  | _ => false

theorem onlyLooks_same {w w' : SRShared} {i : Nat} (hl : onlyLooks w i = true) (h : srStep p w i = .ok w') :
    w'.st = w.st := by
  unfold onlyLooks at hl
  split at hl
  · cases hl
  · rename_i a b l ph hne ht
    unfold srStep at h
    rw [ht] at h
    obtain ⟨⟨s', r⟩, h1, h2⟩ := Outcome.bind_eq_ok.1 h
    have := allocStep_looks (fun i q e => hne i q e) h1
    subst this
    cases r <;> cases h2 <;> rfl
  · cases hl

/-- Along the run, all steps only look or are made while nobody else is inside. -/
def quiet (p : Params) : SRShared → List Nat → Bool
  | _, [] => true
  | w, i :: is => (decide (SRAlone w i) || onlyLooks w i) &&
    match srStep p w i with
    | .ok w' => quiet p w' is
    | _ => true

theorem undisturbed_of_quiet {is : List Nat} : ∀ {w : SRShared}, quiet p w is = true → SRUndisturbed p w is := by
  induction is with
  | nil => intro w _; trivial
  | cons i is ih =>
    intro w h w' hw
    rw [quiet, Bool.and_eq_true, hw] at h
    refine ⟨fun hne => ?_, ih h.2⟩
    rw [Bool.or_eq_true, decide_eq_true_eq] at h
    rcases h.1 with h | h
    · exact h
    · exact absurd (onlyLooks_same h hw) hne

/-- The local variables of a thread fit the present state: what is left of its call is what is left of the call
as it would be made now. -/
def Fitting (p : Params) (s : State) (t : SRThread) : Prop :=
  t.phase = .start ∨ ∃ size align l, t.todo = .alloc size align :: l ∧
    ∃ n, ∀ f, allocate p none (f + n) s () size align = rest p s size align t.phase f

theorem run_mono {ops : List Op} : ∀ {w w' : World Unit} {fuel fuel' : Nat}, fuel ≤ fuel' →
    run p none fuel w ops = .ok w' → run p none fuel' w ops = .ok w' := by
  induction ops with
  | nil => intro w w' f f' _ h; exact h
  | cons op ops ih =>
    intro w w' f f' hf h
    obtain ⟨w1, a, b⟩ := Outcome.bind_eq_ok.1 h
    have : step p none f' w op = .ok w1 := by
      cases op with
      | alloc size align =>
        obtain ⟨r, c, d⟩ := Outcome.bind_eq_ok.1 a
        have e : allocate p none f' w.st w.up size align = .ok r := by
          rw [allocate_mono hf (by rw [c]; exact nofun), c]
        simp only [step, doAlloc]
        rw [e]
        exact d
      | free i => exact a
    rw [run, this, Outcome.ok_bind]
    exact ih hf b

theorem run_snoc {ops : List Op} {op : Op} {fuel : Nat} : ∀ {w w1 w2 : World Unit},
    run p none fuel w ops = .ok w1 → step p none fuel w1 op = .ok w2 → run p none fuel w (ops ++ [op]) = .ok w2 := by
  induction ops with
  | nil =>
    intro w w1 w2 h1 h2
    cases h1
    simp [run, h2]
  | cons o ops ih =>
    intro w w1 w2 h1 h2
    obtain ⟨w', a, b⟩ := Outcome.bind_eq_ok.1 h1
    simp only [List.cons_append, run]
    rw [a, Outcome.ok_bind]
    exact ih b h2

theorem run_snoc_inv {ops : List Op} {op : Op} {fuel : Nat} : ∀ {w w1 w2 : World Unit},
    run p none fuel w ops = .ok w1 → run p none fuel w (ops ++ [op]) = .ok w2 → step p none fuel w1 op = .ok w2 := by
  induction ops with
  | nil =>
    intro w w1 w2 h1 h2
    cases h1
    obtain ⟨w', a, b⟩ := Outcome.bind_eq_ok.1 h2
    cases b
    exact a
  | cons o ops ih =>
    intro w w1 w2 h1 h2
    obtain ⟨w', a, b⟩ := Outcome.bind_eq_ok.1 h1
    simp only [List.cons_append, run] at h2
    rw [a, Outcome.ok_bind] at h2
    exact ih b h2

/-- The calls that have returned do one after another what they have done. -/
def Serial (p : Params) (s0 : State) (w : SRShared) : Prop :=
  ∃ N, run p none N (⟨s0, (), []⟩ : World Unit) w.calls = .ok ⟨w.st, (), w.pieces⟩

/-- One step of a schedule without disturbance. -/
theorem srStep_serial {w w' : SRShared} {i : Nat} {s0 : State} (hrun : Serial p s0 w)
    (hc : ∀ t ∈ w.threads, Fitting p w.st t) (h : srStep p w i = .ok w') (hq : w'.st ≠ w.st → SRAlone w i) :
    Serial p s0 w' ∧ ∀ t ∈ w'.threads, Fitting p w'.st t := by
  -- what the other threads know is still right
  have others : ∀ (t' : SRThread), Fitting p w'.st t' → w'.threads = w.threads.set i t' →
      ∀ t ∈ w'.threads, Fitting p w'.st t := by
    intro t' ht' hw t hmem
    rw [hw] at hmem
    obtain ⟨j, hj⟩ := List.getElem?_of_mem hmem
    rw [List.getElem?_set] at hj
    by_cases hij : i = j
    · rw [if_pos hij] at hj
      split at hj
      · cases hj; exact ht'
      · cases hj
    · rw [if_neg hij] at hj
      by_cases hs : w'.st = w.st
      · rw [hs]
        exact hc t (List.mem_of_getElem? hj)
      · exact Or.inl (hq hs j t (Ne.symm hij) hj)
  obtain ⟨N, hN⟩ := hrun
  unfold srStep at h
  split at h
  · cases h; exact ⟨⟨N, hN⟩, hc⟩
  · cases h; exact ⟨⟨N, hN⟩, hc⟩
  · rename_i size align l phase ht
    have hcur := hc _ (List.mem_of_getElem? ht)
    have hcur' : ∃ n, ∀ f, allocate p none (f + n) w.st () size align = rest p w.st size align phase f := by
      rcases hcur with h0 | ⟨a, b, l', e, n, hn⟩
      · simp only at h0
        subst h0
        exact ⟨0, fun f => rfl⟩
      · cases e
        exact ⟨n, hn⟩
    obtain ⟨n, hn⟩ := hcur'
    obtain ⟨k, hk⟩ := rest_step (p := p) (s := w.st) (size := size) (align := align) phase
    obtain ⟨⟨s', r⟩, h1, h2⟩ := Outcome.bind_eq_ok.1 h
    have hall : ∀ f, allocate p none (f + (k + n)) w.st () size align = follow p size align f (s', r) := by
      intro f
      rw [← Nat.add_assoc, hn, hk, h1]
      rfl
    cases r with
    | inl ph =>
      have := allocStep_next h1
      subst this
      cases h2
      refine ⟨⟨N, hN⟩, others _ (Or.inr ⟨size, align, l, rfl, k + n, fun f => ?_⟩) rfl⟩
      exact hall f
    | inr ptr =>
      cases h2
      refine ⟨⟨max N (0 + (k + n)), ?_⟩, others _ (Or.inl rfl) rfl⟩
      have e1 : SRShared.calls ⟨s', w.threads.set i ⟨l, .start⟩, if ptr = 0 then w.live else (i, ptr, size) :: w.live,
          (i, .alloc size align) :: w.log⟩ = w.calls ++ [.alloc size align] := by
        simp [SRShared.calls]
      rw [e1]
      refine run_snoc (run_mono (Nat.le_max_left _ _) hN) ?_
      have e2 : allocate p none (max N (0 + (k + n))) w.st () size align = .ok (ptr, s', ()) := by
        rw [allocate_mono (Nat.le_max_right _ _) (by rw [hall]; exact nofun), hall]
        rfl
      simp only [step, doAlloc]
      rw [e2, Outcome.ok_bind]
      simp only [Outcome.pure_eq, SRShared.pieces]
      by_cases hz : ptr = 0
      · simp [hz]
      · simp [hz]
  · rename_i k l phase ht
    simp only at h
    have hfree : ∀ {x}, w.live[ownPlace w.live i k]? = x → w.pieces[ownPlace w.live i k]? = x.map (·.2) := by
      intro x hx
      rw [SRShared.pieces, List.getElem?_map, hx]
    split at h
    · rename_i hx
      cases h
      refine ⟨⟨N, ?_⟩, others _ (Or.inl rfl) rfl⟩
      have e1 : SRShared.calls ⟨w.st, w.threads.set i ⟨l, .start⟩, w.live, (i, .free (ownPlace w.live i k)) :: w.log⟩ =
          w.calls ++ [.free (ownPlace w.live i k)] := by
        simp [SRShared.calls]
      rw [e1]
      refine run_snoc hN ?_
      simp only [step, doFree]
      rw [hfree hx]
      rfl
    · rename_i x hx
      obtain ⟨⟨s', u⟩, h1, h2⟩ := Outcome.bind_eq_ok.1 h
      cases h2
      refine ⟨⟨N, ?_⟩, others _ (Or.inl rfl) rfl⟩
      have e1 : SRShared.calls ⟨s', w.threads.set i ⟨l, .start⟩, w.live.eraseIdx (ownPlace w.live i k),
          (i, .free (ownPlace w.live i k)) :: w.log⟩ = w.calls ++ [.free (ownPlace w.live i k)] := by
        simp [SRShared.calls]
      rw [e1]
      refine run_snoc hN ?_
      simp only [step, doFree]
      rw [hfree hx]
      simp only [Option.map_some]
      rw [h1, Outcome.ok_bind]
      simp only [SRShared.pieces, Outcome.pure_eq]
      rw [map_eraseIdx]

/-- A step fails only if the call, made now, fails. -/
theorem srStep_ok {w : SRShared} {i : Nat} {s0 : State} (hrun : Serial p s0 w)
    (hc : ∀ t ∈ w.threads, Fitting p w.st t) {A : Op → Prop} (hA : ∀ t ∈ w.threads, ∀ op ∈ t.todo, A op)
    (hfree : ∀ j, A (.free j)) (hlog : ∀ op ∈ w.calls, A op) {N0 : Nat}
    (hall : ∀ ops, (∀ op ∈ ops, A op) → ∀ fuel, N0 ≤ fuel → ∃ w', run p none fuel (⟨s0, (), []⟩ : World Unit) ops = .ok w') :
    ∃ w', srStep p w i = .ok w' ∧ (∀ t ∈ w'.threads, ∀ op ∈ t.todo, A op) ∧ ∀ op ∈ w'.calls, A op := by
  obtain ⟨N, hN⟩ := hrun
  have hstep : ∀ op, A op → ∀ fuel, max N N0 ≤ fuel → ∃ w2, step p none fuel ⟨w.st, (), w.pieces⟩ op = .ok w2 := by
    intro op hop fuel hf
    obtain ⟨w2, h2⟩ := hall (w.calls ++ [op]) (by
      intro o ho
      rcases List.mem_append.1 ho with ho | ho
      · exact hlog o ho
      · rw [List.mem_singleton] at ho
        rw [ho]
        exact hop) fuel (by omega)
    exact ⟨w2, run_snoc_inv (run_mono (by omega) hN) h2⟩
  have hset : ∀ (t' : SRThread), (∀ op ∈ t'.todo, A op) → ∀ t ∈ w.threads.set i t', ∀ op ∈ t.todo, A op := by
    intro t' ht' t hm
    rcases List.mem_or_eq_of_mem_set hm with hm | rfl
    · exact hA t hm
    · exact ht'
  have hcalls : ∀ (op : Op) (s' : State) (th : List SRThread) (lv : List (Nat × Nat × Nat)) (i : Nat), A op →
      ∀ o ∈ SRShared.calls ⟨s', th, lv, (i, op) :: w.log⟩, A o := by
    intro op s' th lv i hop o ho
    simp only [SRShared.calls, List.reverse_cons, List.map_append, List.mem_append, List.map_cons, List.map_nil,
      List.mem_singleton] at ho
    rcases ho with ho | ho
    · exact hlog o ho
    · rw [ho]
      exact hop
  unfold srStep
  split
  · exact ⟨w, rfl, hA, hlog⟩
  · exact ⟨w, rfl, hA, hlog⟩
  · rename_i size align l phase ht
    have hmem := List.mem_of_getElem? ht
    have hAt := hA _ hmem
    have hcur' : ∃ n, ∀ f, allocate p none (f + n) w.st () size align = rest p w.st size align phase f := by
      rcases hc _ hmem with h0 | ⟨a, b, l', e, n, hn⟩
      · simp only at h0
        subst h0
        exact ⟨0, fun f => rfl⟩
      · cases e
        exact ⟨n, hn⟩
    obtain ⟨n, hn⟩ := hcur'
    obtain ⟨k, hk⟩ := rest_step (p := p) (s := w.st) (size := size) (align := align) phase
    obtain ⟨w2, h2⟩ := hstep (.alloc size align) (hAt _ List.mem_cons_self) (max N N0 + k + n) (by omega)
    obtain ⟨r, h3, -⟩ := Outcome.bind_eq_ok.1 h2
    simp only at h3
    rw [hn, hk] at h3
    obtain ⟨⟨s', r'⟩, h4, -⟩ := Outcome.bind_eq_ok.1 h3
    rw [h4, Outcome.ok_bind]
    cases r' with
    | inl ph => exact ⟨_, rfl, hset _ hAt, hlog⟩
    | inr ptr =>
      exact ⟨_, rfl, hset _ fun op hop => hAt op (List.mem_cons_of_mem _ hop),
        hcalls _ _ _ _ _ (hAt _ List.mem_cons_self)⟩
  · rename_i k l phase ht
    have hAt := hA _ (List.mem_of_getElem? ht)
    simp only
    split
    · exact ⟨_, rfl, hset _ fun op hop => hAt op (List.mem_cons_of_mem _ hop), hcalls _ _ _ _ _ (hfree _)⟩
    · rename_i x hx
      obtain ⟨w2, h2⟩ := hstep (.free (ownPlace w.live i k)) (hfree _) (max N N0) (Nat.le_refl _)
      simp only [step, doFree] at h2
      have hx' : w.pieces[ownPlace w.live i k]? = some x.2 := by
        rw [SRShared.pieces, List.getElem?_map, hx]
        rfl
      rw [hx'] at h2
      simp only at h2
      obtain ⟨⟨s', u⟩, h3, -⟩ := Outcome.bind_eq_ok.1 h2
      rw [h3, Outcome.ok_bind]
      exact ⟨_, rfl, hset _ fun op hop => hAt op (List.mem_cons_of_mem _ hop), hcalls _ _ _ _ _ (hfree _)⟩

theorem srRun_serial {is : List Nat} : ∀ {w w' : SRShared} {s0 : State}, Serial p s0 w →
    (∀ t ∈ w.threads, Fitting p w.st t) → srRun p w is = .ok w' → SRUndisturbed p w is → Serial p s0 w' := by
  induction is with
  | nil => intro w w' s0 h1 _ h2 _; cases h2; exact h1
  | cons i is ih =>
    intro w w' s0 h1 hc h2 hq
    obtain ⟨w1, a, b⟩ := Outcome.bind_eq_ok.1 h2
    obtain ⟨q1, q2⟩ := hq w1 a
    obtain ⟨c, d⟩ := srStep_serial h1 hc a q1
    exact ih c d b q2

theorem srLockedRun_serial {is : List Nat} : ∀ {w w' : SRShared} {s0 : State}, Serial p s0 w →
    (∀ t ∈ w.threads, Fitting p w.st t) → srLockedRun p w is = .ok w' → Serial p s0 w' := by
  induction is with
  | nil => intro w w' s0 h1 _ h2; cases h2; exact h1
  | cons i is ih =>
    intro w w' s0 h1 hc h2
    obtain ⟨w1, a, b⟩ := Outcome.bind_eq_ok.1 h2
    unfold srLockedStep at a
    split at a
    · rename_i hfree
      obtain ⟨c, d⟩ := srStep_serial h1 hc a (fun _ => hfree)
      exact ih c d b
    · cases a
      exact ih h1 hc b

theorem srStart_serial (s : State) (programs : List (List Op)) : Serial p s (srStart s programs) :=
  ⟨0, rfl⟩

theorem srStart_fitting (s : State) (programs : List (List Op)) :
    ∀ t ∈ (srStart s programs).threads, Fitting p (srStart s programs).st t := by
  intro t ht
  obtain ⟨l, -, rfl⟩ := List.mem_map.1 ht
  exact Or.inl rfl

/-- With a mutex nothing fails that does not fail when the calls are made one after another. -/
theorem srLockedRun_ok {A : Op → Prop} (hfree : ∀ j, A (.free j)) {s0 : State} {N0 : Nat}
    (hall : ∀ ops, (∀ op ∈ ops, A op) → ∀ fuel, N0 ≤ fuel → ∃ w', run p none fuel (⟨s0, (), []⟩ : World Unit) ops = .ok w')
    {is : List Nat} : ∀ {w : SRShared}, Serial p s0 w → (∀ t ∈ w.threads, Fitting p w.st t) →
    (∀ t ∈ w.threads, ∀ op ∈ t.todo, A op) → (∀ op ∈ w.calls, A op) →
    ∃ w', srLockedRun p w is = .ok w' ∧ Serial p s0 w' ∧ ∀ op ∈ w'.calls, A op := by
  induction is with
  | nil => intro w h1 _ _ h4; exact ⟨w, rfl, h1, h4⟩
  | cons i is ih =>
    intro w h1 hc hA hl
    rw [srLockedRun, srLockedStep]
    by_cases hal : SRAlone w i
    · rw [if_pos hal]
      obtain ⟨w1, a, b, c⟩ := srStep_ok (i := i) h1 hc hA hfree hl hall
      obtain ⟨d, e⟩ := srStep_serial h1 hc a (fun _ => hal)
      rw [a, Outcome.ok_bind]
      exact ih d e b c
    · rw [if_neg hal]
      exact ih h1 hc hA hl

/-- Every thread makes its calls in the order of its program. -/
theorem srStep_order {w w' : SRShared} {i : Nat} (h : srStep p w i = .ok w') (j : Nat) :
    ((w'.log.reverse.filter (·.1 == j)).map (·.2.kind) ++ ((w'.threads[j]?).elim [] (·.todo.map Op.kind))) =
    ((w.log.reverse.filter (·.1 == j)).map (·.2.kind) ++ ((w.threads[j]?).elim [] (·.todo.map Op.kind))) := by
  have key : ∀ (op op' : Op) (l : List Op) (ph : AllocPhase) (t : SRThread),
      w.threads[i]? = some t → t.todo = op :: l → op'.kind = op.kind →
      ((((i, op') :: w.log).reverse.filter (·.1 == j)).map (·.2.kind) ++
        (((w.threads.set i ⟨l, ph⟩)[j]?).elim [] (·.todo.map Op.kind))) =
      ((w.log.reverse.filter (·.1 == j)).map (·.2.kind) ++ ((w.threads[j]?).elim [] (·.todo.map Op.kind))) := by
    intro op op' l ph t ht htodo hk
    have hlt := (List.getElem?_eq_some_iff.1 ht).1
    by_cases hij : i = j
    · subst hij
      rw [List.getElem?_set_self hlt, ht]
      simp [htodo, hk]
    · rw [List.getElem?_set_ne hij]
      simp [hij]
  unfold srStep at h
  split at h
  · cases h; rfl
  · cases h; rfl
  · rename_i size align l phase ht
    obtain ⟨⟨s', r⟩, -, h2⟩ := Outcome.bind_eq_ok.1 h
    cases r with
    | inl ph =>
      cases h2
      have hlt := (List.getElem?_eq_some_iff.1 ht).1
      by_cases hij : i = j
      · subst hij
        simp only
        rw [List.getElem?_set_self hlt, ht]
        rfl
      · simp only
        rw [List.getElem?_set_ne hij]
    | inr ptr =>
      cases h2
      exact key _ _ _ _ _ ht rfl rfl
  · rename_i k l phase ht
    simp only at h
    split at h
    · cases h
      exact key (.free k) _ _ _ _ ht rfl rfl
    · obtain ⟨⟨s', u⟩, -, h2⟩ := Outcome.bind_eq_ok.1 h
      cases h2
      exact key (.free k) _ _ _ _ ht rfl rfl

theorem srRun_order {is : List Nat} : ∀ {w w' : SRShared}, srRun p w is = .ok w' → ∀ j,
    ((w'.log.reverse.filter (·.1 == j)).map (·.2.kind) ++ ((w'.threads[j]?).elim [] (·.todo.map Op.kind))) =
    ((w.log.reverse.filter (·.1 == j)).map (·.2.kind) ++ ((w.threads[j]?).elim [] (·.todo.map Op.kind))) := by
  induction is with
  | nil => intro w w' h j; cases h; rfl
  | cons i is ih =>
    intro w w' h j
    obtain ⟨w1, a, b⟩ := Outcome.bind_eq_ok.1 h
    rw [ih b j, srStep_order a j]

theorem srLockedRun_order {is : List Nat} : ∀ {w w' : SRShared}, srLockedRun p w is = .ok w' → ∀ j,
    ((w'.log.reverse.filter (·.1 == j)).map (·.2.kind) ++ ((w'.threads[j]?).elim [] (·.todo.map Op.kind))) =
    ((w.log.reverse.filter (·.1 == j)).map (·.2.kind) ++ ((w.threads[j]?).elim [] (·.todo.map Op.kind))) := by
  induction is with
  | nil => intro w w' h j; cases h; rfl
  | cons i is ih =>
    intro w w' h j
    obtain ⟨w1, a, b⟩ := Outcome.bind_eq_ok.1 h
    rw [ih b j]
    unfold srLockedStep at a
    split at a
    · exact srStep_order a j
    · cases a; rfl


/-! ## Whose allocations are given back -/

theorem ownPlace_cons (x : Nat × Nat × Nat) (l : List (Nat × Nat × Nat)) (i k : Nat) :
    ownPlace (x :: l) i k = if x.1 = i then (if k = 0 then 0 else ownPlace l i (k - 1) + 1)
      else ownPlace l i k + 1 := by
  have shift : ∀ k : Nat, (((List.range l.length).filter fun j => l[j]?.any fun x => x.1 == i).map Nat.succ)[k]?.getD
      (l.length + 1) = ownPlace l i k + 1 := by
    intro k
    unfold ownPlace
    rw [List.getElem?_map]
    cases ((List.range l.length).filter fun j => l[j]?.any fun x => x.1 == i)[k]? <;> rfl
  have e : (List.range (x :: l).length).filter (fun j => (x :: l)[j]?.any fun x => x.1 == i) =
      (if x.1 = i then [0] else []) ++
        ((List.range l.length).filter fun j => l[j]?.any fun x => x.1 == i).map Nat.succ := by
    rw [List.length_cons, List.range_succ_eq_map, List.filter_cons, List.filter_map]
    have : ((fun j => (x :: l)[j]?.any fun x => x.1 == i) ∘ Nat.succ) = fun j => l[j]?.any fun x => x.1 == i := by
      funext j
      simp
    rw [this]
    by_cases h : x.1 = i <;> simp [h]
  conv => lhs; unfold ownPlace
  rw [e, List.length_cons]
  by_cases h : x.1 = i
  · rw [if_pos h, if_pos h]
    cases k with
    | zero => simp
    | succ k =>
      rw [if_neg (by omega)]
      exact shift k
  · rw [if_neg h, if_neg h, List.nil_append]
    exact shift k

theorem ownPlace_erase (l : List (Nat × Nat × Nat)) (i k : Nat) :
    (l.eraseIdx (ownPlace l i k)).filter (fun x => decide (x.1 = i)) =
      (l.filter fun x => decide (x.1 = i)).eraseIdx k ∧
    (l.eraseIdx (ownPlace l i k)).filter (fun x => decide (x.1 ≠ i)) = l.filter fun x => decide (x.1 ≠ i) := by
  induction l generalizing k with
  | nil => simp [List.eraseIdx]
  | cons x l ih =>
    rw [ownPlace_cons]
    by_cases h : x.1 = i
    · rw [if_pos h]
      cases k with
      | zero => simp [h]
      | succ k =>
        obtain ⟨h1, h2⟩ := ih k
        simp only [Nat.add_sub_cancel, Nat.succ_ne_zero, if_false, List.eraseIdx_cons_succ]
        simp [h, h1]
        simpa using h2
    · rw [if_neg h]
      obtain ⟨h1, h2⟩ := ih k
      simp [h, h1]
      simpa using h2

theorem ownPlace_get (l : List (Nat × Nat × Nat)) (i k : Nat) :
    l[ownPlace l i k]? = (l.filter fun x => decide (x.1 = i))[k]? := by
  induction l generalizing k with
  | nil => simp
  | cons x l ih =>
    rw [ownPlace_cons]
    by_cases h : x.1 = i
    · rw [if_pos h]
      cases k with
      | zero => simp [h]
      | succ k => simp [h, ih]
    · rw [if_neg h]
      simp [h, ih]
end Utils.SR
