import Verif.Spec.Dispatch

/-! # Property C101: calls through `memory_resource` reach the object's own class -/

namespace Utils.Props

open Utils.Dispatch Utils.Spec

/-- The pointers in the end. -/
theorem dispatch_run {O : Objects} {past ops : List Op} {f f' : Nat → Nat} {log : List (Nat × Nat)}
    (hf : ∀ i, f i = O.impl (O.cls (origin past i))) (h : run O f ops = .ok (f', log)) :
    ∀ i, f' i = O.impl (O.cls (origin (ops.reverse ++ past) i)) := by
  induction ops generalizing f past log with
  | nil => cases h; exact hf
  | cons op ops ih =>
    rw [List.reverse_cons, List.append_assoc]
    cases op with
    | assign a b =>
      refine ih (past := .assign a b :: past) (fun i => ?_) h
      simp only [assign, origin]
      split <;> exact hf _
    | call a =>
      obtain ⟨c, -, h⟩ := Outcome.bind_eq_ok.1 h
      obtain ⟨r, e, h⟩ := Outcome.bind_eq_ok.1 h
      cases Outcome.ok.inj h
      exact ih (past := .call a :: past) hf e

theorem dispatch_iff {O : Objects} {past ops : List Op} {f : Nat → Nat}
    (hf : ∀ i, f i = O.impl (O.cls (origin past i))) :
    (∃ r, run O f ops = .ok r) ↔
      ∀ pre i post, ops = pre ++ .call i :: post → Fitting O i (origin (pre.reverse ++ past) i) := by
  induction ops generalizing f past with
  | nil => simp [run]
  | cons op ops ih =>
    cases op with
    | assign a b =>
      have hf' : ∀ i, assign f a b i = O.impl (O.cls (origin (.assign a b :: past) i)) := fun i => by
        simp only [assign, origin]
        split <;> exact hf _
      show (∃ r, run O (assign f a b) ops = .ok r) ↔ _
      rw [ih hf']
      constructor
      · intro h pre i post e
        cases pre with
        | nil => cases e
        | cons o pre =>
          obtain ⟨rfl, e'⟩ := List.cons.inj e
          rw [List.reverse_cons, List.append_assoc]
          exact h pre i post e'
      · intro h pre i post e
        have := h (.assign a b :: pre) i post (by rw [e]; rfl)
        rw [List.reverse_cons, List.append_assoc] at this
        exact this
    | call a =>
      constructor
      · rintro ⟨r, h⟩ pre i post e
        obtain ⟨c, h1, h⟩ := Outcome.bind_eq_ok.1 h
        obtain ⟨r, h2, -⟩ := Outcome.bind_eq_ok.1 h
        cases pre with
        | nil =>
          cases e
          unfold callOn at h1
          split at h1
          · next hc => rw [hf] at hc; exact hc
          · cases h1
        | cons o pre =>
          obtain ⟨rfl, e'⟩ := List.cons.inj e
          rw [List.reverse_cons, List.append_assoc]
          exact (ih (past := .call a :: past) hf).1 ⟨r, h2⟩ pre i post e'
      · intro h
        have h0 := h [] a ops rfl
        have h1 : ∃ r, run O f ops = .ok r := (ih (past := .call a :: past) hf).2
          fun pre i post e => by
            have := h (.call a :: pre) i post (by rw [e]; rfl)
            rw [List.reverse_cons, List.append_assoc] at this
            exact this
        obtain ⟨r, h1⟩ := h1
        refine ⟨(r.1, (a, f a) :: r.2), ?_⟩
        have h2 : callOn O f a = .ok (f a) := by
          unfold callOn
          rw [hf]
          exact if_pos h0
        simp only [run, h2, h1, Outcome.ok_bind]
        rfl

/-- C101, exactly: a program runs without undefined behaviour iff at every call the object is of the
class (or derived from it) whose functions it got last, by its constructor or by assignment. -/
theorem C101_iff (O : Objects) (ops : List Op) :
    (∃ r, run O (start O) ops = .ok r) ↔
      ∀ pre i post, ops = pre ++ .call i :: post → Fitting O i (origin pre.reverse i) := by
  have := dispatch_iff (O := O) (past := []) (ops := ops) (f := start O) fun i => rfl
  simpa only [List.append_nil] using this

/-- What the calls reach. -/
theorem C101_reaches {O : Objects} {ops : List Op} {f : Nat → Nat} {log : List (Nat × Nat)}
    (h : run O (start O) ops = .ok (f, log)) (i : Nat) :
    f i = O.impl (O.cls (origin ops.reverse i)) := by
  have := dispatch_run (past := []) (fun i => rfl) h i
  rwa [List.append_nil] at this

theorem run_own {O : Objects} {ops : List Op} {f : Nat → Nat}
    (hf : ∀ i, f i = O.impl (O.cls i)) (hO : ∀ c, O.isA c (O.impl c) = true)
    (hs : ∀ i j, Op.assign i j ∈ ops → O.cls i = O.cls j) :
    ∃ f' log, run O f ops = .ok (f', log) ∧
      log = ops.filterMap fun | .call i => some (i, O.impl (O.cls i)) | _ => none := by
  induction ops generalizing f with
  | nil => exact ⟨f, [], rfl, rfl⟩
  | cons op ops ih =>
    have hs' : ∀ i j, Op.assign i j ∈ ops → O.cls i = O.cls j :=
      fun i j h => hs i j (List.mem_cons_of_mem _ h)
    cases op with
    | assign a b =>
      refine ih (fun i => ?_) hs'
      simp only [assign]
      split
      · next e => rw [hf, e, hs a b (List.mem_cons_self ..)]
      · exact hf i
    | call a =>
      obtain ⟨f', log, h, hl⟩ := ih hf hs'
      refine ⟨f', (a, f a) :: log, ?_, ?_⟩
      · have h2 : callOn O f a = .ok (f a) := by
          unfold callOn
          rw [hf]
          exact if_pos (hO _)
        simp only [run, h2, h, Outcome.ok_bind]
        rfl
      · rw [hl, hf]
        rfl

/-- C101: if resources are assigned to resources of their own class only, every call is defined and runs
the implementation of the object's own class.  Missing: assignments through `memory_resource &` between
classes, which compile (`C101_counterexample`). -/
theorem C101_own_partial {O : Objects} (hO : ∀ c, O.isA c (O.impl c) = true) {ops : List Op}
    (hs : ∀ i j, Op.assign i j ∈ ops → O.cls i = O.cls j) :
    ∃ f log, run O (start O) ops = .ok (f, log) ∧
      log = ops.filterMap fun | .call i => some (i, O.impl (O.cls i)) | _ => none :=
  run_own (fun _ => rfl) hO hs

/-- Two monotonic resources (0, 2) and a pool (1). -/
def threeObjects : Objects where
  cls := fun i => i % 2
  impl := id
  isA := fun c d => c == d

example : (run threeObjects (start threeObjects) [.call 0, .assign 0 2, .call 0, .call 1]).map Prod.snd =
    .ok [(0, 0), (0, 0), (1, 1)] := by decide

/-- C101 fails: after `static_cast<memory_resource &>(mono) = pool` the next call of `mono` runs the
functions of the pool on an object that is none; assigning another `monotonic_buffer_resource` makes it
right again. -/
theorem C101_counterexample :
    (run threeObjects (start threeObjects) [.assign 0 1, .call 0]).map Prod.snd = .ub ∧
    (run threeObjects (start threeObjects) [.assign 0 1, .assign 0 2, .call 0]).map Prod.snd =
      .ok [(0, 0)] := by decide

/-- A program that is fine although it assigns between classes, as `C101_iff` says. -/
example : ∃ r, run threeObjects (start threeObjects) [.assign 0 1, .assign 0 2, .call 0] = .ok r := by
  rw [C101_iff]
  intro pre i post e
  match pre with
  | [] | [_] => simp at e
  | [_, _] =>
    simp at e
    obtain ⟨rfl, rfl, rfl, -⟩ := e
    exact rfl
  | _ :: _ :: _ :: _ => simp at e

end Utils.Props
