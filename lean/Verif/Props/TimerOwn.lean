import Verif.Spec.TimerOwn
import Verif.Props.Objects

/-! # The callable inside a timer (C109, C110) -/

namespace Utils.Props

open Utils.Objects

variable {cls : Nat → CallableClass} {clock : Nat → Int} {n : Nat}

/-- The state after a history without trouble. -/
structure OwnInv (clock : Nat → Int) (n : Nat) (before : List TOp) (o : OwnWorld) : Prop where
  w : o.w = trun clock (noTimers n) before
  native : ∀ i, o.native i = !cameByMove clock n i before.reverse
  alive : o.alive = o.w.created

theorem trun_snoc (w : TWorld) (ops : List TOp) (op : TOp) :
    trun clock w (ops ++ [op]) = tstep clock (trun clock w ops) op := by
  simp [trun, List.foldl_append]

theorem ostep_spec {before : List TOp} {o : OwnWorld} (h : OwnInv clock n before o) (op : TOp) :
    match trouble cls clock n before op with
    | .nothing => ∃ o', ostep cls clock o op = .ok o' ∧ OwnInv clock n (before ++ [op]) o'
    | .throws => ostep cls clock o op = .aborted
    | .bytes => ostep cls clock o op = .ub := by
  obtain ⟨h1, h2, h3⟩ := h
  have hw : ∀ o' : OwnWorld, o'.w = tstep clock o.w op → o'.w = trun clock (noTimers n) (before ++ [op]) := by
    intro o' e
    rw [trun_snoc, ← h1, e]
  cases op with
  | make i cb =>
    simp only [trouble, ostep, ← h1]
    by_cases hf : o.w.timers[i]? = some none
    · by_cases hc : (cls cb.kind).copyThrows cb.state = true
      · rw [if_pos ⟨hf, hc⟩, if_pos hf, if_pos hc]
      · rw [if_neg (fun h => hc h.2), if_pos hf, if_neg hc]
        refine ⟨_, rfl, hw _ rfl, fun k => ?_, ?_⟩
        · simp only [List.reverse_append, List.reverse_cons, List.reverse_nil, List.nil_append,
            List.singleton_append, cameByMove, List.reverse_reverse, ← h1]
          by_cases hk : k = i
          · subst hk; simp [hf]
          · rw [if_neg hk, if_neg (fun h => hk h.1.symm), h2]
        · simp [tstep, hf, h3]
    · rw [if_neg (fun h => hf h.1), if_neg hf]
      refine ⟨_, rfl, ?_, fun k => ?_, h3⟩
      · rw [trun_snoc, ← h1]; simp [tstep, hf]
      · simp only [List.reverse_append, List.reverse_cons, List.reverse_nil, List.nil_append,
          List.singleton_append, cameByMove, List.reverse_reverse, ← h1]
        rw [if_neg, h2]
        rintro ⟨rfl, h⟩
        exact hf h
  | moveConstruct i j =>
    simp only [trouble, ostep]
    by_cases hf : o.w.timers[i]? = some none ∧ (at? o.w.timers j).isSome = true
    · rw [if_pos hf]
      refine ⟨_, rfl, hw _ rfl, fun k => ?_, ?_⟩
      · simp only [List.reverse_append, List.reverse_cons, List.reverse_nil, List.nil_append,
          List.singleton_append, cameByMove, List.reverse_reverse, ← h1]
        by_cases hk : k = i
        · subst hk; simp [hf]
        · rw [if_neg hk, if_neg (fun h => hk h.1.symm), h2]
      · simp [tstep, hf, h3]
    · rw [if_neg hf]
      refine ⟨_, rfl, ?_, fun k => ?_, h3⟩
      · rw [trun_snoc, ← h1]
        simp only [tstep]
        split
        · rename_i h
          have : at? o.w.timers j = none := by
            cases e : at? o.w.timers j with
            | none => rfl
            | some x => exact absurd ⟨h, by rw [e]; rfl⟩ hf
          simp [moveConstruct, this]
        · rfl
      · simp only [List.reverse_append, List.reverse_cons, List.reverse_nil, List.nil_append,
          List.singleton_append, cameByMove, List.reverse_reverse, ← h1]
        rw [if_neg, h2]
        rintro ⟨rfl, h⟩
        exact hf h
  | moveAssign i j =>
    simp only [trouble, ostep]
    cases hi : at? o.w.timers i with
    | none =>
      refine ⟨_, rfl, ?_, fun k => ?_, h3⟩
      · rw [trun_snoc, ← h1]; simp [tstep, hi]
      · simp only [List.reverse_append, List.reverse_cons, List.reverse_nil, List.nil_append,
          List.singleton_append, cameByMove, List.reverse_reverse, ← h1]
        rw [if_neg, h2]
        rintro ⟨rfl, h, -⟩
        rw [hi] at h; cases h
    | some x =>
      cases hj : at? o.w.timers j with
      | none =>
        refine ⟨_, rfl, ?_, fun k => ?_, h3⟩
        · rw [trun_snoc, ← h1]; simp [tstep, hi, hj]
        · simp only [List.reverse_append, List.reverse_cons, List.reverse_nil, List.nil_append,
            List.singleton_append, cameByMove, List.reverse_reverse, ← h1]
          rw [if_neg, h2]
          rintro ⟨rfl, -, h⟩
          rw [hj] at h; cases h
      | some y =>
        refine ⟨_, rfl, hw _ rfl, fun k => ?_, ?_⟩
        · simp only [List.reverse_append, List.reverse_cons, List.reverse_nil, List.nil_append,
            List.singleton_append, cameByMove, List.reverse_reverse, ← h1]
          by_cases hk : k = i
          · subst hk; simp [hi, hj]
          · rw [if_neg hk, if_neg (fun h => hk h.1.symm), h2]
        · simp [tstep, hi, hj, h3]
  | reset i =>
    refine ⟨_, rfl, hw _ rfl, fun k => ?_, ?_⟩
    · simp [cameByMove, h2]
    · simp [tstep, h3]
  | destroy i =>
    have key : OwnInv clock n (before ++ [.destroy i]) ⟨tstep clock o.w (.destroy i), o.native, o.alive⟩ := by
      refine ⟨hw _ rfl, fun k => ?_, ?_⟩
      · simp [cameByMove, h2]
      · simp only [tstep]; split <;> exact h3
    simp only [trouble, ostep, ← h1]
    cases e : (at? o.w.timers i).bind Timer.finish with
    | none => exact ⟨_, rfl, key⟩
    | some cb =>
      simp only
      by_cases hb : (cls cb.kind).trivial = false ∧ cameByMove clock n i before.reverse = true
      · rw [if_pos hb, if_pos (by simp [hb, h2])]
      · have hb' : ¬(!(cls cb.kind).trivial && !o.native i) = true := by
          intro h; apply hb; simpa [h2] using h
        rw [if_neg hb, if_neg hb']
        by_cases hc : (cls cb.kind).callThrows cb.state = true
        · rw [if_pos hc, if_pos hc]
        · rw [if_neg hc, if_neg hc]; exact ⟨_, rfl, key⟩

theorem orun_spec : ∀ (ops before : List TOp) (o : OwnWorld), OwnInv clock n before o →
    match firstTrouble cls clock n before ops with
    | .nothing => ∃ o', orun cls clock o ops = .ok o' ∧ OwnInv clock n (before ++ ops) o'
    | .throws => orun cls clock o ops = .aborted
    | .bytes => orun cls clock o ops = .ub
  | [], before, o, h => ⟨o, rfl, by simpa using h⟩
  | op :: ops, before, o, h => by
    have hs := ostep_spec (cls := cls) h op
    unfold firstTrouble
    cases e : trouble cls clock n before op with
    | nothing =>
      rw [e] at hs
      obtain ⟨o', e1, h1⟩ := hs
      have := orun_spec ops (before ++ [op]) o' h1
      simp only [orun, e1, Outcome.ok_bind]
      simpa using this
    | throws =>
      rw [e] at hs
      simp only [orun, hs]
      rfl
    | bytes =>
      rw [e] at hs
      simp only [orun, hs]
      rfl

theorem ownInv_init : OwnInv clock n [] (OwnWorld.init n) :=
  ⟨rfl, fun _ => rfl, rfl⟩

/-- C109 and C110 decided for every history: it ends well, with exactly the callbacks of C61 invoked, iff
no exception is thrown and no callable that is not trivially copyable is called in a timer that it came to
by a move.  Otherwise the first such event ends it, with `std::terminate` or undefined behaviour. -/
theorem C109_iff (cls : Nat → CallableClass) (clock : Nat → Int) (n : Nat) (ops : List TOp) :
    match firstTrouble cls clock n [] ops with
    | .nothing => ∃ o, orun cls clock (OwnWorld.init n) ops = .ok o ∧ o.w = trun clock (noTimers n) ops
    | .throws => orun cls clock (OwnWorld.init n) ops = .aborted
    | .bytes => orun cls clock (OwnWorld.init n) ops = .ub := by
  have h := orun_spec (cls := cls) (clock := clock) (n := n) ops [] _ ownInv_init
  split at h
  · obtain ⟨o, e, h⟩ := h
    exact ⟨o, e, h.w⟩
  · exact h
  · exact h

/-- A class that is copied as its bytes and never throws, one that owns something (say a string), and one
whose call throws for the state 0. -/
def ownDemo : Nat → CallableClass
  | 0 => ⟨true, fun _ => false, fun _ => false⟩
  | 1 => ⟨false, fun _ => false, fun _ => false⟩
  | _ => ⟨true, fun s => s == 1, fun s => s == 0⟩

example : firstTrouble ownDemo (fun k => k) 3 []
      [.make 0 ⟨0, 10⟩, .make 1 ⟨1, 20⟩, .moveConstruct 2 0, .destroy 0, .destroy 2, .destroy 1] = .nothing ∧
    firstTrouble ownDemo (fun k => k) 3 []
      [.make 0 ⟨0, 10⟩, .make 1 ⟨1, 20⟩, .moveConstruct 2 1, .destroy 0, .destroy 2] = .bytes ∧
    firstTrouble ownDemo (fun k => k) 3 [] [.make 0 ⟨2, 7⟩, .make 1 ⟨2, 0⟩, .destroy 0, .destroy 1] =
      .throws := by decide

/-- If every class of callables is trivially copyable and neither its copies nor its calls throw, every
history ends well and invokes exactly what C61 says.  (The full claim has no condition on the classes:
the timer is to move and to destroy what it stores, and to let exceptions out.  It is false, see
`C109_counterexample`, `C109_leak` and `C110_counterexample`.) -/
theorem C109_trivial_partial (cls : Nat → CallableClass) (clock : Nat → Int) (n : Nat) (ops : List TOp)
    (ht : ∀ k, (cls k).trivial = true)
    (hn : ∀ k s, (cls k).copyThrows s = false ∧ (cls k).callThrows s = false) :
    ∃ o, orun cls clock (OwnWorld.init n) ops = .ok o ∧ o.w = trun clock (noTimers n) ops := by
  have h : ∀ (ops before : List TOp), firstTrouble cls clock n before ops = .nothing := by
    intro ops
    induction ops with
    | nil => intro before; rfl
    | cons op ops ih =>
      intro before
      have : trouble cls clock n before op = .nothing := by
        cases op with
        | make i cb => simp [trouble, hn]
        | destroy i => simp only [trouble]; split <;> simp [ht, hn]
        | moveConstruct i j => rfl
        | moveAssign i j => rfl
        | reset i => rfl
      simp only [firstTrouble, this, ih]
  have := C109_iff cls clock n ops
  rw [h ops []] at this
  exact this

example : ∃ o, orun (fun _ => ownDemo 0) (fun k => k) (OwnWorld.init 3)
    [.make 0 ⟨0, 10⟩, .moveConstruct 2 0, .destroy 0, .destroy 2] = .ok o ∧ o.w.fired = [⟨0, 10⟩] :=
  ⟨_, rfl, by decide⟩

/-- Callables of any class may be stored if no timer that holds one is moved: as long as nothing throws,
such a history ends well. -/
theorem C109_unmoved (cls : Nat → CallableClass) (clock : Nat → Int) (n : Nat) (ops : List TOp)
    (hm : ∀ i j, TOp.moveConstruct i j ∉ ops ∧ TOp.moveAssign i j ∉ ops)
    (hn : ∀ k s, (cls k).copyThrows s = false ∧ (cls k).callThrows s = false) :
    ∃ o, orun cls clock (OwnWorld.init n) ops = .ok o ∧ o.w = trun clock (noTimers n) ops := by
  -- a timer that is there was made, and nothing was moved since
  have hcame : ∀ (ops : List TOp), (∀ i j, TOp.moveConstruct i j ∉ ops ∧ TOp.moveAssign i j ∉ ops) →
      ∀ i t, at? (trun clock (noTimers n) ops.reverse).timers i = some t →
        cameByMove clock n i ops = false := by
    intro ops
    induction ops with
    | nil =>
      intro _ i t h
      exfalso
      simp only [List.reverse_nil, trun, List.foldl_nil, noTimers, at?] at h
      rw [List.getElem?_replicate] at h
      split at h <;> simp at h
    | cons op ops ih =>
      intro hm i t h
      have hm' : ∀ i j, TOp.moveConstruct i j ∉ ops ∧ TOp.moveAssign i j ∉ ops := fun i j =>
        ⟨fun h => (hm i j).1 (by simp [h]), fun h => (hm i j).2 (by simp [h])⟩
      rw [List.reverse_cons, trun_snoc] at h
      cases op with
      | make k cb =>
        simp only [cameByMove]
        split
        · rfl
        · rename_i hk
          simp only [tstep] at h
          split at h
          · rename_i hf
            have hne : k ≠ i := fun e => hk ⟨e, by rw [← e]; exact hf⟩
            refine ih hm' i t ?_
            rw [at?_set, if_neg (fun hc => hne hc.1)] at h
            exact h
          · exact ih hm' i t h
      | moveConstruct k j => exact absurd (by simp) (hm k j).1
      | moveAssign k j => exact absurd (by simp) (hm k j).2
      | reset k =>
        simp only [cameByMove]
        simp only [tstep] at h
        rcases hx : at? (trun clock (noTimers n) ops.reverse).timers i with _ | x
        · exfalso
          cases hy : at? (trun clock (noTimers n) ops.reverse).timers k with
          | none => rw [modify_none hy, hx] at h; cases h
          | some y =>
            rw [modify_eq hy, at?_set] at h
            split at h
            · rename_i e
              rw [← e.1, hy] at hx
              cases hx
            · rw [hx] at h; cases h
        · exact ih hm' i x hx
      | destroy k =>
        simp only [cameByMove]
        simp only [tstep] at h
        split at h
        all_goals
          first
          | exact ih hm' i t h
          | (refine ih hm' i t ?_
             simp only [] at h
             rw [at?_set] at h
             split at h
             · cases h
             · exact h)
  have h : ∀ (ops before : List TOp),
      (∀ i j, TOp.moveConstruct i j ∉ ops ∧ TOp.moveAssign i j ∉ ops) →
      (∀ i j, TOp.moveConstruct i j ∉ before ∧ TOp.moveAssign i j ∉ before) →
      firstTrouble cls clock n before ops = .nothing := by
    intro ops
    induction ops with
    | nil => intro before _ _; rfl
    | cons op ops ih =>
      intro before h1 h2
      have : trouble cls clock n before op = .nothing := by
        cases op with
        | make i cb => simp [trouble, hn]
        | destroy i =>
          simp only [trouble]
          split
          · rfl
          · rename_i cb e
            obtain ⟨t, ht, -⟩ := Option.bind_eq_some_iff.1 e
            have := hcame before.reverse (by simpa using h2) i t (by simpa using ht)
            simp [this, hn]
        | moveConstruct i j => rfl
        | moveAssign i j => rfl
        | reset i => rfl
      simp only [firstTrouble, this]
      refine ih _ (fun i j => ⟨fun h => (h1 i j).1 (by simp [h]), fun h => (h1 i j).2 (by simp [h])⟩) ?_
      intro i j
      refine ⟨fun h => ?_, fun h => ?_⟩
      · rcases List.mem_append.1 h with h | h
        · exact (h2 i j).1 h
        · exact (h1 i j).1 (by simp_all)
      · rcases List.mem_append.1 h with h | h
        · exact (h2 i j).2 h
        · exact (h1 i j).2 (by simp_all)
  have := C109_iff cls clock n ops
  rw [h ops [] hm (by simp)] at this
  exact this

example : ∃ o, orun (fun _ => ownDemo 1) (fun k => k) (OwnWorld.init 2)
    [.make 0 ⟨1, 10⟩, .make 1 ⟨1, 20⟩, .reset 0, .destroy 1, .destroy 0] = .ok o ∧
    o.w.fired = [⟨1, 10⟩, ⟨1, 20⟩] := ⟨_, rfl, by decide⟩

/-- No callable is ever destroyed: after any history that ends well, every callable that was constructed
in a timer is still alive, although all timers may be gone. -/
theorem C109_leak (cls : Nat → CallableClass) (clock : Nat → Int) (n : Nat) (ops : List TOp) {o : OwnWorld}
    (h : orun cls clock (OwnWorld.init n) ops = .ok o) :
    o.alive = (trun clock (noTimers n) ops).created := by
  have hs := orun_spec (cls := cls) (clock := clock) (n := n) ops [] _ ownInv_init
  rw [h] at hs
  split at hs
  · obtain ⟨o', e, hi⟩ := hs
    cases e
    rw [hi.alive, hi.w]
    rfl
  · cases hs
  · cases hs

example : ∃ o, orun ownDemo (fun k => k) (OwnWorld.init 1) [.make 0 ⟨1, 10⟩, .destroy 0] = .ok o ∧
    o.alive = [⟨1, 10⟩] ∧ at? o.w.timers 0 = none := ⟨_, rfl, by decide⟩

/-- A timer that holds a callable owning something is moved, and then it fires. -/
theorem C109_counterexample :
    orun ownDemo (fun k => k) (OwnWorld.init 2)
      [.make 0 ⟨1, 10⟩, .moveConstruct 1 0, .destroy 0, .destroy 1] = .ub := rfl

/-- C110 decided: for callables that are copied as their bytes, the program is ended by `std::terminate`
iff a copy made for a timer, or a call made by the destructor of a timer, throws; it never gets to see
the exception. -/
theorem C110_iff (cls : Nat → CallableClass) (clock : Nat → Int) (n : Nat) (ops : List TOp)
    (ht : ∀ k, (cls k).trivial = true) :
    (orun cls clock (OwnWorld.init n) ops = .aborted ↔
      ∃ before op after, ops = before ++ op :: after ∧
        ((∃ i cb, op = .make i cb ∧ (trun clock (noTimers n) before).timers[i]? = some none ∧
            (cls cb.kind).copyThrows cb.state = true) ∨
         (∃ i t cb, op = .destroy i ∧ at? (trun clock (noTimers n) before).timers i = some t ∧
            t.finish = some cb ∧ (cls cb.kind).callThrows cb.state = true))) ∧
    ((∃ o, orun cls clock (OwnWorld.init n) ops = .ok o) ∨
      orun cls clock (OwnWorld.init n) ops = .aborted) := by
  have key : ∀ (ops before : List TOp),
      (firstTrouble cls clock n before ops = .throws ↔
        ∃ b op a, ops = b ++ op :: a ∧ trouble cls clock n (before ++ b) op = .throws) ∧
      firstTrouble cls clock n before ops ≠ .bytes := by
    intro ops
    induction ops with
    | nil =>
      intro before
      refine ⟨⟨fun h => (by cases h), ?_⟩, fun h => (by cases h)⟩
      rintro ⟨b, op, a, h, -⟩
      cases b <;> cases h
    | cons op ops ih =>
      intro before
      have hb : trouble cls clock n before op ≠ .bytes := by
        cases op with
        | make i cb => simp only [trouble]; split <;> simp
        | destroy i =>
          simp only [trouble]
          split
          · simp
          · rw [if_neg (by simp [ht])]; split <;> simp
        | _ => simp [trouble]
      cases e : trouble cls clock n before op with
      | nothing =>
        simp only [firstTrouble, e]
        refine ⟨(ih _).1.trans ⟨?_, ?_⟩, (ih _).2⟩
        · rintro ⟨b, op', a, rfl, h⟩
          exact ⟨op :: b, op', a, rfl, by simpa using h⟩
        · rintro ⟨b, op', a, h, ht⟩
          cases b with
          | nil =>
            simp only [List.nil_append, List.cons.injEq] at h
            rw [← h.1, List.append_nil, e] at ht
            cases ht
          | cons x b =>
            simp only [List.cons_append, List.cons.injEq] at h
            exact ⟨b, op', a, h.2, by rw [h.1]; simpa using ht⟩
      | throws =>
        simp only [firstTrouble, e]
        exact ⟨⟨fun _ => ⟨[], op, ops, rfl, by simpa using e⟩, fun _ => trivial⟩, by simp⟩
      | bytes => exact absurd e hb
  have hev : ∀ before op, trouble cls clock n before op = .throws ↔
      ((∃ i cb, op = .make i cb ∧ (trun clock (noTimers n) before).timers[i]? = some none ∧
            (cls cb.kind).copyThrows cb.state = true) ∨
         (∃ i t cb, op = .destroy i ∧ at? (trun clock (noTimers n) before).timers i = some t ∧
            t.finish = some cb ∧ (cls cb.kind).callThrows cb.state = true)) := by
    intro before op
    cases op with
    | make i cb =>
      simp only [trouble]
      constructor
      · intro h
        split at h
        · rename_i hc; exact .inl ⟨i, cb, rfl, hc⟩
        · cases h
      · rintro (⟨i', cb', e, hc⟩ | ⟨_, _, _, e, -⟩)
        · cases e; rw [if_pos hc]
        · cases e
    | destroy i =>
      simp only [trouble]
      cases ha : at? (trun clock (noTimers n) before).timers i with
      | none => simp [ha]
      | some t =>
        cases hf : t.finish with
        | none => simp [ha, hf]
        | some cb => simp [ha, hf, ht]
    | _ => simp [trouble]
  have h := C109_iff cls clock n ops
  obtain ⟨k1, k2⟩ := key ops []
  cases e : firstTrouble cls clock n [] ops with
  | nothing =>
    rw [e] at h
    obtain ⟨o, h, -⟩ := h
    refine ⟨⟨fun ha => (by rw [h] at ha; cases ha), ?_⟩, .inl ⟨o, h⟩⟩
    rintro ⟨b, op, a, hs, ht⟩
    have := k1.2 ⟨b, op, a, hs, by simpa using (hev b op).2 ht⟩
    rw [e] at this; cases this
  | throws =>
    rw [e] at h
    refine ⟨⟨fun _ => ?_, fun _ => h⟩, .inr h⟩
    obtain ⟨b, op, a, hs, ht⟩ := k1.1 e
    exact ⟨b, op, a, hs, (hev b op).1 (by simpa using ht)⟩
  | bytes => exact absurd e k2

example : ∀ k, ((fun _ => ownDemo 2 : Nat → CallableClass) k).trivial = true := fun _ => rfl

/-- A callable whose call throws ends the program, and so does one whose copy throws. -/
theorem C110_counterexample :
    orun ownDemo (fun k => k) (OwnWorld.init 1) [.make 0 ⟨2, 0⟩, .destroy 0] = .aborted ∧
    orun ownDemo (fun k => k) (OwnWorld.init 1) [.make 0 ⟨2, 1⟩] = .aborted := ⟨rfl, rfl⟩

/-- As long as nothing throws, no exception ends the program, whatever the classes.  (The full claim, that
an exception thrown by the callable reaches the caller, is false: `C110_counterexample`.) -/
theorem C110_partial (cls : Nat → CallableClass) (clock : Nat → Int) (n : Nat) (ops : List TOp)
    (hn : ∀ k s, (cls k).copyThrows s = false ∧ (cls k).callThrows s = false) :
    orun cls clock (OwnWorld.init n) ops ≠ .aborted := by
  have h : ∀ (ops before : List TOp), firstTrouble cls clock n before ops ≠ .throws := by
    intro ops
    induction ops with
    | nil => intro before; simp [firstTrouble]
    | cons op ops ih =>
      intro before
      have : trouble cls clock n before op ≠ .throws := by
        cases op with
        | make i cb => simp [trouble, hn]
        | destroy i =>
          simp only [trouble]
          split
          · simp
          · rw [(hn _ _).2]; split <;> simp
        | _ => simp [trouble]
      cases e : trouble cls clock n before op with
      | nothing => simp only [firstTrouble, e]; exact ih _
      | throws => exact absurd e this
      | bytes => simp [firstTrouble, e]
  have hs := C109_iff cls clock n ops
  split at hs
  · obtain ⟨o, e, -⟩ := hs
    rw [e]; simp
  · rename_i e; exact absurd e (h ops [])
  · rw [hs]; simp

example : ∀ k s, ((fun _ => ownDemo 1 : Nat → CallableClass) k).copyThrows s = false ∧
    ((fun _ => ownDemo 1 : Nat → CallableClass) k).callThrows s = false := fun _ _ => ⟨rfl, rfl⟩

end Utils.Props
