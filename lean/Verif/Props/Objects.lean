import Verif.Proofs.Objects

/-! # Properties C61–C63: timer and fast_pimpl -/

namespace Utils.Props

open Utils.Objects

/-! ## C61 -/

/-- For every history of timers: the callbacks handed to constructors are, counted with multiplicity,
those already invoked, those still held by a live timer, and those held by a timer at the moment it
was move-assigned to.  So no callback is ever invoked twice. -/
theorem C61_conservation (clock : Nat → Int) (n : Nat) (ops : List TOp) :
    (trun clock (noTimers n) ops).created.Perm
      ((trun clock (noTimers n) ops).fired ++
        (armed (trun clock (noTimers n) ops).timers ++ (trun clock (noTimers n) ops).overwritten)) := by
  refine trun_conserved clock ops _ ?_
  rw [armed_noTimers]
  simp [noTimers]

/-- A history with two timers, one moved and destroyed. -/
def tDemo : List TOp :=
  [.make 0 ⟨1, 10⟩, .make 1 ⟨2, 20⟩, .moveConstruct 2 0, .destroy 0, .destroy 2]

example : (trun (fun k => k) (noTimers 3) tDemo).created = [⟨2, 20⟩, ⟨1, 10⟩] ∧
    (trun (fun k => k) (noTimers 3) tDemo).fired = [⟨1, 10⟩] ∧
    armed (trun (fun k => k) (noTimers 3) tDemo).timers = [⟨2, 20⟩] := by decide

/-- If no timer that held a callback was ever move-assigned to and all timers are gone, every callback
was invoked exactly as often as it was handed over.  (The full claim has no condition on assignments;
it is false, see `C61_counterexample_assign` and `C61_counterexample_self`.) -/
theorem C61_once_partial (clock : Nat → Int) (n : Nat) (ops : List TOp)
    (hover : (trun clock (noTimers n) ops).overwritten = [])
    (hdead : ∀ i, at? (trun clock (noTimers n) ops).timers i = none) (cb : Callback) :
    (trun clock (noTimers n) ops).fired.count cb = (trun clock (noTimers n) ops).created.count cb := by
  have h := (C61_conservation clock n ops).count_eq cb
  have ha : armed (trun clock (noTimers n) ops).timers = [] := by
    unfold armed
    rw [List.flatMap_eq_nil_iff]
    intro o ho
    obtain ⟨k, hk⟩ := List.getElem?_of_mem ho
    have := hdead k
    unfold at? at this
    rw [hk] at this
    have ho : o = none := this
    subst ho
    rfl
  rw [ha, hover] at h
  simpa using h.symm

/-- Histories without move assignment meet the condition. -/
theorem C61_overwritten (clock : Nat → Int) : ∀ (ops : List TOp) (w : TWorld),
    (∀ i j, TOp.moveAssign i j ∉ ops) → (trun clock w ops).overwritten = w.overwritten
  | [], _, _ => rfl
  | op :: ops, w, h => by
    show (trun clock (tstep clock w op) ops).overwritten = _
    rw [C61_overwritten clock ops _ fun i j hm => h i j (by simp [hm])]
    cases op with
    | make i cb => simp only [tstep]; split <;> rfl
    | moveConstruct i j => simp only [tstep]; split <;> rfl
    | moveAssign i j => exact absurd (by simp) (h i j)
    | reset i => rfl
    | destroy i => simp only [tstep]; split <;> rfl

example : (trun (fun k => k) (noTimers 3) (tDemo ++ [.destroy 1])).overwritten = [] ∧
    (∀ i < 3, at? (trun (fun k => k) (noTimers 3) (tDemo ++ [.destroy 1])).timers i = none) ∧
    (trun (fun k => k) (noTimers 3) (tDemo ++ [.destroy 1])).fired = [⟨2, 20⟩, ⟨1, 10⟩] := by decide

/-- A timer's callback is invoked by its destructor and by nothing else. -/
theorem C61_when (clock : Nat → Int) (w : TWorld) (op : TOp) :
    (tstep clock w op).fired =
      (match op with
        | .destroy i => ((at? w.timers i).bind Timer.finish).toList
        | _ => []) ++ w.fired := by
  cases op with
  | make i cb => simp only [tstep]; split <;> rfl
  | moveConstruct i j => simp only [tstep]; split <;> rfl
  | moveAssign i j => simp only [tstep]; split <;> rfl
  | reset i => rfl
  | destroy i => simp only [tstep]; split <;> next h => simp [h]

/-- After a move the destination holds what the source held, and the source holds nothing. -/
theorem C61_moved (clock : Nat → Int) (w : TWorld) {i j : Nat} {o : Timer} (hij : i ≠ j)
    (hj : at? w.timers j = some o) {op : TOp}
    (hop : (op = .moveConstruct i j ∧ w.timers[i]? = some none) ∨
      (op = .moveAssign i j ∧ ∃ t, at? w.timers i = some t)) :
    (at? (tstep clock w op).timers i).bind Timer.finish = o.finish ∧
    (at? (tstep clock w op).timers j).bind Timer.finish = none := by
  have key : ∀ s : List (Option Timer), i < w.timers.length →
      s = (w.timers.set i (some o)).set j (some { o with callback := none }) →
      (at? s i).bind Timer.finish = o.finish ∧ (at? s j).bind Timer.finish = none := by
    intro s hi hs
    subst hs
    refine ⟨?_, ?_⟩
    · rw [at?_set, if_neg (fun hc => hij hc.1.symm), at?_set, if_pos ⟨rfl, hi⟩]
      rfl
    · rw [at?_set, if_pos ⟨rfl, by simpa using at?_lt hj⟩]
      rfl
  rcases hop with ⟨rfl, hi⟩ | ⟨rfl, t, hi⟩
  · refine key _ (List.getElem?_eq_some_iff.1 hi).1 ?_
    simp only [tstep, hi, if_true]
    exact moveConstruct_eq hi hj
  · refine key _ (at?_lt hi) ?_
    simp only [tstep, hi, hj]
    exact moveAssign_ne hij hi hj

example : (at? (trun (fun k => k) (noTimers 3) (tDemo.take 3)).timers 2).bind Timer.finish =
    some ⟨1, 10⟩ ∧
    (at? (trun (fun k => k) (noTimers 3) (tDemo.take 3)).timers 0).bind Timer.finish = none := by decide

/-- A timer that holds nothing invokes nothing when it is destroyed, however often it was moved from
or reset in between, unless another timer is assigned to it. -/
theorem C61_moved_from_silent (clock : Nat → Int) {j : Nat} : ∀ (ops : List TOp) (w : TWorld) (t : Timer),
    at? w.timers j = some t → t.callback = none →
    (∀ op ∈ ops, op ≠ .destroy j ∧ ∀ k, op ≠ .moveAssign j k) →
    (tstep clock (trun clock w ops) (.destroy j)).fired = (trun clock w ops).fired
  | [], w, t, ht, hcb, _ => by
    rw [C61_when]
    show ((at? w.timers j).bind Timer.finish).toList ++ w.fired = w.fired
    rw [ht]
    simp [Timer.finish, hcb]
  | op :: ops, w, t, ht, hcb, hops => by
    obtain ⟨hd, hm⟩ := hops op (by simp)
    suffices ∃ t', at? (tstep clock w op).timers j = some t' ∧ t'.callback = none by
      obtain ⟨t', h1, h2⟩ := this
      exact C61_moved_from_silent clock ops (tstep clock w op) t' h1 h2
        fun o ho => hops o (by simp [ho])
    have hget : w.timers[j]? = some (some t) := at?_eq_some.1 ht
    cases op with
    | make i cb =>
      simp only [tstep]
      split
      · next hi =>
        have hne : i ≠ j := fun e => by rw [e, hget] at hi; cases hi
        exact ⟨t, by rw [at?_set, if_neg (fun hc => hne hc.1)]; exact ht, hcb⟩
      · exact ⟨t, ht, hcb⟩
    | moveConstruct i k =>
      simp only [tstep]
      split
      · next hi =>
        have hne : i ≠ j := fun e => by rw [e, hget] at hi; cases hi
        cases hk : at? w.timers k with
        | none =>
          unfold moveConstruct
          rw [hk]
          exact ⟨t, ht, hcb⟩
        | some o =>
          rw [moveConstruct_eq hi hk, at?_set]
          split
          · exact ⟨_, rfl, rfl⟩
          · rw [at?_set, if_neg (fun hc => hne hc.1)]
            exact ⟨t, ht, hcb⟩
      · exact ⟨t, ht, hcb⟩
    | moveAssign i k =>
      have hne : i ≠ j := fun e => hm k (by rw [e])
      simp only [tstep]
      cases hi : at? w.timers i with
      | none => exact ⟨t, ht, hcb⟩
      | some ti =>
        cases hk : at? w.timers k with
        | none => exact ⟨t, ht, hcb⟩
        | some o =>
          by_cases hik : i = k
          · subst hik
            simp only
            rw [moveAssign_self hi, at?_set, if_neg (fun hc => hne hc.1)]
            exact ⟨t, ht, hcb⟩
          · simp only
            rw [moveAssign_ne hik hi hk, at?_set]
            split
            · exact ⟨_, rfl, rfl⟩
            · rw [at?_set, if_neg (fun hc => hne hc.1)]
              exact ⟨t, ht, hcb⟩
    | reset i =>
      simp only [tstep]
      by_cases hij : i = j
      · subst hij
        rw [modify_eq ht, at?_set, if_pos ⟨rfl, at?_lt ht⟩]
        exact ⟨_, rfl, hcb⟩
      · cases hi : at? w.timers i with
        | none => rw [modify_none hi]; exact ⟨t, ht, hcb⟩
        | some ti =>
          rw [modify_eq hi, at?_set, if_neg (fun hc => hij hc.1)]
          exact ⟨t, ht, hcb⟩
    | destroy i =>
      have hne : i ≠ j := fun e => hd (by rw [e])
      simp only [tstep]
      cases hi : at? w.timers i with
      | none => exact ⟨t, ht, hcb⟩
      | some ti =>
        simp only
        rw [at?_set, if_neg (fun hc => hne hc.1)]
        exact ⟨t, ht, hcb⟩

example : at? (trun (fun k => k) (noTimers 3) (tDemo.take 3)).timers 0 = some ⟨0, none, 10⟩ ∧
    (trun (fun k => k) (noTimers 3) (tDemo.take 4)).fired = [] := by decide

/-- Assigning to a timer that holds a callback drops that callback: it is never invoked, although all
timers are gone. -/
theorem C61_counterexample_assign :
    ∃ ops : List TOp,
      (∀ i < 2, at? (trun (fun k => k) (noTimers 2) ops).timers i = none) ∧
      (trun (fun k => k) (noTimers 2) ops).created.count ⟨1, 10⟩ = 1 ∧
      (trun (fun k => k) (noTimers 2) ops).fired.count ⟨1, 10⟩ = 0 :=
  ⟨[.make 0 ⟨1, 10⟩, .make 1 ⟨2, 20⟩, .moveAssign 0 1, .destroy 0, .destroy 1], by decide⟩

/-- So does assigning a timer to itself. -/
theorem C61_counterexample_self :
    ∃ ops : List TOp,
      (∀ i < 1, at? (trun (fun k => k) (noTimers 1) ops).timers i = none) ∧
      (trun (fun k => k) (noTimers 1) ops).created.count ⟨1, 10⟩ = 1 ∧
      (trun (fun k => k) (noTimers 1) ops).fired.count ⟨1, 10⟩ = 0 :=
  ⟨[.make 0 ⟨1, 10⟩, .moveAssign 0 0, .destroy 0], by decide⟩

/-! ## C62 -/

/-- The start time of every timer, after every history, is what the clock said at some earlier time. -/
theorem C62_start_is_a_reading (clock : Nat → Int) (n : Nat) (ops : List TOp) {i : Nat} {t : Timer}
    (h : at? (trun clock (noTimers n) ops).timers i = some t) :
    ∃ k < (trun clock (noTimers n) ops).ticks, t.start = clock k := by
  refine trun_started clock ops (noTimers n) ?_ i t h
  intro i t ht
  unfold at? noTimers at ht
  simp only [List.getElem?_replicate] at ht
  split at ht <;> simp at ht

/-- Which one: constructing and resetting take the reading of that moment; moving takes the start time
of the source. -/
theorem C62_start (clock : Nat → Int) (w : TWorld) :
    (∀ i cb, w.timers[i]? = some none →
      (at? (tstep clock w (.make i cb)).timers i).map Timer.start = some (clock w.ticks)) ∧
    (∀ i t, at? w.timers i = some t →
      (at? (tstep clock w (.reset i)).timers i).map Timer.start = some (clock w.ticks)) ∧
    (∀ i j t, at? w.timers j = some t → w.timers[i]? = some none →
      (at? (tstep clock w (.moveConstruct i j)).timers i).map Timer.start = some t.start) ∧
    (∀ i j s t, at? w.timers j = some t → at? w.timers i = some s →
      (at? (tstep clock w (.moveAssign i j)).timers i).map Timer.start = some t.start) := by
  refine ⟨fun i cb h => ?_, fun i t h => ?_, fun i j t hj h => ?_, fun i j s t hj hi => ?_⟩
  · simp only [tstep, h, if_true]
    rw [at?_set, if_pos ⟨rfl, (List.getElem?_eq_some_iff.1 h).1⟩]
    rfl
  · simp only [tstep]
    rw [modify_eq h, at?_set, if_pos ⟨rfl, at?_lt h⟩]
    rfl
  · have hij : i ≠ j := fun e => by rw [e, at?_eq_some.1 hj] at h; cases h
    simp only [tstep, h, if_true]
    rw [moveConstruct_eq h hj, at?_set, if_neg (fun hc => hij hc.1.symm), at?_set,
      if_pos ⟨rfl, (List.getElem?_eq_some_iff.1 h).1⟩]
    rfl
  · simp only [tstep, hi, hj]
    by_cases hij : i = j
    · subst hij
      rw [hi] at hj
      cases hj
      rw [moveAssign_self hi, at?_set, if_pos ⟨rfl, at?_lt hi⟩]
      rfl
    · rw [moveAssign_ne hij hi hj, at?_set, if_neg (fun hc => hij hc.1.symm), at?_set,
        if_pos ⟨rfl, at?_lt hi⟩]
      rfl

example : (trun (fun k => 5 * (k : Int)) (noTimers 3) (tDemo.take 2)).timers[1]? =
    some (some ⟨5, some 2, 20⟩) := by decide

/-- Until the timer is constructed, assigned to, reset or destroyed again, its start time stays,
whatever happens to other timers, and also if it is moved from. -/
theorem C62_start_kept (clock : Nat → Int) {i : Nat} (ops : List TOp) (w : TWorld) {t : Timer}
    (hw : ∀ op ∈ ops, ¬ Writes i op) (h : at? w.timers i = some t) :
    (at? (trun clock w ops).timers i).map Timer.start = some t.start := by
  obtain ⟨t', h1, h2⟩ := trun_start clock ops w t hw h
  rw [h1, ← h2]
  rfl

example : (trun (fun k => 5 * (k : Int)) (noTimers 3) (tDemo.take 4)).timers[1]? =
    some (some ⟨5, some 2, 20⟩) ∧ ∀ op ∈ (tDemo.take 4).drop 2, ¬ Writes 1 op := by
  refine ⟨by decide, ?_⟩
  simp [tDemo, Writes]

/-- With a clock that never runs backwards, `leaked()` after any history is defined, is the difference
between the clock's reading and the start time, and is never negative. -/
theorem C62_leaked {clock : Nat → Int} (hc : ClockOK clock) (n : Nat) (ops : List TOp) {i : Nat}
    {t : Timer} (h : at? (trun clock (noTimers n) ops).timers i = some t) {now : Nat}
    (hnow : (trun clock (noTimers n) ops).ticks ≤ now) :
    t.leaked (clock now) = .ok (clock now - t.start) ∧ 0 ≤ clock now - t.start := by
  obtain ⟨k, hk, hs⟩ := C62_start_is_a_reading clock n ops h
  have h1 := hc.1 k now (by omega)
  have h2 := hc.2 k
  have h3 := hc.2 now
  rw [← hs] at h1 h2
  refine ⟨?_, by omega⟩
  unfold Timer.leaked
  rw [if_pos]
  have e : CTy.long.InRange (clock now - t.start) ↔
      -(2 : Int) ^ 63 ≤ clock now - t.start ∧ clock now - t.start ≤ (2 : Int) ^ 63 - 1 := Iff.rfl
  rw [e]
  omega

/-- Between two readings it never decreases, if in between nothing writes the start time. -/
theorem C62_monotone {clock : Nat → Int} (hc : ClockOK clock) (n : Nat) (ops more : List TOp) {i : Nat}
    {t t' : Timer} (h : at? (trun clock (noTimers n) ops).timers i = some t)
    (hw : ∀ op ∈ more, ¬ Writes i op)
    (h' : at? (trun clock (trun clock (noTimers n) ops) more).timers i = some t')
    {a b : Nat} (ha : (trun clock (noTimers n) ops).ticks ≤ a)
    (hb : (trun clock (trun clock (noTimers n) ops) more).ticks ≤ b) (hab : a ≤ b) :
    ∃ d d', t.leaked (clock a) = .ok d ∧ t'.leaked (clock b) = .ok d' ∧ d ≤ d' := by
  have e : trun clock (trun clock (noTimers n) ops) more = trun clock (noTimers n) (ops ++ more) := by
    unfold trun
    rw [List.foldl_append]
  have hk := C62_start_kept clock more _ hw h
  rw [h'] at hk
  have hk : t'.start = t.start := by simpa using hk
  rw [e] at h' hb
  refine ⟨_, _, (C62_leaked hc n ops h ha).1, (C62_leaked hc n (ops ++ more) h' hb).1, ?_⟩
  have := hc.1 a b hab
  omega

/-- A clock that ticks and then stands still. -/
def demoClock (k : Nat) : Int := if k < 100 then k else 100

example : ClockOK demoClock ∧
    (Timer.leaked ⟨3, none, 0⟩ (demoClock 7)) = .ok 4 := by
  refine ⟨⟨fun a b h => ?_, fun a => ?_⟩, by decide⟩
  · unfold demoClock; split <;> split <;> omega
  · unfold demoClock; split <;> omega

/-- `leaked_sec` and its siblings are the whole units in the difference, for any unit. -/
theorem C62_truncated {clock : Nat → Int} (hc : ClockOK clock) (n : Nat) (ops : List TOp) {i : Nat}
    {t : Timer} (h : at? (trun clock (noTimers n) ops).timers i = some t) {now : Nat}
    (hnow : (trun clock (noTimers n) ops).ticks ≤ now) {unit : Int} (hu : 0 < unit) :
    ∃ q, t.leakedIn unit (clock now) = .ok q ∧
      q * unit ≤ clock now - t.start ∧ clock now - t.start < (q + 1) * unit := by
  obtain ⟨h1, h2⟩ := C62_leaked hc n ops h hnow
  refine ⟨(clock now - t.start).tdiv unit, ?_, ?_, ?_⟩
  · unfold Timer.leakedIn
    rw [h1]
    rfl
  · rw [Int.tdiv_eq_ediv_of_nonneg h2]
    exact Int.ediv_mul_le _ (by omega)
  · rw [Int.tdiv_eq_ediv_of_nonneg h2]
    exact Int.lt_ediv_add_one_mul_self _ hu

example : Timer.leakedIn 1000000000 ⟨5, none, 0⟩ 2999999999 = .ok 2 ∧
    Timer.leakedIn 1000 ⟨5, none, 0⟩ 2999999999 = .ok 2999999 := by decide

/-! ## C63 -/

variable {α : Type}

/-- `n` places without objects. -/
def noPimpls (n : Nat) : PStore α := ⟨List.replicate n none, []⟩

/-- For every implementation class and every history: the objects behave like plain variables of type
`T`, so that copies are independent and no object whose `T` is gone is ever used; and at each place
constructions and destructions of `T` take turns, starting with a construction, the last one being a
construction iff an object lives there. -/
theorem C63_refines (E : Impl α) (n : Nat) (ops : List (POp α)) :
    ∃ log, prun E (noPimpls n) ops =
        .ok ⟨(ops.foldl (plainStep E) (List.replicate n none)).map fun o => o.map Cell.obj, log⟩ ∧
      ∀ i, Alternates (lifeOf i log) ∧
        ((at? (ops.foldl (plainStep E) (List.replicate n none)) i).isSome = true ↔
          (lifeOf i log).length % 2 = 1) := by
  have h0 : LifeInv (List.replicate n none : List (Option α)) [] := by
    intro i
    refine ⟨trivial, ?_⟩
    unfold at?
    simp only [List.getElem?_replicate]
    split <;> simp [lifeOf]
  obtain ⟨log, h1, h2⟩ := prun_live E ops (List.replicate n none) [] h0
  refine ⟨log, ?_, h2⟩
  have e : (noPimpls n : PStore α) = ⟨liveCells (List.replicate n none), []⟩ := by
    unfold noPimpls liveCells
    simp
  rw [e, h1]
  rfl

/-- Integers whose moved-from value is 0. -/
def intImpl : Impl Int := ⟨7, id, fun v => (v, 0), fun _ v => v, fun _ v => (v, 0), fun _ => 0⟩

example : ((prun intImpl (noPimpls 3)
      [.default 0, .copy 1 0, .edit 1 (· + 1), .move 2 1, .assign 0 2, .destroy 1]).map fun s =>
        (s.cells, s.log)) =
    .ok ([some (.obj 8), none, some (.obj 8)],
      [.construct 0, .construct 1, .construct 2, .destroy 1]) := by decide

/-- Once every object is gone, each place saw as many destructions as constructions, in turns. -/
theorem C63_balanced (E : Impl α) (n : Nat) (ops : List (POp α))
    (hdead : ∀ i, at? (ops.foldl (plainStep E) (List.replicate n none)) i = none) :
    ∃ s, prun E (noPimpls n) ops = .ok s ∧
      ∀ i, s.log.count (.construct i) = s.log.count (.destroy i) := by
  obtain ⟨log, h1, h2⟩ := C63_refines E n ops
  refine ⟨_, h1, fun i => ?_⟩
  obtain ⟨h3, h4⟩ := h2 i
  rw [hdead i] at h4
  have h5 : (lifeOf i log).length % 2 = 0 := by simp at h4; omega
  have hc : ∀ l : List TEvent, (lifeOf i l).count true = l.count (.construct i) ∧
      (lifeOf i l).count false = l.count (.destroy i) := by
    intro l
    induction l with
    | nil => exact ⟨rfl, rfl⟩
    | cons e l ih =>
      unfold lifeOf at ih ⊢
      cases e with
      | construct k =>
        by_cases hk : k = i
        · subst hk; simp [ih.1, ih.2]
        · simp [hk, ih.1, ih.2, List.count_cons]
      | destroy k =>
        by_cases hk : k = i
        · subst hk; simp [ih.1, ih.2]
        · simp [hk, ih.1, ih.2, List.count_cons]
  have hb : ∀ l : List Bool, Alternates l → l.length % 2 = 0 → l.count true = l.count false := by
    intro l
    induction l using Alternates.induct with
    | case1 => intros; rfl
    | case2 b => intro _ h; simp at h
    | case3 b c l ih =>
      intro ha hl
      obtain ⟨rfl, rfl, ha⟩ := ha
      simp only [List.length_cons] at hl
      simp [ih ha (by omega)]
  show log.count _ = log.count _
  rw [← (hc log).1, ← (hc log).2, hb _ h3 h5]

/-- Assigning and using the value construct and destroy nothing. -/
theorem C63_assignment (E : Impl α) (s s' : PStore α) {op : POp α}
    (hop : (∃ i j, op = .assign i j) ∨ (∃ i v, op = .assignT i v) ∨ (∃ i j, op = .moveAssign i j) ∨
      ∃ i f, op = .edit i f)
    (h : pstep E s op = .ok s') : s'.log = s.log := by
  rcases hop with ⟨i, j, rfl⟩ | ⟨i, v, rfl⟩ | ⟨i, j, rfl⟩ | ⟨i, f, rfl⟩
  all_goals
    simp only [pstep] at h
    split at h
    · simp only [Outcome.bind_eq_ok] at h
      first
        | obtain ⟨_, _, _, _, h⟩ := h
          split at h <;> rw [← Outcome.ok.inj h]
        | obtain ⟨_, _, _, _, h⟩ := h
          rw [← Outcome.ok.inj h]
        | obtain ⟨_, _, h⟩ := h
          rw [← Outcome.ok.inj h]
    · rw [← Outcome.ok.inj h]

/-- The places a call may change. -/
def Touches (k : Nat) : POp α → Prop
  | .default i | .forward i _ | .fromT i _ | .copy i _ | .assign i _ | .assignT i _ | .edit i _
  | .destroy i => i = k
  | .move i j | .moveAssign i j => i = k ∨ j = k

/-- Copies are independent: a call changes the value of no object but its target and, for moves, its
source. -/
theorem C63_independent (E : Impl α) (l : List (Option α)) (op : POp α) {k : Nat}
    (h : ¬ Touches k op) : (plainStep E l op)[k]? = l[k]? := by
  have hmod : ∀ (i : Nat) (f : α → α), i ≠ k → (Objects.modify l i f)[k]? = l[k]? := by
    intro i f hi
    unfold Objects.modify
    rw [List.getElem?_set_ne hi]
  cases op <;> simp only [Touches, not_or] at h <;> simp only [plainStep] <;>
    repeat' split
  all_goals first
    | rfl
    | exact hmod _ _ h
    | rw [List.getElem?_set_ne h]
    | rw [List.getElem?_set_ne h.1, List.getElem?_set_ne h.2]
    | rw [List.getElem?_set_ne h.1]

example : ¬ Touches 1 (.edit 0 (· + 1) : POp Int) := by simp [Touches]

end Utils.Props
