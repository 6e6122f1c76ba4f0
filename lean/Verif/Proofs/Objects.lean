import Verif.Spec.Objects

/-! # Lemmas about timers and `fast_pimpl` -/

namespace Utils.Objects

theorem at?_eq_some {α : Type} {s : List (Option α)} {i : Nat} {a : α} :
    at? s i = some a ↔ s[i]? = some (some a) := by
  unfold at?
  cases h : s[i]? with
  | none => simp
  | some o => simp

theorem at?_set {α : Type} (s : List (Option α)) (i j : Nat) (o : Option α) :
    at? (s.set i o) j = if i = j ∧ i < s.length then o else at? s j := by
  unfold at?
  by_cases h : i = j
  · subst h
    by_cases hl : i < s.length
    · rw [if_pos ⟨rfl, hl⟩, List.getElem?_set_self hl]; rfl
    · rw [if_neg (by simp [hl]), List.getElem?_eq_none (by simpa using hl),
        List.getElem?_eq_none (by simpa using hl)]
  · rw [if_neg (by simp [h]), List.getElem?_set_ne h]

theorem at?_lt {α : Type} {s : List (Option α)} {i : Nat} {a : α} (h : at? s i = some a) :
    i < s.length :=
  (List.getElem?_eq_some_iff.1 (at?_eq_some.1 h)).1

theorem modify_eq {α : Type} {s : List (Option α)} {i : Nat} {a : α} (h : at? s i = some a)
    (f : α → α) : modify s i f = s.set i (some (f a)) := by
  unfold modify
  rw [show s[i]?.bind id = some a from h]
  rfl

theorem modify_none {α : Type} {s : List (Option α)} {i : Nat} (h : at? s i = none)
    (f : α → α) : modify s i f = s := by
  unfold modify
  have : s[i]?.bind id = none := h
  rw [this]
  show s.set i none = s
  apply List.ext_getElem?
  intro k
  by_cases hk : i = k
  · subst hk
    by_cases hl : i < s.length
    · rw [List.getElem?_set_self hl]
      cases hs : s[i]? with
      | none => rw [List.getElem?_eq_none_iff] at hs; omega
      | some o =>
        rw [hs] at this
        simp at this
        rw [this]
    · rw [List.getElem?_eq_none (by simpa using hl), List.getElem?_eq_none (by simpa using hl)]
  · rw [List.getElem?_set_ne hk]

theorem modify_set {α : Type} {s : List (Option α)} {i : Nat} {a : α} (h : i < s.length)
    (f : α → α) : modify (s.set i (some a)) i f = s.set i (some (f a)) := by
  rw [modify_eq (a := a) (by simp [at?_set, h]), List.set_set]

theorem modify_set_ne {α : Type} {s : List (Option α)} {i j : Nat} {x : Option α} (h : i ≠ j)
    (f : α → α) : modify (s.set i x) j f = (modify s j f).set i x := by
  unfold modify
  rw [List.getElem?_set_ne h, List.set_comm _ _ h]

/-! ## timer -/

theorem moveConstruct_eq {s : List (Option Timer)} {i j : Nat} {o : Timer}
    (hi : s[i]? = some none) (hj : at? s j = some o) :
    moveConstruct s i j = (s.set i (some o)).set j (some { o with callback := none }) := by
  have hij : i ≠ j := by
    rintro rfl
    rw [at?_eq_some, hi] at hj
    cases hj
  unfold moveConstruct
  rw [hj]
  simp only
  rw [modify_eq (a := o)]
  rw [at?_set, if_neg (by simp [hij]), hj]

theorem moveAssign_ne {s : List (Option Timer)} {i j : Nat} {t o : Timer} (hij : i ≠ j)
    (hi : at? s i = some t) (hj : at? s j = some o) :
    moveAssign s i j = (s.set i (some o)).set j (some { o with callback := none }) := by
  have hli := at?_lt hi
  have hlj := at?_lt hj
  unfold moveAssign
  rw [hj]
  simp only
  rw [modify_eq hi, modify_set hli, modify_set_ne hij, modify_eq hj,
    List.set_comm _ _ (Ne.symm hij), modify_set_ne (Ne.symm hij), modify_set hli]

theorem moveAssign_self {s : List (Option Timer)} {i : Nat} {t : Timer} (hi : at? s i = some t) :
    moveAssign s i i = s.set i (some { t with callback := none }) := by
  have hli := at?_lt hi
  unfold moveAssign
  rw [hi]
  simp only
  rw [modify_eq hi, modify_set hli, modify_set hli, modify_set hli]

theorem armed_set (a : Callback) : ∀ (s : List (Option Timer)) (i : Nat) (x o : Option Timer),
    s[i]? = some o →
    (armed (s.set i x)).count a + ((o.bind Timer.finish).toList).count a =
      (armed s).count a + ((x.bind Timer.finish).toList).count a
  | [], _, _, _, h => by simp at h
  | y :: s, 0, x, o, h => by
    simp at h
    subst h
    simp only [List.set_cons_zero, armed, List.flatMap_cons, List.count_append]
    omega
  | y :: s, i + 1, x, o, h => by
    have := armed_set a s i x o (by simpa using h)
    simp only [armed, List.set_cons_succ, List.flatMap_cons, List.count_append] at this ⊢
    omega

theorem tstep_conserved (clock : Nat → Int) (w : TWorld) (op : TOp)
    (h : w.created.Perm (w.fired ++ (armed w.timers ++ w.overwritten))) :
    (tstep clock w op).created.Perm
      ((tstep clock w op).fired ++ (armed (tstep clock w op).timers ++ (tstep clock w op).overwritten)) := by
  rw [List.perm_iff_count] at h ⊢
  intro a
  have ha := h a
  simp only [List.count_append] at ha ⊢
  cases op with
  | make i cb =>
    unfold tstep
    simp only
    split
    · next hi =>
      have := armed_set a w.timers i (some (Timer.make (clock w.ticks) cb)) none hi
      have e : (((some (Timer.make (clock w.ticks) cb)).bind Timer.finish).toList) = [cb] := rfl
      rw [e] at this
      simp only [List.count_cons, Option.bind_none, Option.toList_none, List.count_nil] at this ⊢
      omega
    · exact ha
  | moveConstruct i j =>
    unfold tstep
    simp only
    split
    · next hi =>
      cases hj : at? w.timers j with
      | none =>
        have : moveConstruct w.timers i j = w.timers := by unfold moveConstruct; rw [hj]
        simp only [this]
        exact ha
      | some o =>
        simp only [moveConstruct_eq hi hj]
        have hij : i ≠ j := by
          rintro rfl
          rw [at?_eq_some, hi] at hj
          cases hj
        have h1 := armed_set a w.timers i (some o) none hi
        have h2 := armed_set a (w.timers.set i (some o)) j (some { o with callback := none }) (some o)
          (by rw [List.getElem?_set_ne hij]; exact at?_eq_some.1 hj)
        have e : (((some { o with callback := none } : Option Timer).bind Timer.finish).toList) = [] := rfl
        rw [e] at h2
        simp only [Option.bind_none, Option.toList_none, List.count_nil] at h1 h2
        omega
    · exact ha
  | moveAssign i j =>
    unfold tstep
    simp only
    cases hi : at? w.timers i with
    | none => exact ha
    | some t =>
      cases hj : at? w.timers j with
      | none => exact ha
      | some o =>
        simp only [List.count_append]
        by_cases hij : i = j
        · subst hij
          rw [hi] at hj
          cases hj
          rw [moveAssign_self hi]
          have h1 := armed_set a w.timers i (some { t with callback := none }) (some t)
            (at?_eq_some.1 hi)
          have e : (((some { t with callback := none } : Option Timer).bind Timer.finish).toList) = [] := rfl
          rw [e] at h1
          simp only [Option.bind_some, List.count_nil] at h1
          omega
        · rw [moveAssign_ne hij hi hj]
          have h1 := armed_set a w.timers i (some o) (some t) (at?_eq_some.1 hi)
          have h2 := armed_set a (w.timers.set i (some o)) j (some { o with callback := none }) (some o)
            (by rw [List.getElem?_set_ne hij]; exact at?_eq_some.1 hj)
          have e : (((some { o with callback := none } : Option Timer).bind Timer.finish).toList) = [] := rfl
          rw [e] at h2
          simp only [Option.bind_some, List.count_nil] at h1 h2
          omega
  | reset i =>
    unfold tstep
    simp only
    cases hi : at? w.timers i with
    | none => rw [modify_none hi]; exact ha
    | some t =>
      rw [modify_eq hi]
      have h1 := armed_set a w.timers i (some (t.reset (clock w.ticks))) (some t) (at?_eq_some.1 hi)
      have e : ((some (t.reset (clock w.ticks))).bind Timer.finish) = (some t).bind Timer.finish := rfl
      rw [e] at h1
      omega
  | destroy i =>
    unfold tstep
    simp only
    cases hi : at? w.timers i with
    | none => exact ha
    | some t =>
      have h1 := armed_set a w.timers i none (some t) (at?_eq_some.1 hi)
      simp only [Option.bind_some, Option.bind_none, Option.toList_none, List.count_nil,
        List.count_append] at h1 ⊢
      omega

theorem trun_conserved (clock : Nat → Int) : ∀ (ops : List TOp) (w : TWorld),
    w.created.Perm (w.fired ++ (armed w.timers ++ w.overwritten)) →
    (trun clock w ops).created.Perm
      ((trun clock w ops).fired ++ (armed (trun clock w ops).timers ++ (trun clock w ops).overwritten))
  | [], _, h => h
  | op :: ops, w, h => trun_conserved clock ops _ (tstep_conserved clock w op h)

theorem armed_noTimers (n : Nat) : armed (noTimers n).timers = [] := by
  unfold armed noTimers
  simp

/-- Start times are clock readings. -/
theorem tstep_started (clock : Nat → Int) (w : TWorld) (op : TOp)
    (h : ∀ i t, at? w.timers i = some t → ∃ k < w.ticks, t.start = clock k) :
    ∀ i t, at? (tstep clock w op).timers i = some t → ∃ k < (tstep clock w op).ticks, t.start = clock k := by
  intro i t ht
  cases op with
  | make j cb =>
    unfold tstep at ht ⊢
    simp only at ht ⊢
    split at ht
    · next hj =>
      rw [if_pos hj]
      simp only at ht ⊢
      rw [at?_set] at ht
      split at ht
      · cases ht; exact ⟨w.ticks, by omega, rfl⟩
      · obtain ⟨k, h1, h2⟩ := h i t ht
        exact ⟨k, by omega, h2⟩
    · next hj =>
      rw [if_neg hj]
      exact h i t ht
  | moveConstruct a b =>
    unfold tstep at ht ⊢
    simp only at ht ⊢
    split at ht
    · next ha =>
      rw [if_pos ha]
      simp only at ht ⊢
      cases hb : at? w.timers b with
      | none =>
        have : moveConstruct w.timers a b = w.timers := by unfold moveConstruct; rw [hb]
        rw [this] at ht
        exact h i t ht
      | some o =>
        rw [moveConstruct_eq ha hb, at?_set, at?_set] at ht
        split at ht
        · have hs := h b _ hb; cases ht; exact hs
        · split at ht
          · have hs := h b _ hb; cases ht; exact hs
          · exact h i t ht
    · next ha =>
      rw [if_neg ha]
      exact h i t ht
  | moveAssign a b =>
    unfold tstep at ht ⊢
    simp only at ht ⊢
    cases ha : at? w.timers a with
    | none => rw [ha] at ht; exact h i t ht
    | some ta =>
      cases hb : at? w.timers b with
      | none => rw [ha, hb] at ht; exact h i t ht
      | some o =>
        rw [ha, hb] at ht
        simp only at ht ⊢
        by_cases hab : a = b
        · subst hab
          rw [ha] at hb
          cases hb
          rw [moveAssign_self ha, at?_set] at ht
          split at ht
          · have hs := h a _ ha; cases ht; exact hs
          · exact h i t ht
        · rw [moveAssign_ne hab ha hb, at?_set, at?_set] at ht
          split at ht
          · have hs := h b _ hb; cases ht; exact hs
          · split at ht
            · have hs := h b _ hb; cases ht; exact hs
            · exact h i t ht
  | reset a =>
    unfold tstep at ht ⊢
    simp only at ht ⊢
    cases ha : at? w.timers a with
    | none =>
      rw [modify_none ha] at ht
      obtain ⟨k, h1, h2⟩ := h i t ht
      exact ⟨k, by omega, h2⟩
    | some ta =>
      rw [modify_eq ha, at?_set] at ht
      split at ht
      · cases ht; exact ⟨w.ticks, by omega, rfl⟩
      · obtain ⟨k, h1, h2⟩ := h i t ht
        exact ⟨k, by omega, h2⟩
  | destroy a =>
    unfold tstep at ht ⊢
    simp only at ht ⊢
    cases ha : at? w.timers a with
    | none => rw [ha] at ht; exact h i t ht
    | some ta =>
      rw [ha] at ht
      simp only at ht ⊢
      rw [at?_set] at ht
      split at ht
      · cases ht
      · exact h i t ht

theorem trun_started (clock : Nat → Int) : ∀ (ops : List TOp) (w : TWorld),
    (∀ i t, at? w.timers i = some t → ∃ k < w.ticks, t.start = clock k) →
    ∀ i t, at? (trun clock w ops).timers i = some t → ∃ k < (trun clock w ops).ticks, t.start = clock k
  | [], _, h => h
  | op :: ops, w, h => trun_started clock ops _ (tstep_started clock w op h)

/-- A call that does not write the timer leaves its start time alone. -/
theorem tstep_start (clock : Nat → Int) {w : TWorld} {op : TOp} {i : Nat} {t : Timer}
    (hw : ¬ Writes i op) (ht : at? w.timers i = some t) :
    ∃ t', at? (tstep clock w op).timers i = some t' ∧ t'.start = t.start := by
  cases op with
  | make j cb =>
    unfold tstep
    simp only
    split
    · simp only
      rw [at?_set, if_neg (fun hc => hw hc.1), ht]
      exact ⟨t, rfl, rfl⟩
    · exact ⟨t, ht, rfl⟩
  | moveConstruct a b =>
    unfold tstep
    simp only
    split
    · next ha =>
      simp only
      cases hb : at? w.timers b with
      | none =>
        have : moveConstruct w.timers a b = w.timers := by unfold moveConstruct; rw [hb]
        rw [this]
        exact ⟨t, ht, rfl⟩
      | some o =>
        rw [moveConstruct_eq ha hb, at?_set, at?_set]
        split
        · next hc =>
          obtain ⟨rfl, -⟩ := hc
          rw [ht] at hb
          cases hb
          exact ⟨_, rfl, rfl⟩
        · rw [if_neg (fun hc => hw hc.1), ht]
          exact ⟨t, rfl, rfl⟩
    · exact ⟨t, ht, rfl⟩
  | moveAssign a b =>
    unfold tstep
    simp only
    cases ha : at? w.timers a with
    | none => exact ⟨t, ht, rfl⟩
    | some ta =>
      cases hb : at? w.timers b with
      | none => exact ⟨t, ht, rfl⟩
      | some o =>
        simp only
        have hne : a ≠ i := fun hc => hw hc
        by_cases hab : a = b
        · subst hab
          rw [moveAssign_self ha, at?_set, if_neg (fun hc => hne hc.1), ht]
          exact ⟨t, rfl, rfl⟩
        · rw [moveAssign_ne hab ha hb, at?_set, at?_set]
          split
          · next hc =>
            obtain ⟨rfl, -⟩ := hc
            rw [ht] at hb
            cases hb
            exact ⟨_, rfl, rfl⟩
          · rw [if_neg (fun hc => hne hc.1), ht]
            exact ⟨t, rfl, rfl⟩
  | reset a =>
    unfold tstep
    simp only
    cases ha : at? w.timers a with
    | none => rw [modify_none ha]; exact ⟨t, ht, rfl⟩
    | some ta =>
      rw [modify_eq ha, at?_set, if_neg (fun hc => hw hc.1), ht]
      exact ⟨t, rfl, rfl⟩
  | destroy a =>
    unfold tstep
    simp only
    cases ha : at? w.timers a with
    | none => exact ⟨t, ht, rfl⟩
    | some ta =>
      simp only
      rw [at?_set, if_neg (fun hc => hw hc.1), ht]
      exact ⟨t, rfl, rfl⟩

theorem trun_start (clock : Nat → Int) {i : Nat} : ∀ (ops : List TOp) (w : TWorld) (t : Timer),
    (∀ op ∈ ops, ¬ Writes i op) → at? w.timers i = some t →
    ∃ t', at? (trun clock w ops).timers i = some t' ∧ t'.start = t.start
  | [], _, t, _, ht => ⟨t, ht, rfl⟩
  | op :: ops, w, t, hw, ht => by
    obtain ⟨t1, h1, h2⟩ := tstep_start clock (hw op (by simp)) ht
    obtain ⟨t2, h3, h4⟩ := trun_start clock ops (tstep clock w op) t1
      (fun o ho => hw o (by simp [ho])) h1
    exact ⟨t2, h3, h4.trans h2⟩

/-! ## fast_pimpl -/

variable {α : Type}

theorem free_iff (s : List (Option α)) (i : Nat) : free s i = true ↔ s[i]? = some none := by
  unfold free
  split
  · next h => simp [h]
  · next h => simp only [Bool.false_eq_true, false_iff]; exact h

/-- The buffers of objects whose `T`s are alive with these values. -/
def liveCells (l : List (Option α)) : List (Option (Cell α)) := l.map fun o => o.map Cell.obj

theorem liveCells_get (l : List (Option α)) (i : Nat) :
    (liveCells l)[i]? = l[i]?.map fun o => o.map Cell.obj := by
  unfold liveCells
  rw [List.getElem?_map]

theorem liveCells_at (l : List (Option α)) (i : Nat) :
    at? (liveCells l) i = (at? l i).map Cell.obj := by
  unfold at?
  rw [liveCells_get]
  cases l[i]? with
  | none => rfl
  | some o => rfl

theorem liveCells_set (l : List (Option α)) (i : Nat) (o : Option α) :
    (liveCells l).set i (o.map Cell.obj) = liveCells (l.set i o) := by
  unfold liveCells
  rw [List.map_set]

theorem liveCells_set_some (l : List (Option α)) (i : Nat) (v : α) :
    (liveCells l).set i (some (Cell.obj v)) = liveCells (l.set i (some v)) :=
  liveCells_set l i (some v)

theorem placeNew_live (l : List (Option α)) (log : List TEvent) (i : Nat) (v : α) :
    placeNew ⟨liveCells l, log⟩ i v = ⟨liveCells (l.set i (some v)), log ++ [.construct i]⟩ := by
  unfold placeNew
  simp only [List.set_set, liveCells_set_some]

/-- The events of one call. -/
def eventsOf (l : List (Option α)) : POp α → List TEvent
  | .default i => if free l i then [.construct i] else []
  | .forward i _ => if free l i then [.construct i] else []
  | .copy i j => if free l i && (at? l j).isSome then [.construct i] else []
  | .fromT i _ => if free l i then [.construct i] else []
  | .move i j => if free l i && (at? l j).isSome then [.construct i] else []
  | .destroy i => if (at? l i).isSome then [.destroy i] else []
  | _ => []

theorem pstep_live (E : Impl α) (l : List (Option α)) (log : List TEvent) (op : POp α) :
    pstep E ⟨liveCells l, log⟩ op = .ok ⟨liveCells (plainStep E l op), log ++ eventsOf l op⟩ := by
  cases op with
  | default i =>
    simp only [pstep, plainStep, eventsOf, liveCells_get]
    by_cases h : free l i = true
    · simp only [(free_iff l i).1 h, h, if_true, Option.map_some, Option.map_none, placeNew_live]
      rfl
    · have h' : free l i = false := by simpa using h
      rw [free_iff] at h
      rw [h']
      cases hl : l[i]? with
      | none => simp
      | some o =>
        cases o with
        | none => exact absurd hl h
        | some v => simp
  | forward i v =>
    simp only [pstep, plainStep, eventsOf, liveCells_get]
    by_cases h : free l i = true
    · simp only [(free_iff l i).1 h, h, if_true, Option.map_some, Option.map_none, placeNew_live]
      rfl
    · have h' : free l i = false := by simpa using h
      rw [free_iff] at h
      rw [h']
      cases hl : l[i]? with
      | none => simp
      | some o =>
        cases o with
        | none => exact absurd hl h
        | some v => simp
  | fromT i v =>
    simp only [pstep, plainStep, eventsOf, liveCells_get]
    by_cases h : free l i = true
    · simp only [(free_iff l i).1 h, h, if_true, Option.map_some, Option.map_none, placeNew_live]
      rfl
    · have h' : free l i = false := by simpa using h
      rw [free_iff] at h
      rw [h']
      cases hl : l[i]? with
      | none => simp
      | some o =>
        cases o with
        | none => exact absurd hl h
        | some v => simp
  | copy i j =>
    simp only [pstep, plainStep, eventsOf, liveCells_get, liveCells_at]
    by_cases h : free l i = true
    · rw [(free_iff l i).1 h, h]
      cases hj : at? l j with
      | none => simp
      | some v =>
        simp only [Option.map_some, Option.map_none, Cell.get, Outcome.ok_bind, placeNew_live]
        rfl
    · have h' : free l i = false := by simpa using h
      rw [free_iff] at h
      rw [h']
      cases hl : l[i]? with
      | none => cases at? l j <;> simp
      | some o =>
        cases o with
        | none => exact absurd hl h
        | some v => cases at? l j <;> simp
  | move i j =>
    simp only [pstep, plainStep, eventsOf, liveCells_get, liveCells_at]
    by_cases h : free l i = true
    · rw [(free_iff l i).1 h, h]
      cases hj : at? l j with
      | none => simp
      | some v =>
        simp only [Option.map_some, Option.map_none, Cell.get, Outcome.ok_bind, placeNew_live,
          liveCells_set_some]
        rfl
    · have h' : free l i = false := by simpa using h
      rw [free_iff] at h
      rw [h']
      cases hl : l[i]? with
      | none => cases at? l j <;> simp
      | some o =>
        cases o with
        | none => exact absurd hl h
        | some v => cases at? l j <;> simp
  | assign i j =>
    simp only [pstep, plainStep, eventsOf, liveCells_at]
    cases hi : at? l i <;> cases hj : at? l j <;>
      simp only [Option.map_some, Option.map_none, Cell.get, Outcome.ok_bind, liveCells_set_some,
        List.append_nil] <;> rfl
  | assignT i v =>
    simp only [pstep, plainStep, eventsOf, liveCells_at]
    cases hi : at? l i with
    | none => rw [modify_none hi]; simp
    | some d =>
      rw [modify_eq hi]
      simp only [Option.map_some, Cell.get, Outcome.ok_bind, liveCells_set_some, List.append_nil]
      rfl
  | moveAssign i j =>
    simp only [pstep, plainStep, eventsOf, liveCells_at]
    cases hi : at? l i <;> cases hj : at? l j <;>
      simp only [Option.map_some, Option.map_none, Cell.get, Outcome.ok_bind, liveCells_set_some,
        List.append_nil] <;> try rfl
    by_cases hij : i = j
    · simp only [hij, if_true]; rfl
    · simp only [hij, if_false]; rfl
  | edit i f =>
    simp only [pstep, plainStep, eventsOf, liveCells_at]
    cases hi : at? l i with
    | none => rw [modify_none hi]; simp
    | some d =>
      rw [modify_eq hi]
      simp only [Option.map_some, Cell.get, Outcome.ok_bind, liveCells_set_some, List.append_nil]
      rfl
  | destroy i =>
    simp only [pstep, plainStep, eventsOf, liveCells_at]
    cases hi : at? l i with
    | none =>
      have : l.set i none = l := by
        have := modify_none hi id
        unfold modify at this
        rw [show l[i]?.bind id = none from hi] at this
        exact this
      rw [this]; simp
    | some d =>
      simp only [Option.map_some, Cell.get, Outcome.ok_bind, Option.isSome_some, if_true]
      have := liveCells_set l i none
      simp only [Option.map_none] at this
      rw [this]
      rfl

theorem alternates_append : ∀ {l : List Bool}, Alternates l →
    ∀ {b : Bool}, (b = true ↔ l.length % 2 = 0) → Alternates (l ++ [b])
  | [], _, b, hb => by simpa [Alternates] using hb
  | [c], h, b, hb => by
    have : b = false := by cases b <;> simp_all
    exact ⟨h, this, trivial⟩
  | c :: d :: l, h, b, hb => by
    refine ⟨h.1, h.2.1, alternates_append h.2.2 ?_⟩
    rw [hb]
    simp only [List.length_cons]
    omega

/-- Per place: constructions and destructions take turns, and the last was a construction iff an
object lives there. -/
def LifeInv (l : List (Option α)) (log : List TEvent) : Prop :=
  ∀ i, Alternates (lifeOf i log) ∧ ((at? l i).isSome = true ↔ (lifeOf i log).length % 2 = 1)

theorem lifeOf_append (i : Nat) (a b : List TEvent) :
    lifeOf i (a ++ b) = lifeOf i a ++ lifeOf i b := by
  unfold lifeOf
  rw [List.filterMap_append]

theorem lifeInv_construct {l l' : List (Option α)} {log : List TEvent} {i : Nat} (h : LifeInv l log)
    (hi : at? l i = none) (hsome : (at? l' i).isSome = true)
    (hother : ∀ k, k ≠ i → (at? l' k).isSome = (at? l k).isSome) :
    LifeInv l' (log ++ [.construct i]) := by
  intro k
  rw [lifeOf_append]
  by_cases hk : k = i
  · subst hk
    have e : lifeOf k [.construct k] = [true] := by simp [lifeOf]
    rw [e]
    obtain ⟨h1, h2⟩ := h k
    rw [hi] at h2
    have h3 : (lifeOf k log).length % 2 = 0 := by simp at h2; omega
    refine ⟨alternates_append h1 (by simp [h3]), ?_⟩
    simp only [hsome, List.length_append, List.length_cons, List.length_nil, true_iff]
    omega
  · have e : lifeOf k [.construct i] = [] := by simp [lifeOf, Ne.symm hk]
    rw [e, List.append_nil, hother k hk]
    exact h k

theorem lifeInv_destroy {l l' : List (Option α)} {log : List TEvent} {i : Nat} (h : LifeInv l log)
    (hi : (at? l i).isSome = true) (hnone : at? l' i = none)
    (hother : ∀ k, k ≠ i → (at? l' k).isSome = (at? l k).isSome) :
    LifeInv l' (log ++ [.destroy i]) := by
  intro k
  rw [lifeOf_append]
  by_cases hk : k = i
  · subst hk
    have e : lifeOf k [.destroy k] = [false] := by simp [lifeOf]
    rw [e]
    obtain ⟨h1, h2⟩ := h k
    have h3 := h2.1 hi
    refine ⟨alternates_append h1 (by simp [h3]), ?_⟩
    simp only [hnone, List.length_append, List.length_cons, List.length_nil]
    simp only [Option.isSome_none, Bool.false_eq_true, false_iff]
    omega
  · have e : lifeOf k [.destroy i] = [] := by simp [lifeOf, Ne.symm hk]
    rw [e, List.append_nil, hother k hk]
    exact h k

theorem lifeInv_same {l l' : List (Option α)} {log : List TEvent} (h : LifeInv l log)
    (hother : ∀ k, (at? l' k).isSome = (at? l k).isSome) : LifeInv l' log := by
  intro k
  rw [hother k]
  exact h k

theorem free_at {l : List (Option α)} {i : Nat} (h : free l i = true) :
    at? l i = none ∧ i < l.length := by
  rw [free_iff] at h
  refine ⟨by unfold at?; rw [h]; rfl, (List.getElem?_eq_some_iff.1 h).1⟩

theorem isSome_set {l : List (Option α)} {i k : Nat} {v w : α} (h : at? l i = some w) :
    (at? (l.set i (some v)) k).isSome = (at? l k).isSome := by
  rw [at?_set]
  split
  · next hc => obtain ⟨rfl, -⟩ := hc; simp [h]
  · rfl

theorem pstep_life (E : Impl α) {l : List (Option α)} {log : List TEvent} (op : POp α)
    (h : LifeInv l log) : LifeInv (plainStep E l op) (log ++ eventsOf l op) := by
  have hnew : ∀ (i : Nat) (v : α), LifeInv
      (if free l i = true then l.set i (some v) else l)
      (log ++ if free l i = true then [TEvent.construct i] else []) := by
    intro i v
    by_cases hf : free l i = true
    · simp only [hf, if_true]
      obtain ⟨h1, h2⟩ := free_at hf
      refine lifeInv_construct h h1 (by simp [at?_set, h2]) fun k hk => ?_
      rw [at?_set, if_neg (fun hc => hk hc.1.symm)]
    · simpa [hf] using h
  have hmod : ∀ (i : Nat) (f : α → α), LifeInv (modify l i f) log := by
    intro i f
    cases hi : at? l i with
    | none => rw [modify_none hi]; exact h
    | some v => rw [modify_eq hi]; exact lifeInv_same h fun k => isSome_set hi
  cases op with
  | default i => exact hnew i E.default
  | forward i v => exact hnew i v
  | fromT i v => exact hnew i (E.copy v)
  | copy i j =>
    simp only [plainStep, eventsOf]
    cases hj : at? l j with
    | none => simpa using h
    | some v => simpa using hnew i (E.copy v)
  | move i j =>
    simp only [plainStep, eventsOf]
    cases hj : at? l j with
    | none => simpa using h
    | some v =>
      simp only [Option.isSome_some, Bool.and_true]
      by_cases hf : free l i = true
      · simp only [hf, if_true]
        obtain ⟨h1, h2⟩ := free_at hf
        refine lifeInv_construct h h1 (by simp [at?_set, h2]) fun k hk => ?_
        rw [at?_set, if_neg (fun hc => hk hc.1.symm), isSome_set hj]
      · simpa [hf] using h
  | assign i j =>
    simp only [plainStep, eventsOf, List.append_nil]
    cases hi : at? l i with
    | none => exact h
    | some d =>
      cases hj : at? l j with
      | none => exact h
      | some v => exact lifeInv_same h fun k => isSome_set hi
  | assignT i v =>
    simp only [eventsOf, List.append_nil]
    exact hmod i _
  | edit i f =>
    simp only [eventsOf, List.append_nil]
    exact hmod i f
  | moveAssign i j =>
    simp only [plainStep, eventsOf, List.append_nil]
    cases hi : at? l i with
    | none => exact h
    | some d =>
      cases hj : at? l j with
      | none => exact h
      | some v =>
        simp only
        by_cases hij : i = j
        · rw [if_pos hij]; exact lifeInv_same h fun k => isSome_set hi
        · rw [if_neg hij]
          refine lifeInv_same h fun k => ?_
          rw [isSome_set (w := d) (by rw [at?_set, if_neg (fun hc => hij hc.1.symm), hi]),
            isSome_set hj]
  | destroy i =>
    simp only [plainStep, eventsOf]
    cases hi : at? l i with
    | none =>
      have : l.set i none = l := by
        have := modify_none hi id
        unfold modify at this
        rw [show l[i]?.bind id = none from hi] at this
        exact this
      rw [this]
      simpa using h
    | some d =>
      simp only [Option.isSome_some, if_true]
      refine lifeInv_destroy h (by simp [hi]) (by simp [at?_set, at?_lt hi]) fun k hk => ?_
      rw [at?_set, if_neg (fun hc => hk hc.1.symm)]

theorem prun_live (E : Impl α) : ∀ (ops : List (POp α)) (l : List (Option α)) (log : List TEvent),
    LifeInv l log → ∃ log', prun E ⟨liveCells l, log⟩ ops =
      .ok ⟨liveCells (ops.foldl (plainStep E) l), log'⟩ ∧ LifeInv (ops.foldl (plainStep E) l) log'
  | [], l, log, h => ⟨log, rfl, h⟩
  | op :: ops, l, log, h => by
    obtain ⟨log', h1, h2⟩ := prun_live E ops (plainStep E l op) (log ++ eventsOf l op)
      (pstep_life E op h)
    refine ⟨log', ?_, h2⟩
    show (pstep E ⟨liveCells l, log⟩ op >>= fun s => prun E s ops) = _
    rw [pstep_live, Outcome.ok_bind]
    exact h1

end Utils.Objects
