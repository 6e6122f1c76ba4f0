import Verif.Model.ForEach

/-!
# Property C121: `for_each_arg` and `for_each_in_tuple` are one statement per element

`for_each_arg(f, x1, …, xn)` should do what `f(x1); …; f(xn);` do, and `for_each_in_tuple(f, t)` the same
with the elements of `t`.
-/

namespace Utils.Props

open Utils Utils.ForEach

variable {ω : Type} {call : Expr → Expr → Option (Call ω)}

/-- One statement after the other: the result of each is destroyed before the next one begins; an exception
ends it all. -/
inductive InTurn (run : Expr → ω → Res ω) : List Expr → ω → End ω → Prop
  | done {w} : InTurn run [] w (.returned w)
  | thrown {x xs w w'} (h : run x w = .thrown w') : InTurn run (x :: xs) w (.thrown w')
  | next {x xs w w' d r} (h : run x w = .returned w' d) (rest : InTurn run xs (d w') r) :
      InTurn run (x :: xs) w r

/-- All results are kept until the last call is over, and destroyed in the reverse order. -/
inductive Piled (run : Expr → ω → Res ω → Prop) : List Expr → ω → End ω → Prop
  | done {w} : Piled run [] w (.returned w)
  | thrown {x xs w w'} (h : run x w (.thrown w')) : Piled run (x :: xs) w (.thrown w')
  | ends {x xs w w' d w''} (h : run x w (.returned w' d)) (rest : Piled run xs w' (.returned w'')) :
      Piled run (x :: xs) w (.returned (d w''))
  | leaves {x xs w w' d w''} (h : run x w (.returned w' d)) (rest : Piled run xs w' (.thrown w'')) :
      Piled run (x :: xs) w (.thrown (d w''))

/-- A call followed by the comma operator. -/
inductive WithComma (c : Call ω) : ω → Res ω → Prop
  | builtin {w r} (hc : c.comma = .builtin) (h : c.run w = r) : WithComma c w r
  | call {w w' run} (hc : c.comma = .overloaded run true) (h : c.run w = .thrown w') :
      WithComma c w (.thrown w')
  | comma {w w' w'' d run} (hc : c.comma = .overloaded run true) (h : c.run w = .returned w' d)
      (h' : run w' = .thrown w'') : WithComma c w (.thrown (d w''))
  | both {w w' w'' d d' run} (hc : c.comma = .overloaded run true) (h : c.run w = .returned w' d)
      (h' : run w' = .returned w'' d') : WithComma c w (.returned w'' (d ∘ d'))

/-- The expression for an element of a tuple: constant if the element is, or if it lies in a constant
tuple; an rvalue if the tuple is one and the element is no lvalue reference. -/
def element (t : Expr) (e : Elem) : Expr where
  obj := e.obj
  const := e.ty.const || (decide (e.ty.ref = .none) && t.const)
  rvalue := t.rvalue && decide (e.ty.ref ≠ .l)

private theorem fwd_deduce (x : Expr) : fwd (deduce x) x.obj = x := by
  obtain ⟨o, c, b⟩ := x
  cases b <;> rfl

private theorem get_eq (t : Expr) (e : Elem) : get t e = element t e := by
  obtain ⟨⟨r, c⟩, o⟩ := e
  obtain ⟨o', c', r'⟩ := t
  cases r <;> cases r' <;> rfl

private theorem initialiser_isSome (c : Call ω) :
    (initialiser c).isSome ↔ ∀ run, c.comma ≠ .overloaded run false := by
  unfold initialiser
  cases h : c.comma with
  | builtin => simp
  | overloaded run b => cases b <;> simp

private theorem initialiser_run {c : Call ω} {i : ω → Res ω} (h : initialiser c = some i) (w : ω) :
    WithComma c w (i w) := by
  unfold initialiser at h
  cases hc : c.comma with
  | builtin =>
    rw [hc] at h
    cases h
    exact .builtin hc rfl
  | overloaded run b =>
    rw [hc] at h
    cases b with
    | false => cases h
    | true =>
      cases h
      cases h1 : c.run w with
      | thrown w' => simp only [h1]; exact .call hc h1
      | returned w' d =>
        simp only [h1]
        cases h2 : run w' with
        | thrown w'' => exact .comma hc h1 h2
        | returned w'' d' => exact .both hc h1 h2

private theorem initialisers_isSome (k : Expr → Option (Call ω)) (xs : List Expr) :
    (initialisers k xs).isSome ↔
      ∀ x ∈ xs, ∃ c, k x = some c ∧ ∀ run, c.comma ≠ .overloaded run false := by
  induction xs with
  | nil => simp [initialisers]
  | cons x xs ih =>
    rw [List.forall_mem_cons, ← ih, initialisers, fwd_deduce]
    cases h1 : k x with
    | none => simp
    | some c =>
      have h2 := initialiser_isSome c
      simp only [Option.bind_some]
      cases h3 : initialiser c <;> cases h4 : initialisers k xs <;> simp_all

private theorem evaluate_piled {k : Expr → Option (Call ω)} {xs : List Expr} {is : List (ω → Res ω)}
    (h : initialisers k xs = some is) (w : ω) :
    ∃ r, Piled (fun x w r => ∃ c, k x = some c ∧ WithComma c w r) xs w r ∧
      ∀ ds, evaluate is ds w = match r with
        | .returned w' => .returned (destroyAll ds w')
        | .thrown w' => .thrown (destroyAll ds w') := by
  induction xs generalizing is w with
  | nil =>
    cases h
    exact ⟨_, .done, fun _ => rfl⟩
  | cons x xs ih =>
    rw [initialisers, fwd_deduce] at h
    cases h1 : k x with
    | none => rw [h1] at h; cases h
    | some c =>
      rw [h1, Option.bind_some] at h
      cases h2 : initialiser c with
      | none => rw [h2] at h; cases h
      | some i =>
        cases h3 : initialisers k xs with
        | none => rw [h2, h3] at h; cases h
        | some is' =>
          rw [h2, h3] at h
          cases h
          have h4 := initialiser_run h2 w
          cases h5 : i w with
          | thrown w' =>
            rw [h5] at h4
            exact ⟨_, .thrown ⟨c, h1, h4⟩, fun ds => by simp only [evaluate, h5]⟩
          | returned w' d =>
            rw [h5] at h4
            obtain ⟨r, hr, he⟩ := ih h3 w'
            cases r with
            | returned w'' =>
              exact ⟨_, .ends ⟨c, h1, h4⟩ hr, fun ds => by simp only [evaluate, h5, he]; rfl⟩
            | thrown w'' =>
              exact ⟨_, .leaves ⟨c, h1, h4⟩ hr, fun ds => by simp only [evaluate, h5, he]; rfl⟩

/-- When `for_each_arg` compiles, for any callable: every call must, with `f` as it was passed and the
argument as it was passed, and the comma operator after it. -/
theorem C121_compiles (f : Expr) (xs : List Expr) :
    (forEachArg call f xs).isSome ↔
      ∀ x ∈ xs, ∃ c, call f x = some c ∧ ∀ run, c.comma ≠ .overloaded run false := by
  unfold forEachArg
  rw [Option.isSome_map, initialisers_isSome, fwd_deduce]

/-- What it does then, for any callable: the calls in order, each as `f` was passed and followed by the
comma operator, all results kept until the end. -/
theorem C121_exact {f : Expr} {xs : List Expr} {g : ω → End ω} (h : forEachArg call f xs = some g)
    (w : ω) : Piled (fun x w r => ∃ c, call f x = some c ∧ WithComma c w r) xs w (g w) := by
  unfold forEachArg at h
  rw [fwd_deduce] at h
  cases h1 : initialisers (call f) xs with
  | none => rw [h1] at h; cases h
  | some is =>
    rw [h1] at h
    cases h
    obtain ⟨r, hr, he⟩ := evaluate_piled h1 w
    change Piled _ xs w (evaluate is [] w)
    rw [he []]
    cases r <;> exact hr

/-- `for_each_in_tuple` is `for_each_arg` with the elements, except that `f` is always a variable. -/
theorem C121_tuple (f t : Expr) (es : List Elem) :
    forEachInTuple call f t es = forEachArg call { f with rvalue := false } (es.map (element t)) := by
  unfold forEachInTuple
  simp only [fwd_deduce, get_eq]

/-- `f(x1); …; f(xn);`, where `c x` is the call in the statement `f(x);`, comes to the same as
`for_each_arg(f, x1, …, xn)` if `f` is an lvalue or can be called as an rvalue just as well, if nothing is
called by the comma operator, and if no result but the last has a destructor to run.  Missing for the
full claim: the other callables, for which it is false (`C121_counterexample_rvalue`,
`C121_counterexample_comma`, `C121_counterexample_results`). -/
theorem C121_args_partial {f : Expr} {xs : List Expr} {c : Expr → Call ω}
    (hc : ∀ x ∈ xs, call { f with rvalue := false } x = some (c x))
    (hf : f.rvalue = true → ∀ x ∈ xs, call f x = call { f with rvalue := false } x)
    (hp : ∀ x ∈ xs, (c x).comma = .builtin)
    (hd : ∀ x ∈ xs.dropLast, ∀ w w' d, (c x).run w = .returned w' d → d = id) :
    ∃ g, forEachArg call f xs = some g ∧ ∀ w, InTurn (fun x => (c x).run) xs w (g w) := by
  have hcall : ∀ x ∈ xs, call f x = some (c x) := by
    intro x hx
    cases hr : f.rvalue with
    | true => rw [hf hr x hx, hc x hx]
    | false =>
      have := hc x hx
      obtain ⟨o, k, r⟩ := f
      simp only at hr
      subst hr
      exact this
  have hs : (forEachArg call f xs).isSome := by
    rw [C121_compiles]
    intro x hx
    refine ⟨c x, hcall x hx, fun run => ?_⟩
    rw [hp x hx]
    nofun
  obtain ⟨g, hg⟩ := Option.isSome_iff_exists.1 hs
  refine ⟨g, hg, fun w => ?_⟩
  have h := C121_exact hg w
  generalize g w = r at h
  clear hg hs
  have hrun : ∀ x ∈ xs, ∀ w r, (∃ c', call f x = some c' ∧ WithComma c' w r) → (c x).run w = r := by
    rintro x hx w r ⟨c', e, h⟩
    rw [hcall x hx] at e
    cases e
    have := hp x hx
    cases h with
    | builtin _ h => exact h
    | call hc => rw [this] at hc; cases hc
    | comma hc => rw [this] at hc; cases hc
    | both hc => rw [this] at hc; cases hc
  clear hcall hc hf hp
  induction h with
  | done => exact .done
  | thrown h => exact .thrown (hrun _ (by simp) _ _ h)
  | @ends x xs w w' d w'' h rest ih =>
    have h1 := hrun _ (by simp) _ _ h
    cases xs with
    | nil =>
      cases rest
      exact .next h1 .done
    | cons y ys =>
      have hid := hd x (by simp) _ _ _ h1
      subst hid
      exact .next h1 (ih (fun z hz => hd z (by simp [hz])) fun z hz => hrun z (by simp [hz]))
  | @leaves x xs w w' d w'' h rest ih =>
    have h1 := hrun _ (by simp) _ _ h
    cases xs with
    | nil => cases rest
    | cons y ys =>
      have hid := hd x (by simp) _ _ _ h1
      subst hid
      exact .next h1 (ih (fun z hz => hd z (by simp [hz])) fun z hz => hrun z (by simp [hz]))

/-- The same for the elements of a tuple, whether or not `f` is an rvalue.  Missing for the full claim:
the comma operator and results with destructors. -/
theorem C121_tuple_partial {f t : Expr} {es : List Elem} {c : Expr → Call ω}
    (hc : ∀ x ∈ es.map (element t), call { f with rvalue := false } x = some (c x))
    (hp : ∀ x ∈ es.map (element t), (c x).comma = .builtin)
    (hd : ∀ x ∈ (es.map (element t)).dropLast, ∀ w w' d, (c x).run w = .returned w' d → d = id) :
    ∃ g, forEachInTuple call f t es = some g ∧
      ∀ w, InTurn (fun x => (c x).run) (es.map (element t)) w (g w) := by
  rw [C121_tuple]
  exact C121_args_partial hc (fun h => by cases h) hp hd

/-! ### Examples -/

/-- A callable that writes down what it is called with and throws at object 3. -/
def exLogger (_ x : Expr) : Option (Call (List Expr)) :=
  some ⟨fun w => if x.obj = 3 then .thrown w else .returned (w ++ [x]) id, .builtin⟩

/-- An rvalue of type `std::tuple<A, B &, const C>` with elements 1, 2 and 5. -/
def exElems : List Elem := [⟨⟨.none, false⟩, 1⟩, ⟨⟨.l, false⟩, 2⟩, ⟨⟨.none, true⟩, 5⟩]

example : (forEachInTuple exLogger ⟨0, false, true⟩ ⟨9, false, true⟩ exElems).map (· [])
    = some (.returned [⟨1, false, true⟩, ⟨2, false, false⟩, ⟨5, true, true⟩]) := by decide
example : (forEachArg exLogger ⟨0, false, true⟩ [⟨1, false, false⟩, ⟨3, false, false⟩,
    ⟨4, false, false⟩]).map (· []) = some (.thrown [⟨1, false, false⟩]) := by decide

/-- A callable with a value inside, 7, that it hands out (to the log `w.2`) when it is called: a copy if
it is an lvalue, the value itself, leaving 0, if it is an rvalue. -/
def exGiver (e _ : Expr) : Option (Call (Nat × List Nat)) :=
  some ⟨fun w => .returned (if e.rvalue then 0 else w.1, w.2 ++ [w.1]) id, .builtin⟩

/-- The full claim is false of temporaries: the callable is called as an rvalue for every argument, so the
second call finds what the first one has left; as a variable, and in `for_each_in_tuple`, it is not. -/
theorem C121_counterexample_rvalue :
    (forEachArg exGiver ⟨0, false, true⟩ [⟨1, false, false⟩, ⟨2, false, false⟩]).map (· (7, []))
      = some (.returned (0, [7, 0])) ∧
    (forEachArg exGiver ⟨0, false, false⟩ [⟨1, false, false⟩, ⟨2, false, false⟩]).map (· (7, []))
      = some (.returned (7, [7, 7])) ∧
    (forEachInTuple exGiver ⟨0, false, true⟩ ⟨9, false, false⟩
        [⟨⟨.none, false⟩, 1⟩, ⟨⟨.none, false⟩, 2⟩]).map (· (7, []))
      = some (.returned (7, [7, 7])) := by decide

/-- A callable whose result has an overloaded comma operator. -/
def exComma (_ _ : Expr) : Option (Call Nat) :=
  some ⟨fun w => .returned w id, .overloaded (fun w => .returned (w + 1) id) false⟩

/-- The full claim is false if the result has a comma operator of its own: the statements `f(x);` compile
and `for_each_arg` does not. -/
theorem C121_counterexample_comma :
    (∀ x, (exComma ⟨0, false, false⟩ x).isSome) ∧
    (forEachArg exComma ⟨0, false, false⟩ [⟨1, false, false⟩]).isNone := by
  exact ⟨fun _ => rfl, rfl⟩

/-- A callable whose result holds a lock until it is destroyed: counts the locks held, and remembers the
greatest number. -/
def exLock (_ _ : Expr) : Option (Call (Nat × Nat)) :=
  some ⟨fun w => .returned (w.1 + 1, max w.2 (w.1 + 1)) fun w => (w.1 - 1, w.2), .builtin⟩

/-- The full claim is false if results have destructors: with three statements one lock is held at a time,
`for_each_arg` holds all three together. -/
theorem C121_counterexample_results :
    (forEachArg exLock ⟨0, false, false⟩ [⟨1, false, false⟩, ⟨2, false, false⟩, ⟨3, false, false⟩]).map
      (· (0, 0)) = some (.returned (0, 3)) ∧
    InTurn (fun _ w => .returned (w.1 + 1, max w.2 (w.1 + 1)) fun w => (w.1 - 1, w.2))
      [⟨1, false, false⟩, ⟨2, false, false⟩, ⟨3, false, false⟩] (0, 0) (.returned ((0, 1) : Nat × Nat)) :=
  ⟨by decide, .next rfl (.next rfl (.next rfl .done))⟩

end Utils.Props
