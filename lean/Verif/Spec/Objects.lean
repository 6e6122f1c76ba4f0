import Verif.Model.Objects

/-! # Clients of timers and of `fast_pimpl` -/

namespace Utils.Objects

/-- What a client does with timers; places are numbered. -/
inductive TOp
  /-- construct a timer at a free place -/
  | make (i : Nat) (cb : Callback)
  /-- move-construct a timer at the free place `i` from the one at `j` -/
  | moveConstruct (i j : Nat)
  /-- move-assign -/
  | moveAssign (i j : Nat)
  | reset (i : Nat)
  | destroy (i : Nat)
  deriving DecidableEq

/-- The timers, the number of times the clock was read, and a record: callbacks handed to
constructors, callbacks invoked, and callbacks of timers that were assigned to. -/
structure TWorld where
  timers : List (Option Timer)
  ticks : Nat := 0
  created : List Callback := []
  fired : List Callback := []
  overwritten : List Callback := []
  deriving DecidableEq

/-- One call.  Calls on places that hold no timer, and constructions at places that are taken, are not
programs: they change nothing. -/
def tstep (clock : Nat → Int) (w : TWorld) : TOp → TWorld
  | .make i cb =>
    if w.timers[i]? = some none then
      { w with timers := w.timers.set i (some (Timer.make (clock w.ticks) cb)),
               ticks := w.ticks + 1, created := cb :: w.created }
    else w
  | .moveConstruct i j =>
    if w.timers[i]? = some none then { w with timers := moveConstruct w.timers i j } else w
  | .moveAssign i j =>
    match at? w.timers i, at? w.timers j with
    | some target, some _ =>
      { w with timers := moveAssign w.timers i j,
               overwritten := target.finish.toList ++ w.overwritten }
    | _, _ => w
  | .reset i =>
    { w with timers := modify w.timers i fun t => t.reset (clock w.ticks), ticks := w.ticks + 1 }
  | .destroy i =>
    match at? w.timers i with
    | some t => { w with timers := w.timers.set i none, fired := t.finish.toList ++ w.fired }
    | none => w

/-- A history. -/
def trun (clock : Nat → Int) (w : TWorld) (ops : List TOp) : TWorld := ops.foldl (tstep clock) w

/-- `n` empty places. -/
def noTimers (n : Nat) : TWorld := { timers := List.replicate n none }

/-- The callbacks that live timers still hold. -/
def armed (s : List (Option Timer)) : List Callback := s.flatMap fun o => (o.bind Timer.finish).toList

/-- The call writes the start time of the timer at `i`. -/
def Writes (i : Nat) : TOp → Prop
  | .make k _ => k = i
  | .moveConstruct k _ => k = i
  | .moveAssign k _ => k = i
  | .reset k => k = i
  | .destroy k => k = i

/-- The clock never runs backwards and stays in the range of its type. -/
def ClockOK (clock : Nat → Int) : Prop :=
  (∀ a b, a ≤ b → clock a ≤ clock b) ∧ ∀ a, 0 ≤ clock a ∧ clock a < 2 ^ 63

/-! ## fast_pimpl -/

/-- The place exists and is free. -/
def free {α : Type} (s : List (Option α)) (i : Nat) : Bool :=
  match s[i]? with
  | some none => true
  | _ => false

/-- The same calls on plain variables of type `T`. -/
def plainStep {α : Type} (E : Impl α) (s : List (Option α)) : POp α → List (Option α)
  | .default i => if free s i then s.set i (some E.default) else s
  | .forward i v => if free s i then s.set i (some v) else s
  | .copy i j => match at? s j with
    | some v => if free s i then s.set i (some (E.copy v)) else s
    | none => s
  | .fromT i v => if free s i then s.set i (some (E.copy v)) else s
  | .move i j => match at? s j with
    | some v =>
      if free s i then (s.set j (some (E.move v).2)).set i (some (E.move v).1) else s
    | none => s
  | .assign i j => match at? s i, at? s j with
    | some d, some v => s.set i (some (E.copyAssign d v))
    | _, _ => s
  | .assignT i v => modify s i fun d => E.copyAssign d v
  | .moveAssign i j => match at? s i, at? s j with
    | some d, some v =>
      if i = j then s.set i (some (E.selfMove d))
      else (s.set j (some (E.moveAssign d v).2)).set i (some (E.moveAssign d v).1)
    | _, _ => s
  | .edit i f => modify s i f
  | .destroy i => s.set i none

/-- What happened to the `T` at place `i`, oldest first: `true` for a construction. -/
def lifeOf (i : Nat) (log : List TEvent) : List Bool :=
  log.filterMap fun
    | .construct k => if k = i then some true else none
    | .destroy k => if k = i then some false else none

/-- Constructions and destructions take turns, starting with a construction. -/
def Alternates : List Bool → Prop
  | [] => True
  | [b] => b = true
  | b :: c :: l => b = true ∧ c = false ∧ Alternates l

end Utils.Objects
