import Verif.Model.TimerOwn

/-! # Spec: what can go wrong with the callable in a timer, read off the history -/

namespace Utils.Objects

/-- The last call before (newest first) that put a callable into the timer at `i` was a move. -/
def cameByMove (clock : Nat → Int) (n : Nat) (i : Nat) : List TOp → Bool
  | [] => true
  | op :: before =>
    let w := trun clock (noTimers n) before.reverse
    match op with
    | .make k _ => if k = i ∧ w.timers[i]? = some none then false else cameByMove clock n i before
    | .moveConstruct k j =>
      if k = i ∧ w.timers[i]? = some none ∧ (at? w.timers j).isSome then true
      else cameByMove clock n i before
    | .moveAssign k j =>
      if k = i ∧ (at? w.timers i).isSome ∧ (at? w.timers j).isSome then true
      else cameByMove clock n i before
    | _ => cameByMove clock n i before

/-- What goes wrong in a call after the history `before`: nothing, an exception is thrown, or the bytes of
an object that is not trivially copyable are taken for an object. -/
inductive Trouble
  | nothing
  | throws
  | bytes
  deriving DecidableEq

/-- See `Trouble`. -/
def trouble (cls : Nat → CallableClass) (clock : Nat → Int) (n : Nat) (before : List TOp) (op : TOp) :
    Trouble :=
  let w := trun clock (noTimers n) before
  match op with
  | .make i cb =>
    if w.timers[i]? = some none ∧ (cls cb.kind).copyThrows cb.state = true then .throws else .nothing
  | .destroy i =>
    match (at? w.timers i).bind Timer.finish with
    | none => .nothing
    | some cb =>
      if (cls cb.kind).trivial = false ∧ cameByMove clock n i before.reverse = true then .bytes
      else if (cls cb.kind).callThrows cb.state = true then .throws
      else .nothing
  | _ => .nothing

/-- The first trouble in a history. -/
def firstTrouble (cls : Nat → CallableClass) (clock : Nat → Int) (n : Nat) :
    List TOp → List TOp → Trouble
  | _, [] => .nothing
  | before, op :: ops =>
    match trouble cls clock n before op with
    | .nothing => firstTrouble cls clock n (before ++ [op]) ops
    | t => t

end Utils.Objects
