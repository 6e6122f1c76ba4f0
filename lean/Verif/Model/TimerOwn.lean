import Verif.Spec.Objects

/-!
# The callable inside a timer: its lifetime and its exceptions

timer.h 37-62, 80-131.  A class of callables is described by what matters here.  The stored callable is
made by placement new (timer.h 105-112), is moved by copying its bytes (`copy`, 50-62, used at 120 and 129)
and is never destroyed (80-86 only calls it).

Calling a callable of a class that is not trivially copyable, where only its bytes were copied, is undefined
([basic.types.general]: there is no object).  The constructor (93) and `call_finish_callback` (38-39)
are `noexcept`: an exception that leaves them calls `std::terminate`, here `Outcome.aborted`.
-/

namespace Utils.Objects

/-- A class of callables: is it trivially copyable, does making the stored copy of a callable with this
state throw, does calling it throw? -/
structure CallableClass where
  trivial : Bool
  copyThrows : Nat → Bool
  callThrows : Nat → Bool

/-- The timers, the places of timers in which a callable was constructed that is still there, and the
callables that were constructed and not destroyed. -/
structure OwnWorld where
  w : TWorld
  native : Nat → Bool
  alive : List Callback

/-- Nothing yet. -/
def OwnWorld.init (n : Nat) : OwnWorld := ⟨noTimers n, fun _ => false, []⟩

/-- One call, timer.h 80-157. -/
def ostep (cls : Nat → CallableClass) (clock : Nat → Int) (o : OwnWorld) (op : TOp) : Outcome OwnWorld :=
  let w' := tstep clock o.w op
  match op with
  | .make i cb =>
    if o.w.timers[i]? = some none then
      if (cls cb.kind).copyThrows cb.state then .aborted
      else .ok ⟨w', fun k => if k = i then true else o.native k, cb :: o.alive⟩
    else .ok o
  | .moveConstruct i j =>
    if o.w.timers[i]? = some none ∧ (at? o.w.timers j).isSome then
      .ok ⟨w', fun k => if k = i then false else o.native k, o.alive⟩
    else .ok o
  | .moveAssign i j =>
    match at? o.w.timers i, at? o.w.timers j with
    | some _, some _ => .ok ⟨w', fun k => if k = i then false else o.native k, o.alive⟩
    | _, _ => .ok o
  | .reset _ => .ok ⟨w', o.native, o.alive⟩
  | .destroy i =>
    match (at? o.w.timers i).bind Timer.finish with
    | none => .ok ⟨w', o.native, o.alive⟩
    | some cb =>
      if !(cls cb.kind).trivial && !o.native i then .ub
      else if (cls cb.kind).callThrows cb.state then .aborted
      else .ok ⟨w', o.native, o.alive⟩

/-- A history. -/
def orun (cls : Nat → CallableClass) (clock : Nat → Int) : OwnWorld → List TOp → Outcome OwnWorld
  | o, [] => .ok o
  | o, op :: ops => do
    let o ← ostep cls clock o op
    orun cls clock o ops

end Utils.Objects
