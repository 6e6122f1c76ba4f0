/-!
# Outcomes of a modelled call

Every modelled function that can stop in some other way than by returning gives an `Outcome`.
The ways are kept apart so that "the call is fine" always means `ok`.
-/

namespace Utils

/-- The ways in which a modelled C++ call can end.

* `ok a`: it returns `a`;
* `assertFailed`: an `assert` fails (only in builds without `NDEBUG`);
* `aborted`: `std::abort` is called on purpose (`abort_if`, /repo common.h 445-460);
* `ub`: the behaviour is undefined by the C++17 standard;
* `outOfFuel`: the loop has not finished within the given number of iterations. -/
inductive Outcome (α : Type) where
  | ok (a : α)
  | assertFailed
  | aborted
  | ub
  | outOfFuel
  deriving DecidableEq, Repr

namespace Outcome

/-- Sequencing: stop at the first outcome that is not `ok`. -/
def bind {α β : Type} : Outcome α → (α → Outcome β) → Outcome β
  | .ok a, f => f a
  | .assertFailed, _ => .assertFailed
  | .aborted, _ => .aborted
  | .ub, _ => .ub
  | .outOfFuel, _ => .outOfFuel

instance : Monad Outcome where
  pure := .ok
  bind := bind

@[simp] theorem pure_eq {α : Type} (a : α) : (pure a : Outcome α) = .ok a := rfl
@[simp] theorem ok_bind {α β : Type} (a : α) (f : α → Outcome β) : (Outcome.ok a >>= f) = f a := rfl
@[simp] theorem assertFailed_bind {α β : Type} (f : α → Outcome β) :
    ((Outcome.assertFailed : Outcome α) >>= f) = .assertFailed := rfl
@[simp] theorem aborted_bind {α β : Type} (f : α → Outcome β) :
    ((Outcome.aborted : Outcome α) >>= f) = .aborted := rfl
@[simp] theorem ub_bind {α β : Type} (f : α → Outcome β) :
    ((Outcome.ub : Outcome α) >>= f) = .ub := rfl
@[simp] theorem outOfFuel_bind {α β : Type} (f : α → Outcome β) :
    ((Outcome.outOfFuel : Outcome α) >>= f) = .outOfFuel := rfl

/-- `m >>= f` is `ok` only if both parts are. -/
theorem bind_eq_ok {α β : Type} {m : Outcome α} {f : α → Outcome β} {b : β} :
    (m >>= f) = .ok b ↔ ∃ a, m = .ok a ∧ f a = .ok b := by
  cases m <;> simp

/-- Applying a function to the returned value. -/
def map {α β : Type} (f : α → β) (m : Outcome α) : Outcome β := m.bind fun a => .ok (f a)

/-- The call neither returns nor is stopped: used to speak about failures uniformly. -/
def isOk {α : Type} : Outcome α → Bool
  | .ok _ => true
  | _ => false

end Outcome

/-- `assert(cond)` of `<cassert>`: checked iff `debug` (no `NDEBUG`). -/
def cassert (debug cond : Bool) : Outcome Unit :=
  if debug && !cond then .assertFailed else .ok ()

@[simp] theorem cassert_true (debug : Bool) : cassert debug true = .ok () := by
  cases debug <;> rfl
@[simp] theorem cassert_ndebug (c : Bool) : cassert false c = .ok () := rfl
@[simp] theorem cassert_debug_false : cassert true false = .assertFailed := rfl

/-- `utils::abort_if(cond, ...)`, /repo/sources/include/utils/common.h 445-460.
The message printed to `stderr` is modelled in Model/Diagnostics.lean. -/
def abortIf (cond : Bool) : Outcome Unit := if cond then .aborted else .ok ()

@[simp] theorem abortIf_true : abortIf true = .aborted := rfl
@[simp] theorem abortIf_false : abortIf false = .ok () := rfl

end Utils
