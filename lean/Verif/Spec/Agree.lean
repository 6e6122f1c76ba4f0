import Verif.Model.SimpleResource

/-!
# Builds with and without assertions

Defining `NDEBUG` removes every `assert`.
-/

namespace Utils

/-- The call with assertions stops at an assertion, or ends exactly as the call without: with the
same result, aborted, undefined, or still running. -/
def Agree {α : Type} (checked unchecked : Outcome α) : Prop :=
  checked = .assertFailed ∨ checked = unchecked

/-- The same resource compiled with `NDEBUG`. -/
def SR.Params.ndebug (p : SR.Params) : SR.Params := { p with debug := false }

end Utils
