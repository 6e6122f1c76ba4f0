import Verif.Model.FreeLookup

/-! # Specification for C134: which functions a call means -/

namespace Utils.Spec

open Utils.Lookup Utils.Traits

variable {τ : Type}

/-- `ns` is the innermost namespace around `scope` with a declaration among `ds` that is not hidden in a class. -/
def Nearest (ds : List (Decl τ)) (scope ns : List String) : Prop :=
  ns <:+ scope ∧ (∃ d ∈ ds, d.friendOf = none ∧ d.ns = ns) ∧
    ∀ d ∈ ds, d.friendOf = none → d.ns <:+ scope → d.ns <:+ ns

/-- The arguments lead to the function: it lies in one of their namespaces and, as a friend, in one of their
classes. -/
def LedTo (a : Assoc) (d : Decl τ) : Prop :=
  d.fn ≠ none ∧ d.ns ∈ a.namespaces ∧ ∀ c, d.friendOf = some c → c ∈ a.classes

/-- Declarations of `ds` from place `i` to place `j`. -/
def Between (ds : List (Decl τ)) (i j : Nat) (d : Decl τ) : Prop := ∃ k, i ≤ k ∧ k < j ∧ ds[k]? = some d

/-- Among the first `written` declarations, the name is a function wherever a call from `scope` finds it. -/
def OnlyFunctions (ds : List (Decl τ)) (scope : List String) (written : Nat) : Prop :=
  ∀ ns, Nearest (ds.take written) scope ns → ∀ d ∈ ds.take written, d.friendOf = none → d.ns = ns → d.fn ≠ none

/-- The four checkers of `CREATE_FREE_FUNCTION_CHECKERS` answer for both calls alike. -/
def SameAnswers [DecidableEq τ] (nonesuch : τ) (call call' : Calls τ) (args : List τ) : Prop :=
  isCallable nonesuch call args = isCallable nonesuch call' args ∧
  isNoexceptCallable nonesuch call args = isNoexceptCallable nonesuch call' args ∧
  ∀ r, isCallableR nonesuch r call args = isCallableR nonesuch r call' args ∧
    isNoexceptCallableR nonesuch r call args = isNoexceptCallableR nonesuch r call' args

end Utils.Spec
