import Verif.Model.FunctionTraits

/-!
# Which functions the free function checkers see

/repo/sources/include/utils/function_traits.h 291-345: `CREATE_FREE_FUNCTION_CHECKERS(NAME)` opens the namespace
`details` of the namespace where it is used and calls `NAME(std::declval<Args>()...)` there, in templates.
`Model/FunctionTraits.lean` has what the checkers make of that call; here is which declarations the name in it
means: [basic.lookup.unqual], [basic.lookup.argdep] and, since the call is in a template, [temp.dep.candidate].

Simplifications: one name `NAME`; no `using` declarations or directives, no inline namespaces, no extern or block
scope declarations; a checker is asked in one place, since the meaning of a template specialisation may not change
([temp.point] 8).  Overload resolution among the declarations found is left open.
-/

namespace Utils.Lookup

open Utils.Traits

variable {τ : Type}

/-- A declaration of `NAME`: the namespace, innermost name first, and what it declares: a function, with the class
if it is a friend that is only declared in that class; or something else (a type, a variable). -/
structure Decl (τ : Type) where
  ns : List String
  fn : Option (Fn τ)
  friendOf : Option String := none
  deriving DecidableEq

/-- The associated namespaces and classes of arguments, [basic.lookup.argdep] 2. -/
structure Assoc where
  namespaces : List (List String)
  classes : List String

/-- Ordinary lookup does not find friends that are only declared in their class. -/
def Decl.ordinary (d : Decl τ) : Bool := d.friendOf.isNone

/-- [basic.lookup.unqual]: the innermost namespace around the call that has a declaration of the name. -/
def visibleIn (ds : List (Decl τ)) : List String → Option (List String)
  | [] => if ds.any fun d => d.ordinary && d.ns = [] then some [] else none
  | s :: outer => if ds.any fun d => d.ordinary && d.ns = s :: outer then some (s :: outer) else visibleIn ds outer

/-- [basic.lookup.argdep] 3.4: functions of an associated namespace; friends only if their class is associated. -/
def Decl.associated (d : Decl τ) (a : Assoc) : Bool :=
  d.fn.isSome && a.namespaces.contains d.ns &&
    match d.friendOf with
    | none => true
    | some c => a.classes.contains c

/-- The declarations that the name means in a call from the namespace `scope`, if the call is written behind the
first `written` declarations, and in a template that is instantiated behind the first `used` ones: ordinary lookup
sees those before the template ([temp.dep.candidate] 1.1), argument-dependent lookup all (1.2), unless ordinary
lookup has found something that is no function ([basic.lookup.argdep] 3.3). -/
def found (scope : List String) (ds : List (Decl τ)) (written used : Nat) (a : Assoc) : List (Decl τ) :=
  let before := ds.take written
  let ns := visibleIn before scope
  let adl := !before.any fun d => d.ordinary && some d.ns = ns && d.fn.isNone
  (before.filter fun d => (d.ordinary && some d.ns = ns) || (adl && d.associated a)) ++
    ((ds.drop written).take (used - written)).filter fun d => adl && d.associated a

/-- The call in the checkers: function_traits.h 292-301, in `details`, the macro used in `scope` behind the first
`written` declarations, the checker asked behind the first `used`; `resolve` is overload resolution. -/
def checkerCall (resolve : List (Decl τ) → Calls τ) (assoc : List τ → Assoc) (scope : List String)
    (ds : List (Decl τ)) (written used : Nat) : Calls τ :=
  fun args => resolve (found ("details" :: scope) ds written used (assoc args)) args

/-- The same call written by hand, in `scope`, where the checker is asked. -/
def plainCall (resolve : List (Decl τ) → Calls τ) (assoc : List τ → Assoc) (scope : List String)
    (ds : List (Decl τ)) (used : Nat) : Calls τ :=
  fun args => resolve (found scope ds used used (assoc args)) args

/-- `is_NAME_invocable_v<Args...>`, function_traits.h 304-312. -/
def isNameInvocable (nonesuch : τ) (resolve : List (Decl τ) → Calls τ) (assoc : List τ → Assoc) (scope : List String)
    (ds : List (Decl τ)) (written used : Nat) (args : List τ) : Bool :=
  isCallable nonesuch (checkerCall resolve assoc scope ds written used) args

end Utils.Lookup
