import Verif.Model.Exceptions
import Verif.Spec.Objects

/-! # Plain variables of a type whose operations throw -/

namespace Utils.Objects

variable {α : Type}

/-- Define a variable at place `i`, initialised by a constructor that gives `r`. -/
def plainConstruct (l : List (Option α)) (i : Nat) (r : Option α) : List (Option α) × Bool :=
  if free l i then
    match r with
    | some v => (l.set i (some v), false)
    | none => (l, true)
  else (l, false)

/-- The same calls on plain variables of type `T`, and whether they throw. -/
def xplain (E : XImpl α) (l : List (Option α)) : XOp α → List (Option α) × Bool
  | .default i => plainConstruct l i E.default
  | .forward i r _ => plainConstruct l i r
  | .copy i j =>
    match at? l j with
    | some v => plainConstruct l i (E.copy v)
    | none => (l, false)
  | .fromT i v => plainConstruct l i (E.copy v)
  | .move i j =>
    match at? l j with
    | some v =>
      if free l i then plainConstruct (l.set j (some (E.move v).2)) i (E.move v).1 else (l, false)
    | none => (l, false)
  | .moveT i v => plainConstruct l i (E.move v).1
  | .assign i j =>
    match at? l i, at? l j with
    | some d, some v => (l.set i (some (E.copyAssign d v).2), (E.copyAssign d v).1)
    | _, _ => (l, false)
  | .assignT i v =>
    match at? l i with
    | some d => (l.set i (some (E.copyAssign d v).2), (E.copyAssign d v).1)
    | none => (l, false)
  | .moveAssign i j =>
    match at? l i, at? l j with
    | some d, some v =>
      if i = j then (l.set i (some (E.selfMove d).2), (E.selfMove d).1)
      else ((l.set j (some (E.moveAssign d v).2.2)).set i (some (E.moveAssign d v).2.1),
        (E.moveAssign d v).1)
    | _, _ => (l, false)
  | .moveAssignT i v =>
    match at? l i with
    | some d => (l.set i (some (E.moveAssign d v).2.1), (E.moveAssign d v).1)
    | none => (l, false)
  | .destroy i =>
    match at? l i with
    | some v => (l.set i none, E.destroy v)
    | none => (l, false)

/-- A history on plain variables. -/
def xplainRun (E : XImpl α) : List (Option α) → List (XOp α) → List (Option α) × List Bool
  | l, [] => (l, [])
  | l, op :: ops =>
    ((xplainRun E (xplain E l op).1 ops).1, (xplain E l op).2 :: (xplainRun E (xplain E l op).1 ops).2)

/-- In the course of the history some destructor of `T` throws. -/
def DtorThrows (E : XImpl α) : List (Option α) → List (XOp α) → Prop
  | _, [] => False
  | l, op :: ops =>
    (∃ i v, op = .destroy i ∧ at? l i = some v ∧ E.destroy v = true) ∨
      DtorThrows E (xplain E l op).1 ops

/-- Operations declared not to throw do not. -/
structure Truthful (E : XImpl α) (N : Nothrow) : Prop where
  default : N.default = true → E.default ≠ none
  copy : N.copy = true → ∀ v, E.copy v ≠ none
  move : N.move = true → ∀ v, (E.move v).1 ≠ none
  copyAssign : N.copyAssign = true → ∀ d v, (E.copyAssign d v).1 = false
  moveAssign : N.moveAssign = true → ∀ d v, (E.moveAssign d v).1 = false ∧ (E.selfMove d).1 = false

/-- The same for the constructors used through the forwarding constructor. -/
def TruthfulOp : XOp α → Prop
  | .forward _ r nothrow => nothrow = true → r ≠ none
  | _ => True

end Utils.Objects
