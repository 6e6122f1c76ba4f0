import Verif.Model.Objects

/-!
# fast_pimpl.h when operations of `T` throw

/repo/sources/include/utils/fast_pimpl.h.  An exception leaves a member function unless its exception
specification is `noexcept(true)`: then `std::terminate` is called, which is `aborted` here.
-/

namespace Utils.Objects

/-- What the operations of `T` do, and whether they throw: `none` for a constructor that throws, `true`
for an assignment or a destructor that throws.  A throwing move or assignment may have changed its
operands. -/
structure XImpl (α : Type) where
  default : Option α
  copy : α → Option α
  move : α → Option α × α
  copyAssign : α → α → Bool × α
  moveAssign : α → α → Bool × α × α
  selfMove : α → Bool × α
  destroy : α → Bool

/-- `std::is_nothrow_constructible_v<T>`, `std::is_nothrow_copy_constructible_v<T>`,
`std::is_nothrow_move_constructible_v<T>`, `std::is_nothrow_copy_assignable_v<T>` and
`std::is_nothrow_move_assignable_v<T>`. -/
structure Nothrow where
  default : Bool
  copy : Bool
  move : Bool
  copyAssign : Bool
  moveAssign : Bool

/-- The calls on `fast_pimpl` objects; `v` is a `T` of the caller. -/
inductive XOp (α : Type)
  /-- 23-26 -/
  | default (i : Nat)
  /-- the forwarding constructor, 28-33: `r` is what `T(args...)` gives, `nothrow` is
  `std::is_nothrow_constructible_v<T, Args...>` -/
  | forward (i : Nat) (r : Option α) (nothrow : Bool)
  /-- 35-39 -/
  | copy (i j : Nat)
  /-- from a `const T &`, 41-45 -/
  | fromT (i : Nat) (v : α)
  /-- 47-51 -/
  | move (i j : Nat)
  /-- from a `T &&`, 53-56 -/
  | moveT (i : Nat) (v : α)
  /-- 58-63 -/
  | assign (i j : Nat)
  /-- from a `const T &`, 65-70 -/
  | assignT (i : Nat) (v : α)
  /-- 72-77 -/
  | moveAssign (i j : Nat)
  /-- from a `T &&`, 79-84 -/
  | moveAssignT (i : Nat) (v : α)
  /-- the destructor, 17-21 -/
  | destroy (i : Nat)

variable {α : Type}

/-- `new (&get()) T(...)` in a constructor of the object at place `i`: if `T`'s constructor throws, the
object does not come to life, and its destructor does not run. -/
def xconstruct (s : PStore α) (i : Nat) (r : Option α) : PStore α × Bool :=
  match s.cells[i]?, r with
  | some none, some v => (placeNew s i v, false)
  | some none, none => (s, true)
  | _, _ => (s, false)

/-- The bodies, lines as given at `XOp`: the store afterwards and whether the body was left by an
exception.  Calls on places that hold no object, and constructions at places that are taken, are not
programs: they change nothing. -/
def xbody (E : XImpl α) (s : PStore α) : XOp α → Outcome (PStore α × Bool)
  | .default i => pure (xconstruct s i E.default)
  | .forward i r _ => pure (xconstruct s i r)
  | .copy i j =>
    match at? s.cells j with
    | some c => do
      let v ← c.get
      pure (xconstruct s i (E.copy v))
    | none => pure (s, false)
  | .fromT i v => pure (xconstruct s i (E.copy v))
  | .move i j =>
    match s.cells[i]?, at? s.cells j with
    | some none, some c => do
      let v ← c.get
      let (new, left) := E.move v
      pure (xconstruct ⟨s.cells.set j (some (.obj left)), s.log⟩ i new)
    | _, _ => pure (s, false)
  | .moveT i v => pure (xconstruct s i (E.move v).1)
  | .assign i j =>
    match at? s.cells i, at? s.cells j with
    | some d, some c => do
      let dst ← d.get
      let src ← c.get
      let (threw, new) := E.copyAssign dst src
      pure (⟨s.cells.set i (some (.obj new)), s.log⟩, threw)
    | _, _ => pure (s, false)
  | .assignT i v =>
    match at? s.cells i with
    | some d => do
      let dst ← d.get
      let (threw, new) := E.copyAssign dst v
      pure (⟨s.cells.set i (some (.obj new)), s.log⟩, threw)
    | none => pure (s, false)
  | .moveAssign i j =>
    match at? s.cells i, at? s.cells j with
    | some d, some c => do
      let dst ← d.get
      let src ← c.get
      if i = j then
        let (threw, new) := E.selfMove dst
        pure (⟨s.cells.set i (some (.obj new)), s.log⟩, threw)
      else
        let (threw, new, left) := E.moveAssign dst src
        pure (⟨(s.cells.set j (some (.obj left))).set i (some (.obj new)), s.log⟩, threw)
    | _, _ => pure (s, false)
  | .moveAssignT i v =>
    match at? s.cells i with
    | some d => do
      let dst ← d.get
      let (threw, new, _) := E.moveAssign dst v
      pure (⟨s.cells.set i (some (.obj new)), s.log⟩, threw)
    | none => pure (s, false)
  | .destroy i =>
    match at? s.cells i with
    | some d => do
      let v ← d.get
      pure (⟨s.cells.set i none, s.log ++ [.destroy i]⟩, E.destroy v)
    | none => pure (s, false)

/-- The exception specifications, lines as given at `XOp`.  The destructor has none written; it is
that of a destructor whose members are bytes, `noexcept(true)`, whatever `~T` may do. -/
def xspec (N : Nothrow) : XOp α → Bool
  | .default _ => N.default
  | .forward _ _ nothrow => nothrow
  | .copy _ _ => N.copy
  | .fromT _ _ => N.copy
  | .move _ _ => N.move
  | .moveT _ _ => N.move
  | .assign _ _ => N.copyAssign
  | .assignT _ _ => N.copyAssign
  | .moveAssign _ _ => N.moveAssign
  | .moveAssignT _ _ => N.moveAssign
  | .destroy _ => true

/-- One call; the flag says whether the caller sees an exception. -/
def xstep (E : XImpl α) (N : Nothrow) (s : PStore α) (op : XOp α) : Outcome (PStore α × Bool) := do
  let (s, threw) ← xbody E s op
  if threw && xspec N op then .aborted else pure (s, threw)

/-- A history of a caller that catches every exception; the flags tell which calls threw. -/
def xrun (E : XImpl α) (N : Nothrow) : PStore α → List (XOp α) → Outcome (PStore α × List Bool)
  | s, [] => .ok (s, [])
  | s, op :: ops => do
    let (s, threw) ← xstep E N s op
    let (s, flags) ← xrun E N s ops
    pure (s, threw :: flags)

end Utils.Objects
