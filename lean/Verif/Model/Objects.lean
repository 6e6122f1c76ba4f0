import Verif.Model.Outcome
import Verif.Model.CInt

/-!
# timer.h and fast_pimpl.h

Objects live in a store: a list of places, `none` where no object lives.  Member functions are
written as the sequence of assignments they make, so that an object may be passed to itself.
-/

namespace Utils.Objects

/-! ## timer -/

/-- A stored callback: its type (which decides what `call_finish_callback<...>` does) and the bytes of
the callable object. -/
structure Callback where
  kind : Nat
  state : Nat
  deriving DecidableEq

/-- The members of `timer`, /repo/sources/include/utils/timer.h 159-162: `callback` is the function
pointer `callback_` (identified by the type it was instantiated for), `data` the buffer `data_`. -/
structure Timer where
  start : Int
  callback : Option Nat
  data : Nat
  deriving DecidableEq

/-- Change one object of the store. -/
def modify {α : Type} (s : List (Option α)) (i : Nat) (f : α → α) : List (Option α) :=
  s.set i ((s[i]?.bind id).map f)

/-- The object at a place. -/
def at? {α : Type} (s : List (Option α)) (i : Nat) : Option α := s[i]?.bind id

/-- The constructor from a callback, timer.h 88-113; `now` is what the clock says. -/
def Timer.make (now : Int) (cb : Callback) : Timer := ⟨now, some cb.kind, cb.state⟩

/-- What the destructor calls, timer.h 80-86 and `call_finish_callback`, 37-42: the callback of the
recorded type on the stored bytes.  The stored callable is not destroyed. -/
def Timer.finish (t : Timer) : Option Callback := t.callback.map fun k => ⟨k, t.data⟩

/-- The move constructor, timer.h 117-122: a new timer at `i` from the one at `j`. -/
def moveConstruct (s : List (Option Timer)) (i j : Nat) : List (Option Timer) :=
  match at? s j with
  | none => s
  | some other =>
    let s := s.set i (some ⟨other.start, other.callback, other.data⟩)
    modify s j fun t => { t with callback := none }

/-- Move assignment, timer.h 124-131, assignment by assignment (`i` and `j` may be the same). -/
def moveAssign (s : List (Option Timer)) (i j : Nat) : List (Option Timer) :=
  match at? s j with
  | none => s
  | some other =>
    let s := modify s i fun t => { t with start := other.start }
    let s := modify s i fun t => { t with callback := other.callback }
    let s := modify s j fun t => { t with callback := none }
    modify s i fun t => { t with data := other.data }

/-- `leaked()`, timer.h 133: the difference of two `long` counts of nanoseconds. -/
def Timer.leaked (t : Timer) (now : Int) : Outcome Int :=
  if CTy.long.InRange (now - t.start) then .ok (now - t.start) else .ub

/-- `leaked_sec`, `leaked_milli_sec`, `leaked_micro_sec`, `leaked_nano_sec`, timer.h 135-153:
`duration_cast` truncates; `unit` is the number of nanoseconds. -/
def Timer.leakedIn (unit : Int) (t : Timer) (now : Int) : Outcome Int :=
  (t.leaked now).map fun d => d.tdiv unit

/-- `reset()`, timer.h 157. -/
def Timer.reset (t : Timer) (now : Int) : Timer := { t with start := now }

/-! ## fast_pimpl -/

/-- What the operations of the implementation class `T` do to its values: the new value of the target
and, for moves, what is left of the source. -/
structure Impl (α : Type) where
  default : α
  copy : α → α
  move : α → α × α
  copyAssign : α → α → α
  moveAssign : α → α → α × α
  selfMove : α → α

/-- The buffer `data_` of a `fast_pimpl`, /repo/sources/include/utils/fast_pimpl.h 104: bytes in which
no `T` lives, or a `T`. -/
inductive Cell (α : Type)
  | raw
  | obj (v : α)
  deriving DecidableEq

/-- `get()`, fast_pimpl.h 99-101: using a `T` that does not live is undefined. -/
def Cell.get {α : Type} : Cell α → Outcome α
  | .raw => .ub
  | .obj v => .ok v

/-- What happens to the `T` inside the object at a place. -/
inductive TEvent
  | construct (i : Nat)
  | destroy (i : Nat)
  deriving DecidableEq

/-- Places, and what happened to the `T`s. -/
structure PStore (α : Type) where
  cells : List (Option (Cell α))
  log : List TEvent

/-- The calls on `fast_pimpl` objects; `v` is a `T` made by the caller. -/
inductive POp (α : Type)
  /-- 23-26 -/
  | default (i : Nat)
  /-- the forwarding constructor, 28-33 -/
  | forward (i : Nat) (v : α)
  /-- 35-39 -/
  | copy (i j : Nat)
  /-- from a `const T &`, 41-45 -/
  | fromT (i : Nat) (v : α)
  /-- 47-51 -/
  | move (i j : Nat)
  /-- 58-63 -/
  | assign (i j : Nat)
  /-- from a `const T &`, 65-70 -/
  | assignT (i : Nat) (v : α)
  /-- 72-77 -/
  | moveAssign (i j : Nat)
  /-- through `operator->` or `get()`, 86-101: the client changes the value -/
  | edit (i : Nat) (f : α → α)
  /-- the destructor, 17-21 -/
  | destroy (i : Nat)

/-- `new (&get()) T(...)`: the object at place `i` comes to life with `data_` as raw bytes, then a `T`
is constructed in them. -/
def placeNew {α : Type} (s : PStore α) (i : Nat) (v : α) : PStore α :=
  ⟨(s.cells.set i (some .raw)).set i (some (.obj v)), s.log ++ [.construct i]⟩

/-- One call, fast_pimpl.h lines as given at `POp`.  Calls on places that hold no object, and
constructions at places that are taken, are not programs: they change nothing. -/
def pstep {α : Type} (E : Impl α) (s : PStore α) : POp α → Outcome (PStore α)
  | .default i =>
    match s.cells[i]? with
    | some none => pure (placeNew s i E.default)
    | _ => pure s
  | .forward i v =>
    match s.cells[i]? with
    | some none => pure (placeNew s i v)
    | _ => pure s
  | .copy i j =>
    match s.cells[i]?, at? s.cells j with
    | some none, some c => do
      let v ← c.get
      pure (placeNew s i (E.copy v))
    | _, _ => pure s
  | .fromT i v =>
    match s.cells[i]? with
    | some none => pure (placeNew s i (E.copy v))
    | _ => pure s
  | .move i j =>
    match s.cells[i]?, at? s.cells j with
    | some none, some c => do
      let v ← c.get
      let (new, left) := E.move v
      pure (placeNew ⟨s.cells.set j (some (.obj left)), s.log⟩ i new)
    | _, _ => pure s
  | .assign i j =>
    match at? s.cells i, at? s.cells j with
    | some d, some c => do
      let dst ← d.get
      let src ← c.get
      pure ⟨s.cells.set i (some (.obj (E.copyAssign dst src))), s.log⟩
    | _, _ => pure s
  | .assignT i v =>
    match at? s.cells i with
    | some d => do
      let dst ← d.get
      pure ⟨s.cells.set i (some (.obj (E.copyAssign dst v))), s.log⟩
    | none => pure s
  | .moveAssign i j =>
    match at? s.cells i, at? s.cells j with
    | some d, some c => do
      let dst ← d.get
      let src ← c.get
      if i = j then pure ⟨s.cells.set i (some (.obj (E.selfMove dst))), s.log⟩
      else
        let (new, left) := E.moveAssign dst src
        pure ⟨(s.cells.set j (some (.obj left))).set i (some (.obj new)), s.log⟩
    | _, _ => pure s
  | .edit i f =>
    match at? s.cells i with
    | some d => do
      let v ← d.get
      pure ⟨s.cells.set i (some (.obj (f v))), s.log⟩
    | none => pure s
  | .destroy i =>
    match at? s.cells i with
    | some d => do
      let _ ← d.get
      pure ⟨s.cells.set i none, s.log ++ [.destroy i]⟩
    | none => pure s

/-- A history. -/
def prun {α : Type} (E : Impl α) : PStore α → List (POp α) → Outcome (PStore α)
  | s, [] => .ok s
  | s, op :: ops => do
    let s ← pstep E s op
    prun E s ops

end Utils.Objects
