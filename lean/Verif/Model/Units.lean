import Verif.Model.Outcome

/-!
# Programs of several translation units: the static resources and the default resource

`system_memory_resource()` and `null_memory_resource()` are declared `static` at namespace scope
(memory.h 221-222, 289-299), so every translation unit that includes the header has functions of its
own, each with a block-scope static object of its own, made when the function is called first.
`details::default_resource` is an inline variable (226-227): one object for the whole program, with a
dynamic initialiser that calls the function of one of the translation units.

Static objects are destroyed in the reverse order in which their construction was completed
([basic.start.term]); `memory_resource` has a virtual destructor (memory.h 182), so that a call on an object
that was destroyed is undefined, and so is passing through the definition of a block-scope static object
that was destroyed.

Not modelled: threads; objects that are used while they are constructed or destroyed (a call on such an
object counts as undefined here); `default_resource` itself has a trivial destructor and is never gone.
-/

namespace Utils.Units

/-- An object with static storage duration: the resources of translation unit `u`, memory.h 291 and 297,
and the static objects of the program. -/
inductive Obj
  | sys (u : Nat)
  | null (u : Nat)
  | static (n : Nat)
  deriving DecidableEq

/-- What a body of code does.  It has a frame: the pointers it got so far, in order. -/
inductive Call
  /-- `system_memory_resource()`, called in translation unit `u` -/
  | system (u : Nat)
  /-- `null_memory_resource()`, called in translation unit `u` -/
  | nullRes (u : Nat)
  /-- `get_default_resource()` -/
  | get
  /-- `set_default_resource(p)`, `p` being pointer `k` of the frame -/
  | set (k : Nat)
  /-- the address of a static object of the program -/
  | addr (n : Nat)
  /-- `allocate`, `deallocate`, `is_equal` or a comparison on pointer `k` of the frame -/
  | use (k : Nat)
  deriving DecidableEq

/-- Pointers got; `none` is the null pointer. -/
abbrev Frame := List (Option Obj)

/-- The objects that exist (the one completed last first), those that were destroyed, the value of
`default_resource`, and what every static object of the program got in its constructor. -/
structure State where
  up : List Obj
  dead : List Obj
  dflt : Option Obj
  kept : Nat → Frame

/-- Before any dynamic initialisation; `default_resource` is zero. -/
def State.init : State := ⟨[], [], none, fun _ => []⟩

/-- The definition of a block-scope static object, memory.h 291 and 297: made if it was not made yet. -/
def pass (s : State) (o : Obj) : Outcome State :=
  if o ∈ s.dead then .ub
  else if o ∈ s.up then .ok s
  else .ok { s with up := o :: s.up }

/-- One call: memory.h 289-293, 295-299, 307-310, 301-305 (`exchange` gives back the old value), and the
calls through a pointer.  A pointer that the frame does not have stands for no call. -/
def call (s : State) (f : Frame) : Call → Outcome (State × Frame)
  | .system u => do
    let s ← pass s (.sys u)
    pure (s, f ++ [some (.sys u)])
  | .nullRes u => do
    let s ← pass s (.null u)
    pure (s, f ++ [some (.null u)])
  | .get => .ok (s, f ++ [s.dflt])
  | .set k =>
    match f[k]? with
    | none => .ok (s, f)
    | some p => .ok ({ s with dflt := p }, f ++ [s.dflt])
  | .addr n => .ok (s, f ++ [some (.static n)])
  | .use k =>
    match f[k]? with
    | none => .ok (s, f)
    | some none => .ub
    | some (some o) => if o ∈ s.up then .ok (s, f) else .ub

/-- A body. -/
def body : State → Frame → List Call → Outcome (State × Frame)
  | s, f, [] => .ok (s, f)
  | s, f, c :: cs => do
    let (s, f) ← call s f c
    body s f cs

/-- What happens until `main` returns. -/
inductive Event
  /-- the dynamic initialisation of `default_resource`, memory.h 226-227, by the definition of
  translation unit `d` -/
  | initDefault (d : Nat)
  /-- the construction of static object `n` -/
  | ctor (n : Nat) (cs : List Call)
  /-- other code: `main` and what it calls -/
  | code (cs : List Call)

/-- One of them. -/
def event (s : State) : Event → Outcome State
  | .initDefault d => do
    let s ← pass s (.sys d)
    pure { s with dflt := some (.sys d) }
  | .ctor n cs => do
    let (s, f) ← body s [] cs
    pure { s with up := .static n :: s.up, kept := fun m => if m = n then f else s.kept m }
  | .code cs => do
    let (s, _) ← body s [] cs
    pure s

/-- Start-up and `main`. -/
def start : State → List Event → Outcome State
  | s, [] => .ok s
  | s, e :: es => do
    let s ← event s e
    start s es

/-- At the end of the program: the object completed last is destroyed; the destructor of a static object
of the program (`dtor`) has the pointers that its constructor got. -/
def destroy (dtor : Nat → List Call) (s : State) : Outcome State :=
  match s.up with
  | [] => .ok s
  | .static n :: rest => do
    let (s, _) ← body { s with up := rest } (s.kept n) (dtor n)
    pure { s with dead := .static n :: s.dead }
  | o :: rest => .ok { s with up := rest, dead := o :: s.dead }

/-- `k` objects are destroyed. -/
def exit (dtor : Nat → List Call) : Nat → State → Outcome State
  | 0, s => .ok s
  | k + 1, s => do
    let s ← destroy dtor s
    exit dtor k s

end Utils.Units
