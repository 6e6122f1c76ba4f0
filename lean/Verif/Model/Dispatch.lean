import Verif.Model.Outcome

/-!
# Calls through `memory_resource`

/repo/sources/include/utils/memory/memory.h 157-219.  A resource stores two pointers to member functions,
set by its constructor and used by `allocate` and `deallocate`.  `memory_resource` declares no `operator=`,
so the implicit one is public and copies the two pointers, whatever the classes of the two objects are.
Both pointers are always set and copied together and are modelled as one.

Objects and classes are numbered; objects exist from the start to the end.
-/

namespace Utils.Dispatch

/-- The objects and their classes: `cls i` is the class of object `i`, `impl c` the class whose
`allocate_impl` the constructor of class `c` chooses (`c` itself for the four resources of the library, a
base class for a class derived from one of them), `isA c d` whether `c` is `d` or derived from it. -/
structure Objects where
  cls : Nat → Nat
  impl : Nat → Nat
  isA : Nat → Nat → Bool

/-- A step of a program. -/
inductive Op
  /-- `static_cast<memory_resource &>(i) = j`; also what `i = j` does to the base of two objects of one
  class -/
  | assign (i j : Nat)
  /-- `i.allocate(...)` or `i.deallocate(...)` -/
  | call (i : Nat)
  deriving DecidableEq

/-- The constructors, memory.h 176-179: every object starts with the functions of its own class. -/
def start (O : Objects) : Nat → Nat := fun i => O.impl (O.cls i)

/-- `std::invoke(allocate_, this, ...)`, memory.h 184-189 and 197-200, with `allocate<Resource>` /
`deallocate<Resource>`, 165-175: the cast to a class that the object does not have is undefined
behaviour.  The result is the class whose implementation runs. -/
def callOn (O : Objects) (f : Nat → Nat) (i : Nat) : Outcome Nat :=
  if O.isA (O.cls i) (f i) then .ok (f i) else .ub

/-- The implicit copy assignment of memory_resource, memory.h 217-218. -/
def assign (f : Nat → Nat) (i j : Nat) : Nat → Nat := fun k => if k = i then f j else f k

/-- A program: the pointers in the end, and the object and implementation of every call, in order. -/
def run (O : Objects) : (Nat → Nat) → List Op → Outcome ((Nat → Nat) × List (Nat × Nat))
  | f, [] => .ok (f, [])
  | f, .assign i j :: ops => run O (assign f i j) ops
  | f, .call i :: ops => do
    let c ← callOn O f i
    let (f', log) ← run O f ops
    pure (f', (i, c) :: log)

end Utils.Dispatch
