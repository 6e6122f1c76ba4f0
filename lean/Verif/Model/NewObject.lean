/-!
Model of how `allocator<T>::new_object<U>` hands its arguments to the constructor of `U`,
/repo/sources/include/utils/memory/allocator.h 37-41 (`construct`) and 64-74 (`new_object`).

Values are of one type `α`; what the language does with classes (base classes, implicit conversions,
which constructor is called) is given by a `Lang`, about which nothing is assumed.

Simplifications:
* conversion functions to references (`operator T&()`) are not modelled: an argument whose type is
  neither `T` nor derived from it is converted to a temporary `T`;
* arguments do not alias each other or the new object, so the order in which they are converted does
  not matter;
* `volatile`, class-specific `operator new` and reference value types are left out.
-/

namespace Utils.NewObj

/-- The type, constness and value category of an argument. -/
structure Form (τ : Type) where
  ty : τ
  const : Bool
  rvalue : Bool
  deriving DecidableEq

/-- A constructor that overload resolution has picked: whether the construction is `noexcept`, and
what it does to its arguments.  `none`: it throws.  The list is what is left of the arguments. -/
structure Ctor (α : Type) where
  noexc : Bool
  run : List α → Option α × List α

/-- A base class part of an object: read it, replace it. -/
structure Sub (α : Type) where
  get : α → α
  set : α → α → α

/-- What the language does. -/
structure Lang (τ α : Type) where
  /-- `sub A T`: `T` is `A` or a base class of `A`. -/
  sub : τ → τ → Option (Sub α)
  /-- The implicit conversion of an expression to a temporary: the temporary (`none`: it throws) and
  what is left of the operand. -/
  conv : Form τ → τ → Option (α → Option α × α)
  /-- The construction `U(args...)`, if it is well-formed. -/
  ctor : τ → List (Form τ) → Option (Ctor α)
  /-- The destructor is usable and does not throw. -/
  dtor : τ → Bool

variable {τ α : Type}

/-- How an argument gets to the constructor. -/
inductive Passed (α : Type)
  | itself (s : Sub α)
  | temporary (convert : α → Option α × α)

/-- `std::forward<T>(aArgs)` in `construct`, allocator.h 40, for `allocator<T>` (`tconst`: `T` is
const).  `aArgs` is an lvalue there, whatever it was in the call of `new_object`: line 71 passes the
parameter pack without `std::forward`.  `forward(T&)` takes it if it is a `T`, or of a class derived
from `T`, and not const unless `T` is; `forward(T&&)` takes anything not related to `T` that converts
to it.  `none`: no overload can be called. -/
def forwardAs (L : Lang τ α) (T : τ) (tconst : Bool) (a : Form τ) : Option (Passed α) :=
  match L.sub a.ty T with
  | some s => if a.const && !tconst then none else some (.itself s)
  | none => (L.conv { a with rvalue := false } T).map .temporary

/-- All arguments of the pack, allocator.h 40. -/
def forwardAll (L : Lang τ α) (T : τ) (tconst : Bool) : List (Form τ) → Option (List (Passed α))
  | [] => some []
  | a :: as =>
    match forwardAs L T tconst a, forwardAll L T tconst as with
    | some p, some ps => some (p :: ps)
    | _, _ => none

/-- What the constructor sees of the arguments, and what is left of them before it runs.  `none`: a
conversion throws. -/
def enter : List (Passed α) → List α → Option (List α × List α)
  | [], _ => some ([], [])
  | _ :: _, [] => some ([], [])
  | .itself s :: ps, v :: vs => (enter ps vs).map fun (seen, rest) => (s.get v :: seen, v :: rest)
  | .temporary f :: ps, v :: vs =>
    match f v with
    | (some w, left) => (enter ps vs).map fun (seen, rest) => (w :: seen, left :: rest)
    | (none, _) => none

/-- What is left of the arguments after the constructor: it works on the argument itself (or its base
class part), or on a temporary. -/
def leave : List (Passed α) → List α → List α → List α
  | .itself s :: ps, v :: vs, w :: ws => s.set v w :: leave ps vs ws
  | .temporary _ :: ps, v :: vs, _ :: ws => v :: leave ps vs ws
  | _, vs, _ => vs

/-- How a call ends. -/
inductive Result (α : Type)
  /-- the allocation failed: null, the arguments as they were -/
  | null (args : List α)
  /-- the new object and what is left of the arguments -/
  | made (obj : α) (args : List α)
  /-- an exception met `noexcept` -/
  | terminated
  deriving DecidableEq

/-- `construct(ptr, aArgs...)`, allocator.h 37-41: it is `noexcept`, so an exception of a conversion
or of the constructor ends the program. -/
def construct (ps : List (Passed α)) (c : Ctor α) (vs : List α) : Result α :=
  match enter ps vs with
  | none => .terminated
  | some (seen, rest) =>
    match c.run seen with
    | (some obj, ws) => .made obj (leave ps rest ws)
    | (none, _) => .terminated

/-- `new_object<U>(aArgs...)` of an `allocator<T>`, allocator.h 64-74.  `none`: it does not compile;
line 67 asserts `std::is_nothrow_constructible_v<U, CtorArgs...>`, which is about the arguments of the
call, line 40 needs a constructor for as many rvalues of type `T`.  The function gets whether the
allocation succeeded and the values of the arguments. -/
def newObject (L : Lang τ α) (T : τ) (tconst : Bool) (U : τ) (args : List (Form τ)) :
    Option (Bool → List α → Result α) :=
  match L.ctor U args with
  | none => none
  | some asserted =>
    if asserted.noexc && L.dtor U then
      match forwardAll L T tconst args, L.ctor U (args.map fun _ => ⟨T, tconst, true⟩) with
      | some ps, some c => some fun got vs => if got then construct ps c vs else .null vs
      | _, _ => none
    else none

end Utils.NewObj
