import Verif.Model.Overload

/-!
# Which constructor of a resource is called

/repo/sources/include/utils/memory/simple_resource.h 178-207 and
/repo/sources/include/utils/memory/monotonic_buffer_resource.h 17-47.  The constructors are told apart
by overload resolution, which is modelled for the arguments one would pass: an array of bytes, a
pointer, a number, a resource, `nullptr`, a literal `0`.  Nothing of this converts to the first parameter
of the private constructor (simple_resource.h 272, a tuple); the deleted copy constructors would need a
user-defined conversion of an array, which is worse than the template that takes the array.
-/

namespace Utils.Ctors

/-- An argument, with its value. -/
inductive Arg
  /-- an lvalue of type `std::byte[n]` at an address -/
  | array (addr n : Nat)
  /-- `std::byte *` -/
  | pointer (addr : Nat)
  /-- `std::size_t` -/
  | size (n : Nat)
  /-- an `int` that is not negative and no literal `0` -/
  | int (n : Nat)
  /-- the literal `0` -/
  | zero
  /-- `memory_resource *` -/
  | resource (r : Nat)
  /-- a pointer to a class derived from `memory_resource` -/
  | derived (r : Nat)
  /-- `nullptr` -/
  | null
  deriving DecidableEq

/-- The parameter types that occur. -/
inductive Param
  /-- `std::byte *` -/
  | pointer
  /-- `std::size_t` -/
  | size
  /-- `memory_resource *` -/
  | resource
  /-- `std::byte (&)[BufSize]`, `BufSize` deduced -/
  | array
  deriving DecidableEq

/-- The rank of the conversion, [over.ics.scs]: 0 is an exact match (array-to-pointer included), 2 a
conversion; `none` if there is none. -/
def rank : Arg → Param → Option Nat
  | .array _ _, .array => some 0
  | .array _ _, .pointer => some 0
  | .pointer _, .pointer => some 0
  | .null, .pointer => some 2
  | .zero, .pointer => some 2
  | .size _, .size => some 0
  | .int _, .size => some 2
  | .zero, .size => some 2
  | .resource _, .resource => some 0
  | .derived _, .resource => some 2
  | .null, .resource => some 2
  | .zero, .resource => some 2
  | _, _ => none

/-- What a parameter is initialised with. -/
def Arg.value : Arg → Nat
  | .array addr _ => addr
  | .pointer addr => addr
  | .size n => n
  | .int n => n
  | .zero => 0
  | .resource r => r
  | .derived r => r
  | .null => 0

/-- What `BufSize` is deduced as. -/
def Arg.bufSize : Arg → Nat
  | .array _ n => n
  | _ => 0

/-- A constructor: its parameters, whether it is a template, and the buffer, size and upstream it
passes on, at the end of the delegation, to the members (`dflt` is what `get_default_resource()` returns). -/
structure Ctor where
  params : List Param
  isTemplate : Bool
  passes : (dflt : Nat) → List Arg → Nat × Nat × Nat

/-- The ranks of all arguments; `none` if the constructor is not viable. -/
def ranks : List Arg → List Param → Option (List Nat)
  | [], [] => some []
  | a :: as, p :: ps => do
    let r ← rank a p
    let rs ← ranks as ps
    pure (r :: rs)
  | _, _ => none

/-- Overload resolution; `none` if the call does not compile. -/
def resolve (ctors : List Ctor) (args : List Arg) : Option Ctor :=
  Overload.pick (ctors.filterMap fun c => (ranks args c.params).map fun r => ⟨r, c.isTemplate, c⟩)

/-- `aBuffer`, simple_resource.h 180, 188, 197, 203. -/
def bufferOf (args : List Arg) : Nat := (args[0]?.map Arg.value).getD 0

/-- `BufSize`, simple_resource.h 196, 202. -/
def bufSizeOf (args : List Arg) : Nat := (args[0]?.map Arg.bufSize).getD 0

/-- The second argument, simple_resource.h 180, 188, 204. -/
def secondOf (args : List Arg) : Nat := (args[1]?.map Arg.value).getD 0

/-- The third argument, simple_resource.h 181. -/
def thirdOf (args : List Arg) : Nat := (args[2]?.map Arg.value).getD 0

/-- The public constructors of `simple_resource`, simple_resource.h 180-187, 188-194, 196-200 and
202-207. -/
def simpleCtors : List Ctor := [
  ⟨[.pointer, .size, .resource], false, fun _ a => (bufferOf a, secondOf a, thirdOf a)⟩,
  ⟨[.pointer, .size], false, fun d a => (bufferOf a, secondOf a, d)⟩,
  ⟨[.array], true, fun d a => (bufferOf a, bufSizeOf a, d)⟩,
  ⟨[.array, .resource], true, fun _ a => (bufferOf a, bufSizeOf a, secondOf a)⟩]

/-- Those of `monotonic_buffer_resource`, monotonic_buffer_resource.h 18-28, 30-34, 36-41 and 43-47. -/
def monoCtors : List Ctor := [
  ⟨[.pointer, .size, .resource], false, fun _ a => (bufferOf a, secondOf a, thirdOf a)⟩,
  ⟨[.pointer, .size], false, fun d a => (bufferOf a, secondOf a, d)⟩,
  ⟨[.array, .resource], true, fun _ a => (bufferOf a, bufSizeOf a, secondOf a)⟩,
  ⟨[.array], true, fun d a => (bufferOf a, bufSizeOf a, d)⟩]

/-- The buffer, size and upstream with which a resource comes to life. -/
def made (ctors : List Ctor) (dflt : Nat) (args : List Arg) : Option (Nat × Nat × Nat) :=
  (resolve ctors args).map fun c => c.passes dflt args

end Utils.Ctors
