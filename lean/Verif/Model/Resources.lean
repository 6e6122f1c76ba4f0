import Verif.Model.SimpleResource
import Verif.Model.Arrays

/-!
# The other memory resources and the allocator

A resource used from outside is an `Upstream` (Model/SimpleResource.lean): a state machine with
`allocate` and `deallocate`; virtual dispatch and the stored member pointers of `memory_resource`
(/repo/sources/include/utils/memory/memory.h 157-219) are not modelled.
Pointers are numbers below `2^64` and pointer arithmetic wraps at `2^64`, as the generated code
does; by the letter of the standard, pointer arithmetic that leaves the buffer is already undefined.
-/

namespace Utils.Res

open Utils.Bits Utils.SR

/-! ## aligned_malloc, the system and the null resource -/

/-- The operating system's heap: `posix_memalign(&result, align, size)` gives an address or an error,
`free` takes one back. -/
structure Heap (σ : Type) where
  posixMemalign : σ → (align size : Nat) → Option Nat × σ
  free : σ → Nat → σ

/-- `aligned_malloc(aSize, aAlignment)`, memory.h 21-34 (the branch without `_MSC_VER`). -/
def alignedMalloc {σ : Type} (h : Heap σ) (s : σ) (size align : Nat) : Nat × σ :=
  let align := if align ≥ 8 then align else 8
  match h.posixMemalign s align size with
  | (some result, s) => (result, s)
  | (none, s) => (0, s)

/-- `aligned_free`, memory.h 36-43. -/
def alignedFree {σ : Type} (h : Heap σ) (s : σ) (ptr : Nat) : σ := h.free s ptr

/-- `system_memory_resource`, memory.h 229-257. -/
def systemResource {σ : Type} (h : Heap σ) : Upstream σ where
  alloc := alignedMalloc h
  dealloc := alignedFree h

/-- `null_memory_resource`, memory.h 259-286. -/
def nullResource : Upstream Unit where
  alloc := fun s _ _ => (0, s)
  dealloc := fun s _ => s

/-! ## monotonic_buffer_resource -/

/-- The members of `monotonic_buffer_resource`,
/repo/sources/include/utils/memory/monotonic_buffer_resource.h 95-98. -/
structure Mono where
  data : Nat
  size : Nat
  next : Nat
  deriving DecidableEq

/-- The constructor, monotonic_buffer_resource.h 18-28 (the others, 30-47, forward to it). -/
def Mono.make (buffer bytes : Nat) : Mono :=
  let data := if bytes ≠ 0 then buffer else 0
  { data := data, size := if buffer ≠ 0 then bytes else 0, next := data }

/-- The part of `allocate_impl` that works on the buffer, monotonic_buffer_resource.h 71-82. -/
def Mono.allocateLocal (debug : Bool) (m : Mono) (size align : Nat) : Outcome (Mono × Nat) :=
  if m.data ≠ 0 then do
    let skip ← skipToAlign debug (BitVec.ofNat 64 m.next) (BitVec.ofNat 64 align)
    let supposed := (m.next + skip.toNat) % 2 ^ 64
    if (supposed + size) % 2 ^ 64 ≤ (m.data + m.size) % 2 ^ 64 then
      pure ({ m with next := (supposed + size) % 2 ^ 64 }, supposed)
    else pure (m, 0)
  else pure (m, 0)

/-- `allocate_impl`, monotonic_buffer_resource.h 61-91. `up = none` is a null `upstream_`. -/
def Mono.allocate {σ : Type} (debug : Bool) (up : Option (Upstream σ)) (m : Mono) (u : σ)
    (size align : Nat) : Outcome (Nat × Mono × σ) :=
  if size = 0 then pure (0, m, u)
  else do
    cassert debug (isPowerOf2 (BitVec.ofNat 64 align))
    let (m, pointer) ← m.allocateLocal debug size align
    match up with
    | some U =>
      if pointer = 0 then
        let (pointer, u) := U.alloc u size align
        pure (pointer, m, u)
      else pure (pointer, m, u)
    | none => pure (pointer, m, u)

/-- `deallocate_impl`, monotonic_buffer_resource.h 93: empty. -/
def Mono.deallocate {σ : Type} (m : Mono) (u : σ) (_ : Nat) : Mono × σ := (m, u)

/-- `release`, monotonic_buffer_resource.h 58. -/
def Mono.release (m : Mono) : Mono := { m with next := m.data }

/-! ## allocator -/

/-- `allocator<T>::allocate(aCount)`, /repo/sources/include/utils/memory/allocator.h 29-33, and
`allocate_object<U>(aCount)`, 52-56, on resource `R`: the product is computed in `std::size_t`. -/
def allocateObjects {σ : Type} (R : Upstream σ) (s : σ) (sizeOf alignOf count : Nat) : Nat × σ :=
  R.alloc s (count * sizeOf % 2 ^ 64) alignOf

/-- What the allocator does to the outside, in order. -/
inductive Event
  | allocate (bytes align ptr : Nat)
  | construct (ptr : Nat)
  | destroy (ptr : Nat)
  | deallocate (ptr : Nat)
  deriving DecidableEq

/-- `new_object<U>(aArgs...)`, allocator.h 64-74: result, resource, events. -/
def newObject {σ : Type} (R : Upstream σ) (s : σ) (sizeOf alignOf : Nat) : Nat × σ × List Event :=
  let (ptr, s) := allocateObjects R s sizeOf alignOf 1
  let log := [Event.allocate (1 * sizeOf % 2 ^ 64) alignOf ptr]
  if ptr ≠ 0 then (ptr, s, log ++ [.construct ptr]) else (ptr, s, log)

/-- `delete_object<U>(aPtr)`, allocator.h 76-84. -/
def deleteObject {σ : Type} (R : Upstream σ) (s : σ) (ptr : Nat) : σ × List Event :=
  if ptr ≠ 0 then (R.dealloc s ptr, [.destroy ptr, .deallocate ptr]) else (s, [])

/-- `operator==` of two allocators, allocator.h 88-92, and `is_equal` of all the resources
(`&aOther == this`): the resources are compared by address; dereferencing null is undefined. -/
def allocatorEq (lhs rhs : Nat) : Outcome Bool :=
  if lhs = 0 ∨ rhs = 0 then .ub else .ok (lhs == rhs)

/-- What an argument of `new_object<U>(arg)` becomes before it reaches the constructor of `U`, for an
`allocator<T>` and an integer argument: `construct`, allocator.h 37-41, says `std::forward<T>(aArgs)`
with the value type `T` of the allocator, so an argument of another type is converted to `T`. -/
def forwardedArg (T : CTy) (arg : CVal) : CVal := if arg.ty = T then arg else arg.cast T

/-- The same for an lvalue argument of class type `T`: `std::forward<T>` makes it an rvalue, the
object is constructed by moving.  Result: new object and what is left of the argument. -/
def constructFromLvalue {α : Type} (E : Arrays.Elem α) (arg : α) : α × α := E.move arg

/-! ## The default resource -/

/-- Calls on the default resource, memory.h 301-310: `set_default_resource` is an atomic exchange,
`get_default_resource` an atomic load. -/
inductive RegOp
  | set (v : Nat)
  | get
  deriving DecidableEq

/-- One atomic call: new register value and returned value. -/
def RegOp.apply (reg : Nat) : RegOp → Nat × Nat
  | .set v => (v, reg)
  | .get => (reg, reg)

/-- A thread: the calls it still has to make, and what its calls returned (oldest first). -/
structure Thread where
  todo : List RegOp
  done : List (RegOp × Nat) := []
  deriving DecidableEq

/-- Thread `i` makes its next call. -/
def stepThread (reg : Nat) (ts : List Thread) (i : Nat) : Nat × List Thread :=
  match ts[i]? with
  | some ⟨op :: todo, done⟩ =>
    let (reg', ret) := op.apply reg
    (reg', ts.set i ⟨todo, done ++ [(op, ret)]⟩)
  | _ => (reg, ts)

/-- A schedule: who moves, move by move.  Moves of finished threads do nothing. -/
def runThreads (reg : Nat) (ts : List Thread) : List Nat → Nat × List Thread
  | [] => (reg, ts)
  | i :: sched =>
    let (reg, ts) := stepThread reg ts i
    runThreads reg ts sched

end Utils.Res
