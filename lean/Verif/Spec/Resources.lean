import Verif.Model.Resources
import Verif.Spec.Arith

/-! # Clients of the other resources, and what they rely on -/

namespace Utils.Res

open Utils.SR Utils.Spec

/-- Something that was handed out: address, size and alignment of the request. -/
structure Grant where
  ptr : Nat
  size : Nat
  align : Nat
  deriving DecidableEq

/-- A `monotonic_buffer_resource`, its upstream, and everything it handed out since the last
`release`, newest first. -/
structure MonoWorld (σ : Type) where
  res : Mono
  up : σ
  given : List Grant

/-- What a client of `monotonic_buffer_resource` does. -/
inductive MonoOp
  | alloc (size align : Nat)
  | free (ptr : Nat)
  | release
  deriving DecidableEq

variable {σ : Type}

/-- One call. -/
def monoStep (debug : Bool) (up : Option (Upstream σ)) (w : MonoWorld σ) :
    MonoOp → Outcome (MonoWorld σ)
  | .alloc size align => do
    let (ptr, m, u) ← w.res.allocate debug up w.up size align
    pure ⟨m, u, if ptr = 0 then w.given else ⟨ptr, size, align⟩ :: w.given⟩
  | .free ptr =>
    let (m, u) := w.res.deallocate w.up ptr
    pure { w with res := m, up := u }
  | .release => pure ⟨w.res.release, w.up, []⟩

/-- A history. -/
def monoRun (debug : Bool) (up : Option (Upstream σ)) :
    MonoWorld σ → List MonoOp → Outcome (MonoWorld σ)
  | w, [] => .ok w
  | w, op :: ops => do
    let w ← monoStep debug up w op
    monoRun debug up w ops

/-- The buffer the resource was given. -/
def Mono.inBuffer (m : Mono) (ptr : Nat) : Bool :=
  decide (m.data ≤ ptr) && decide (ptr < m.data + m.size)

/-- What was served from the buffer since the last `release`, newest first. -/
def fromBuffer (w : MonoWorld σ) : List Grant := w.given.filter fun g => w.res.inBuffer g.ptr

/-- What a client of `monotonic_buffer_resource` relies on: alignment, bounds, and that later
allocations lie behind earlier ones. -/
structure MonoSound (w : MonoWorld σ) : Prop where
  aligned : ∀ g ∈ fromBuffer w, g.align ∣ g.ptr
  inside : ∀ g ∈ fromBuffer w, w.res.data ≤ g.ptr ∧ g.ptr + g.size ≤ w.res.data + w.res.size
  ordered : (fromBuffer w).Pairwise fun newer older => older.ptr + older.size ≤ newer.ptr

/-- A call with a power-of-two alignment and a size up to `PTRDIFF_MAX`. -/
def SaneCall : MonoOp → Prop
  | .alloc size align => size < 2 ^ 63 ∧ IsPow2 align ∧ align < 2 ^ 64
  | _ => True

/-- A call with `std::size_t` arguments and a power-of-two alignment that does not wrap around
unnoticed: with `r` the first aligned address from the position on, `r + size` is below `2^64`, or
still behind the end of the buffer when computed modulo `2^64`. -/
def Unwrapped (m : Mono) : MonoOp → Prop
  | .alloc size align => size < 2 ^ 64 ∧ IsPow2 align ∧ align < 2 ^ 64 ∧
      ∀ r, LeastMultiple align m.next r →
        r + size < 2 ^ 64 ∨ m.data + m.size < (r + size) % 2 ^ 64
  | _ => True

/-- Every call of the history meets `P` in the state in which it is made. -/
def MonoAlong (debug : Bool) (up : Option (Upstream σ)) (P : Mono → MonoOp → Prop) :
    MonoWorld σ → List MonoOp → Prop
  | _, [] => True
  | w, op :: ops => P w.res op ∧ ∀ w', monoStep debug up w op = .ok w' → MonoAlong debug up P w' ops

/-- The upstream never hands out an address inside the buffer. -/
def ApartFrom (m : Mono) (up : Option (Upstream σ)) : Prop :=
  ∀ U, up = some U → ∀ u size align, m.inBuffer (U.alloc u size align).1 = false

/-- The POSIX contract of `posix_memalign`: an error unless the alignment is a power of two and a
multiple of `sizeof(void*)`, and otherwise an error or an address with that alignment. -/
structure HeapOK (h : Heap σ) : Prop where
  einval : ∀ s align size, ¬ (IsPow2 align ∧ 8 ∣ align) → (h.posixMemalign s align size).1 = none
  aligned : ∀ s align size p, (h.posixMemalign s align size).1 = some p → align ∣ p

/-- The heap keeps book of the blocks handed out and not freed (`live`, newest first): a success with
a non-null address adds it, `free` takes its argument out and leaves everything else alone. -/
structure HeapBook (h : Heap σ) (live : σ → List Nat) : Prop where
  alloc : ∀ s align size, live (h.posixMemalign s align size).2 =
    match (h.posixMemalign s align size).1 with
    | some p => if p = 0 then live s else p :: live s
    | none => live s
  free : ∀ s p, live (h.free s p) = (live s).erase p

/-- A client of a resource that gives back what it holds, by its position in the client's list. -/
inductive RawOp
  | alloc (size align : Nat)
  | free (i : Nat)
  deriving DecidableEq

/-- One call: the resource and what the client holds, newest first. -/
def rawStep (R : Upstream σ) (w : σ × List Nat) : RawOp → σ × List Nat
  | .alloc size align =>
    let (ptr, s) := R.alloc w.1 size align
    (s, if ptr = 0 then w.2 else ptr :: w.2)
  | .free i =>
    match w.2[i]? with
    | none => w
    | some ptr => (R.dealloc w.1 ptr, w.2.erase ptr)

/-- A history. -/
def rawRun (R : Upstream σ) (w : σ × List Nat) (ops : List RawOp) : σ × List Nat :=
  ops.foldl (rawStep R) w

/-- The upstream after it was asked for memory with these sizes and alignments, in this order. -/
def afterAsking (U : Upstream σ) (u : σ) (asked : List (Nat × Nat)) : σ :=
  asked.foldl (fun u x => (U.alloc u x.1 x.2).2) u

/-- Sizes and alignments of the `allocate` calls of a history. -/
def requests : List MonoOp → List (Nat × Nat)
  | [] => []
  | .alloc size align :: ops => (size, align) :: requests ops
  | _ :: ops => requests ops

/-- Values passed to `set` among the calls. -/
def setValues : List RegOp → List Nat
  | [] => []
  | .set v :: l => v :: setValues l
  | .get :: l => setValues l

/-- Values returned by the `set` calls. -/
def setReturns : List (RegOp × Nat) → List Nat
  | [] => []
  | (.set _, r) :: l => r :: setReturns l
  | (.get, _) :: l => setReturns l

/-- The call that thread `i` makes when it moves: thread, call and returned value. -/
def callOf (reg : Nat) (ts : List Thread) (i : Nat) : List (Nat × RegOp × Nat) :=
  match ts[i]? with
  | some ⟨op :: _, _⟩ => [(i, op, (op.apply reg).2)]
  | _ => []

/-- All calls of a schedule in the order in which they happen. -/
def callLog (reg : Nat) (ts : List Thread) : List Nat → List (Nat × RegOp × Nat)
  | [] => []
  | i :: sched =>
    let r := stepThread reg ts i
    callOf reg ts i ++ callLog r.1 r.2 sched

/-- The value set last, or the initial one. -/
def lastSet (init : Nat) : List (Nat × RegOp × Nat) → Nat
  | [] => init
  | (_, .set v, _) :: l => lastSet v l
  | (_, .get, _) :: l => lastSet init l

/-- A client of `new_object` and `delete_object`. -/
inductive ObjOp
  /-- create an object of the given size and alignment -/
  | new (sizeOf alignOf : Nat)
  /-- delete the object at position `i` of the client's list -/
  | delete (i : Nat)
  /-- `delete_object(nullptr)` -/
  | deleteNull
  deriving DecidableEq

/-- The resource, the live objects, and everything that happened. -/
structure ObjWorld (σ : Type) where
  res : σ
  live : List Nat
  log : List Event

/-- One call. -/
def objStep (R : Upstream σ) (w : ObjWorld σ) : ObjOp → ObjWorld σ
  | .new sizeOf alignOf =>
    let (ptr, s, ev) := newObject R w.res sizeOf alignOf
    ⟨s, if ptr = 0 then w.live else ptr :: w.live, w.log ++ ev⟩
  | .delete i =>
    match w.live[i]? with
    | none => w
    | some ptr =>
      let (s, ev) := deleteObject R w.res ptr
      ⟨s, w.live.eraseIdx i, w.log ++ ev⟩
  | .deleteNull =>
    let (s, ev) := deleteObject R w.res 0
    ⟨s, w.live, w.log ++ ev⟩

/-- A history. -/
def objRun (R : Upstream σ) (w : ObjWorld σ) (ops : List ObjOp) : ObjWorld σ :=
  ops.foldl (objStep R) w

/-- The pieces a correct log consists of: a failed allocation; an allocation followed at once by the
construction; a destruction followed at once by the deallocation. -/
inductive Block : List Event → Prop
  | failed (bytes align : Nat) : Block [.allocate bytes align 0]
  | created (bytes align ptr : Nat) : ptr ≠ 0 → Block [.allocate bytes align ptr, .construct ptr]
  | deleted (ptr : Nat) : ptr ≠ 0 → Block [.destroy ptr, .deallocate ptr]

/-- Make the calls of a log on a resource; `none` if it answers differently. -/
def replay (R : Upstream σ) (s : σ) : List Event → Option σ
  | [] => some s
  | .allocate bytes align ptr :: log =>
    if (R.alloc s bytes align).1 = ptr then replay R (R.alloc s bytes align).2 log else none
  | .deallocate ptr :: log => replay R (R.dealloc s ptr) log
  | .construct _ :: log => replay R s log
  | .destroy _ :: log => replay R s log

/-- Addresses of the constructions in a log. -/
def constructed (log : List Event) : List Nat :=
  log.filterMap fun | .construct p => some p | _ => none

/-- Addresses of the destructions in a log. -/
def destroyed (log : List Event) : List Nat :=
  log.filterMap fun | .destroy p => some p | _ => none

/-- A resource keeps its word: what it hands out is aligned, and the storage behind it (`room`) is at
least what was asked for. -/
def Delivers (R : Upstream σ) (room : σ → Nat → Nat) : Prop :=
  ∀ s bytes align, (R.alloc s bytes align).1 ≠ 0 →
    align ∣ (R.alloc s bytes align).1 ∧
    bytes ≤ room (R.alloc s bytes align).2 (R.alloc s bytes align).1

end Utils.Res
