import Verif.Spec.Compose

/-!
# Programs that use allocators

A program has a group of resources, the default resource, and allocators, which are objects that hold
a pointer to a resource; the resource with index `i` of the group stands for the pointer to it.
-/

namespace Utils.Res

open Utils.SR

variable {ι σ : Type}

/-- The state: the resources, the default resource (memory.h 226-227), the resource pointer of every
allocator made so far (allocator.h 101), and the allocations the program holds, each with the number
of the allocator it was asked from, newest first. -/
structure Program (ι σ : Type) where
  st : σ
  dflt : ι
  allocs : List ι
  live : List (Held ι × Nat)

/-- What the program does. -/
inductive AllocOp (ι : Type)
  /-- `set_default_resource` -/
  | setDefault (i : ι)
  /-- `allocator<T>()` -/
  | make
  /-- `allocator<T>(resource)` -/
  | makeOn (i : ι)
  /-- the copy constructor -/
  | copy (a : Nat)
  /-- `allocate(aCount)` or `allocate_object<U>(aCount)` of allocator `a`, for a type of this size and
  alignment -/
  | allocate (a sizeOf alignOf count : Nat)
  /-- `deallocate` or `deallocate_object` of allocator `a`, with the pointer of allocation `k` -/
  | deallocate (a k : Nat)

/-- One call: `set_default_resource`, memory.h 301-305; the constructors, allocator.h 18, 19, 27 with
the initialiser at 101; `allocate`, 29-33, and `allocate_object`, 52-56 (the product is computed in
`std::size_t`); `deallocate`, 35, and `deallocate_object`, 58-62.  A call of an allocator that does not
exist is undefined. -/
def Program.step (R : Service ι σ) (w : Program ι σ) : AllocOp ι → Outcome (Program ι σ)
  | .setDefault i => .ok { w with dflt := i }
  | .make => .ok { w with allocs := w.allocs ++ [w.dflt] }
  | .makeOn i => .ok { w with allocs := w.allocs ++ [i] }
  | .copy a =>
    match w.allocs[a]? with
    | none => .ub
    | some i => .ok { w with allocs := w.allocs ++ [i] }
  | .allocate a sizeOf alignOf count =>
    match w.allocs[a]? with
    | none => .ub
    | some i => do
      let (ptr, s) ← R.alloc i w.st (count * sizeOf % 2 ^ 64) alignOf
      pure { w with
        st := s
        live := if ptr = 0 then w.live
          else (⟨i, ptr, count * sizeOf % 2 ^ 64, alignOf⟩, a) :: w.live }
  | .deallocate a k =>
    match w.allocs[a]?, w.live[k]? with
    | some i, some x => do
      let s ← R.free i w.st x.1.ptr
      pure { w with st := s, live := w.live.eraseIdx k }
    | _, _ => .ub

/-- A history. -/
def Program.run (R : Service ι σ) : Program ι σ → List (AllocOp ι) → Outcome (Program ι σ)
  | w, [] => .ok w
  | w, op :: ops => do
    let w ← Program.step R w op
    Program.run R w ops

end Utils.Res
