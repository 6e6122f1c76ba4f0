import Verif.Spec.Resources
import Verif.Spec.SRExact

/-!
# Resources on top of each other

A *service* is a group of resources that share one state and are told apart by a *face*: the system
resource alone, or a heap with a `monotonic_buffer_resource` whose buffer was taken from it, and so on.
A client calls any of them in any order.
-/

namespace Utils.Res

open Utils.SR Utils.Spec

/-- Something a client holds: which resource it is from, address, size and alignment of the request. -/
structure Held (ι : Type) where
  face : ι
  ptr : Nat
  size : Nat
  align : Nat
  deriving DecidableEq

variable {ι σ : Type}

/-- The two allocations have no byte in common. -/
def Held.Apart {κ : Type} (g : Held ι) (h : Held κ) : Prop :=
  g.ptr + g.size ≤ h.ptr ∨ h.ptr + h.size ≤ g.ptr

/-- `allocate`, `deallocate`, `release` and the destructors of the resources of a group.  An outcome
other than `ok` is a failed assertion, an abort, undefined behaviour or a call that does not return. -/
structure Service (ι σ : Type) where
  alloc : ι → σ → (size align : Nat) → Outcome (Nat × σ)
  free : ι → σ → (ptr : Nat) → Outcome σ
  release : ι → σ → Outcome σ
  destroy : ι → σ → Outcome Unit

/-- What a client does: ask the resource `i`, give back the allocation at position `k` of its list to the
resource it is from, or call `release` of the resource `i`. -/
inductive FaceOp (ι : Type)
  | alloc (i : ι) (size align : Nat)
  | free (k : Nat)
  | release (i : ι)

/-- What a client may do: requests `Ask`, which may depend on the state, and `release` where it is
allowed (`can`) once nothing of that resource is held any more. -/
def Allowed (Ask : ι → σ → Nat → Nat → Prop) (can : ι → Prop) (w : σ × List (Held ι)) : FaceOp ι → Prop
  | .alloc i size align => Ask i w.1 size align
  | .free _ => True
  | .release i => can i ∧ ∀ g ∈ w.2, g.face ≠ i

/-- One call: the state and what the client holds, newest first. -/
def Service.step (R : Service ι σ) (w : σ × List (Held ι)) : FaceOp ι → Outcome (σ × List (Held ι))
  | .alloc i size align => do
    let (ptr, s) ← R.alloc i w.1 size align
    pure (s, if ptr = 0 then w.2 else ⟨i, ptr, size, align⟩ :: w.2)
  | .free k =>
    match w.2[k]? with
    | none => pure w
    | some g => do
      let s ← R.free g.face w.1 g.ptr
      pure (s, w.2.eraseIdx k)
  | .release i => do
    let s ← R.release i w.1
    pure (s, w.2)

/-- A history. -/
def Service.run (R : Service ι σ) : σ × List (Held ι) → List (FaceOp ι) → Outcome (σ × List (Held ι))
  | w, [] => .ok w
  | w, op :: ops => do
    let w ← R.step w op
    R.run w ops

/-- Every call of a history is allowed in the state in which it is made. -/
def AllowedAll (R : Service ι σ) (Ask : ι → σ → Nat → Nat → Prop) (can : ι → Prop) :
    σ × List (Held ι) → List (FaceOp ι) → Prop
  | _, [] => True
  | w, op :: ops => Allowed Ask can w op ∧ ∀ w', R.step w op = .ok w' → AllowedAll R Ask can w' ops

/-- What clients rely on: everything held is aligned as asked for, not null, in the lower half of the
address space, and apart from everything else held. -/
structure HeldSound (live : List (Held ι)) : Prop where
  apart : live.Pairwise fun g h => g.Apart h
  aligned : ∀ g ∈ live, g.align ∣ g.ptr
  placed : ∀ g ∈ live, 0 < g.ptr ∧ 0 < g.size ∧ g.ptr + g.size ≤ 2 ^ 63

/-- A request every resource has to cope with: not empty, at most `PTRDIFF_MAX` bytes, the alignment a
power of two. -/
def Sane (size align : Nat) : Prop :=
  0 < size ∧ size < 2 ^ 63 ∧ IsPow2 align ∧ align < 2 ^ 64

/-- One resource of a group, seen from a resource on top of it: its state carries along whether a call
did not return, so that this ends the call that made it. -/
def Service.face (R : Service ι σ) (i : ι) : Upstream (Outcome σ) where
  alloc := fun s size align =>
    match s.bind fun s => R.alloc i s size align with
    | .ok r => (r.1, .ok r.2)
    | .assertFailed => (0, .assertFailed)
    | .aborted => (0, .aborted)
    | .ub => (0, .ub)
    | .outOfFuel => (0, .outOfFuel)
  dealloc := fun s ptr => s.bind fun s => R.free i s ptr

/-- The two resources every program has, and storage that is from no resource. -/
inductive Base
  /-- static arrays and the like -/
  | static
  /-- the null resource -/
  | null
  /-- the system resource -/
  | system
  deriving DecidableEq

/-- `null_memory_resource()` and `system_memory_resource()`.  Static storage cannot be asked for; giving
it back means not to use it any more. -/
def baseService (h : Heap σ) : Service Base σ where
  alloc := fun i s size align =>
    match i with
    | .static => .ub
    | .null => .ok ((nullResource.alloc () size align).1, s)
    | .system => .ok ((systemResource h).alloc s size align)
  free := fun i s ptr =>
    match i with
    | .static => .ok s
    | .null => .ok s
    | .system => .ok ((systemResource h).dealloc s ptr)
  release := fun _ s => .ok s
  destroy := fun _ _ => .ok ()

/-- A `monotonic_buffer_resource` on top of the resource `i` of a group. -/
def monoOn (debug : Bool) (R : Service ι σ) (i : ι) : Service (Option ι) (Mono × σ) where
  alloc := fun j s size align =>
    match j with
    | none => do
      let r ← s.1.allocate debug (some (R.face i)) (.ok s.2) size align
      let u ← r.2.2
      pure (r.1, r.2.1, u)
    | some j => (R.alloc j s.2 size align).map fun r => (r.1, s.1, r.2)
  free := fun j s ptr =>
    match j with
    | none => .ok (s.1.deallocate s.2 ptr)
    | some j => (R.free j s.2 ptr).map fun u => (s.1, u)
  release := fun j s =>
    match j with
    | none => .ok (s.1.release, s.2)
    | some j => (R.release j s.2).map fun u => (s.1, u)
  destroy := fun j s =>
    match j with
    | none => .ok ()
    | some j => R.destroy j s.2

/-- A `simple_resource` on top of the resource `i` of a group. -/
def simpleOn (p : Params) (fuel : Nat) (R : Service ι σ) (i : ι) :
    Service (Option ι) (State × σ) where
  alloc := fun j s size align =>
    match j with
    | none => do
      let r ← allocate p (some (R.face i)) fuel s.1 (.ok s.2) size align
      let u ← r.2.2
      pure (r.1, r.2.1, u)
    | some j => (R.alloc j s.2 size align).map fun r => (r.1, s.1, r.2)
  free := fun j s ptr =>
    match j with
    | none => do
      let r ← deallocate p (some (R.face i)) s.1 (.ok s.2) ptr
      let u ← r.2
      pure (r.1, u)
    | some j => (R.free j s.2 ptr).map fun u => (s.1, u)
  release := fun j s =>
    match j with
    | none => (release p fuel s.1).map fun st => (st, s.2)
    | some j => (R.release j s.2).map fun u => (s.1, u)
  destroy := fun j s =>
    match j with
    | none => destroy s.1
    | some j => R.destroy j s.2

/-- What is held from the resources of the group below. -/
def below (live : List (Held (Option ι))) : List (Held ι) :=
  live.filterMap fun g => g.face.map fun j => ⟨j, g.ptr, g.size, g.align⟩

/-- The same allocation, seen from the group with one more resource. -/
def Held.lift (g : Held ι) : Held (Option ι) := ⟨some g.face, g.ptr, g.size, g.align⟩

/-- A heap that hands out aligned storage apart from all that is in use: `Inv` relates its state to
the addresses and sizes in use, which may include storage that is not from the heap. -/
structure HeapKeeps (h : Heap σ) (Inv : σ → List (Nat × Nat) → Prop) : Prop where
  apart : ∀ {s used}, Inv s used → used.Pairwise fun x y => x.1 + x.2 ≤ y.1 ∨ y.1 + y.2 ≤ x.1
  placed : ∀ {s used}, Inv s used → ∀ x ∈ used, 0 < x.1 ∧ 0 < x.2 ∧ x.1 + x.2 ≤ 2 ^ 63
  perm : ∀ {s used used'}, Inv s used → used.Perm used' → Inv s used'
  alloc : ∀ {s used align size}, Inv s used → IsPow2 align → 8 ∣ align → 0 < size →
    match h.posixMemalign s align size with
    | (none, s') => Inv s' used
    | (some ptr, s') => align ∣ ptr ∧ Inv s' ((ptr, size) :: used)
  free : ∀ {s x used}, Inv s (x :: used) → Inv (h.free s x.1) used

/-- The requests of a group with one more resource on top, which takes the requests `P`. -/
def askAlso {ρ : Type} (Ask : ι → σ → Nat → Nat → Prop) (P : ρ → σ → Nat → Nat → Prop) :
    Option ι → ρ × σ → Nat → Nat → Prop
  | none, s => P s.1 s.2
  | some j, s => Ask j s.2

/-- The requests the two base resources take. -/
def baseAsk : Base → σ → Nat → Nat → Prop
  | .static, _, _, _ => False
  | .null, _, _, _ => True
  | .system, _, size, align => Sane size align

/-- The alignment of everything from a resource, whatever is asked for (there is nothing from the null
resource, so every alignment is right, as 0 says). -/
def baseGrain : Base → Nat
  | .static => 1
  | .null => 0
  | .system => 8

/-- The same with one more resource on top. -/
def grainAlso (grain : ι → Nat) (n : Nat) : Option ι → Nat
  | none => n
  | some j => grain j

/-- The requests a `monotonic_buffer_resource` takes: those that the resource below would take too if
they do not fit. -/
def MonoAsk (P : σ → Nat → Nat → Prop) (m : Mono) (s : σ) (size align : Nat) : Prop :=
  Sane size align ∧
  ((∀ r, LeastMultiple align m.next r → m.data + m.size < r + size) → P s size align)

/-- The resource below takes the request if the `simple_resource` refuses it. -/
def ElseBelow (p : Params) (P : σ → Nat → Nat → Prop) (st : State) (s : σ) (size align : Nat) : Prop :=
  Decides p st size align .refuse → P s size align

/-- The requests a pool takes: those of its class (slots of `b` blocks, area as in `s0`). -/
def PoolAsk (p : Params) (s0 : State) (b : Nat) (P : σ → Nat → Nat → Prop) (st : State) (s : σ)
    (size align : Nat) : Prop :=
  PoolOp p s0 b (.alloc size align) ∧ ElseBelow p P st s size align

/-- The requests any other `simple_resource` takes: those that leave its bookkeeping right in its present
state. -/
def GoodAsk (p : Params) (P : σ → Nat → Nat → Prop) (st : State) (s : σ) (size align : Nat) : Prop :=
  (Request size align ∧ ∀ rs, Tiled st rs → GoodChoice p st size align rs) ∧ ElseBelow p P st s size align

/-- Resources that may be released or destroyed: not the base resources, and not one that another
resource is built on. -/
def canAlso (can : ι → Prop) (i : ι) (buf : Held ι) : Option ι → Prop
  | none => True
  | some j => can j ∧ j ≠ i ∧ j ≠ buf.face

/-- Everything that can be set up with these resources, and every state reached by using it.

`Tower h I R Ask grain can s live`: `R` is a group of resources with `h` at the bottom, which takes the
requests `Ask`; `s` is its state and `live` what the client holds. -/
inductive Tower {τ : Type} (h : Heap τ) (I : τ → List (Nat × Nat) → Prop) : {ι σ : Type} →
    Service ι σ → (ι → σ → Nat → Nat → Prop) → (ι → Nat) → (ι → Prop) → σ → List (Held ι) → Prop
  /-- A program starts with a heap and some static storage. -/
  | start {s : τ} {live : List (Held Base)} (hI : I s (live.map fun g => (g.ptr, g.size)))
      (hs : ∀ g ∈ live, g.face = .static ∧ g.align ∣ g.ptr) :
      Tower h I (baseService h) baseAsk baseGrain (fun _ => False) s live
  /-- It calls any of the resources. -/
  | call {ι σ R Ask grain can} {s s' : σ} {live live' : List (Held ι)} {op : FaceOp ι}
      (t : Tower h I R Ask grain can s live) (ha : Allowed Ask can (s, live) op)
      (hc : R.step (s, live) op = .ok (s', live')) : Tower h I R Ask grain can s' live'
  /-- It makes a `monotonic_buffer_resource` on something it holds, with the resource `i` as
  upstream. -/
  | mono {ι σ R Ask grain can} {s : σ} {live : List (Held ι)} {k : Nat} {buf : Held ι} (debug : Bool)
      (i : ι) (t : Tower h I R Ask grain can s live) (hb : live[k]? = some buf) :
      Tower h I (monoOn debug R i) (askAlso Ask (MonoAsk (Ask i))) (grainAlso grain 1) (canAlso can i buf)
        (Mono.make buf.ptr buf.size, s) ((live.eraseIdx k).map Held.lift)
  /-- It makes a `simple_resource` on something it holds, with the resource `i` as upstream, and uses
  it as a pool. -/
  | pool {ι σ R Ask grain can} {s : σ} {live : List (Held ι)} {k : Nat} {buf : Held ι} {p : Params}
      {s0 : State} {b fuel : Nat} (i : ι) (t : Tower h I R Ask grain can s live)
      (hb : live[k]? = some buf) (hv : Valid p) (hf : Fresh p buf.ptr buf.size s0)
      (hfuel : (s0.blockCount + 1) * (s0.blockCount + 2) ≤ fuel)
      (hg : p.blockSize ∣ grain i ∨
        ∀ st u size align, PoolAsk p s0 b (Ask i) st u size align → p.blockSize ∣ align) :
      Tower h I (simpleOn p fuel R i) (askAlso Ask (PoolAsk p s0 b (Ask i)))
        (grainAlso grain p.blockSize) (canAlso can i buf) (s0, s)
        ((live.eraseIdx k).map Held.lift)
  /-- It makes a `simple_resource` in the same way and uses it for requests of all kinds that leave the
  bookkeeping right (C81). -/
  | simple {ι σ R Ask grain can} {s : σ} {live : List (Held ι)} {k : Nat} {buf : Held ι} {p : Params}
      {s0 : State} {fuel : Nat} (i : ι) (t : Tower h I R Ask grain can s live)
      (hb : live[k]? = some buf) (hv : Valid p) (hf : Fresh p buf.ptr buf.size s0)
      (hfuel : (s0.blockCount + 1) * (s0.blockCount + 2) ≤ fuel)
      (hg : p.blockSize ∣ grain i ∨
        ∀ st u size align, GoodAsk p (Ask i) st u size align → p.blockSize ∣ align) :
      Tower h I (simpleOn p fuel R i) (askAlso Ask (GoodAsk p (Ask i)))
        (grainAlso grain p.blockSize) (canAlso can i buf) (s0, s)
        ((live.eraseIdx k).map Held.lift)

end Utils.Res
