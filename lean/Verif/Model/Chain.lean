import Verif.Model.Assign

/-!
# Resources that use each other as upstream

/repo/sources/include/utils/memory/monotonic_buffer_resource.h and
/repo/sources/include/utils/memory/simple_resource.h with `upstream_` as what it is there: a pointer to
another resource, whose functions are called in turn.  (Elsewhere upstream is an arbitrary state machine.)

* Resources are numbered in the order of their construction and are never destroyed.
* `depth` bounds the number of nested calls and `loop` the rounds of the loops of `simple_resource`.
-/

namespace Utils.Chain

open Utils Utils.Bits Utils.SR Utils.Res

/-- A resource: a `monotonic_buffer_resource` (data members, monotonic_buffer_resource.h 95-98), a
`simple_resource` (simple_resource.h 549-555), or one without upstream, such as the system and the null
resource (memory.h 229-285), which may do anything; `τ` is its state. -/
inductive Node (τ : Type)
  | mono (m : Mono) (upstream : Option Nat)
  | simple (p : Params) (s : SR.State) (upstream : Option Nat)
  | base (t : τ)

/-- The member `upstream_`. -/
def Node.upstream {τ : Type} : Node τ → Option Nat
  | .mono _ up => up
  | .simple _ _ up => up
  | .base _ => none

/-- What the resources without upstream do. -/
structure Base (τ : Type) where
  alloc : τ → Nat → Nat → Nat × τ
  dealloc : τ → Nat → τ

variable {τ : Type}

/-- What a resource does itself for a request that is not for 0 bytes, before it asks its upstream:
monotonic_buffer_resource.h 69-82, simple_resource.h 291-321, memory.h 249-253 and 279-282. -/
def Node.tryHere (B : Base τ) (debug : Bool) (loop : Nat) (size align : Nat) : Node τ → Outcome (Node τ × Nat)
  | .mono m up => do
    cassert debug (isPowerOf2 (BitVec.ofNat 64 align))
    let (m, ptr) ← m.allocateLocal debug size align
    pure (.mono m up, ptr)
  | .simple p s up => do
    cassert p.debug (isPowerOf2 (BitVec.ofNat 64 align))
    let (s, ptr) ← SR.allocateLocal p loop s size align
    pure (.simple p s up, ptr)
  | .base t => let (ptr, t) := B.alloc t size align; pure (.base t, ptr)

/-- The check of the result: simple_resource.h 329. -/
def Node.checkResult (n : Node τ) (ptr : Nat) : Outcome Unit :=
  match n with
  | .simple p _ _ => do
    let al ← isAligned p.debug (BitVec.ofNat 64 ptr) (BitVec.ofNat 64 p.blockSize)
    cassert p.debug al
  | _ => pure ()

/-- `allocate(size, align)` of resource `i`, monotonic_buffer_resource.h 61-91, simple_resource.h 283-332:
a null result of its own is passed on to the upstream, if there is one.  A pointer to a resource that does
not exist is undefined behaviour. -/
def allocate (B : Base τ) (debug : Bool) (loop : Nat) :
    Nat → List (Node τ) → Nat → Nat → Nat → Outcome (Nat × List (Node τ))
  | 0, _, _, _, _ => .outOfFuel
  | depth + 1, net, i, size, align =>
    match net[i]? with
    | none => .ub
    | some (.base t) => let (ptr, t) := B.alloc t size align; .ok (ptr, net.set i (.base t))
    | some n =>
      if size = 0 then .ok (0, net)
      else do
        let (n', ptr) ← n.tryHere B debug loop size align
        let net := net.set i n'
        let (ptr, net) ←
          match n'.upstream with
          | some j => if ptr = 0 then allocate B debug loop depth net j size align else .ok (ptr, net)
          | none => .ok (ptr, net)
        n'.checkResult ptr
        pure (ptr, net)

/-- `deallocate(ptr)` of resource `i`, monotonic_buffer_resource.h 93, simple_resource.h 334-373. -/
def deallocate (B : Base τ) : Nat → List (Node τ) → Nat → Nat → Outcome (List (Node τ))
  | 0, _, _, _ => .outOfFuel
  | depth + 1, net, i, ptr =>
    match net[i]? with
    | none => .ub
    | some (.base t) => .ok (net.set i (.base (B.dealloc t ptr)))
    | some (.mono _ _) => .ok net
    | some (.simple p s up) =>
      if ptr = 0 then .ok net
      else do
        let al ← isAligned p.debug (BitVec.ofNat 64 ptr) (BitVec.ofNat 64 p.blockSize)
        abortIf (!al)
        if s.data ≤ ptr ∧ ptr < (s.data + SR.size p s) % 2 ^ 64 then
          let b ← pointerToBlockIndex p s ptr
          let (s, _) ← deallocateBlocks p s b
          pure (net.set i (.simple p s up))
        else
          match up with
          | some j => deallocate B depth net j ptr
          | none =>
            abortIf (decide (ptr < s.data))
            abortIf (decide ((s.data + SR.size p s) % 2 ^ 64 ≤ ptr))
            pure net

/-- The implicit copy assignment (Model/Assign.lean): the target becomes a copy of the source, `upstream_`
included.  Between different classes it does not compile; here it then does nothing, and likewise for
resources without upstream. -/
def Node.assign : Node τ → Node τ → Node τ
  | .mono _ _, .mono m up => .mono m up
  | .simple p s up, .simple p' s' up' => if p = p' then .simple p' s' up' else .simple p s up
  | n, _ => n

/-- A step of a program. -/
inductive Op (τ : Type)
  /-- a constructor -/
  | make (n : Node τ)
  /-- resource `i` `=` resource `j` -/
  | assign (i j : Nat)
  | allocate (i size align : Nat)
  | deallocate (i ptr : Nat)

/-- One step. -/
def step (B : Base τ) (debug : Bool) (loop depth : Nat) (net : List (Node τ)) : Op τ → Outcome (List (Node τ))
  | .make n => .ok (net ++ [n])
  | .assign i j =>
    match net[i]?, net[j]? with
    | some a, some b => .ok (net.set i (a.assign b))
    | _, _ => .ub
  | .allocate i size align => (allocate B debug loop depth net i size align).map Prod.snd
  | .deallocate i ptr => deallocate B depth net i ptr

/-- A program. -/
def run (B : Base τ) (debug : Bool) (loop depth : Nat) : List (Node τ) → List (Op τ) → Outcome (List (Node τ))
  | net, [] => .ok net
  | net, op :: ops => do
    let net ← step B debug loop depth net op
    run B debug loop depth net ops

end Utils.Chain
