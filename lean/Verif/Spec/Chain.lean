import Verif.Model.Chain
import Verif.Spec.SimpleResource
import Verif.Spec.Arith

/-!
# Chains of upstream resources
-/

namespace Utils.Spec

open Utils Utils.Chain

variable {τ : Type}

/-- Resource `j` is the upstream of resource `i`. -/
def UpstreamOf (net : List (Node τ)) (i j : Nat) : Prop :=
  ∃ n, net[i]? = some n ∧ n.upstream = some j

/-- Resource `j` is reached from `i` by going upstream, and all resources before it meet `R`. -/
inductive PassedOn (R : Nat → Prop) (net : List (Node τ)) : Nat → Nat → Prop
  | here (i : Nat) : PassedOn R net i i
  | up {i j k : Nat} : R i → UpstreamOf net i j → PassedOn R net j k → PassedOn R net i k

/-- Resource `j` is reached from `i` by going upstream any number of times. -/
def Upwards (net : List (Node τ)) : Nat → Nat → Prop := PassedOn (fun _ => True) net

/-- Resource `j` is above `i`: its upstream, the upstream of its upstream, and so on. -/
def AboveOf (net : List (Node τ)) (i j : Nat) : Prop := ∃ k, UpstreamOf net i k ∧ Upwards net k j

/-- Going upstream from `i` comes to an end, at a resource that has no upstream. -/
inductive ChainEnds (net : List (Node τ)) : Nat → Prop
  | last {i : Nat} {n : Node τ} : net[i]? = some n → n.upstream = none → ChainEnds net i
  | up {i j : Nat} : UpstreamOf net i j → ChainEnds net j → ChainEnds net i

/-- From every resource. -/
def AllChainsEnd (net : List (Node τ)) : Prop := ∀ i, i < net.length → ChainEnds net i

/-- Both can be assigned to each other: one class, and for `simple_resource` the same template arguments. -/
def SameClass : Node τ → Node τ → Prop
  | .mono _ _, .mono _ _ => True
  | .simple p _ _, .simple p' _ _ => p = p'
  | _, _ => False

/-- The resource cannot serve the request itself, which leaves it as it is. -/
def RefusesItself (B : Base τ) (debug : Bool) (loop size align : Nat) (net : List (Node τ)) (i : Nat) : Prop :=
  ∃ n, net[i]? = some n ∧ n.tryHere B debug loop size align = .ok (n, 0)

/-- It gives `ptr` and is `n'` afterwards, without asking its upstream. -/
def AnswersItself (B : Base τ) (debug : Bool) (loop size align : Nat) (net : List (Node τ)) (i ptr : Nat)
    (n' : Node τ) : Prop :=
  ∃ n, net[i]? = some n ∧ n.tryHere B debug loop size align = .ok (n', ptr) ∧
    (ptr ≠ 0 ∨ n.upstream = none)

/-- Every `simple_resource` of the net has template arguments that compile. -/
def ValidNet (net : List (Node τ)) : Prop := ∀ p s up, Node.simple p s up ∈ net → SR.Valid p

/-- A pointer that passes the check of a resource: with assertions, a `simple_resource` demands a multiple of
its `BlockSize`. -/
def PassesCheck (net : List (Node τ)) (i ptr : Nat) : Prop :=
  ∀ p s up, net[i]? = some (.simple p s up) → p.debug = true → p.blockSize ∣ ptr

/-- Every resource on the way from `i` upstream either refuses the request and has an upstream, or answers it,
with a pointer that passes all checks. -/
def Regular (B : Base τ) (debug : Bool) (loop size align : Nat) (net : List (Node τ)) (i : Nat) : Prop :=
  ∀ k, Upwards net i k → (RefusesItself B debug loop size align net k ∧ ∃ j, UpstreamOf net k j) ∨
    ∃ ptr n', AnswersItself B debug loop size align net k ptr n' ∧
      ∀ m, Upwards net i m → PassesCheck net m ptr

/-- A pointer that resource `i` does not know: it is a `simple_resource`, and the pointer, a multiple of its
`BlockSize`, is outside its area. -/
def Forwards (net : List (Node τ)) (ptr i : Nat) : Prop :=
  ∃ p s up, net[i]? = some (.simple p s up) ∧ p.blockSize ∣ ptr ∧
    ¬ (s.data ≤ ptr ∧ ptr < (s.data + p.blockSize * s.blockCount % 2 ^ 64) % 2 ^ 64)

/-- The rest of the buffer of a `monotonic_buffer_resource` has room for the request. -/
def HasRoom (m : Res.Mono) (size align : Nat) : Prop :=
  m.data ≠ 0 ∧ ∃ r, LeastMultiple align m.next r ∧ r + size ≤ m.data + m.size

/-- A `monotonic_buffer_resource` on a buffer in the lower half of the address space, or a resource without
upstream. -/
def Monotonic : Node τ → Prop
  | .mono m _ => m.data + m.size ≤ 2 ^ 63 ∧ (m.data ≠ 0 → m.data ≤ m.next ∧ m.next ≤ m.data + m.size)
  | .simple _ _ _ => False
  | .base _ => True

/-- Steps of programs that use only these: constructors, and requests of up to `PTRDIFF_MAX` bytes. -/
def MonotonicOp : Op τ → Prop
  | .make n => (∃ buffer size up, buffer + size ≤ 2 ^ 63 ∧ n = .mono (Res.Mono.make buffer size) up) ∨
      ∃ t, n = .base t
  | .allocate _ size align => size < 2 ^ 63 ∧ IsPow2 align ∧ align < 2 ^ 64
  | _ => True

/-- Resources are used after their construction, built on existing ones only, and assigned only to ones of
their class. -/
def Ordinary (net : List (Node τ)) : Op τ → Prop
  | .make n => ∀ j, n.upstream = some j → j < net.length
  | .assign i j => ∃ a b, net[i]? = some a ∧ net[j]? = some b ∧ SameClass a b
  | .allocate i _ _ => i < net.length
  | .deallocate i _ => i < net.length

/-- No resource is assigned one that it is above. -/
def NotBelow (net : List (Node τ)) : Op τ → Prop
  | .assign i j => ¬ AboveOf net j i
  | _ => True

/-- Every step of a program meets `A`. -/
def StepsMeet (B : Base τ) (debug : Bool) (loop depth : Nat) (A : List (Node τ) → Op τ → Prop) :
    List (Node τ) → List (Op τ) → Prop
  | _, [] => True
  | net, op :: ops => A net op ∧
      ∀ net', step B debug loop depth net op = .ok net' → StepsMeet B debug loop depth A net' ops

end Utils.Spec
