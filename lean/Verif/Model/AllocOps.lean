import Verif.Model.Overload
import Verif.Model.Resources

/-!
# Comparing and converting allocators

/repo/sources/include/utils/memory/allocator.h 17-27 and 88-113, memory.h 204-214.  Value types are
numbered.
-/

namespace Utils.AllocOps

open Utils.Overload

/-- An operand, with the resource it holds or points to (0 is null). -/
inductive Operand
  /-- an `allocator<T>` -/
  | alloc (T r : Nat)
  /-- a `memory_resource *` -/
  | resource (r : Nat)
  /-- `nullptr` -/
  | null
  deriving DecidableEq

/-- The value types of the operands, whose friends argument-dependent lookup finds. -/
def valueTypes : Operand → List Nat
  | .alloc T _ => [T]
  | _ => []

/-- The rank of the conversion to `const allocator<S> &`: converting constructors, allocator.h 21-27, are
not explicit. -/
def rank (S : Nat) : Operand → Nat
  | .alloc T _ => if T = S then 0 else 3
  | _ => 3

/-- `allocator<S>(x)`, allocator.h 17-27: a copy for the same value type; the constructor from an
allocator of another type reads `aOther.resource_`, a private member of another class, and does not
compile; a pointer is stored. -/
def convert (S : Nat) : Operand → Option Nat
  | .alloc T r => if T = S then some r else none
  | .resource r => some r
  | .null => some 0

/-- The body of the friend of `allocator<S>`, allocator.h 88-92, behind the conversions. -/
def friendEq (S : Nat) (x y : Operand) : Option (Outcome Bool) := do
  let r ← convert S x
  let r' ← convert S y
  pure (Res.allocatorEq r r')

/-- The template, allocator.h 103-107: it is no friend of either class, so its body does not compile. -/
def templateCandidates (x y : Operand) : List (Candidate (Option (Outcome Bool))) :=
  match x, y with
  | .alloc _ _, .alloc _ _ => [⟨[0, 0], true, none⟩]
  | _, _ => []

/-- `x == y` for operands of which at least one is an allocator; `none`: does not compile. -/
def eq (x y : Operand) : Option (Outcome Bool) :=
  (pick (((valueTypes x ++ valueTypes y).eraseDups.map fun S =>
      (⟨[rank S x, rank S y], false, friendEq S x y⟩ : Candidate (Option (Outcome Bool)))) ++
    templateCandidates x y)).join

/-- `x != y`, allocator.h 94-98 and 109-113: found in the same way, and the body is `!(x == y)` for
operands converted to `allocator<S>`, or as they are in the template. -/
def ne (x y : Operand) : Option (Outcome Bool) :=
  let negated (x y : Operand) := (eq x y).map fun o => o.map not
  (pick (((valueTypes x ++ valueTypes y).eraseDups.map fun S =>
      (⟨[rank S x, rank S y], false, do
        let r ← convert S x
        let r' ← convert S y
        negated (.alloc S r) (.alloc S r')⟩ : Candidate (Option (Outcome Bool)))) ++
    (match x, y with
      | .alloc _ _, .alloc _ _ => [⟨[0, 0], true, negated x y⟩]
      | _, _ => []))).join

end Utils.AllocOps
