import Verif.Model.TypeList

/-!
# `value_list` and `cartesian_product` on arguments of every kind

/repo/sources/include/utils/value_list.h, cartesian_product.h.  A template parameter `decltype(auto)`
takes values and references: `value_list<x>` holds the value of the constant `x`, `value_list<(x)>` a
reference to the object `x`.  Model/TypeList.lean has values only, and products of lists of the same
kind only; this file has the rest.  `none` stands for a compilation error.
-/

namespace Utils.VA

/-- What `a == b` means for two lvalues `a`, `b` of a type, as far as a constant expression can tell. -/
inductive Entity
  /-- a function or an array: the addresses are compared -/
  | address
  /-- an object whose value a constant expression may read: the values are compared -/
  | constant (v : Int)
  /-- an object whose value a constant expression may not read, or of a type without `==` -/
  | opaque
  deriving DecidableEq

/-- A template argument for a `decltype(auto)` parameter, C++17: a value or an lvalue reference. -/
inductive Arg (τ : Type)
  | val (ty : τ) (v : Int)
  /-- a reference to the entity number `obj` -/
  | ref (ty : τ) (obj : Nat)
  deriving DecidableEq

variable {τ : Type} [DecidableEq τ]

/-- `a == b` as a constant expression; `env` says what the entities are. -/
def equalEntities (env : Nat → Entity) (a b : Nat) : Option Bool :=
  match env a, env b with
  | .address, .address => some (decide (a = b))
  | .constant v, .constant w => some (decide (v = w))
  | _, _ => none

/-- `is_same_impl`, value_list.h 17-33: `std::false_type` unless `decltype(V1)` and `decltype(V2)` are
the same type, then `V1 == V2`. -/
def isSameImpl (env : Nat → Entity) : Arg τ → Arg τ → Option Bool
  | .val t v, .val u w => if t = u then some (decide (v = w)) else some false
  | .ref t a, .ref u b => if t = u then equalEntities env a b else some false
  | _, _ => some false

/-- `count_of`, value_list.h 35-41, 157-159: the fold instantiates every comparison. -/
def countOf (env : Nat → Entity) (v : Arg τ) : List (Arg τ) → Option Nat
  | [] => some 0
  | u :: us => do
    let n ← countOf env v us
    let b ← isSameImpl env v u
    pure (n + (if b then 1 else 0))

/-- `std::conjunction` of `is_same_impl`, value_list.h 50: instantiates its arguments up to the first
that is false. -/
def allSame (env : Nat → Entity) (v : Arg τ) : List (Arg τ) → Option Bool
  | [] => some true
  | u :: us => do
    let b ← isSameImpl env v u
    if b then allSame env v us else pure false

/-- `is_same`, value_list.h 43-52, 152-155. -/
def isSame (env : Nat → Entity) : List (Arg τ) → Option Bool
  | [] => some true
  | v :: vs => allSame env v vs

/-- `contains`, value_list.h 60-63, 161-165: `std::disjunction` instantiates its arguments up to the
first that is true. -/
def contains (env : Nat → Entity) (v : Arg τ) : List (Arg τ) → Option Bool
  | [] => some false
  | u :: us => do
    let b ← isSameImpl env v u
    if b then pure true else contains env v us

/-- `index_of_impl`, value_list.h 65-77: the rest is instantiated only if it is needed. -/
def indexOfImpl (env : Nat → Entity) (v : Arg τ) : Nat → List (Arg τ) → Option Nat
  | i, [] => some i
  | i, u :: us => do
    let b ← isSameImpl env v u
    if b then pure i else indexOfImpl env v (i + 1) us

/-- `index_of`, value_list.h 148-150. -/
def indexOf (env : Nat → Entity) (v : Arg τ) (vs : List (Arg τ)) : Option Nat :=
  indexOfImpl env v 0 vs

/-- The disjunction of `contains_copies`, value_list.h 167-168, over the elements `us` of the list
`vs`; `more_than_once` (54-58) counts in the whole list. -/
def anyTwice (env : Nat → Entity) (vs : List (Arg τ)) : List (Arg τ) → Option Bool
  | [] => some false
  | u :: us => do
    let n ← countOf env u vs
    if n > 1 then pure true else anyTwice env vs us

/-- `contains_copies`, value_list.h 167-168. -/
def containsCopies (env : Nat → Entity) (vs : List (Arg τ)) : Option Bool := anyTwice env vs vs

end Utils.VA

namespace Utils.CP

/-- An argument of `cartesian_product` and an entry of its result: a `type_list` or a `value_list`. -/
inductive Pack (α β : Type)
  | types (ts : List α)
  | values (vs : List β)
  deriving DecidableEq

variable {α β : Type}

/-- `concatenate`, cartesian_product.h 12-40, on two lists: there is no specialisation for lists of
two kinds. -/
def Pack.append : Pack α β → Pack α β → Option (Pack α β)
  | .types a, .types b => some (.types (a ++ b))
  | .values a, .values b => some (.values (a ++ b))
  | _, _ => none

/-- `cartesian_product_impl` of two lists with `I == 0`, cartesian_product.h 84-96, and
`one_element_mult<true, ...>`, 47-51, 59-63.  `auto... Values` does not match a reference, and there
is no specialisation for lists of two kinds (an empty first list leaves the empty `concatenate_t<>`,
which does not compile either). -/
def productTwo (isRef : β → Bool) : Pack α β → Pack α β → Option (List (Pack α β))
  | .types l1, .types l2 => TL.concatenate (l1.map fun t => l2.map fun u => .types [t, u])
  | .values l1, .values l2 =>
    if l1.any isRef || l2.any isRef then none
    else TL.concatenate (l1.map fun t => l2.map fun u => .values [t, u])
  | _, _ => none

/-- `cartesian_product_impl` of a list and a product with `I != 0`, cartesian_product.h 84-96, and
`one_element_mult<false, ...>`, 53-57, 65-69. -/
def productMore (isRef : β → Bool) (l1 : Pack α β) (r : List (Pack α β)) :
    Option (List (Pack α β)) :=
  match l1 with
  | .types ts => do
    let parts ← ts.mapM fun t => r.mapM fun u => Pack.append (.types [t]) u
    TL.concatenate parts
  | .values vs =>
    if vs.any isRef then none
    else do
      let parts ← vs.mapM fun v => r.mapM fun u => Pack.append (.values [v]) u
      TL.concatenate parts

/-- `cartesian_product`, cartesian_product.h 71-115, on lists of both kinds. -/
def productOf (isRef : β → Bool) : List (Pack α β) → Option (List (Pack α β))
  | [l1, l2] => productTwo isRef l1 l2
  | l1 :: l2 :: l3 :: ls => do
    let r ← productOf isRef (l2 :: l3 :: ls)
    productMore isRef l1 r
  | _ => none

end Utils.CP
