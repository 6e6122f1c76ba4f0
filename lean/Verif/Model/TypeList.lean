/-!
# `utils::type_list`, `utils::value_list`, `utils::concatenate`, `utils::cartesian_product`

/repo/sources/include/utils/type_list.h, value_list.h, cartesian_product.h.

A pack of types is a `List α`, where `α` is an arbitrary collection of types with decidable
equality (`std::is_same`) and, where needed, a `sizeof`.
A metafunction that does not compile for some arguments (missing specialisation, failed
`enable_if`) gives `none` for them.
Template instantiation limits of the compiler are in Model/Depth.lean, predicates that do not compile for every
type in Model/LazyPred.lean.
-/

namespace Utils.TL

variable {α : Type}

/-- `type_list_impl::at_impl`, type_list.h 20-33 (`at<I>`, 148-152, 191-192). -/
def atImpl : Nat → List α → Option α
  | _, [] => none
  | 0, u :: _ => some u
  | i + 1, _ :: v => atImpl i v

/-- `type_list_impl::at_with_predicate(_impl)`, type_list.h 35-77 (`at<I, Predicate>`, 154-158). -/
def atWithPredicate (p : α → Bool) : Nat → List α → Option α
  | _, [] => none
  | 0, u :: v => if p u then some u else atWithPredicate p 0 v
  | i + 1, u :: v => if p u then atWithPredicate p i v else atWithPredicate p (i + 1) v

/-- `type_list_impl::is_same_impl`, type_list.h 79-88. -/
def isSame [DecidableEq α] : List α → Bool
  | [] => true
  | t :: ts => ts.all fun u => decide (t = u)

/-- `type_list_impl::count_of_impl`, type_list.h 90-96: the fold `(0 + ... + is_same_v<T, Types>)`. -/
def countOf [DecidableEq α] (t : α) (ts : List α) : Nat :=
  ts.foldl (fun acc u => acc + (if t = u then 1 else 0)) 0

/-- `type_list_impl::more_than_once`, type_list.h 98-102. -/
def moreThanOnce [DecidableEq α] (t : α) (ts : List α) : Bool := decide (countOf t ts > 1)

/-- `type_list_impl::count_of_predicate_compliant_impl`, type_list.h 104-110. -/
def countOfPredicateCompliant (p : α → Bool) (ts : List α) : Nat :=
  ts.foldl (fun acc u => acc + (if p u then 1 else 0)) 0

/-- `type_list::contains_predicate_compliant`, type_list.h 230-232. -/
def containsPredicateCompliant (p : α → Bool) (ts : List α) : Bool :=
  countOfPredicateCompliant p ts != 0

/-- `type_list_impl::index_of_impl`, type_list.h 112-134.  `p u` stands for
`Predicate<U, RestPredArgs...>::value`. -/
def indexOfImpl (p : α → Bool) : Nat → List α → Nat
  | i, [] => i
  | i, u :: v => if p u then i else indexOfImpl p (i + 1) v

/-- `type_list::index_of`, type_list.h 194-198. -/
def indexOf (p : α → Bool) (ts : List α) : Nat := indexOfImpl p 0 ts

/-- The fold `(... || (k = std::is_same_v<T, U> * (I + 1)))` of `get_first_index_of`,
type_list.h 141: `i` is the current element of the index sequence; the final `k` is returned. -/
def firstIndexLoop [DecidableEq α] (t : α) : List α → Nat → Nat → Nat
  | [], _, k => k
  | u :: us, i, _ =>
    let k := (if t = u then 1 else 0) * (i + 1)
    if k ≠ 0 then k else firstIndexLoop t us (i + 1) k

/-- `type_list_impl::get_first_index_of`, type_list.h 136-143 (`first_index_of_type`, 200-203). -/
def firstIndexOfType [DecidableEq α] (t : α) (ts : List α) : Nat :=
  let k := firstIndexLoop t ts 0 0
  if k ≠ 0 then k - 1 else ts.length

/-- `type_list::contains_copies`, type_list.h 234-235. -/
def containsCopies [DecidableEq α] (ts : List α) : Bool := ts.any fun t => moreThanOnce t ts

/-- `concatenate`, cartesian_product.h 12-40: no definition for an empty pack. -/
def concatenate : List (List α) → Option (List α)
  | [] => none
  | [a] => some a
  | a :: b :: rest => concatenate ((a ++ b) :: rest)
  termination_by l => l.length

/-- `type_list_impl::list_of_predicate_compliant_impl`, type_list.h 160-178, 237-249. -/
def listOfPredicateCompliant (p : α → Bool) (ts : List α) : Option (List α) :=
  if ts.length = 0 then some []
  else concatenate (ts.map fun t => if p t then [t] else [])

/-- The fold of `min_sizeof_index_impl`, type_list.h 260-268. -/
def minSizeofLoop (sz : α → Nat) : List α → Nat → Nat → Nat → Nat
  | [], _, index, _ => index
  | r :: rest, i, index, m =>
    if m > sz r then minSizeofLoop sz rest (i + 1) (i + 1) (sz r)
    else minSizeofLoop sz rest (i + 1) index m

/-- `min_sizeof_index`, type_list.h 254-271, 307-320: undefined for the empty list. -/
def minSizeofIndex (sz : α → Nat) : List α → Option Nat
  | [] => none
  | t :: rest => some (minSizeofLoop sz rest 0 0 (sz t))

/-- The fold of `max_sizeof_index_impl`, type_list.h 279-287. -/
def maxSizeofLoop (sz : α → Nat) : List α → Nat → Nat → Nat → Nat
  | [], _, index, _ => index
  | r :: rest, i, index, m =>
    if m < sz r then maxSizeofLoop sz rest (i + 1) (i + 1) (sz r)
    else maxSizeofLoop sz rest (i + 1) index m

/-- `max_sizeof_index`, type_list.h 273-290, 322-335: undefined for the empty list. -/
def maxSizeofIndex (sz : α → Nat) : List α → Option Nat
  | [] => none
  | t :: rest => some (maxSizeofLoop sz rest 0 0 (sz t))

/-- `sublist_impl`, type_list.h 292-304: `at<First + I>...` for `I = 0 .. Count-1`;
`First + I` is computed in `std::size_t`. -/
def sublistImpl (ts : List α) (first count : Nat) : Option (List α) :=
  (List.range count).mapM fun i => atImpl ((first + i) % 2 ^ 64) ts

/-- `sublist`, type_list.h 337-362; `First + Count` is computed in `std::size_t`. -/
def sublist (ts : List α) (first count : Nat) : Option (List α) :=
  if count = 0 then
    if ts.length = 0 ∧ first = 0 then some []
    else if first < ts.length then some [] else none
  else if (first + count) % 2 ^ 64 ≤ ts.length then sublistImpl ts first count
  else none

/-- `exclude_at_impl`, type_list.h 366-388. -/
def excludeAtImpl (ts : List α) (i : Nat) : Option (List α) :=
  match ts, i with
  | _ :: rest, 0 => some rest
  | ts, i =>
    if ts.length ≥ 2 ∧ i = ts.length - 1 then sublist ts 0 (ts.length - 1)
    else do
      let a ← sublist ts 0 i
      let b ← sublist ts (i + 1) (ts.length - i - 1)
      concatenate [a, b]

/-- `exclude_at`, type_list.h 390-409. -/
def excludeAt (ts : List α) (i : Nat) : Option (List α) :=
  if i < ts.length then excludeAtImpl ts i else none

/-- `sort_sizeof_ascending`, type_list.h 411-434.  The first argument bounds the recursion depth;
it is always the length of the list. -/
def sortAscAux (sz : α → Nat) : Nat → List α → Option (List α)
  | _, [] => some []
  | _, [t] => some [t]
  | 0, _ => none
  | n + 1, ts => do
    let i ← minSizeofIndex sz ts
    let t ← atImpl i ts
    let rest ← excludeAt ts i
    let s ← sortAscAux sz n rest
    concatenate [[t], s]

/-- `sort_sizeof_ascending_t`, type_list.h 436-437. -/
def sortAscending (sz : α → Nat) (ts : List α) : Option (List α) := sortAscAux sz ts.length ts

/-- `sort_sizeof_descending`, type_list.h 439-462; first argument as in `sortAscAux`. -/
def sortDescAux (sz : α → Nat) : Nat → List α → Option (List α)
  | _, [] => some []
  | _, [t] => some [t]
  | 0, _ => none
  | n + 1, ts => do
    let i ← maxSizeofIndex sz ts
    let t ← atImpl i ts
    let rest ← excludeAt ts i
    let s ← sortDescAux sz n rest
    concatenate [[t], s]

/-- `sort_sizeof_descending_t`, type_list.h 464-466. -/
def sortDescending (sz : α → Nat) (ts : List α) : Option (List α) := sortDescAux sz ts.length ts

/-! ## `contains`: queries may themselves be type lists -/

/-- Types as far as `contains` can tell them apart: a `type_list<...>` or anything else. -/
inductive Ty where
  | base (name : Nat)
  | tlist (ts : List Ty)

mutual
/-- `std::is_same` on `Ty`. -/
def Ty.decEq : (a b : Ty) → Decidable (a = b)
  | .base m, .base n => if h : m = n then isTrue (by rw [h]) else isFalse (by simp [h])
  | .base _, .tlist _ => isFalse (by simp)
  | .tlist _, .base _ => isFalse (by simp)
  | .tlist as, .tlist bs =>
    match Ty.decEqList as bs with
    | isTrue h => isTrue (by rw [h])
    | isFalse h => isFalse (by simp [h])
/-- `std::is_same` on packs of `Ty`. -/
def Ty.decEqList : (as bs : List Ty) → Decidable (as = bs)
  | [], [] => isTrue rfl
  | [], _ :: _ => isFalse (by simp)
  | _ :: _, [] => isFalse (by simp)
  | a :: as, b :: bs =>
    match Ty.decEq a b, Ty.decEqList as bs with
    | isTrue h1, isTrue h2 => isTrue (by rw [h1, h2])
    | isFalse h, _ => isFalse (by simp [h])
    | _, isFalse h => isFalse (by simp [h])
end

instance : DecidableEq Ty := Ty.decEq

mutual
/-- `type_list::contains`, type_list.h 216-228: the partial specialisation for `type_list<Us...>`
asks for each of the `Us`. -/
def contains (ts : List Ty) : Ty → Bool
  | .base n => countOf (.base n) ts != 0
  | .tlist us => containsAll ts us
/-- `std::conjunction_v<contains<Us>...>`, type_list.h 223. -/
def containsAll (ts : List Ty) : List Ty → Bool
  | [] => true
  | u :: us => contains ts u && containsAll ts us
end

/-- `is_type_list`, type_list.h 468-479. -/
def isTypeList : Ty → Bool
  | .tlist _ => true
  | .base _ => false

end Utils.TL

namespace Utils.VL

/-! ## `value_list` -/

/-- A template argument `decltype(auto) V`: its type and its value. -/
structure TVal (τ : Type) where
  ty : τ
  val : Int
  deriving DecidableEq

variable {τ : Type} [DecidableEq τ]

/-- `is_same_impl(_impl)`, value_list.h 17-33: same type, then same value. -/
def isSameImpl (a b : TVal τ) : Bool :=
  if a.ty = b.ty then decide (a.val = b.val) else false

/-- `count_of_impl`, value_list.h 35-41, 157-159. -/
def countOf (v : TVal τ) (vs : List (TVal τ)) : Nat :=
  vs.foldl (fun acc u => acc + (if isSameImpl v u then 1 else 0)) 0

/-- `is_all_same_impl`, value_list.h 43-52, 152-155. -/
def isSame : List (TVal τ) → Bool
  | [] => true
  | v :: vs => vs.all fun u => isSameImpl v u

/-- `more_than_once`, value_list.h 54-58. -/
def moreThanOnce (v : TVal τ) (vs : List (TVal τ)) : Bool := decide (countOf v vs > 1)

/-- `contains_copies`, value_list.h 167-168. -/
def containsCopies (vs : List (TVal τ)) : Bool := vs.any fun v => moreThanOnce v vs

/-- `contains_impl`, value_list.h 60-63, 161-165. -/
def contains (v : TVal τ) (vs : List (TVal τ)) : Bool := vs.any fun u => isSameImpl v u

/-- `index_of_impl`, value_list.h 65-77. -/
def indexOfImpl (v : TVal τ) : Nat → List (TVal τ) → Nat
  | i, [] => i
  | i, u :: us => if isSameImpl v u then i else indexOfImpl v (i + 1) us

/-- `index_of`, value_list.h 148-150. -/
def indexOf (v : TVal τ) (vs : List (TVal τ)) : Nat := indexOfImpl v 0 vs

/-- `all_of(_impl)`, value_list.h 79-104; `list_all_of`, 180-187. -/
def allOf (t : τ) (vs : List (TVal τ)) : Option (List (TVal τ)) :=
  match vs with
  | [] => some []
  | vs => TL.concatenate (vs.map fun v => if v.ty = t then [v] else [])

/-- `at`, value_list.h 141-146 (`std::tuple_element`, `std::get`). -/
def at' (i : Nat) (vs : List (TVal τ)) : Option (TVal τ) := vs[i]?

/-- `std::min({...})` of an initializer list: no result for an empty one. -/
def stdMin : List Int → Option Int
  | [] => none
  | x :: xs => some (xs.foldl (fun m y => if y < m then y else m) x)

/-- `std::max({...})` of an initializer list: no result for an empty one. -/
def stdMax : List Int → Option Int
  | [] => none
  | x :: xs => some (xs.foldl (fun m y => if m < y then y else m) x)

/-- `min_impl`, value_list.h 106-116, 174-175. -/
def min (t : τ) (vs : List (TVal τ)) : Option Int := do
  let l ← allOf t vs
  let xs ← (List.range l.length).mapM fun i => (at' i l).map TVal.val
  stdMin xs

/-- `max_impl`, value_list.h 118-128, 177-178. -/
def max (t : τ) (vs : List (TVal τ)) : Option Int := do
  let l ← allOf t vs
  let xs ← (List.range l.length).mapM fun i => (at' i l).map TVal.val
  stdMax xs

/-- `contains_type`, value_list.h 170-172 (for a `t` that is not itself a `type_list`). -/
def containsType (t : τ) (vs : List (TVal τ)) : Bool := TL.countOf t (vs.map TVal.ty) != 0

end Utils.VL

namespace Utils.CP

/-! ## `cartesian_product` -/

variable {α : Type}

/-- `one_element_mult<true, {T}, {Ts...}>`, cartesian_product.h 47-51, 59-63. -/
def oneElementMultFirst (t : α) (ts : List α) : List (List α) := ts.map fun u => [t, u]

/-- `one_element_mult<false, {T}, type_list<Ts...>>`, cartesian_product.h 53-57, 65-69. -/
def oneElementMult (t : α) (ts : List (List α)) : Option (List (List α)) :=
  ts.mapM fun u => TL.concatenate [[t], u]

/-- `cartesian_product_impl` on the list of factors, cartesian_product.h 71-96, 99-115.
Two factors: `I == 0` (line 78, 87-88, 93-95); more factors: the product of the rest first
(lines 74-82), then `I != 0`.  Fewer than two factors do not match the primary template.
The value-list and type-list versions have the same shape and are modelled by the same function;
mixing them is in Model/ValueArg.lean. -/
def product : List (List α) → Option (List (List α))
  | [l1, l2] => TL.concatenate (l1.map fun t => oneElementMultFirst t l2)
  | l1 :: l2 :: l3 :: ls => do
    let r ← product (l2 :: l3 :: ls)
    let parts ← l1.mapM fun t => oneElementMult t r
    TL.concatenate parts
  | _ => none

end Utils.CP
