import Verif.Model.TypeList

/-!
# How deep the templates nest

/repo/sources/include/utils/type_list.h, value_list.h, cartesian_product.h.

The list templates once more, counting nested instantiations: a template whose definition needs another
specialisation is instantiated around it.  Compilers limit the depth of this nesting.

Simplifications: only the class templates of these headers are counted, not alias and variable templates, not
those of the standard library, not the predicates; nothing has been instantiated before (a specialisation that
exists already is not instantiated again, so later uses nest less).
-/

namespace Utils.Depth

variable {α β γ : Type}

/-- Compiling a template: what it denotes (`none`: it does not compile) and how many instantiations are nested at
the deepest point. -/
structure Inst (β : Type) where
  value : Option β
  depth : Nat

/-- Nothing to instantiate. -/
def done (b : β) : Inst β := ⟨some b, 0⟩

/-- No specialisation matches, or `enable_if` fails. -/
def error : Inst β := ⟨none, 0⟩

/-- A class template whose definition needs `x`. -/
def inst (x : Inst β) : Inst β := ⟨x.value, x.depth + 1⟩

/-- First `x`, then (not inside) what depends on it. -/
def andThen (x : Inst β) (f : β → Inst γ) : Inst γ :=
  match x.value with
  | none => ⟨none, x.depth⟩
  | some b => ⟨(f b).value, max x.depth (f b).depth⟩

/-- A pack expansion: one after the other. -/
def pack : List (Inst β) → Inst (List β)
  | [] => done []
  | x :: xs => andThen x fun b => andThen (pack xs) fun bs => done (b :: bs)

/-- What is left of `x` in a compiler that stops when more than `limit` instantiations are nested. -/
def Inst.within (limit : Nat) (x : Inst β) : Option β := if x.depth ≤ limit then x.value else none

/-! ## type_list.h -/

/-- `type_list_impl::at_impl`, type_list.h 20-33. -/
def atImpl : Nat → List α → Inst α
  | _, [] => error
  | 0, u :: _ => inst (done u)
  | i + 1, _ :: v => inst (atImpl i v)

/-- `type_list::at<I>`, type_list.h 148-152, 191-192: `type_list_impl::at` around `at_impl`. -/
def typeAt (i : Nat) (ts : List α) : Inst α := inst (atImpl i ts)

/-- `type_list_impl::at_with_predicate` around `at_with_predicate_impl`, type_list.h 35-77. -/
def atWithPredicate (p : α → Bool) : Nat → List α → Inst α
  | _, [] => error
  | 0, u :: v => inst (inst (if p u then done u else atWithPredicate p 0 v))
  | i + 1, u :: v => inst (inst (if p u then atWithPredicate p i v else atWithPredicate p (i + 1) v))

/-- `type_list::at<I, Predicate>`, type_list.h 154-158, 191-192. -/
def typeAtPred (p : α → Bool) (i : Nat) (ts : List α) : Inst α := inst (atWithPredicate p i ts)

/-- `type_list_impl::index_of_impl`, type_list.h 112-134: the base class is instantiated inside the derived one,
the alternative not chosen not at all. -/
def indexOfImpl (p : α → Bool) : Nat → List α → Inst Nat
  | i, [] => inst (done i)
  | i, u :: v => inst (if p u then done i else indexOfImpl p (i + 1) v)

/-- `type_list::index_of`, type_list.h 194-198. -/
def indexOf (p : α → Bool) (ts : List α) : Inst Nat := indexOfImpl p 0 ts

/-- `concatenate`, cartesian_product.h 12-40. -/
def concatenate : List (List α) → Inst (List α)
  | [] => error
  | [a] => inst (done a)
  | a :: b :: rest => inst (concatenate ((a ++ b) :: rest))
  termination_by l => l.length

/-- `type_list::list_of_predicate_compliant` around `list_of_predicate_compliant_impl` around `concatenate`,
type_list.h 160-178, 237-249. -/
def listOfPredicateCompliant (p : α → Bool) (ts : List α) : Inst (List α) :=
  inst (inst (if ts.length = 0 then done []
    else concatenate (ts.map fun t => if p t then [t] else [])))

/-- `sublist_impl`, type_list.h 292-300. -/
def sublistImpl (ts : List α) (first count : Nat) : Inst (List α) :=
  inst (pack ((List.range count).map fun i => typeAt ((first + i) % 2 ^ 64) ts))

/-- `sublist`, type_list.h 337-362: the second argument of `enable_if_t` is instantiated whether the condition
holds or not. -/
def sublist (ts : List α) (first count : Nat) : Inst (List α) :=
  inst (if count = 0 then
      if ts.length = 0 ∧ first = 0 then done []
      else if first < ts.length then done [] else error
    else andThen (sublistImpl ts first count) fun r =>
      if (first + count) % 2 ^ 64 ≤ ts.length then done r else error)

/-- `exclude_at_impl`, type_list.h 366-388. -/
def excludeAtImpl (ts : List α) (i : Nat) : Inst (List α) :=
  inst (match ts, i with
  | _ :: rest, 0 => done rest
  | ts, i =>
    if ts.length ≥ 2 ∧ i = ts.length - 1 then sublist ts 0 (ts.length - 1)
    else andThen (sublist ts 0 i) fun a =>
      andThen (sublist ts (i + 1) (ts.length - i - 1)) fun b => concatenate [a, b])

/-- `exclude_at` around `exclude_at_helper` around `exclude_at_impl`, type_list.h 390-409. -/
def excludeAt (ts : List α) (i : Nat) : Inst (List α) :=
  inst (if i < ts.length then inst (excludeAtImpl ts i) else error)

/-- `min_sizeof_index`, `max_sizeof_index`, type_list.h 308-335: no templates inside. -/
def sizeofIndex (index : List α → Option Nat) (ts : List α) : Inst Nat := inst ⟨index ts, 0⟩

/-- `sort_sizeof_ascending` (`index` is `min_sizeof_index`) and `sort_sizeof_descending` (`max_sizeof_index`),
type_list.h 411-434, 439-462.  The arguments of the next `sort` are instantiated before it.  The first argument
bounds the recursion; it is always the length of the list. -/
def sortAux (index : List α → Option Nat) : Nat → List α → Inst (List α)
  | _, [] => inst (done [])
  | _, [t] => inst (done [t])
  | 0, _ => error
  | n + 1, ts => inst (andThen (sizeofIndex index ts) fun i =>
      andThen (typeAt i ts) fun t =>
      andThen (excludeAt ts i) fun rest =>
      andThen (sortAux index n rest) fun s => concatenate [[t], s])

/-- `sort_sizeof_ascending_t`, type_list.h 436-437. -/
def sortAscending (sz : α → Nat) (ts : List α) : Inst (List α) := sortAux (TL.minSizeofIndex sz) ts.length ts

/-- `sort_sizeof_descending_t`, type_list.h 464-466. -/
def sortDescending (sz : α → Nat) (ts : List α) : Inst (List α) := sortAux (TL.maxSizeofIndex sz) ts.length ts

/-! ## cartesian_product.h -/

/-- `one_element_mult<true, ...>`, cartesian_product.h 47-51, 59-63. -/
def oneElementMultFirst (t : α) (ts : List α) : Inst (List (List α)) := inst (done (ts.map fun u => [t, u]))

/-- `one_element_mult<false, ...>`, cartesian_product.h 53-57, 65-69. -/
def oneElementMult (t : α) (ts : List (List α)) : Inst (List (List α)) :=
  inst (pack (ts.map fun u => concatenate [[t], u]))

/-- `cartesian_product_impl`, cartesian_product.h 71-96: with three or more lists the product of all but the first
is instantiated, then, beside it, the specialisation for two. -/
def productImpl : List (List α) → Inst (List (List α))
  | [l1, l2] => inst (andThen (pack (l1.map fun t => oneElementMultFirst t l2)) concatenate)
  | l1 :: l2 :: l3 :: ls => inst (andThen (productImpl (l2 :: l3 :: ls)) fun r =>
      inst (andThen (pack (l1.map fun t => oneElementMult t r)) concatenate))
  | _ => error

/-- `cartesian_product`, cartesian_product.h 99-115. -/
def product (ls : List (List α)) : Inst (List (List α)) := inst (productImpl ls)

/-! ## value_list.h -/

variable {τ : Type} [DecidableEq τ]

/-- `value_list_impl::is_same_impl` around `is_same_impl_impl`, value_list.h 17-31. -/
def valueIsSame (u v : VL.TVal τ) : Inst Bool := inst (inst (done (VL.isSameImpl u v)))

/-- `value_list_impl::index_of_impl`, value_list.h 65-77: the comparison, then the alternative chosen as base. -/
def valueIndexOfImpl : Nat → VL.TVal τ → List (VL.TVal τ) → Inst Nat
  | i, _, [] => inst (done i)
  | i, u, v :: vs => inst (andThen (valueIsSame u v) fun same =>
      if same then done i else valueIndexOfImpl (i + 1) u vs)

/-- `value_list::index_of`, value_list.h 148-150. -/
def valueIndexOf (u : VL.TVal τ) (vs : List (VL.TVal τ)) : Inst Nat := valueIndexOfImpl 0 u vs

/-- `value_list_impl::all_of_impl`, value_list.h 79-92. -/
def valueAllOfImpl (t : τ) (v : VL.TVal τ) : Inst (List (VL.TVal τ)) :=
  inst (done (if v.ty = t then [v] else []))

/-- `value_list_impl::all_of`, value_list.h 94-104: `all_of_impl` of every value, then `concatenate`. -/
def valueAllOf (t : τ) : List (VL.TVal τ) → Inst (List (VL.TVal τ))
  | [] => inst (done [])
  | v :: vs => inst (andThen (pack ((v :: vs).map (valueAllOfImpl t))) concatenate)

/-- `value_list::list_all_of` around `all_of`, value_list.h 180-187. -/
def valueListAllOf (t : τ) (vs : List (VL.TVal τ)) : Inst (List (VL.TVal τ)) := inst (valueAllOf t vs)

/-- `value_list_impl::count_of_impl`, value_list.h 35-41: a comparison with every value; `count_of`, 157-159. -/
def valueCountOf (u : VL.TVal τ) (vs : List (VL.TVal τ)) : Inst Nat :=
  inst (andThen (pack (vs.map (valueIsSame u))) fun same =>
    done (same.foldl (fun acc b => acc + if b then 1 else 0) 0))

/-- `value_list_impl::min_impl` (`pick` is `std::min`) and `max_impl` (`std::max`), value_list.h 106-128: `all_of`,
then the `value_list` it denotes, whose members are used; `min`, `max`, 174-178. -/
def valueExtreme (pick : List Int → Option Int) (t : τ) (vs : List (VL.TVal τ)) : Inst Int :=
  inst (andThen (valueAllOf t vs) fun l => inst ⟨pick (l.map VL.TVal.val), 0⟩)

end Utils.Depth
