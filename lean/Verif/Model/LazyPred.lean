import Verif.Model.TypeList

/-!
# Predicates that do not compile for every type

/repo/sources/include/utils/type_list.h.

The metafunctions of `type_list` that take a predicate, once more, with a predicate `p` whose
instantiation may be ill-formed: `p u = none` means that `Predicate<U, RestPredArgs...>::value` is a hard
error (for instance `sizeof` of an incomplete type in its definition).
A template that is only named, like the third argument of `std::conditional_t`, is not instantiated, so
nothing is asked of it.
-/

namespace Utils.LazyPred

variable {α : Type}

/-- `type_list_impl::index_of_impl`, type_list.h 112-134: `Predicate<U, RestPredArgs...>::value` is needed to
choose the base class; only the base class chosen is instantiated. -/
def indexOfImpl (p : α → Option Bool) : Nat → List α → Option Nat
  | i, [] => some i
  | i, u :: v =>
    match p u with
    | none => none
    | some true => some i
    | some false => indexOfImpl p (i + 1) v

/-- `type_list::index_of`, type_list.h 194-198. -/
def indexOf (p : α → Option Bool) (ts : List α) : Option Nat := indexOfImpl p 0 ts

/-- `type_list_impl::at_with_predicate` and `at_with_predicate_impl`, type_list.h 35-77
(`at<I, Predicate>`, 154-158): the value of the predicate for `U` chooses the specialisation, which names the
next one. -/
def atWithPredicate (p : α → Option Bool) : Nat → List α → Option α
  | _, [] => none
  | i, u :: v =>
    match p u with
    | none => none
    | some true => match i with
      | 0 => some u
      | i + 1 => atWithPredicate p i v
    | some false => atWithPredicate p i v

/-- The fold `(0 + ... + static_cast<std::size_t>(Predicate<Types>::value))`, type_list.h 106-108, with the
sum so far: every operand is instantiated. -/
def countFold (p : α → Option Bool) : Nat → List α → Option Nat
  | acc, [] => some acc
  | acc, u :: v =>
    match p u with
    | none => none
    | some b => countFold p (acc + b.toNat) v

/-- `type_list::count_of_predicate_compliant`, type_list.h 104-110, 211-214. -/
def countOfPredicateCompliant (p : α → Option Bool) (ts : List α) : Option Nat := countFold p 0 ts

/-- `type_list::contains_predicate_compliant`, type_list.h 230-232: the count, converted to `bool`. -/
def containsPredicateCompliant (p : α → Option Bool) (ts : List α) : Option Bool :=
  (countOfPredicateCompliant p ts).map (· != 0)

/-- The pack `std::conditional_t<Predicate<Ts, RestPredArgs...>::value, R<Ts>, R<>>...`, type_list.h 167-168. -/
def pieces (p : α → Option Bool) : List α → Option (List (List α))
  | [] => some []
  | u :: v =>
    match p u, pieces p v with
    | some b, some rest => some ((if b then [u] else []) :: rest)
    | _, _ => none

/-- `type_list::list_of_predicate_compliant`, type_list.h 160-178, 237-249. -/
def listOfPredicateCompliant (p : α → Option Bool) (ts : List α) : Option (List α) :=
  if ts.length = 0 then some []
  else (pieces p ts).bind TL.concatenate

end Utils.LazyPred
