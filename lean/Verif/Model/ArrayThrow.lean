import Verif.Model.Types

/-!
# The array functions of common.h when elements throw

/repo/sources/include/utils/common.h 138-264, 327-332.  If the constructor of an element throws, the
elements of that array that were constructed before are destroyed; this is left to the language.  An
exception that would leave a function declared `noexcept` ends the program; one thrown while the
parameters of such a function are initialised belongs to its caller.
-/

namespace Utils.ArrayThrow

open Utils.Types (Cat)

/-- What the element type does when copied and when moved from: `none` if that throws.  The second part
of `move x` is what is left in the source. -/
structure XElem (α : Type) where
  copy : α → Option α
  move : α → Option α × α

/-- How a call ends. -/
inductive Ends (α : Type)
  | value (a : α)
  /-- the caller gets an exception -/
  | throws
  /-- `std::terminate` -/
  | terminates
  deriving DecidableEq

/-- A function declared `noexcept` with this body. -/
def Ends.noexcept {α : Type} : Option α → Ends α
  | some a => .value a
  | none => .terminates

/-- A function that may throw with this body. -/
def Ends.open {α : Type} : Option α → Ends α
  | some a => .value a
  | none => .throws

variable {α : Type}

/-- `std::get<i>(std::forward<A>(aArray))...` as initialisers, common.h 147-148. -/
def takeX (E : XElem α) (k : Cat) (a : List α) : Option (List α) :=
  match k with
  | .copied => a.mapM E.copy
  | .moved => a.mapM fun x => (E.move x).1

/-- `details::concatenate_arrays`, common.h 151-169, as in `Types.concatObjects`. -/
def concatX (E : XElem α) (k : Cat) (a : List α) : List (Cat × List α) → Option (List α)
  | [] => takeX E k a
  | (j, b) :: rest => do
    let x ← takeX E k a
    let y ← takeX E j b
    concatX E .moved (x ++ y) rest

/-- `concatenate_arrays`, common.h 211-219; `noexcept`, and so are 140-169. -/
def concatenateX (E : XElem α) (a : Cat × List α) (rest : List (Cat × List α)) : Ends (List α) :=
  .noexcept (concatX E a.1 a.2 rest)

/-- `{make_element_for_index<T, I>(std::move(aValue))...}`, common.h 177-182. -/
def fillX (E : XElem α) (v : α) : Nat → Option (List α)
  | 0 => some []
  | n + 1 => do
    let x ← (E.move v).1
    let l ← fillX E (E.move v).2 n
    pure (x :: l)

/-- `make_array<T, N>(aValue)`, common.h 234-239: the parameter of the `noexcept` function
`make_array_with_value_impl` (177-182) is a copy made by `make_array`, which is not `noexcept`. -/
def makeArrayFillX (E : XElem α) (n : Nat) (v : α) : Ends (List α) :=
  match E.copy v with
  | none => .throws
  | some p => .noexcept (fillX E p n)

/-- `make_zero_array<T, N>()`, common.h 327-332; `zero` is what `T{}` gives. -/
def makeZeroArrayX (E : XElem α) (zero : Option α) (n : Nat) : Ends (List α) :=
  match zero with
  | none => .throws
  | some p => .noexcept (fillX E p n)

/-- `make_array(aArgs...)`, common.h 221-226, not `noexcept`; every argument is given by what the
construction of an element from it gives. -/
def makeArrayArgsX (args : List (Option α)) : Ends (List α) := .open (args.mapM id)

/-- `make_array<N, V>(sv)`, common.h 243-264, `noexcept` like 244-246, for a view of at least `N`
characters (otherwise see `Arrays.makeArrayFromSv`): every character is converted to a temporary `V`,
and `make_array` moves the temporaries into the array. -/
def makeArrayFromSvX {β : Type} (E : XElem α) (conv : β → Option α) (N : Nat) (sv : List β) :
    Ends (List α) :=
  match (sv.take N).mapM conv with
  | none => .terminates
  | some l => .noexcept (takeX E .moved l)

end Utils.ArrayThrow
