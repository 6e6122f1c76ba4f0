/-!
# padding_checker.h

Types are trees: scalars, aggregates and classes that are no aggregates (private members,
constructors).  A scalar with padding inside is to the trait what such a class is: `long double`, with
10 bytes of data in 16, is `.cls false 16 [.scalar 10 1]`.  Not modelled: arrays, unions, bit-fields,
references, base classes of aggregates (`boost::pfr` does not take them apart) and
`[[no_unique_address]]`.
-/

namespace Utils.Padding

/-- A complete object type. -/
inductive Ty
  /-- a scalar of the given size and alignment -/
  | scalar (size align : Nat)
  /-- `struct alignas(align) { members }` (`align = 1`: no `alignas`); `aggregate` is
  `std::is_aggregate_v` -/
  | cls (aggregate : Bool) (align : Nat) (members : List Ty)

/-- The next multiple of `a` at or behind `n`. -/
def roundUp (n a : Nat) : Nat := (n + a - 1) / a * a

mutual

/-- `alignof`. -/
def alignOf : Ty → Nat
  | .scalar _ a => a
  | .cls _ a ms => max a (alignAll ms)

/-- The largest alignment of some members. -/
def alignAll : List Ty → Nat
  | [] => 1
  | t :: ts => max (alignOf t) (alignAll ts)

end

mutual

/-- `sizeof`, by the layout rule of the platform's ABI: members one after another, each at the next
address it is aligned for, the whole rounded up to its alignment; an empty class takes one byte. -/
def byteSize : Ty → Nat
  | .scalar s _ => s
  | .cls b a ms => roundUp (max 1 (endOf 0 ms)) (alignOf (.cls b a ms))

/-- Where the members end if the first may start at `off`. -/
def endOf (off : Nat) : List Ty → Nat
  | [] => off
  | t :: ts => endOf (roundUp off (alignOf t) + byteSize t) ts

end

mutual

/-- `sum_size_of_all_members<T, std::is_aggregate_v<T>>::value`,
/repo/sources/include/utils/padding_checker.h 25-37.  The fold over `+` (20-22) does not compile for an
aggregate without members. -/
def sumSize : Ty → Option Nat
  | .scalar s _ => some s
  | .cls true _ ms => sumAll ms
  | .cls false a ms => some (byteSize (.cls false a ms))

/-- The fold expression `(... + sum_size_of_all_members<...>::value)`, padding_checker.h 17-23. -/
def sumAll : List Ty → Option Nat
  | [] => none
  | [t] => sumSize t
  | t :: t' :: ts => do
    let a ← sumSize t
    let b ← sumAll (t' :: ts)
    pure (a + b)

end

/-- `has_padding_v<T>`, padding_checker.h 39-55: a disjunction that does not look at the members if
`T` is not trivially copyable. -/
def hasPadding (triviallyCopyable : Bool) (t : Ty) : Option Bool :=
  if !triviallyCopyable then some true
  else (sumSize t).map fun s => byteSize t != s

end Utils.Padding
