import Verif.Model.CInt

/-!
# Array helpers of common.h

A `std::array` is the list of its elements.  Reading beyond the end is undefined (`ub`); in a
constant expression it is a compilation error, also `ub` here.
-/

namespace Utils.Arrays

/-- `a[i]`. -/
def elem {α : Type} (a : List α) (i : Nat) : Outcome α :=
  match a[i]? with
  | some x => .ok x
  | none => .ub

/-- The loop of `is_equal` from index `i` on; `ne` is the element type's `operator!=`.
/repo/sources/include/utils/common.h 341-349. -/
def isEqualLoop {α : Type} (ne : α → α → Bool) (lhs rhs : List α) (i : Nat) :
    (left : Nat) → Outcome Bool
  | 0 => .ok true
  | left + 1 => do
    let x ← elem lhs i
    let y ← elem rhs i
    if ne x y then pure false else isEqualLoop ne lhs rhs (i + 1) left

/-- `is_equal(lhs, rhs, kCount)` for arrays of `N` elements, common.h 334-350. -/
def isEqual {α : Type} (debug : Bool) (ne : α → α → Bool) (N : Nat) (lhs rhs : List α)
    (kCount : Nat) : Outcome Bool := do
  cassert debug (kCount ≤ N)
  isEqualLoop ne lhs rhs 0 kCount

/-- What the element type does when copied and when moved from.  `move x` is the new object and what
is left in the source. -/
structure Elem (α : Type) where
  copy : α → α
  move : α → α × α

/-- The braced list `{make_element_for_index<T, I>(std::move(aValue))...}` for `n` indices: every
element is move-constructed from the same parameter, left to right. common.h 171-182. -/
def fillMoves {α : Type} (E : Elem α) (v : α) : Nat → List α
  | 0 => []
  | n + 1 => (E.move v).1 :: fillMoves E (E.move v).2 n

/-- `make_array<T, N>(aValue)`, common.h 234-239: the parameter is copied into the parameter of
`make_array_with_value_impl` (which takes it by value). -/
def makeArrayFill {α : Type} (E : Elem α) (n : Nat) (v : α) : List α := fillMoves E (E.copy v) n

/-- `make_zero_array<T, N>()`, common.h 327-332; `zero` is `T{}`, passed as a prvalue. -/
def makeZeroArray {α : Type} (E : Elem α) (zero : α) (n : Nat) : List α := fillMoves E zero n

/-- `a < b` on integers: compared after the usual arithmetic conversions. -/
def cLt (a b : CVal) : Bool :=
  let t := CTy.usual a.ty b.ty
  t.conv a.val < t.conv b.val

/-- `a <= b` on integers. -/
def cLe (a b : CVal) : Bool :=
  let t := CTy.usual a.ty b.ty
  t.conv a.val ≤ t.conv b.val

/-- `a == b` on integers. -/
def cEq (a b : CVal) : Bool :=
  let t := CTy.usual a.ty b.ty
  t.conv a.val == t.conv b.val

/-- `is_valid_range<Begin, End, Step>`, common.h 266-279. `ub` (signed overflow of `Begin + Step`)
means that the constant expression is rejected. -/
def isValidRange (b e step : CVal) : Outcome Bool :=
  if cLt b e then do
    let s ← b.add step
    pure (cLt b s || cEq b e)
  else pure (cEq b e)

/-- `aBegin += aStep` and `currentValue = currentValue + Step`: add, then convert back. -/
def addAssign (x step : CVal) : Outcome CVal := do
  let s ← x.add step
  pure (s.cast x.ty)

/-- The lambda `step_count`, common.h 291-300.  In a constant expression: `ub` and a loop without end
are compilation errors. -/
def stepCount : (fuel : Nat) → (b e step : CVal) → Outcome Nat
  | 0, _, _, _ => .outOfFuel
  | fuel + 1, b, e, step =>
    if cLe b e then do
      let b ← addAssign b step
      let c ← stepCount fuel b e step
      pure (c + 1)
    else pure 0

/-- The loop that fills the result, common.h 306-310: `n` elements from `x` on. The value is advanced
also after the last element. -/
def fillRange : (n : Nat) → (x step : CVal) → Outcome (List CVal)
  | 0, _, _ => .ok []
  | n + 1, x, step => do
    let y ← addAssign x step
    let l ← fillRange n y step
    pure (x :: l)

/-- `make_array_from_range<Begin, End, Step>()` with the default `CommonT`, common.h 281-312.
`Begin` and `End` have the same type (`std::min` takes two of one type), which is then `CommonT`.
A failing `static_assert` is `assertFailed`. -/
def makeArrayFromRange (fuel : Nat) (t : CTy) (b e : Int) (step : CVal) :
    Outcome (List CVal) := do
  let lo : CVal := ⟨t, min b e⟩
  let hi : CVal := ⟨t, max b e⟩
  let valid ← isValidRange lo hi step
  if valid then do
    let n ← stepCount fuel lo hi step
    fillRange n ⟨t, b⟩ step
  else .assertFailed

/-- `std::get<I>(a)...` for the indices `0, …, n-1`; an index beyond the end does not compile. -/
def getAll {α : Type} (a : List α) : (i n : Nat) → Option (List α)
  | _, 0 => some []
  | i, n + 1 => do
    let x ← a[i]?
    let l ← getAll a (i + 1) n
    pure (x :: l)

/-- `concatenate_2_arrays`, common.h 140-149, called with the index sequences of the two sizes. -/
def concat2 {α : Type} (a b : List α) : Option (List α) := do
  let x ← getAll a 0 a.length
  let y ← getAll b 0 b.length
  pure (x ++ y)

/-- `details::concatenate_arrays`, common.h 151-169: the first two arrays are joined, then the rest. -/
def concatArrays {α : Type} (a : List α) : List (List α) → Option (List α)
  | [] => some a
  | b :: rest => do
    let c ← concat2 a b
    concatArrays c rest

/-- `make_array<N, ValueType>(sv)`, common.h 243-264; `conv` is `static_cast<ValueType>`. -/
def makeArrayFromSv {α β : Type} (debug : Bool) (conv : α → β) (N : Nat) (sv : List α) :
    Outcome (List β) := do
  cassert debug (N ≤ sv.length)
  let rec go (i : Nat) : Nat → Outcome (List β)
    | 0 => .ok []
    | n + 1 => do
      let x ← elem sv i
      let l ← go (i + 1) n
      pure (conv x :: l)
  go 0 N

/-- `sv_to_array<Len...>(sv)`, common.h 314-325: the elements at the given positions. -/
def svToArray {α : Type} (sv : List α) : (len : List Nat) → Outcome (List α)
  | [] => .ok []
  | i :: len => do
    let x ← elem sv i
    let l ← svToArray sv len
    pure (x :: l)

/-- `for_each_arg(f, ts...)`, common.h 648-653: a braced initialiser list, evaluated left to right.
`f` is a state transformer. -/
def forEachArg {σ α : Type} (f : σ → α → σ) (s : σ) : List α → σ
  | [] => s
  | x :: l => forEachArg f (f s x) l

/-- `for_each_in_tuple(f, t)`, common.h 655-661: `std::apply` passes the elements
`std::get<0>(t), …, std::get<n-1>(t)` on. -/
def forEachInTuple {σ α : Type} (f : σ → α → σ) (s : σ) (t : List α) : Option σ := do
  let xs ← getAll t 0 t.length
  pure (forEachArg f s xs)

/-- `std::make_integer_sequence<t, n>` shifted by `N` (`shifted_sequence`, common.h 691-700): the
values `0 + N, 1 + N, …` as template arguments of type `t`.  A value that `t` cannot hold is a
narrowing conversion and does not compile (`none`), as does signed overflow. -/
def shiftedSequence (t : CTy) (N : Int) : (i left : Nat) → Option (List Int)
  | _, 0 => some []
  | i, left + 1 =>
    match CVal.add ⟨t, i⟩ ⟨t, N⟩ with
    | .ok v => if t.InRange v.val then do
        let l ← shiftedSequence t N (i + 1) left
        pure (v.val :: l)
      else none
    | _ => none

/-- `values_in_range_t<First, Last>`, common.h 702-720: type and values of the list.  `none` when the
`enable_if` or a conversion rejects it.  If both types are `bool` the sums are of type `int`, which
may not be converted to `bool` in a template argument. -/
def valuesInRange (first last : CVal) : Option (CTy × List Int) :=
  let t := CTy.common first.ty last.ty
  if t = .bool then none
  else if cLe first last then
    match (last.add ⟨.int, 1⟩).bind fun x => x.sub first with
    | .ok n =>
      let n := t.conv n.val
      if n < 0 then none
      else do
        let l ← shiftedSequence t (t.conv first.val) 0 n.toNat
        pure (t, l)
    | _ => none
  else none

end Utils.Arrays
