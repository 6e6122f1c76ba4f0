import Verif.Model.RangeTo
import Verif.Props.RangeExact
import Verif.Props.Bits

/-!
# Element types of `make_array_from_range` (C122), `sum_size` of qualified types (C123)
-/

namespace Utils.Props

open Utils Utils.Arrays

/-! ## C122 -/

/-- Can the element type hold every value of `t` exactly? -/
def HoldsAll (t : CTy) : Target → Prop
  | .integer u => ∀ v, t.InRange v → u.InRange v
  | .floating => False

private theorem min_le_max (t : CTy) : t.minVal ≤ t.maxVal := by cases t <;> decide

private theorem narrows_iff (t : CTy) (c : Target) : narrows t c = false ↔ HoldsAll t c := by
  cases c with
  | floating => simp [narrows, HoldsAll]
  | integer u =>
    have hm := min_le_max t
    simp only [narrows, HoldsAll, Bool.not_eq_false', Bool.and_eq_true, decide_eq_true_eq, CTy.InRange]
    constructor
    · rintro ⟨h1, h2⟩ v ⟨h3, h4⟩
      exact ⟨by omega, by omega⟩
    · intro h
      exact ⟨(h _ ⟨by omega, hm⟩).1, (h _ ⟨hm, by omega⟩).2⟩

/-- It compiles, whatever the range, only into integer types that hold every value of the type of
`Begin`, even if all elements would fit. -/
theorem C122_exact (fuel : Nat) (c : Target) (t : CTy) (b e : Int) (step : CVal) :
    makeArrayFromRangeAs fuel c t b e step = none ↔ ¬ HoldsAll t c := by
  rw [← narrows_iff]
  unfold makeArrayFromRangeAs
  cases c with
  | floating => simp [narrows]
  | integer u =>
    cases h : narrows t (.integer u) <;> simp

private theorem addAssign_ty {t : CTy} {v : Int} {step y : CVal} (h : addAssign ⟨t, v⟩ step = .ok y) :
    y.ty = t := by
  unfold addAssign at h
  cases hs : CVal.add ⟨t, v⟩ step with
  | ok s =>
    rw [hs] at h
    have := (Outcome.ok.inj h).symm
    rw [this]
    rfl
  | _ => rw [hs] at h; cases h

private theorem addAssign_inRange {t : CTy} {v : Int} {step y : CVal}
    (h : addAssign ⟨t, v⟩ step = .ok y) : t.InRange y.val := by
  unfold addAssign at h
  cases hs : CVal.add ⟨t, v⟩ step with
  | ok s =>
    rw [hs] at h
    have := (Outcome.ok.inj h).symm
    rw [this]
    exact CTy.conv_inRange _ _
  | _ => rw [hs] at h; cases h

private theorem fillAs {t u : CTy} (hu : ∀ v, t.InRange v → u.InRange v) (step : CVal) :
    ∀ (n : Nat) (v : Int), t.InRange v →
      fillRangeAs u n ⟨t, v⟩ step = (fillRange n ⟨t, v⟩ step).map fun l => l.map fun x => ⟨u, x.val⟩
  | 0, _, _ => rfl
  | n + 1, v, hv => by
    rw [fillRangeAs, fillRange]
    cases ha : addAssign ⟨t, v⟩ step with
    | ok y =>
      obtain ⟨ty, vy⟩ := y
      have e1 := addAssign_ty ha
      have e2 := addAssign_inRange ha
      simp only at e1 e2
      subst e1
      simp only [Outcome.ok_bind, fillAs hu step n vy e2]
      cases fillRange n ⟨ty, vy⟩ step with
      | ok l =>
        simp only [CVal.cast, CTy.conv_eq_self (hu v hv)]
        rfl
      | _ => rfl
    | _ => rfl

/-- Then the array has the same values, of the type asked for; where the default element type does not
compile, this one does not either.  Missing for the full claim: element types that hold all elements
but not all values of the type of `Begin` (`C122_counterexample`). -/
theorem C122_values_partial (fuel : Nat) {u t : CTy} {b e : Int} {step : CVal} (hb : t.InRange b)
    (hu : HoldsAll t (.integer u)) :
    makeArrayFromRangeAs fuel (.integer u) t b e step =
      some ((makeArrayFromRange fuel t b e step).map fun l => l.map fun x => ⟨u, x.val⟩) := by
  unfold makeArrayFromRangeAs makeArrayFromRange
  rw [(narrows_iff t _).2 hu]
  simp only [Bool.false_eq_true, if_false]
  congr 1
  cases isValidRange ⟨t, min b e⟩ ⟨t, max b e⟩ step with
  | ok v =>
    cases v with
    | true =>
      simp only [Outcome.ok_bind, if_true]
      cases stepCount fuel ⟨t, min b e⟩ ⟨t, max b e⟩ step with
      | ok n => exact fillAs hu step n b hb
      | _ => rfl
    | false => rfl
  | _ => rfl

example : HoldsAll .uchar (.integer .int) := (narrows_iff _ _).1 (by decide)
example : makeArrayFromRangeAs 10 (.integer .int) .uchar 200 204 ⟨.int, 2⟩
    = some (.ok [⟨.int, 200⟩, ⟨.int, 202⟩, ⟨.int, 204⟩]) := by decide

/-- The full claim is false: the numbers from 0 to 3 do not make an array of `unsigned`, nor of `double`. -/
theorem C122_counterexample :
    makeArrayFromRange 10 .int 0 3 ⟨.int, 1⟩ = .ok [⟨.int, 0⟩, ⟨.int, 1⟩, ⟨.int, 2⟩, ⟨.int, 3⟩] ∧
    (∀ v ∈ [0, 1, 2, 3], CTy.uint.InRange v) ∧
    makeArrayFromRangeAs 10 (.integer .uint) .int 0 3 ⟨.int, 1⟩ = none ∧
    makeArrayFromRangeAs 10 .floating .int 0 3 ⟨.int, 1⟩ = none := by decide

/-! ## C123 -/

open Utils.Bits Utils.Spec

/-- `std::remove_cv_t<std::remove_reference_t<T>>`. -/
def stripped (t : QTy) : QTy := { bare := t.bare }

/-- What a type counts for in `sum_size`: one bit only if it is `bool` itself. -/
def bitsFor (t : QTy) : Nat :=
  match t.bare with
  | .bool => if t.isConst || t.isVolatile || t.isRef then 8 else 1
  | .object n => 8 * n
  | .unsized => 0

private theorem numBitsOf_eq (t : QTy) :
    numBitsOf t = if t.bare = .unsized then none else some (bitsFor t) := by
  obtain ⟨b, c, v, r⟩ := t
  cases b <;> cases c <;> cases v <;> cases r <;> simp [numBitsOf, QTy.sizeof, bitsFor]

private theorem foldBits_eq : ∀ ts : List QTy,
    foldBits ts = if ts = [] ∨ ∃ t ∈ ts, t.bare = .unsized then none else some ((ts.map bitsFor).sum)
  | [] => by simp [foldBits]
  | [t] => by simp [foldBits, numBitsOf_eq]
  | t :: t' :: ts => by
    have ih := foldBits_eq (t' :: ts)
    rw [foldBits, numBitsOf_eq, ih]
    · by_cases h1 : t.bare = .unsized
      · simp [h1]
      · by_cases h2 : ∃ x ∈ t' :: ts, x.bare = .unsized
        · have : ∃ x ∈ t :: t' :: ts, x.bare = .unsized := by
            obtain ⟨x, hx, e⟩ := h2
            exact ⟨x, List.mem_cons_of_mem _ hx, e⟩
          rw [if_neg h1, if_pos (Or.inr h2), if_pos (Or.inr this)]
          rfl
        · have : ¬ ∃ x ∈ t :: t' :: ts, x.bare = .unsized := by
            rintro ⟨x, hx, e⟩
            rcases List.mem_cons.1 hx with rfl | hx
            · exact h1 e
            · exact h2 ⟨x, hx, e⟩
          rw [if_neg h1, if_neg (by simp only [List.cons_ne_nil, false_or]; exact h2),
            if_neg (by simp only [List.cons_ne_nil, false_or]; exact this)]
          rfl
    · simp

/-- Exactly: `sum_size` compiles iff there is a type and every one has a size; it is the least number of
bytes for the bits, where only an unqualified `bool` counts as one. -/
theorem C123_exact (ts : List QTy) :
    (sumSizeOf ts = none ↔ ts = [] ∨ ∃ t ∈ ts, t.bare = .unsized) ∧
    ∀ b, sumSizeOf ts = some b → LeastBytes ((ts.map bitsFor).sum) b := by
  unfold sumSizeOf
  rw [foldBits_eq]
  by_cases h : ts = [] ∨ ∃ t ∈ ts, t.bare = .unsized
  · rw [if_pos h]
    exact ⟨⟨fun _ => h, fun _ => rfl⟩, nofun⟩
  · rw [if_neg h]
    refine ⟨⟨nofun, fun h' => absurd h' h⟩, fun b hb => ?_⟩
    simp only [Option.map_some, Option.some.injEq] at hb
    subst hb
    unfold LeastBytes
    generalize (ts.map bitsFor).sum = n
    split <;> constructor <;> omega

/-- Qualifiers and references do not matter if no `bool` has any.  Missing for the full claim: those
(`C123_counterexample`). -/
theorem C123_qualifiers_partial (ts : List QTy)
    (h : ∀ t ∈ ts, t.bare = .bool → t = { bare := .bool }) :
    sumSizeOf ts = sumSizeOf (ts.map stripped) := by
  unfold sumSizeOf
  have e1 : (∃ t ∈ ts, t.bare = .unsized) ↔ ∃ t ∈ ts.map stripped, t.bare = .unsized := by
    simp [stripped]
  have e2 : (ts.map stripped).map bitsFor = ts.map bitsFor := by
    rw [List.map_map]
    refine List.map_congr_left fun t ht => ?_
    have := h t ht
    obtain ⟨b, c, v, r⟩ := t
    cases b with
    | bool =>
      have h1 := this rfl
      injection h1 with h2 h3 h4 h5
      subst h3 h4 h5
      rfl
    | _ => rfl
  rw [foldBits_eq, foldBits_eq, e2]
  simp only [List.map_eq_nil_iff, e1]

/-- They never make it less, and never decide whether it compiles. -/
theorem C123_never_less (ts : List QTy) {a b : Nat} (ha : sumSizeOf ts = some a)
    (hb : sumSizeOf (ts.map stripped) = some b) : b ≤ a := by
  have h1 := (C123_exact ts).2 a ha
  have h2 := (C123_exact (ts.map stripped)).2 b hb
  refine h2.2 a (Nat.le_trans ?_ h1.1)
  rw [List.map_map]
  clear ha hb h1 h2
  induction ts with
  | nil => simp
  | cons t ts ih =>
    simp only [List.map_cons, List.sum_cons, Function.comp]
    refine Nat.add_le_add ?_ ih
    obtain ⟨c, c1, c2, c3⟩ := t
    cases c <;> simp [bitsFor, stripped]
    split <;> omega

theorem C123_compiles (ts : List QTy) : sumSizeOf ts = none ↔ sumSizeOf (ts.map stripped) = none := by
  rw [(C123_exact ts).1, (C123_exact _).1]
  simp [stripped]

example : sumSizeOf [{ bare := .bool }, { bare := .object 2, isConst := true }, { bare := .bool }]
    = some 3 := by decide
example : ∀ t ∈ [({ bare := .bool } : QTy), { bare := .object 2, isRef := true }],
    t.bare = .bool → t = { bare := .bool } := by decide

/-- The full claim is false: eight constant `bool`s count as eight bytes, eight plain ones as one. -/
theorem C123_counterexample :
    sumSizeOf (List.replicate 8 { bare := .bool, isConst := true }) = some 8 ∧
    sumSizeOf ((List.replicate 8 { bare := .bool, isConst := true }).map stripped) = some 1 := by
  decide

end Utils.Props
