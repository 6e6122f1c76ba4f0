import Verif.Proofs.Arrays

/-!
# Properties C19-C22, C64, C66: array helpers
-/

namespace Utils.Props

open Utils Utils.Arrays

/-! ## C19 -/

/-- `is_equal(a, b, k)` with `k <= N`: true iff no pair of the first `k` elements is different. `ne`
is the element type's `!=`. -/
theorem C19_is_equal {α : Type} (debug : Bool) (ne : α → α → Bool) {N k : Nat} {a b : List α}
    (ha : a.length = N) (hb : b.length = N) (hk : k ≤ N) :
    ∃ r, isEqual debug ne N a b k = .ok r ∧
      (r = true ↔ ∀ i (h : i < k), ne (a[i]'(by omega)) (b[i]'(by omega)) = false) := by
  obtain ⟨r, h1, h2⟩ := isEqualLoop_ok (ne := ne) (lhs := a) (rhs := b) k 0 (by omega) (by omega)
  refine ⟨r, ?_, ?_⟩
  · unfold isEqual
    rw [show decide (k ≤ N) = true by simpa using hk, cassert_true, Outcome.ok_bind, h1]
  · rw [h2]
    constructor
    · intro h i hi
      exact h i (by omega) (by omega) _ _ (List.getElem?_eq_getElem _) (List.getElem?_eq_getElem _)
    · intro h i _ hi x y hx hy
      rw [List.getElem?_eq_getElem (by omega)] at hx hy
      cases hx
      cases hy
      exact h i (by omega)

example : isEqual true (· != ·) 3 [1, 2, 3] [1, 2, 4] 2 = .ok true ∧
    isEqual true (· != ·) 3 [1, 2, 3] [1, 2, 4] 3 = .ok false := by decide

/-- With `k > N` the assertion fails; without assertions the arrays are overrun unless they differ. -/
theorem C19_too_many {α : Type} (ne : α → α → Bool) {N k : Nat} {a b : List α}
    (ha : a.length = N) (hb : b.length = N) (hk : N < k) :
    isEqual true ne N a b k = .assertFailed ∧
    ((∀ i (h : i < N), ne (a[i]'(by omega)) (b[i]'(by omega)) = false) →
      isEqual false ne N a b k = .ub) ∧
    ((∃ i, ∃ h : i < N, ne (a[i]'(by omega)) (b[i]'(by omega)) = true) →
      isEqual false ne N a b k = .ok false) := by
  have hb2 := isEqualLoop_beyond (ne := ne) ha hb k 0 (by omega) (by omega)
  refine ⟨?_, fun h => ?_, ?_⟩
  · unfold isEqual
    rw [show decide (k ≤ N) = false by simpa using hk]
    rfl
  · unfold isEqual
    rw [cassert_ndebug, Outcome.ok_bind]
    rcases hb2 with ⟨g, j, x, y, -, hx, hy, hn⟩ | ⟨g, -⟩
    · obtain ⟨hj, rfl⟩ := List.getElem?_eq_some_iff.1 hx
      obtain ⟨hj2, rfl⟩ := List.getElem?_eq_some_iff.1 hy
      rw [h j (by omega)] at hn
      cases hn
    · exact g
  · rintro ⟨i, hi, hn⟩
    unfold isEqual
    rw [cassert_ndebug, Outcome.ok_bind]
    rcases hb2 with ⟨g, -⟩ | ⟨-, g⟩
    · exact g
    · rw [g i _ _ (by omega) (List.getElem?_eq_getElem _) (List.getElem?_eq_getElem _)] at hn
      cases hn

example : isEqual true (· != ·) 2 [1, 2] [1, 2] 3 = .assertFailed ∧
    isEqual false (· != ·) 2 [1, 2] [1, 2] 3 = .ub ∧
    isEqual false (· != ·) 2 [1, 2] [3, 2] 3 = .ok false := by decide

/-! ## C20 -/

/-- `make_array<T, N>(v)` and `make_zero_array<T, N>()` consist of `N` copies of the value when copying
gives the value and moving from it leaves it in place (all trivially copyable types, and `T{}` of the
standard containers).  Missing for the full claim: values that are changed by being moved from, see
`C20_counterexample`; what they give is `C20_elements`. -/
theorem C20_fill_partial {α : Type} (E : Elem α) (n : Nat) (v : α) (hm : E.move v = (v, v)) :
    (E.copy v = v → makeArrayFill E n v = List.replicate n v) ∧
    makeZeroArray E v n = List.replicate n v := by
  constructor
  · intro hc
    unfold makeArrayFill
    rw [hc]
    exact fillMoves_stable E hm n
  · exact fillMoves_stable E hm n

/-- Element `i` is move-constructed from what `i` moves have left of the value. -/
theorem C20_elements {α : Type} (E : Elem α) (n : Nat) (v : α) :
    (makeArrayFill E n v).length = n ∧
    ∀ i < n, (makeArrayFill E n v)[i]? =
      some (E.move ((fun x => (E.move x).2)^[i] (E.copy v))).1 :=
  ⟨fillMoves_length E n _, fun i hi => fillMoves_getElem E n i _ hi⟩

/-- Integers: copying and moving are the same. -/
def intElem : Elem Int := ⟨id, fun x => (x, x)⟩
/-- Strings as in the standard libraries: moving leaves the empty string. -/
def stringElem : Elem String := ⟨id, fun x => (x, "")⟩

example : makeArrayFill intElem 3 7 = [7, 7, 7] ∧ makeZeroArray stringElem "" 2 = ["", ""] := by decide

/-- The full claim is false: `make_array<std::string, 3>("a")`. -/
theorem C20_counterexample : makeArrayFill stringElem 3 "a" = ["a", "", ""] := by decide

/-! ## C21 -/

/-- What `make_array_from_range<Begin, End, Step>()` contains when accepted, for a positive step that
does not carry the count or the values out of the type: `Begin + i * Step` for all `i` with
`i * Step <= |End - Begin|`. -/
theorem C21_elements {t : CTy} {b e : Int} {step : CVal} (hb : t.InRange b) (he : t.InRange e)
    (hs : step.ty.InRange step.val) (hpos : 0 < step.val)
    (hvalid : isValidRange ⟨t, min b e⟩ ⟨t, max b e⟩ step = .ok true)
    (hroom : t.InRange (b + ((max b e - min b e) / step.val + 1) * step.val)) :
    ∃ l : List Int, (∀ fuel, (max b e - min b e).toNat + 1 < fuel →
        makeArrayFromRange fuel t b e step = .ok (l.map fun v => ⟨t, v⟩)) ∧
      ∀ i : Nat, l[i]? =
        if i * step.val ≤ max b e - min b e then some (b + i * step.val) else none := by
  have hle : min b e ≤ max b e := le_trans (Int.min_le_left _ _) (Int.le_max_left _ _)
  have hlo : t.InRange (min b e) := by rcases min_choice b e with h | h <;> rw [h] <;> assumption
  have hhi : t.InRange (max b e) := by rcases max_choice b e with h | h <;> rw [h] <;> assumption
  have hlb : min b e ≤ b := Int.min_le_left _ _
  generalize hlo' : min b e = lo at *
  generalize hhi' : max b e = hi at *
  generalize hq : (hi - lo) / step.val = q at hroom
  have hq0 : 0 ≤ q := by rw [← hq]; exact Int.ediv_nonneg (by omega) (by omega)
  have hq1 : q * step.val ≤ hi - lo := by
    rw [← hq]; exact Int.ediv_mul_le _ (by omega)
  have hq2 : hi - lo < (q + 1) * step.val := by
    rw [← hq]; exact Int.lt_ediv_add_one_mul_self _ hpos
  have hqn : ((q.toNat + 1 : Nat) : Int) = q + 1 := by push_cast; omega
  have hmono : ∀ i j : Int, i ≤ j → i * step.val ≤ j * step.val := fun i j h =>
    Int.mul_le_mul_of_nonneg_right h (by omega)
  refine ⟨(List.range (q.toNat + 1)).map fun i : Nat => b + i * step.val, ?_, ?_⟩
  · intro fuel hfuel
    unfold makeArrayFromRange
    have hqle : q * 1 ≤ q * step.val := Int.mul_le_mul_of_nonneg_left (by omega) hq0
    simp only [hlo', hhi', hvalid, Outcome.ok_bind, if_true]
    rw [stepCount_ok hs hhi hpos (q.toNat + 1) fuel lo (by omega) hlo]
    · rw [Outcome.ok_bind, fillRange_ok hs]
      · simp [progression, Function.comp_def]
      · intro i hi'
        have h0 : (0 : Int) * step.val ≤ i * step.val := hmono 0 i (by omega)
        have h1 := hmono i (q + 1) (by omega)
        exact inRange_between hb hroom (by omega) (by omega)
    · rw [hqn]
      exact inRange_between hlo hroom (by have := hmono 0 (q + 1) (by omega); omega) (by omega)
    · rw [hqn]
      omega
    · intro _
      rw [hqn, show q + 1 - 1 = q by omega]
      omega
  · intro i
    rw [List.getElem?_map]
    by_cases hi' : i < q.toNat + 1
    · rw [List.getElem?_range hi', if_pos]
      · rfl
      · exact le_trans (hmono i q (by omega)) hq1
    · rw [List.getElem?_eq_none (by simp; omega), if_neg]
      · rfl
      · have := hmono (q + 1) i (by omega)
        omega

/-- An ascending range (`Begin <= End`) gives, in order, exactly the values `Begin + i * Step` that do
not exceed `End`.  Missing for the full claim: descending ranges, where it is false
(`C21_descending`), and ranges whose last step leaves the type (`C21_counterexample_wrap`). -/
theorem C21_ascending_partial {t : CTy} {b e : Int} {step : CVal} (hb : t.InRange b)
    (he : t.InRange e) (hs : step.ty.InRange step.val) (hpos : 0 < step.val) (hle : b ≤ e)
    (hvalid : isValidRange ⟨t, b⟩ ⟨t, e⟩ step = .ok true)
    (hroom : t.InRange (b + ((e - b) / step.val + 1) * step.val)) :
    ∃ l : List Int, (∀ fuel, (e - b).toNat + 1 < fuel →
        makeArrayFromRange fuel t b e step = .ok (l.map fun v => ⟨t, v⟩)) ∧
      ∀ i : Nat, l[i]? = if b + i * step.val ≤ e then some (b + i * step.val) else none := by
  have h1 : min b e = b := min_eq_left hle
  have h2 : max b e = e := max_eq_right hle
  obtain ⟨l, g1, g2⟩ := C21_elements hb he hs hpos (by rw [h1, h2]; exact hvalid)
    (by rw [h1, h2]; exact hroom)
  rw [h1, h2] at g1 g2
  refine ⟨l, g1, fun i => ?_⟩
  rw [g2]
  by_cases h : (i : Int) * step.val ≤ e - b
  · rw [if_pos h, if_pos (by omega)]
  · rw [if_neg h, if_neg (by omega)]

example : CTy.char.InRange (-3) ∧ isValidRange ⟨.char, -3⟩ ⟨.char, 6⟩ ⟨.int, 4⟩ = .ok true ∧
    CTy.char.InRange (-3 + ((6 - -3) / 4 + 1) * 4) ∧
    makeArrayFromRange 100 .char (-3) 6 ⟨.int, 4⟩ =
      .ok [⟨.char, -3⟩, ⟨.char, 1⟩, ⟨.char, 5⟩] := by decide

/-- The claim is false for every descending range with at least two elements: all elements after the
first are above both `Begin` and `End`. -/
theorem C21_descending {t : CTy} {b e : Int} {step : CVal} (hb : t.InRange b) (he : t.InRange e)
    (hs : step.ty.InRange step.val) (hpos : 0 < step.val) (hlt : e < b)
    (hvalid : isValidRange ⟨t, e⟩ ⟨t, b⟩ step = .ok true)
    (hroom : t.InRange (b + ((b - e) / step.val + 1) * step.val)) (htwo : step.val ≤ b - e) :
    ∃ l : List Int, (∀ fuel, (b - e).toNat + 1 < fuel →
        makeArrayFromRange fuel t b e step = .ok (l.map fun v => ⟨t, v⟩)) ∧
      2 ≤ l.length ∧ ∀ v ∈ l.tail, b < v ∧ e < v := by
  have h1 : min b e = e := min_eq_right (by omega)
  have h2 : max b e = b := max_eq_left (by omega)
  obtain ⟨l, g1, g2⟩ := C21_elements hb he hs hpos (by rw [h1, h2]; exact hvalid)
    (by rw [h1, h2]; exact hroom)
  rw [h1, h2] at g1 g2
  refine ⟨l, g1, ?_, ?_⟩
  · have := g2 1
    rw [if_pos (by simpa using htwo)] at this
    obtain ⟨h, -⟩ := List.getElem?_eq_some_iff.1 this
    omega
  · intro v hv
    obtain ⟨i, hi⟩ := List.getElem?_of_mem hv
    rw [List.getElem?_tail, g2] at hi
    split at hi
    · have hi := Option.some.inj hi
      have : (1 : Int) * step.val ≤ ((i + 1 : Nat) : Int) * step.val :=
        Int.mul_le_mul_of_nonneg_right (by omega) (by omega)
      omega
    · cases hi

example : isValidRange ⟨.int, 1⟩ ⟨.int, 5⟩ ⟨.int, 2⟩ = .ok true ∧
    makeArrayFromRange 100 .int 5 1 ⟨.int, 2⟩ = .ok [⟨.int, 5⟩, ⟨.int, 7⟩, ⟨.int, 9⟩] := by decide

/-- The claim is also false for ascending ranges when the step wraps inside a narrow type:
`make_array_from_range<uint8_t{0}, uint8_t{250}, 100>()` goes on after 200 with 44. -/
theorem C21_counterexample_wrap :
    (makeArrayFromRange 100 .uchar 0 250 ⟨.int, 100⟩).map (fun l => (l.length, l[3]?)) =
      .ok (23, some ⟨.uchar, 44⟩) := by decide

/-- The `static_assert` accepts every positive step, as long as the type of `Begin + Step` can hold the
smaller end and the sum. -/
theorem C21_accepted {t : CTy} {b e : Int} {step : CVal} (hb : t.InRange b) (he : t.InRange e)
    (hlo : (CTy.usual t step.ty).InRange (min b e)) (hs : (CTy.usual t step.ty).InRange step.val)
    (hsum : (CTy.usual t step.ty).InRange (min b e + step.val)) (hpos : 0 < step.val) :
    isValidRange ⟨t, min b e⟩ ⟨t, max b e⟩ step = .ok true := by
  rw [isValidRange_eq (minmax_inRange hb he).1 (minmax_inRange hb he).2 hlo hs hsum]
  simp [hpos]

/-- Under the same conditions it rejects a step that is zero or negative, unless `Begin` and `End` are
equal (see `C21_zero_step`). -/
theorem C21_rejected {t : CTy} {b e : Int} {step : CVal} (hb : t.InRange b) (he : t.InRange e)
    (hlo : (CTy.usual t step.ty).InRange (min b e)) (hs : (CTy.usual t step.ty).InRange step.val)
    (hsum : (CTy.usual t step.ty).InRange (min b e + step.val)) (hpos : step.val ≤ 0) (hne : b ≠ e)
    (fuel : Nat) : makeArrayFromRange fuel t b e step = .assertFailed := by
  unfold makeArrayFromRange
  simp only
  rw [isValidRange_eq (minmax_inRange hb he).1 (minmax_inRange hb he).2 hlo hs hsum,
    show (decide (0 < step.val) || decide (min b e = max b e)) = false by
      simp; omega]
  rfl

example : (CTy.usual .int .int).InRange (min 7 (-2)) ∧ (CTy.usual .int .int).InRange (-3) ∧
    (CTy.usual .int .int).InRange (min 7 (-2) + -3) := by decide

/-- A single value with a step of zero passes the `static_assert`, but counting never ends. -/
theorem C21_zero_step {t : CTy} {b : Int} (hb : t.InRange b) (fuel : Nat) :
    makeArrayFromRange fuel t b b ⟨.int, 0⟩ = .outOfFuel := by
  have hv : isValidRange ⟨t, b⟩ ⟨t, b⟩ ⟨.int, 0⟩ = .ok true := by
    simp [isValidRange, cLt, cEq]
  unfold makeArrayFromRange
  simp only [min_self, max_self, hv, Outcome.ok_bind, if_true]
  rw [stepCount_zero hb (by decide) rfl]
  rfl

example : CTy.int.InRange 5 := by decide

/-! ## C22 -/

/-- `concatenate_arrays(a1, …, ak)`: the elements of all arrays in order, for any number and sizes. -/
theorem C22_concatenate {α : Type} (a : List α) (rest : List (List α)) :
    ∃ r, concatArrays a rest = some r ∧ r = (a :: rest).flatten ∧
      r.length = ((a :: rest).map List.length).sum := by
  refine ⟨_, concatArrays_eq rest a, by simp, by simp [List.length_flatten]⟩

example : concatArrays [1, 2] [[], [3], [4, 5]] = some [1, 2, 3, 4, 5] := by decide

/-- Element by element: what is at position `i` of the `j`-th array is found behind all the elements
of the arrays before it. -/
theorem C22_positions {α : Type} (a : List α) (rest : List (List α)) {j i : Nat} {x : List α}
    (hj : (a :: rest)[j]? = some x) (hi : i < x.length) :
    ∃ r, concatArrays a rest = some r ∧
      r[(((a :: rest).take j).map List.length).sum + i]? = some x[i] := by
  refine ⟨_, concatArrays_eq rest a, ?_⟩
  rw [show a ++ rest.flatten = (a :: rest).flatten by simp]
  generalize a :: rest = ls at hj ⊢
  induction ls generalizing j with
  | nil => simp at hj
  | cons y ls ih =>
    cases j with
    | zero =>
      have : y = x := by simpa using hj
      subst this
      simp [List.getElem?_append_left hi]
    | succ j =>
      have := ih (j := j) (by simpa using hj)
      simp only [List.take_succ_cons, List.map_cons, List.sum_cons, List.flatten_cons]
      rw [List.getElem?_append_right (by omega), ← this]
      congr 1
      omega

example : ([[1, 2], [], [3], [4, 5]] : List (List Nat))[3]? = some [4, 5] ∧
    (concatArrays [1, 2] [[], [3], [4, 5]]).bind (·[(2 + 0 + 1) + 1]?) = some 5 := by decide

/-! ## C64 -/

/-- `for_each_arg(f, x1, …, xn)` calls `f` once per argument, left to right: call `i` finds the state
that call `i - 1` has left. -/
theorem C64_for_each_arg {σ α : Type} (f : σ → α → σ) (s : σ) (l : List α) :
    ∃ st : Nat → σ, st 0 = s ∧ (∀ i (h : i < l.length), st (i + 1) = f (st i) l[i]) ∧
      forEachArg f s l = st l.length := by
  refine ⟨fun i => (l.take i).foldl f s, by simp, fun i h => ?_, ?_⟩
  · simp only
    rw [List.take_succ_eq_append_getElem h, List.foldl_append]
    rfl
  · simp only
    rw [forEachArg_eq, List.take_length]

/-- The log of the calls is the argument list. -/
theorem C64_for_each_arg_log {α : Type} (l : List α) :
    forEachArg (fun log x => log ++ [x]) [] l = l := by
  rw [forEachArg_eq]
  suffices ∀ (l acc : List α), l.foldl (fun log x => log ++ [x]) acc = acc ++ l by
    simpa using this l []
  intro l
  induction l with
  | nil => simp
  | cons x l ih => intro acc; simp [ih]

/-- The same for the elements of a tuple. -/
theorem C64_for_each_in_tuple {σ α : Type} (f : σ → α → σ) (s : σ) (t : List α) :
    ∃ st : Nat → σ, st 0 = s ∧ (∀ i (h : i < t.length), st (i + 1) = f (st i) t[i]) ∧
      forEachInTuple f s t = some (st t.length) := by
  obtain ⟨st, h1, h2, h3⟩ := C64_for_each_arg f s t
  refine ⟨st, h1, h2, ?_⟩
  unfold forEachInTuple
  rw [getAll_eq t t.length 0 (by omega)]
  simp [h3]

example : forEachInTuple (fun (log : List Nat) x => log ++ [x]) [] [3, 1, 2] = some [3, 1, 2] := by decide

/-! ## C66 -/

/-- `values_in_range_t<First, Last>` is `First, First + 1, …, Last` in the common type, provided that
type holds both ends and the number of values, and `Last + 1` does not overflow.  Missing for the full
claim: ranges violating this; it is false for them, see `C66_counterexample`. -/
theorem C66_values_in_range_partial {first last : CVal}
    (hnb : CTy.common first.ty last.ty ≠ .bool)
    (hle : first.val ≤ last.val)
    (hf : first.ty.InRange first.val) (hl : last.ty.InRange last.val)
    (hcf : (CTy.common first.ty last.ty).InRange first.val)
    (hcl : (CTy.common first.ty last.ty).InRange last.val)
    (hnext : last.ty.promote.InRange (last.val + 1))
    (hcount : (CTy.common first.ty last.ty).InRange (last.val - first.val + 1)) :
    ∃ l : List Int, valuesInRange first last = some (CTy.common first.ty last.ty, l) ∧
      ∀ i : Nat, l[i]? = if first.val + i ≤ last.val then some (first.val + i) else none := by
  obtain ⟨n, hn⟩ : ∃ n : Nat, (n : Int) = last.val - first.val + 1 :=
    ⟨(last.val - first.val + 1).toNat, by omega⟩
  refine ⟨_, valuesInRange_ok hnb hle hf hl hcf hcl hnext hcount hn, fun i => ?_⟩
  rw [List.getElem?_map]
  by_cases hi : i < n
  · rw [List.getElem?_range hi, if_pos (by omega)]
    rfl
  · rw [List.getElem?_eq_none (by simp; omega), if_neg (by omega)]
    rfl

example : valuesInRange ⟨.short, -2⟩ ⟨.int, 1⟩ = some (.int, [-2, -1, 0, 1]) ∧
    CTy.common .short .int = .int ∧ CTy.int.promote.InRange (1 + 1) ∧
    CTy.int.InRange (1 - -2 + 1) := by decide

/-- The exact condition, for ends that are values of the common type: the list is the right one iff
the common type is not `bool` and holds the number of values, and `Last + 1` does not overflow or
wraps around in an unsigned type as wide as the common type. -/
theorem C66_iff {first last : CVal} (hle : first.val ≤ last.val)
    (hf : first.ty.InRange first.val) (hl : last.ty.InRange last.val)
    (hcf : (CTy.common first.ty last.ty).InRange first.val)
    (hcl : (CTy.common first.ty last.ty).InRange last.val) :
    (∃ l : List Int, valuesInRange first last = some (CTy.common first.ty last.ty, l) ∧
      ∀ i : Nat, l[i]? = if first.val + i ≤ last.val then some (first.val + i) else none) ↔
    CTy.common first.ty last.ty ≠ .bool ∧
    (CTy.common first.ty last.ty).InRange (last.val - first.val + 1) ∧
    (last.ty.promote.InRange (last.val + 1) ∨
      (last.ty.promote.signed = false ∧
        last.ty.promote.width = (CTy.common first.ty last.ty).width)) := by
  constructor
  · rintro ⟨l, hv, hget⟩
    have hlen : (l.length : Int) = last.val - first.val + 1 := by
      have h1 := hget l.length
      rw [List.getElem?_eq_none (Nat.le_refl _)] at h1
      have h2 : ¬ (first.val + l.length ≤ last.val) := by
        intro h; rw [if_pos h] at h1; cases h1
      by_cases h0 : l.length = 0
      · have h3 := hget 0
        rw [List.getElem?_eq_none (by omega), if_pos (by simpa using hle)] at h3
        cases h3
      · have h3 := hget (l.length - 1)
        rw [List.getElem?_eq_getElem (by omega)] at h3
        have h4 : first.val + ((l.length - 1 : Nat) : Int) ≤ last.val := by
          by_contra hc
          rw [if_neg hc] at h3
          cases h3
        omega
    unfold valuesInRange at hv
    simp only at hv
    split at hv
    · cases hv
    · rename_i hnb
      split at hv
      · split at hv
        · rename_i n hn
          split at hv
          · cases hv
          · rename_i hneg
            obtain ⟨l', hl', hv⟩ := Option.bind_eq_some_iff.1 hv
            cases Option.some.inj hv
            have hlen' := shiftedSequence_length _ _ hl'
            have hc : (CTy.common first.ty last.ty).conv n.val = last.val - first.val + 1 := by
              omega
            refine ⟨hnb, hc ▸ CTy.conv_inRange _ _, ?_⟩
            rcases last_add_one hl with ⟨h, -⟩ | ⟨-, -, h⟩ | ⟨h1, h2, h3, h4⟩
            · exact Or.inl h
            · rw [h] at hn; cases hn
            · right
              refine ⟨h2, ?_⟩
              rw [h4] at hn
              have hm := count_emod (x := ⟨last.ty.promote, 0⟩) hnb rfl hn
              rw [hc] at hm
              obtain ⟨hw, -⟩ := promote_unsigned_common (f := first.ty) h2
              refine Nat.le_antisymm hw ?_
              have hd : (2 ^ (CTy.common first.ty last.ty).width : Int) ∣ 2 ^ last.ty.promote.width := by
                have := Int.dvd_of_emod_eq_zero (Int.emod_eq_emod_iff_emod_sub_eq_zero.1 hm)
                rw [← h3]
                have e : last.val + 1 = last.val - first.val + 1 - ((0 : Int) - first.val) := by omega
                rw [e]
                exact this
              have hd' : 2 ^ (CTy.common first.ty last.ty).width ∣ 2 ^ last.ty.promote.width := by
                exact_mod_cast hd
              exact (Nat.pow_dvd_pow_iff_le_right (by decide)).1 hd'
        · cases hv
      · cases hv
  · rintro ⟨hnb, hcount, hnext⟩
    by_cases hn : last.ty.promote.InRange (last.val + 1)
    · exact C66_values_in_range_partial hnb hle hf hl hcf hcl hn hcount
    · obtain ⟨hs, hw⟩ := hnext.resolve_left hn
      rcases last_add_one hl with ⟨h, -⟩ | ⟨-, h, -⟩ | ⟨-, -, h3, h4⟩
      · exact absurd h hn
      · rw [hs] at h; cases h
      · obtain ⟨-, hcu⟩ := promote_unsigned_common (f := first.ty) hs
        obtain ⟨e1, e2⟩ := hcu hw
        have hsub : CVal.sub ⟨last.ty.promote, 0⟩ first
            = .ok ⟨CTy.common first.ty last.ty, last.val - first.val + 1⟩ := by
          unfold CVal.sub CVal.arith
          simp only [usual_promote]
          rw [← e1, if_neg (by revert e2; unfold CTy.isUInt; simp +contextual), CTy.conv_eq_self (zero_inRange _),
            CTy.conv_eq_self hcf, CTy.conv_unsigned e2]
          congr 2
          rw [← CTy.conv_eq_self hcount, CTy.conv_unsigned e2,
            show last.val - first.val + 1 = 0 - first.val + 2 ^ (CTy.common first.ty last.ty).width by
              rw [← hw]; omega, Int.add_emod_right]
        have hv := valuesInRange_of_count hnb hle hcf hcl hcount
          (n := ⟨CTy.common first.ty last.ty, last.val - first.val + 1⟩) (by rw [h4]; exact hsub)
          (CTy.conv_eq_self hcount)
        refine ⟨_, hv, fun i => ?_⟩
        rw [List.getElem?_map]
        by_cases hi : first.val + i ≤ last.val
        · rw [List.getElem?_range (by omega), if_pos hi]
          rfl
        · rw [List.getElem?_eq_none (by simp; omega), if_neg hi]
          rfl

/-- `Last + 1` wraps around and the list is right; with a wider common type it is not. -/
example : valuesInRange ⟨.uint, 2 ^ 32 - 2⟩ ⟨.uint, 2 ^ 32 - 1⟩
      = some (.uint, [2 ^ 32 - 2, 2 ^ 32 - 1]) ∧
    valuesInRange ⟨.long, 2 ^ 32 - 2⟩ ⟨.uint, 2 ^ 32 - 1⟩ = none := by decide

/-- The full claim is false: the list of all values of an unsigned type is empty, and half the values
of a signed narrow type do not compile. -/
theorem C66_counterexample :
    valuesInRange ⟨.uchar, 0⟩ ⟨.uchar, 255⟩ = some (.uchar, []) ∧
    valuesInRange ⟨.uint, 0⟩ ⟨.uint, 2 ^ 32 - 1⟩ = some (.uint, []) ∧
    valuesInRange ⟨.schar, 0⟩ ⟨.schar, 127⟩ = none := by decide

/-- A range whose ends are in the wrong order is rejected (when the usual conversions, in which they
are compared, keep both ends). -/
theorem C66_rejected {first last : CVal} (hlt : last.val < first.val)
    (hf : (CTy.usual first.ty last.ty).InRange first.val)
    (hl : (CTy.usual first.ty last.ty).InRange last.val) : valuesInRange first last = none := by
  unfold valuesInRange
  simp only
  split
  · rfl
  · rw [if_neg]
    simp only [cLe, CTy.conv_eq_self hf, CTy.conv_eq_self hl, decide_eq_true_eq]
    omega

example : (CTy.usual .schar .int).InRange 5 ∧ (CTy.usual .schar .int).InRange (-5) := by decide

/-! ## C68 -/

/-- `make_array<N, ValueType>(sv)` with `N <= sv.size()`: the first `N` characters, converted. -/
theorem C68_make_array_from_sv {α β : Type} (debug : Bool) (conv : α → β) {N : Nat} {sv : List α}
    (h : N ≤ sv.length) :
    ∃ l, makeArrayFromSv debug conv N sv = .ok l ∧ l.length = N ∧
      ∀ i (hi : i < N), l[i]? = some (conv (sv[i]'(by omega))) := by
  refine ⟨(sv.take N).map conv, ?_, by simpa using h, ?_⟩
  · unfold makeArrayFromSv
    rw [show decide (N ≤ sv.length) = true by simpa using h, cassert_true, Outcome.ok_bind,
      makeArrayFromSv_go conv sv N 0 (by omega), List.drop_zero]
  · intro i hi
    rw [List.getElem?_map, List.getElem?_take_of_lt hi, List.getElem?_eq_getElem (by omega)]
    rfl

/-- A view that is too short fails the assertion, and is overrun without assertions. -/
theorem C68_make_array_from_short_sv {α β : Type} (conv : α → β) {N : Nat} {sv : List α}
    (h : sv.length < N) :
    makeArrayFromSv true conv N sv = .assertFailed ∧ makeArrayFromSv false conv N sv = .ub := by
  constructor
  · unfold makeArrayFromSv
    rw [show decide (N ≤ sv.length) = false by simpa using h]
    rfl
  · unfold makeArrayFromSv
    rw [cassert_ndebug, Outcome.ok_bind, makeArrayFromSv_go_ub conv sv N 0 (by omega) (by omega)]

example : makeArrayFromSv true Char.toNat 2 ['a', 'b', 'c'] = .ok [97, 98] ∧
    makeArrayFromSv true Char.toNat 4 ['a', 'b', 'c'] = .assertFailed := by decide

/-- `sv_to_array<Len...>(sv)` picks the characters at the positions `Len...` (not a prefix of that
length), in the order given. -/
theorem C68_sv_to_array {α : Type} (sv : List α) (len : List Nat) (h : ∀ i ∈ len, i < sv.length) :
    ∃ l, svToArray sv len = .ok l ∧ l.length = len.length ∧
      ∀ k i : Nat, len[k]? = some i → l[k]? = sv[i]? := by
  obtain ⟨l, h1, h2⟩ := svToArray_ok sv len h
  refine ⟨l, h1, by simpa using congrArg List.length h2, fun k i hk => ?_⟩
  have := congrArg (·[k]?) h2
  simp only [List.getElem?_map, hk, Option.map_some] at this
  cases hl : l[k]? with
  | none => rw [hl] at this; cases this
  | some x =>
    rw [hl] at this
    exact Option.some.inj this

example : svToArray ['a', 'b', 'c'] [2, 0, 0] = .ok ['c', 'a', 'a'] := by decide

end Utils.Props
