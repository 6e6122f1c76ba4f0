import Verif.Proofs.Product

/-!
# Properties C23-C32: type lists, value lists, concatenation, cartesian product

`ts.length < 2 ^ 64` says that the length of the pack fits `std::size_t`.
-/

namespace Utils.Props

open Utils Utils.TL Utils.Spec

variable {α : Type}

/-! ## C23 -/

/-- `at<I>` is the `I`-th type; past the end it does not compile. -/
theorem C23_at (i : Nat) (ts : List α) :
    (∀ h : i < ts.length, atImpl i ts = some ts[i]) ∧ (ts.length ≤ i → atImpl i ts = none) := by
  rw [atImpl_eq]
  exact ⟨fun h => List.getElem?_eq_getElem h, fun h => List.getElem?_eq_none h⟩

/-- `at<I, Pred>` is the type satisfying `Pred` that is preceded by exactly `I` such types; it does
not compile iff there are at most `I` of them. -/
theorem C23_at_with_predicate (p : α → Bool) (i : Nat) (ts : List α) :
    (∀ t, atWithPredicate p i ts = some t →
      ∃ a b, ts = a ++ t :: b ∧ p t = true ∧ a.countP p = i) ∧
    (atWithPredicate p i ts = none ↔ ts.countP p ≤ i) := by
  rw [atWithPredicate_eq]
  constructor
  · intro t h
    induction ts generalizing i with
    | nil => simp at h
    | cons u v ih =>
      rw [List.filter_cons] at h
      split at h
      · rename_i hu
        cases i with
        | zero => simp at h; subst h; exact ⟨[], v, rfl, hu, rfl⟩
        | succ i =>
          rw [List.getElem?_cons_succ] at h
          obtain ⟨a, b, rfl, h1, h2⟩ := ih i h
          exact ⟨u :: a, b, rfl, h1, by simp [hu, h2]⟩
      · rename_i hu
        obtain ⟨a, b, rfl, h1, h2⟩ := ih i h
        exact ⟨u :: a, b, rfl, h1, by simp [hu, h2]⟩
  · rw [List.getElem?_eq_none_iff, List.countP_eq_length_filter]

theorem firstIndex_findIdx (P : α → Bool) (ts : List α) :
    FirstIndex (fun t => P t = true) ts (ts.findIdx P) := by
  refine ⟨List.findIdx_le_length, ?_, ?_⟩
  · intro x hx
    obtain ⟨h, rfl⟩ := List.getElem?_eq_some_iff.1 hx
    exact List.findIdx_getElem
  · intro j x hj hx
    obtain ⟨h, rfl⟩ := List.getElem?_eq_some_iff.1 hx
    have := List.not_of_lt_findIdx hj
    simpa using this

/-- `index_of<Pred>` is the least index whose type satisfies `Pred`, or `size`. -/
theorem C23_index_of (p : α → Bool) (ts : List α) :
    FirstIndex (fun t => p t = true) ts (indexOf p ts) := by
  rw [indexOf_eq]; exact firstIndex_findIdx p ts

/-- `first_index_of_type<T>` is the least index of `T`, or `size`. -/
theorem C23_first_index_of_type [DecidableEq α] (t : α) (ts : List α) :
    FirstIndex (fun u => u = t) ts (firstIndexOfType t ts) := by
  rw [firstIndexOfType_eq]
  have := firstIndex_findIdx (fun u => decide (t = u)) ts
  simpa [FirstIndex, eq_comm] using this

/-- `count_of<T>` counts the occurrences. -/
theorem C23_count_of [DecidableEq α] (t : α) (ts : List α) : countOf t ts = ts.count t :=
  countOf_eq t ts

example : FirstIndex (fun u => u = 3) [1, 3, 2, 3] 1 ∧ firstIndexOfType 3 [1, 3, 2, 3] = 1 := by
  refine ⟨⟨by decide, ?_, ?_⟩, by decide⟩
  · intro x hx; simpa using hx.symm
  · intro j x hj hx
    obtain rfl : j = 0 := by omega
    simp at hx
    omega
example : atWithPredicate (fun n => n % 2 == 0) 1 [1, 4, 3, 6] = some 6 := by decide

/-! ## C24

The full claim, `contains_v<T> ⇔ count_of_v<T> > 0` for every `T`, is false when the query is itself
a `type_list`: the partial specialisation takes it apart.  `C24_contains_partial` covers the other
queries; what is missing are type-list queries, for which `C24_contains_all` gives what holds. -/

/-- `contains_v<T>` for a `T` that is no `type_list`: true iff it occurs.  Missing from C24: queries that
are type lists. -/
theorem C24_contains_partial (ts : List Ty) (n : Nat) :
    contains ts (.base n) = true ↔ Ty.base n ∈ ts := by
  rw [contains, countOf_eq]
  simp [List.count_eq_zero]

/-- A query that is a type list asks for each of its elements. -/
theorem C24_contains_all (ts us : List Ty) :
    contains ts (.tlist us) = true ↔ ∀ u ∈ us, contains ts u = true := by
  rw [contains]
  induction us with
  | nil => simp [containsAll]
  | cons u us ih => rw [containsAll, Bool.and_eq_true, ih]; simp

/-- Both directions fail for type-list queries: a list that contains `type_list<A>` as an element
is not reported, and `type_list<>` is reported although it does not occur. -/
theorem C24_counterexample :
    (contains [.tlist [.base 0]] (.tlist [.base 0]) = false ∧
      countOf (.tlist [.base 0]) [Ty.tlist [.base 0]] = 1) ∧
    (contains [.base 0] (.tlist []) = true ∧ countOf (.tlist []) [Ty.base 0] = 0) := by
  decide

/-- `type_list<>` is reported as contained in every list. -/
theorem C24_contains_empty_list (ts : List Ty) : contains ts (.tlist []) = true := by
  rw [C24_contains_all]; simp

/-- `is_type_list` is true of type lists and of nothing else. -/
theorem C24_is_type_list (t : Ty) : isTypeList t = true ↔ ∃ ts, t = .tlist ts := by
  cases t <;> simp [isTypeList]

example : isTypeList (.tlist [.base 2]) = true ∧ isTypeList (.base 2) = false := by decide
example : contains [.base 3, .base 1] (.tlist [.base 1, .base 3, .base 1]) = true := by decide

/-! ## C25 -/

/-- `contains_copies` is true iff the same type occurs at two different positions. -/
theorem C25_contains_copies [DecidableEq α] (ts : List α) :
    containsCopies ts = true ↔
      ∃ (i j : Nat) (t : α), i < j ∧ ts[i]? = some t ∧ ts[j]? = some t := by
  rw [containsCopies_iff, List.nodup_iff_pairwise_ne, List.pairwise_iff_getElem]
  constructor
  · intro h
    simp only [not_forall, ne_eq, not_not] at h
    obtain ⟨i, j, hi, hj, hij, e⟩ := h
    exact ⟨i, j, ts[i], hij, List.getElem?_eq_getElem hi, by rw [List.getElem?_eq_getElem hj, e]⟩
  · rintro ⟨i, j, t, hij, h1, h2⟩ h
    obtain ⟨hi, e1⟩ := List.getElem?_eq_some_iff.1 h1
    obtain ⟨hj, e2⟩ := List.getElem?_eq_some_iff.1 h2
    exact h i j hi hj hij (e1.trans e2.symm)

/-- `is_same` is true iff all types are equal. -/
theorem C25_is_same [DecidableEq α] (ts : List α) :
    isSame ts = true ↔ ∀ a ∈ ts, ∀ b ∈ ts, a = b := isSame_iff ts

/-- The same for `value_list`. -/
theorem C25_value_list {τ : Type} [DecidableEq τ] (vs : List (VL.TVal τ)) :
    (VL.containsCopies vs = true ↔ ∃ (i j : Nat) (v : VL.TVal τ), i < j ∧ vs[i]? = some v ∧ vs[j]? = some v) ∧
    (VL.isSame vs = true ↔ ∀ a ∈ vs, ∀ b ∈ vs, a = b) := by
  constructor
  · rw [← C25_contains_copies]
    unfold VL.containsCopies containsCopies VL.moreThanOnce moreThanOnce
    simp only [VL.countOf_eq, countOf_eq]
  · rw [← C25_is_same]
    cases vs with
    | nil => simp [VL.isSame, isSame]
    | cons v vs => simp [VL.isSame, isSame, VL.isSameImpl_eq]

example : containsCopies [1, 2, 1] = true ∧ isSame [1, 1, 2] = false ∧ isSame [4, 4, 4] = true := by
  decide

/-! ## C26 -/

/-- `list_of_predicate_compliant_t<Pred>` is the ordered sublist of the types satisfying `Pred`, and
`count_of_predicate_compliant` is its size. -/
theorem C26_filter (p : α → Bool) (ts : List α) :
    ∃ r, listOfPredicateCompliant p ts = some r ∧ r.Sublist ts ∧ (∀ t ∈ r, p t = true) ∧
      (∀ [DecidableEq α] (t : α), p t = true → r.count t = ts.count t) ∧
      countOfPredicateCompliant p ts = r.length ∧
      (containsPredicateCompliant p ts = true ↔ ∃ t ∈ ts, p t = true) := by
  refine ⟨ts.filter p, listOfPredicateCompliant_eq p ts, List.filter_sublist, ?_, ?_, ?_, ?_⟩
  · intro t ht; exact (List.mem_filter.1 ht).2
  · intro _ t ht; exact List.count_filter ht
  · rw [countOfPredicateCompliant_eq, List.countP_eq_length_filter]
  · unfold containsPredicateCompliant
    rw [countOfPredicateCompliant_eq]
    simp [List.countP_eq_zero]

example : listOfPredicateCompliant (fun n => decide (n ≤ 2)) [1, 3, 2, 1] = some [1, 2, 1] := by
  decide +kernel

/-! ## C27 -/

/-- `min_sizeof_index`: in range, of minimal size, and the first such. -/
theorem C27_min_sizeof_index (sz : α → Nat) (ts : List α) (h : ts ≠ []) :
    ∃ i x, minSizeofIndex sz ts = some i ∧ ts[i]? = some x ∧ (∀ y ∈ ts, sz x ≤ sz y) ∧
      ∀ j y, j < i → ts[j]? = some y → sz x < sz y := minSizeofIndex_spec sz ts h

/-- `max_sizeof_index`: in range, of maximal size, and the first such. -/
theorem C27_max_sizeof_index (sz : α → Nat) (ts : List α) (h : ts ≠ []) :
    ∃ i x, maxSizeofIndex sz ts = some i ∧ ts[i]? = some x ∧ (∀ y ∈ ts, sz y ≤ sz x) ∧
      ∀ j y, j < i → ts[j]? = some y → sz y < sz x := maxSizeofIndex_spec sz ts h

/-- `min_sizeof_index<L>::value` is `i` exactly if `i` is the first index of a type of minimal size; the empty list
has no such index and the value does not exist. -/
theorem C27_min_exact (sz : α → Nat) (ts : List α) (i : Nat) :
    minSizeofIndex sz ts = some i ↔
      ∃ x, ts[i]? = some x ∧ (∀ y ∈ ts, sz x ≤ sz y) ∧ ∀ j y, j < i → ts[j]? = some y → sz x < sz y := by
  by_cases h : ts = []
  · subst h
    simp [minSizeofIndex]
  · obtain ⟨k, x, h1, h2, h3, h4⟩ := C27_min_sizeof_index sz ts h
    rw [h1]
    constructor
    · intro e
      cases e
      exact ⟨x, h2, h3, h4⟩
    · rintro ⟨y, g2, g3, g4⟩
      have a := h3 y (List.mem_of_getElem? g2)
      have b := g3 x (List.mem_of_getElem? h2)
      rcases Nat.lt_trichotomy k i with hlt | heq | hgt
      · have := g4 k x hlt h2
        omega
      · rw [heq]
      · have := h4 i y hgt g2
        omega

/-- The same for `max_sizeof_index<L>::value`. -/
theorem C27_max_exact (sz : α → Nat) (ts : List α) (i : Nat) :
    maxSizeofIndex sz ts = some i ↔
      ∃ x, ts[i]? = some x ∧ (∀ y ∈ ts, sz y ≤ sz x) ∧ ∀ j y, j < i → ts[j]? = some y → sz y < sz x := by
  by_cases h : ts = []
  · subst h
    simp [maxSizeofIndex]
  · obtain ⟨k, x, h1, h2, h3, h4⟩ := C27_max_sizeof_index sz ts h
    rw [h1]
    constructor
    · intro e
      cases e
      exact ⟨x, h2, h3, h4⟩
    · rintro ⟨y, g2, g3, g4⟩
      have a := h3 y (List.mem_of_getElem? g2)
      have b := g3 x (List.mem_of_getElem? h2)
      rcases Nat.lt_trichotomy k i with hlt | heq | hgt
      · have := g4 k x hlt h2
        omega
      · rw [heq]
      · have := h4 i y hgt g2
        omega

example : ¬ ∃ i, maxSizeofIndex id ([] : List Nat) = some i := by
  simp [C27_max_exact]

example : minSizeofIndex id [4, 2, 8, 2] = some 1 ∧ maxSizeofIndex id [4, 8, 2, 8] = some 1 := by
  decide

/-! ## C28 -/

/-- `sublist_t<L, F, C>` with `C > 0` exists iff `F + C <= size`, and is the slice `[F, F + C)`. -/
theorem C28_sublist (ts : List α) (first count : Nat) (hc : 0 < count) (hl : ts.length < 2 ^ 64)
    (hf : first < 2 ^ 64) :
    (first + count ≤ ts.length → ∃ r, sublist ts first count = some r ∧ r.length = count ∧
      ∀ i, i < count → r[i]? = ts[first + i]?) ∧
    (ts.length < first + count → sublist ts first count = none) := by
  rw [sublist_eq (by omega) hl hf]
  constructor
  · intro h
    rw [if_pos h]
    refine ⟨_, rfl, by simp; omega, ?_⟩
    intro i hi
    rw [List.getElem?_take, if_pos hi, List.getElem?_drop]
  · intro h; rw [if_neg (by omega)]

/-- `sublist_t<L, F, 0>` is empty and exists iff `F < size` (or `F = 0` for the empty list): unlike
for positive counts, `F = size` is rejected for non-empty lists. -/
theorem C28_sublist_zero (ts : List α) (first : Nat) :
    sublist ts first 0
      = if first < ts.length ∨ (ts = [] ∧ first = 0) then some [] else none := sublist_zero

/-- `exclude_at_t<L, I>` exists iff `I < size` and removes exactly element `I`. -/
theorem C28_exclude_at (ts : List α) (i : Nat) (hl : ts.length < 2 ^ 64) :
    (∀ a x b, ts = a ++ x :: b → a.length = i → excludeAt ts i = some (a ++ b)) ∧
    (ts.length ≤ i → excludeAt ts i = none) := by
  rw [excludeAt_eq hl]
  constructor
  · rintro a x b rfl rfl
    rw [if_pos (by simp)]
    simp [List.eraseIdx_append_of_length_le]
  · intro h; rw [if_neg (by omega)]

example : sublist [1, 2, 3, 4] 1 2 = some [2, 3] ∧ excludeAt [1, 2, 3] 1 = some [1, 3] ∧
    sublist [1, 2] 2 0 = none := by decide +kernel

/-! ## C29 -/

/-- `sort_sizeof_ascending_t` is a stable sort by `sizeof`. -/
theorem C29_sort_ascending (sz : α → Nat) (ts : List α) (hl : ts.length < 2 ^ 64) :
    ∃ s, sortAscending sz ts = some s ∧ s.Perm ts ∧ s.Pairwise (fun a b => sz a ≤ sz b) ∧
      ∀ k, s.filter (fun a => sz a == k) = ts.filter (fun a => sz a == k) :=
  sortAscAux_spec sz ts.length ts (Nat.le_refl _) hl

/-- `sort_sizeof_descending_t` is a stable sort by `sizeof`. -/
theorem C29_sort_descending (sz : α → Nat) (ts : List α) (hl : ts.length < 2 ^ 64) :
    ∃ s, sortDescending sz ts = some s ∧ s.Perm ts ∧ s.Pairwise (fun a b => sz b ≤ sz a) ∧
      ∀ k, s.filter (fun a => sz a == k) = ts.filter (fun a => sz a == k) :=
  sortDescAux_spec sz ts.length ts (Nat.le_refl _) hl

example : sortAscending (fun p : Nat × Nat => p.1) [(4, 0), (1, 1), (4, 2), (2, 3)]
    = some [(1, 1), (2, 3), (4, 0), (4, 2)] := by decide +kernel
example : sortDescending (fun p : Nat × Nat => p.1) [(1, 1), (4, 0), (4, 2), (2, 3)]
    = some [(4, 0), (4, 2), (2, 3), (1, 1)] := by decide +kernel

/-! ## C30 -/

/-- `concatenate_t<L1, ..., Lk>`, `k >= 1`, lists the elements of the lists in order. -/
theorem C30_concatenate (a : List α) (ls : List (List α)) :
    concatenate (a :: ls) = some ((a :: ls).flatten) := concatenate_eq a ls

/-- Grouping does not matter. -/
theorem C30_concatenate_assoc (a b : List (List α)) (ha : a ≠ []) (hb : b ≠ []) :
    (do let x ← concatenate a; let y ← concatenate b; concatenate [x, y]) = concatenate (a ++ b) := by
  rw [CP.concatenate_ne_nil ha, CP.concatenate_ne_nil hb, CP.concatenate_ne_nil (by simp [ha])]
  simp only [Option.bind_eq_bind, Option.bind_some]
  rw [CP.concatenate_ne_nil (by simp)]
  simp

example : concatenate [[1], [2, 3], [], [4]] = some [1, 2, 3, 4] := by decide +kernel

/-! ## C31 -/

/-- `cartesian_product_t<L1, ..., Lk>`, `k >= 2`, all lists but possibly the last non-empty:
`|L1| * ... * |Lk|` entries, entry `i` being selected by the mixed-radix digits of `i`; a tuple
occurs iff its components come from the respective lists, exactly once if those have no
repetitions. -/
theorem C31_cartesian_product (ls : List (List α)) (hk : 2 ≤ ls.length)
    (hne : ∀ l ∈ ls.dropLast, l ≠ []) :
    ∃ r, CP.product ls = some r ∧ r.length = (ls.map List.length).prod ∧
      (∀ i, i < r.length → r[i]? = select ls (mixedRadix (ls.map List.length) i)) ∧
      (∀ tup, tup ∈ r ↔ OneOfEach ls tup) ∧
      ((∀ l ∈ ls, l.Nodup) → r.Nodup) := by
  refine ⟨_, CP.product_eq ls hk hne, CP.length_tuples ls, ?_, CP.mem_tuples ls, CP.nodup_tuples ls⟩
  intro i hi
  exact CP.tuples_getElem? ls i (by rwa [CP.length_tuples] at hi)

/-- In all other cases it does not compile. -/
theorem C31_cartesian_product_rejected (ls : List (List α))
    (h : ls.length < 2 ∨ ∃ l ∈ ls.dropLast, l = []) : CP.product ls = none := by
  rcases h with h | h
  · exact CP.product_none_short h
  · exact CP.product_none_empty ls h

example : CP.product [[1, 2], [3], [4, 5]] = some [[1, 3, 4], [1, 3, 5], [2, 3, 4], [2, 3, 5]] := by
  decide +kernel

/-! ## C32 -/

section ValueList
open Utils.VL
variable {τ : Type} [DecidableEq τ]

/-- `index_of`, `count_of` and `contains` compare type and value. -/
theorem C32_lookup (v : TVal τ) (vs : List (TVal τ)) :
    FirstIndex (fun u => u.ty = v.ty ∧ u.val = v.val) vs (VL.indexOf v vs) ∧
    VL.countOf v vs = vs.countP (fun u => decide (u.ty = v.ty) && decide (u.val = v.val)) ∧
    (VL.contains v vs = true ↔ ∃ u ∈ vs, u.ty = v.ty ∧ u.val = v.val) := by
  have e : ∀ u : TVal τ, (u.ty = v.ty ∧ u.val = v.val) ↔ v = u := by
    intro u
    cases u; cases v
    simp [eq_comm]
  refine ⟨?_, ?_, ?_⟩
  · rw [VL.indexOf_eq]
    have := firstIndex_findIdx (fun u => decide (v = u)) vs
    simpa only [e, FirstIndex, decide_eq_true_iff] using this
  · rw [VL.countOf_eq, List.count]
    congr 1
    funext u
    have := e u
    by_cases h : v = u
    · subst h; simp
    · rw [show (u == v) = false from beq_eq_false_iff_ne.2 (Ne.symm h)]
      symm
      rw [Bool.and_eq_false_iff]
      by_cases h1 : u.ty = v.ty
      · right
        rw [decide_eq_false_iff_not]
        intro h2
        exact h (this.1 ⟨h1, h2⟩)
      · left; simpa using h1
  · unfold VL.contains
    simp only [List.any_eq_true, VL.isSameImpl_eq, decide_eq_true_iff, e]

omit [DecidableEq τ] in
/-- `at<I>` is the `I`-th value; past the end it does not compile. -/
theorem C32_at (i : Nat) (vs : List (TVal τ)) :
    (∀ a v b, vs = a ++ v :: b → a.length = i → VL.at' i vs = some v) ∧
    (vs.length ≤ i → VL.at' i vs = none) := by
  unfold VL.at'
  constructor
  · rintro a v b rfl rfl; simp
  · exact fun h => List.getElem?_eq_none h

/-- `list_all_of_t<T>` is the ordered sublist of the values of type `T`. -/
theorem C32_list_all_of (t : τ) (vs : List (TVal τ)) :
    ∃ r, VL.allOf t vs = some r ∧ r.Sublist vs ∧ (∀ v ∈ r, v.ty = t) ∧
      ∀ v : TVal τ, v.ty = t → r.count v = vs.count v := by
  refine ⟨_, VL.allOf_eq t vs, List.filter_sublist, ?_, ?_⟩
  · intro v hv; simpa using (List.mem_filter.1 hv).2
  · intro v hv; exact List.count_filter (by simpa using hv)

/-- `min<T>` is the least value of type `T`; it compiles iff there is one. -/
theorem C32_min (t : τ) (vs : List (TVal τ)) :
    (∀ m, VL.min t vs = some m →
      (⟨t, m⟩ : TVal τ) ∈ vs ∧ ∀ x, (⟨t, x⟩ : TVal τ) ∈ vs → m ≤ x) ∧
    (VL.min t vs = none ↔ ∀ v ∈ vs, v.ty ≠ t) := by
  rw [VL.min_eq]
  have hmem : ∀ x, x ∈ (vs.filter fun v => decide (v.ty = t)).map TVal.val ↔ (⟨t, x⟩ : TVal τ) ∈ vs := by
    intro x
    simp only [List.mem_map, List.mem_filter, decide_eq_true_iff]
    constructor
    · rintro ⟨⟨ty, val⟩, ⟨h1, h2⟩, h3⟩
      simp only at h2 h3
      subst h2; subst h3; exact h1
    · intro h; exact ⟨_, ⟨h, rfl⟩, rfl⟩
  have hnil : (vs.filter fun v => decide (v.ty = t)).map TVal.val = [] ↔ ∀ v ∈ vs, v.ty ≠ t := by
    simp [List.filter_eq_nil_iff]
  revert hmem hnil
  generalize (vs.filter fun v => decide (v.ty = t)).map TVal.val = xs
  intro hmem hnil
  cases xs with
  | nil => simpa [stdMin] using hnil
  | cons x xs =>
    obtain ⟨h1, h2⟩ := foldl_min xs x
    constructor
    · intro m hm
      simp only [stdMin, Option.some.injEq] at hm
      subst hm
      exact ⟨(hmem _).1 h1, fun y hy => h2 y ((hmem y).2 hy)⟩
    · simp only [stdMin, reduceCtorEq, false_iff]
      intro h
      exact absurd (hnil.2 h) (by simp)

/-- `max<T>` is the greatest value of type `T`; it compiles iff there is one. -/
theorem C32_max (t : τ) (vs : List (TVal τ)) :
    (∀ m, VL.max t vs = some m →
      (⟨t, m⟩ : TVal τ) ∈ vs ∧ ∀ x, (⟨t, x⟩ : TVal τ) ∈ vs → x ≤ m) ∧
    (VL.max t vs = none ↔ ∀ v ∈ vs, v.ty ≠ t) := by
  rw [VL.max_eq]
  have hmem : ∀ x, x ∈ (vs.filter fun v => decide (v.ty = t)).map TVal.val ↔ (⟨t, x⟩ : TVal τ) ∈ vs := by
    intro x
    simp only [List.mem_map, List.mem_filter, decide_eq_true_iff]
    constructor
    · rintro ⟨⟨ty, val⟩, ⟨h1, h2⟩, h3⟩
      simp only at h2 h3
      subst h2; subst h3; exact h1
    · intro h; exact ⟨_, ⟨h, rfl⟩, rfl⟩
  have hnil : (vs.filter fun v => decide (v.ty = t)).map TVal.val = [] ↔ ∀ v ∈ vs, v.ty ≠ t := by
    simp [List.filter_eq_nil_iff]
  revert hmem hnil
  generalize (vs.filter fun v => decide (v.ty = t)).map TVal.val = xs
  intro hmem hnil
  cases xs with
  | nil => simpa [stdMax] using hnil
  | cons x xs =>
    obtain ⟨h1, h2⟩ := foldl_max xs x
    constructor
    · intro m hm
      simp only [stdMax, Option.some.injEq] at hm
      subst hm
      exact ⟨(hmem _).1 h1, fun y hy => h2 y ((hmem y).2 hy)⟩
    · simp only [stdMax, reduceCtorEq, false_iff]
      intro h
      exact absurd (hnil.2 h) (by simp)

/-- `contains_type<T>`. -/
theorem C32_contains_type (t : τ) (vs : List (TVal τ)) :
    VL.containsType t vs = true ↔ ∃ v ∈ vs, v.ty = t := by
  unfold VL.containsType
  rw [TL.countOf_eq]
  simp [List.count_eq_zero]

example : VL.min 0 [(⟨0, 5⟩ : TVal Nat), ⟨1, -7⟩, ⟨0, 3⟩] = some 3 ∧
    VL.indexOf ⟨0, 3⟩ [(⟨1, 3⟩ : TVal Nat), ⟨0, 3⟩] = 1 := by decide +kernel

end ValueList

end Utils.Props
