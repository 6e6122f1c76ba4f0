import Verif.Proofs.Depth
import Verif.Props.TypeList

/-!
# C131: how long lists may be in a compiler that limits the nesting of templates
-/

namespace Utils.Props

open Utils Utils.Depth Utils.DepthProofs

variable {α : Type}

/-- **C131**: `at<I>` finds its element within a limit of `I + 2`, however long the list, and not within less. -/
theorem C131_at {limit i : Nat} {ts : List α} {r : α} :
    (typeAt i ts).within limit = some r ↔ ts[i]? = some r ∧ i + 2 ≤ limit := by
  have hv : (typeAt i ts).value = ts[i]? := by rw [typeAt, inst_value, atImpl_value, TL.atImpl_eq]
  by_cases hi : i < ts.length
  · have hd : (typeAt i ts).depth = i + 2 := by rw [typeAt, inst_depth, atImpl_depth hi]
    unfold Inst.within
    rw [hd, hv]
    split <;> simp_all
  · have hn : ts[i]? = none := List.getElem?_eq_none (by omega)
    unfold Inst.within
    rw [hv, hn]
    simp

example : (typeAt 2 [10, 20, 30, 40]).within 4 = some 30 := by decide
example : (typeAt 2 [10, 20, 30, 40]).within 3 = none := by decide

/-- **C131**: `index_of` needs a limit one more than its answer, however long the list. -/
theorem C131_index_of {limit : Nat} {p : α → Bool} {ts : List α} {r : Nat} :
    (indexOf p ts).within limit = some r ↔ ts.findIdx p = r ∧ r + 1 ≤ limit := by
  have hv : (indexOf p ts).value = some (ts.findIdx p) := by
    rw [indexOf, indexOf_value, ← TL.indexOf_eq]; rfl
  have hd : (indexOf p ts).depth = ts.findIdx p + 1 := indexOf_depth _ _ _
  unfold Inst.within
  rw [hd, hv]
  constructor
  · split
    · intro h
      have := Option.some.inj h
      omega
    · intro h; cases h
  · rintro ⟨rfl, h⟩
    rw [if_pos h]

example : (indexOf (· == 20) [10, 20, 30, 40]).within 2 = some 1 := by decide
example : (indexOf (· == 50) [10, 20, 30, 40]).within 4 = none := by decide

/-- **C131**: `at<I, Predicate>` needs two levels for every element up to the one it finds, and three more. -/
theorem C131_at_predicate {limit i : Nat} {p : α → Bool} {ts : List α} {r : α} :
    (typeAtPred p i ts).within limit = some r ↔
      ∃ pre post, ts = pre ++ r :: post ∧ p r = true ∧ pre.countP p = i ∧ 2 * pre.length + 3 ≤ limit := by
  have hv : (typeAtPred p i ts).value = (ts.filter p)[i]? := by
    rw [typeAtPred, inst_value, atPred_value, TL.atWithPredicate_eq]
  have hsplit : ∀ {ts : List α} {i : Nat}, (ts.filter p)[i]? = some r →
      ∃ pre post, ts = pre ++ r :: post ∧ p r = true ∧ pre.countP p = i := by
    intro ts
    induction ts with
    | nil => intro i h; simp at h
    | cons u v ih =>
      intro i h
      cases hu : p u with
      | false =>
        rw [List.filter_cons_of_neg (by simp [hu])] at h
        obtain ⟨pre, post, e, hr, hc⟩ := ih h
        exact ⟨u :: pre, post, by rw [e]; rfl, hr, by rw [List.countP_cons_of_neg (by simp [hu]), hc]⟩
      | true =>
        rw [List.filter_cons_of_pos hu] at h
        cases i with
        | zero =>
          simp at h
          subst h
          exact ⟨[], v, rfl, hu, rfl⟩
        | succ i =>
          obtain ⟨pre, post, e, hr, hc⟩ := ih (i := i) (by simpa using h)
          exact ⟨u :: pre, post, by rw [e]; rfl, hr, by rw [List.countP_cons_of_pos hu, hc]⟩
  constructor
  · intro h
    unfold Inst.within at h
    split at h
    · rename_i hd
      rw [hv] at h
      obtain ⟨pre, post, rfl, hr, hc⟩ := hsplit h
      rw [typeAtPred, inst_depth, atPred_depth hc hr] at hd
      exact ⟨pre, post, rfl, hr, hc, by omega⟩
    · cases h
  · rintro ⟨pre, post, rfl, hr, hc, hl⟩
    rw [within_of_le (by rw [typeAtPred, inst_depth, atPred_depth hc hr]; omega), hv, List.filter_append,
      List.filter_cons_of_pos hr, List.getElem?_append_right (by rw [← List.countP_eq_length_filter]; omega)]
    rw [← List.countP_eq_length_filter, hc]
    simp

example : (typeAtPred (· > 15) 1 [10, 20, 30, 40]).within 7 = some 30 := by decide
example : (typeAtPred (· > 15) 1 [10, 20, 30, 40]).within 6 = none := by decide

/-- **C131**: `concatenate` needs as many levels as there are lists, however long they are. -/
theorem C131_concatenate {limit : Nat} {ls : List (List α)} {r : List α} :
    (concatenate ls).within limit = some r ↔ ls ≠ [] ∧ ls.flatten = r ∧ ls.length ≤ limit := by
  unfold Inst.within
  rw [concat_depth, concat_value]
  cases ls with
  | nil => simp [TL.concatenate]
  | cons a ls =>
    rw [TL.concatenate_eq]
    split <;> simp_all

example : (concatenate [[1, 2], [3], [4, 5, 6]]).within 3 = some [1, 2, 3, 4, 5, 6] :=
  C131_concatenate.2 (by decide)

/-- **C131**: `list_of_predicate_compliant` needs two levels more than the list is long. -/
theorem C131_list_of {limit : Nat} {p : α → Bool} {ts r : List α} :
    (listOfPredicateCompliant p ts).within limit = some r ↔ ts.filter p = r ∧ ts.length + 2 ≤ limit := by
  unfold Inst.within
  rw [listOf_depth, listOf_value, TL.listOfPredicateCompliant_eq]
  split <;> simp_all

example : (listOfPredicateCompliant (· > 15) [10, 20, 30]).within 5 = some [20, 30] :=
  C131_list_of.2 (by decide)

/-- **C131**: a `sublist` that is not empty needs three levels more than the index it ends at. -/
theorem C131_sublist {limit first count : Nat} {ts r : List α} (hc : count ≠ 0) (hl : ts.length < 2 ^ 64)
    (hf : first < 2 ^ 64) (hfit : first + count ≤ ts.length) :
    (sublist ts first count).within limit = some r ↔
      (ts.drop first).take count = r ∧ first + count + 3 ≤ limit := by
  unfold Inst.within
  rw [sublist_depth hc hl hfit, sublist_value, TL.sublist_eq hc hl hf, if_pos hfit]
  split <;> simp_all

example : (sublist [10, 20, 30, 40] 1 2).within 6 = some [20, 30] :=
  (C131_sublist (by decide) (by decide) (by decide) (by decide)).2 (by decide)

/-- **C131**: every slice, and the list without any one element, is found within a limit of six more than the
length of the list. -/
theorem C131_slices {limit first count i : Nat} {ts : List α} (h : ts.length + 6 ≤ limit) :
    (sublist ts first count).within limit = TL.sublist ts first count ∧
      (excludeAt ts i).within limit = TL.excludeAt ts i := by
  have h1 := sublist_depth_le ts first count
  have h2 := excludeAt_depth_le ts i
  rw [within_of_le (by omega), within_of_le (by omega), sublist_value, excludeAt_value]
  exact ⟨rfl, rfl⟩

example : (excludeAt [10, 20, 30, 40] 1).within 10 = some [10, 30, 40] := by
  rw [(C131_slices (first := 0) (count := 0) (by decide)).2, TL.excludeAt_eq (by decide)]
  decide

/-- **C131**: exactly what `exclude_at` needs: three levels for the first element, five more than the list is long for
the last, six more for any other. -/
theorem C131_exclude_at {limit i : Nat} {ts r : List α} (hl : ts.length < 2 ^ 64) :
    (excludeAt ts i).within limit = some r ↔
      (i < ts.length ∧ ts.eraseIdx i = r) ∧
        (if i = 0 then 3 else if i + 1 = ts.length then ts.length + 5 else ts.length + 6) ≤ limit := by
  have hv : (excludeAt ts i).value = _ := (excludeAt_value ts i).trans (TL.excludeAt_eq hl)
  by_cases hi : i < ts.length
  · have hd : (excludeAt ts i).depth =
        if i = 0 then 3 else if i + 1 = ts.length then ts.length + 5 else ts.length + 6 := by
      split
      · next h => subst h; exact excludeAt_depth_first hi
      · next h =>
        split
        · next h1 => exact excludeAt_depth_last hl h h1
        · next h1 => exact excludeAt_depth hl h (by omega)
    unfold Inst.within
    rw [hd, hv, if_pos hi]
    generalize (if i = 0 then 3 else if i + 1 = ts.length then ts.length + 5 else ts.length + 6) = need
    split <;> simp_all
  · unfold Inst.within
    rw [hv, if_neg hi]
    simp [hi]

example : (excludeAt [10, 20, 30, 40] 0).within 3 = some [20, 30, 40] ∧
    (excludeAt [10, 20, 30, 40] 3).within 9 = some [10, 20, 30] ∧
    (excludeAt [10, 20, 30, 40] 1).within 10 = some [10, 30, 40] :=
  ⟨(C131_exclude_at (by decide)).2 (by decide), (C131_exclude_at (by decide)).2 (by decide),
    (C131_exclude_at (by decide)).2 (by decide)⟩

/-- **C131**: a list is sorted within a limit of seven more than its length, whatever the sizes, and needs at least
its length. -/
theorem C131_sort {limit : Nat} {sz : α → Nat} {ts : List α} (hl : ts.length < 2 ^ 64) :
    (ts.length + 7 ≤ limit →
      (sortAscending sz ts).within limit = TL.sortAscending sz ts ∧
      (sortDescending sz ts).within limit = TL.sortDescending sz ts) ∧
    (limit < ts.length → (sortAscending sz ts).within limit = none ∧ (sortDescending sz ts).within limit = none) := by
  constructor
  · intro h
    have h1 := sort_depth_le (TL.minSizeofIndex sz) ts.length ts hl
    have h2 := sort_depth_le (TL.maxSizeofIndex sz) ts.length ts hl
    constructor
    · rw [within_of_le (x := sortAscending sz ts) (Nat.le_trans h1 h)]
      exact sortAsc_value _ _ _
    · rw [within_of_le (x := sortDescending sz ts) (Nat.le_trans h2 h)]
      exact sortDesc_value _ _ _
  · intro h
    constructor
    · unfold Inst.within sortAscending
      split
      · rename_i hd
        apply Classical.byContradiction
        intro hn
        have := sort_depth_ge _ _ _ hl hn
        omega
      · rfl
    · unfold Inst.within sortDescending
      split
      · rename_i hd
        apply Classical.byContradiction
        intro hn
        have := sort_depth_ge _ _ _ hl hn
        omega
      · rfl

example : (sortAscending id [3, 1, 2]).within 10 = TL.sortAscending id [3, 1, 2] :=
  ((C131_sort (by decide)).1 (by decide)).1

/-- **C131**: seven is needed whenever the smallest (greatest) element is neither the first nor the last. -/
theorem C131_sort_tight {limit i : Nat} {sz : α → Nat} {ts : List α} (hl : ts.length < 2 ^ 64) (h0 : i ≠ 0)
    (hi : i + 1 < ts.length) (h : limit < ts.length + 7) :
    (TL.minSizeofIndex sz ts = some i → (sortAscending sz ts).within limit = none) ∧
      (TL.maxSizeofIndex sz ts = some i → (sortDescending sz ts).within limit = none) := by
  constructor
  · intro hx
    exact within_of_lt (by rw [sortAscending, sort_depth hl hx h0 hi]; exact h)
  · intro hx
    exact within_of_lt (by rw [sortDescending, sort_depth hl hx h0 hi]; exact h)

example : (sortAscending id [3, 1, 2]).within 9 = none :=
  (C131_sort_tight (i := 1) (by decide) (by decide) (by decide) (by decide)).1 (by decide)

/-- **C131**: a list that is sorted already (equal sizes allowed) needs exactly two levels more than it is long: five
less than the worst. -/
theorem C131_sort_sorted {limit : Nat} {sz : α → Nat} {ts r : List α} (h2 : 2 ≤ ts.length) :
    (ts.Pairwise (fun a b => sz a ≤ sz b) →
      ((sortAscending sz ts).within limit = some r ↔ ts = r ∧ ts.length + 2 ≤ limit)) ∧
    (ts.Pairwise (fun a b => sz b ≤ sz a) →
      ((sortDescending sz ts).within limit = some r ↔ ts = r ∧ ts.length + 2 ≤ limit)) := by
  constructor
  · intro hp
    obtain ⟨g1, g2⟩ := sort_sorted (index := TL.minSizeofIndex sz) ts.length ts (Nat.le_refl _) fun s h0 hs => by
      obtain ⟨i, x, e1, e2, e3, e4⟩ := TL.minSizeofIndex_spec sz s h0
      obtain ⟨y, s', rfl⟩ := List.exists_cons_of_ne_nil h0
      have hps := (hp.sublist hs.sublist)
      rw [List.pairwise_cons] at hps
      cases i with
      | zero => exact e1
      | succ i =>
        have hlt := e4 0 y (by omega) rfl
        have := hps.1 x (List.mem_of_getElem? e2)
        omega
    rw [if_neg (show ¬ ts.length ≤ 1 by omega)] at g2
    unfold Inst.within sortAscending
    rw [g2, g1]
    by_cases hlim : ts.length + 2 ≤ limit <;> simp [hlim]
  · intro hp
    obtain ⟨g1, g2⟩ := sort_sorted (index := TL.maxSizeofIndex sz) ts.length ts (Nat.le_refl _) fun s h0 hs => by
      obtain ⟨i, x, e1, e2, e3, e4⟩ := TL.maxSizeofIndex_spec sz s h0
      obtain ⟨y, s', rfl⟩ := List.exists_cons_of_ne_nil h0
      have hps := (hp.sublist hs.sublist)
      rw [List.pairwise_cons] at hps
      cases i with
      | zero => exact e1
      | succ i =>
        have hlt := e4 0 y (by omega) rfl
        have := hps.1 x (List.mem_of_getElem? e2)
        omega
    rw [if_neg (show ¬ ts.length ≤ 1 by omega)] at g2
    unfold Inst.within sortDescending
    rw [g2, g1]
    by_cases hlim : ts.length + 2 ≤ limit <;> simp [hlim]

example : (sortAscending id [1, 2, 2, 5]).within 6 = some [1, 2, 2, 5] :=
  ((C131_sort_sorted (by decide)).1 (by decide)).2 (by decide)
example : (sortDescending id [5, 2, 2, 1]).within 6 = some [5, 2, 2, 1] :=
  ((C131_sort_sorted (by decide)).2 (by decide)).2 (by decide)

/-- **C131**: the product of `k` lists of at most `m` elements (`m` at least three) is found within a limit of
`k + m`, although it may have `m` to the power `k` elements. -/
theorem C131_product {limit m : Nat} {ls : List (List α)} (hm : 3 ≤ m) (hlen : ∀ l ∈ ls, l.length ≤ m)
    (h : ls.length + m ≤ limit) : (product ls).within limit = CP.product ls := by
  have := productImpl_depth_le hm hlen
  rw [within_of_le (by rw [product, inst_depth]; omega), product, inst_value, productImpl_value]

example : (product [[1, 2], [3, 4], [5, 6, 7]]).within 6 = CP.product [[1, 2], [3, 4], [5, 6, 7]] :=
  C131_product (m := 3) (by decide) (by decide) (by decide)

/-- **C131**: and not within less if the last list but one has `m` elements. -/
theorem C131_product_tight {limit : Nat} {pre : List (List α)} {l1 l2 : List α}
    (h : limit < (pre ++ [l1, l2]).length + l1.length) : (product (pre ++ [l1, l2])).within limit = none := by
  have := productImpl_depth_ge l1 l2 pre
  refine within_of_lt ?_
  rw [product, inst_depth]
  simp only [List.length_append, List.length_cons, List.length_nil] at h
  omega

example : (product [[1, 2], [3, 4, 5], [6]]).within 5 = none ∧
    (product [[1, 2], [3, 4, 5], [6]]).within 6 = CP.product [[1, 2], [3, 4, 5], [6]] :=
  ⟨C131_product_tight (pre := [[1, 2]]) (by decide), C131_product (m := 3) (by decide) (by decide) (by decide)⟩

/-- **C131**: `value_list::index_of` needs three levels more than the index it finds; two more than the list is long
if the value is not in the list. -/
theorem C131_value_index_of {τ : Type} [DecidableEq τ] {limit r : Nat} {u : VL.TVal τ} {vs : List (VL.TVal τ)}
    (h : vs ≠ []) :
    (valueIndexOf u vs).within limit = some r ↔
      vs.findIdx (fun v => decide (u = v)) = r ∧ min (r + 1) vs.length + 2 ≤ limit := by
  have hv : (valueIndexOf u vs).value = some (vs.findIdx fun v => decide (u = v)) := by
    rw [valueIndexOf, valueIndexOf_value, ← VL.indexOf_eq]; rfl
  have hd : (valueIndexOf u vs).depth = min (vs.findIdx (fun v => decide (u = v)) + 1) vs.length + 2 := by
    cases vs with
    | nil => exact absurd rfl h
    | cons v vs => exact valueIndexOf_depth _ _ _ _
  unfold Inst.within
  rw [hd, hv]
  constructor
  · split
    · rename_i hl
      intro h
      have := Option.some.inj h
      subst this
      exact ⟨rfl, hl⟩
    · intro h; cases h
  · rintro ⟨rfl, h⟩
    rw [if_pos h]

example : (valueIndexOf (⟨"int", 3⟩ : VL.TVal String) [⟨"char", 3⟩, ⟨"int", 3⟩, ⟨"int", 4⟩]).within 4 = some 1 ∧
    (valueIndexOf (⟨"int", 3⟩ : VL.TVal String) [⟨"char", 3⟩, ⟨"int", 3⟩, ⟨"int", 4⟩]).within 3 = none ∧
    (valueIndexOf (⟨"int", 5⟩ : VL.TVal String) [⟨"char", 3⟩, ⟨"int", 3⟩, ⟨"int", 4⟩]).within 5 = some 3 := by
  decide

/-- **C131**: `list_all_of` needs two levels more than the list is long, however few values are of the type. -/
theorem C131_value_all_of {τ : Type} [DecidableEq τ] {limit : Nat} {t : τ} {vs r : List (VL.TVal τ)} :
    (valueListAllOf t vs).within limit = some r ↔
      vs.filter (fun v => decide (v.ty = t)) = r ∧ vs.length + 2 ≤ limit := by
  unfold Inst.within
  rw [valueListAllOf_depth, valueListAllOf_value, VL.allOf_eq]
  split <;> simp_all

example : (valueListAllOf "int" [⟨"char", 3⟩, ⟨"int", 3⟩, ⟨"int", 4⟩]).within 5 = some [⟨"int", 3⟩, ⟨"int", 4⟩] :=
  C131_value_all_of.2 (by decide)

/-- **C131**: `value_list::count_of` needs three levels, however long the list. -/
theorem C131_value_count_of {τ : Type} [DecidableEq τ] {limit r : Nat} {u : VL.TVal τ} {vs : List (VL.TVal τ)}
    (h : vs ≠ []) : (valueCountOf u vs).within limit = some r ↔ vs.count u = r ∧ 3 ≤ limit := by
  unfold Inst.within
  rw [valueCountOf_depth u h, valueCountOf_value, VL.countOf_eq]
  split <;> simp_all

example : (valueCountOf (⟨"int", 3⟩ : VL.TVal String) [⟨"int", 3⟩, ⟨"char", 3⟩, ⟨"int", 3⟩]).within 3 = some 2 :=
  (C131_value_count_of (by decide)).2 (by decide)

/-- **C131**: `min<T>` and `max<T>` need two levels more than the list is long, however few values are of the type:
the whole list is concatenated first. -/
theorem C131_value_min_max {τ : Type} [DecidableEq τ] {limit : Nat} {t : τ} {vs : List (VL.TVal τ)} {r : Int} :
    ((valueExtreme VL.stdMin t vs).within limit = some r ↔
      (⟨t, r⟩ ∈ vs ∧ ∀ x, ⟨t, x⟩ ∈ vs → r ≤ x) ∧ vs.length + 2 ≤ limit) ∧
    ((valueExtreme VL.stdMax t vs).within limit = some r ↔
      (⟨t, r⟩ ∈ vs ∧ ∀ x, ⟨t, x⟩ ∈ vs → x ≤ r) ∧ vs.length + 2 ≤ limit) := by
  have hmin : VL.min t vs = some r ↔ (⟨t, r⟩ : VL.TVal τ) ∈ vs ∧ ∀ x, (⟨t, x⟩ : VL.TVal τ) ∈ vs → r ≤ x := by
    obtain ⟨h1, h2⟩ := C32_min t vs
    refine ⟨h1 r, fun ⟨hm, hx⟩ => ?_⟩
    cases hr : VL.min t vs with
    | none => exact absurd rfl (h2.1 hr _ hm)
    | some m =>
      obtain ⟨g1, g2⟩ := h1 m hr
      rw [Int.le_antisymm (hx m g1) (g2 r hm)]
  have hmax : VL.max t vs = some r ↔ (⟨t, r⟩ : VL.TVal τ) ∈ vs ∧ ∀ x, (⟨t, x⟩ : VL.TVal τ) ∈ vs → x ≤ r := by
    obtain ⟨h1, h2⟩ := C32_max t vs
    refine ⟨h1 r, fun ⟨hm, hx⟩ => ?_⟩
    cases hr : VL.max t vs with
    | none => exact absurd rfl (h2.1 hr _ hm)
    | some m =>
      obtain ⟨g1, g2⟩ := h1 m hr
      rw [Int.le_antisymm (hx m g1) (g2 r hm)]
  unfold Inst.within
  rw [valueExtreme_depth, valueExtreme_depth, valueExtreme_min, valueExtreme_max, ← hmin, ← hmax]
  constructor <;> split <;> simp_all

example : (valueExtreme VL.stdMin "int" [⟨"int", 5⟩, ⟨"char", 1⟩, ⟨"int", 3⟩]).within 5 = some 3 ∧
    (valueExtreme VL.stdMax "int" [⟨"int", 5⟩, ⟨"char", 1⟩, ⟨"int", 3⟩]).within 4 = none := by
  refine ⟨C131_value_min_max.1.2 ⟨⟨by decide, by simp⟩, by decide⟩, ?_⟩
  cases h : (valueExtreme VL.stdMax "int" [⟨"int", 5⟩, ⟨"char", 1⟩, ⟨"int", 3⟩]).within 4 with
  | none => rfl
  | some r => exact absurd (C131_value_min_max.2.1 h).2 (by decide)

/-- **C131**: whatever the limit, it matters: some list has an element that `at` does not reach. -/
theorem C131_limit (limit : Nat) : ∃ (ts : List Nat) (i : Nat), i < ts.length ∧ (typeAt i ts).within limit = none := by
  refine ⟨List.replicate (limit + 1) 0, limit, by simp, ?_⟩
  apply within_of_lt
  rw [typeAt, inst_depth, atImpl_depth (by simp)]
  omega

end Utils.Props
