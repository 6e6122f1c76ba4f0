import Verif.Model.Depth
import Verif.Proofs.TypeList
import Verif.Proofs.Product

/-!
# Proofs about the depth of the templates
-/

namespace Utils.DepthProofs

open Utils Utils.Depth

variable {α β γ : Type}

@[simp] theorem done_value (b : β) : (done b).value = some b := rfl
@[simp] theorem done_depth (b : β) : (done b).depth = 0 := rfl
@[simp] theorem error_value : (error : Inst β).value = none := rfl
@[simp] theorem error_depth : (error : Inst β).depth = 0 := rfl
@[simp] theorem inst_value (x : Inst β) : (inst x).value = x.value := rfl
@[simp] theorem inst_depth (x : Inst β) : (inst x).depth = x.depth + 1 := rfl

@[simp] theorem andThen_value (x : Inst β) (f : β → Inst γ) :
    (andThen x f).value = x.value.bind fun b => (f b).value := by
  unfold andThen
  cases x.value <;> rfl

theorem andThen_depth_some {x : Inst β} {f : β → Inst γ} {b : β} (h : x.value = some b) :
    (andThen x f).depth = max x.depth (f b).depth := by
  unfold andThen
  rw [h]

theorem andThen_depth_le {x : Inst β} {f : β → Inst γ} {n : Nat} (hx : x.depth ≤ n)
    (hf : ∀ b, x.value = some b → (f b).depth ≤ n) : (andThen x f).depth ≤ n := by
  unfold andThen
  cases h : x.value with
  | none => exact hx
  | some b => exact Nat.max_le.2 ⟨hx, hf b h⟩

theorem pack_value : ∀ (xs : List (Inst β)), (pack xs).value = xs.mapM Inst.value
  | [] => rfl
  | x :: xs => by
    simp [pack, pack_value xs, List.mapM_cons]

theorem pack_depth_le {n : Nat} : ∀ {xs : List (Inst β)}, (∀ x ∈ xs, x.depth ≤ n) → (pack xs).depth ≤ n
  | [], _ => by simp [pack]
  | x :: xs, h => by
    refine andThen_depth_le (h x (by simp)) fun b _ => andThen_depth_le (pack_depth_le fun y hy => h y (by simp [hy])) ?_
    simp

theorem pack_depth_ge {x : Inst β} : ∀ {xs : List (Inst β)}, (pack xs).value ≠ none → x ∈ xs →
    x.depth ≤ (pack xs).depth
  | y :: ys, hv, hx => by
    rw [pack] at hv ⊢
    cases hy : y.value with
    | none => simp [hy] at hv
    | some b =>
      cases hp : (pack ys).value with
      | none => simp [hy, hp] at hv
      | some bs =>
        rw [andThen_depth_some hy, andThen_depth_some hp]
        rcases List.mem_cons.1 hx with rfl | hx
        · exact Nat.le_max_left _ _
        · have := pack_depth_ge (by simp [hp]) hx
          simp
          omega

/-! ## Look-up -/

theorem atImpl_value (i : Nat) (ts : List α) : (atImpl i ts).value = TL.atImpl i ts := by
  fun_induction atImpl i ts <;> simp_all [TL.atImpl]

theorem atImpl_depth : ∀ {i : Nat} {ts : List α}, i < ts.length → (atImpl i ts).depth = i + 1
  | 0, _ :: _, _ => rfl
  | i + 1, u :: v, h => by
    rw [atImpl, inst_depth, atImpl_depth (by simpa using h)]

theorem atImpl_depth_le (i : Nat) (ts : List α) : (atImpl i ts).depth ≤ ts.length := by
  fun_induction atImpl i ts <;> simp_all

theorem atPred_value (p : α → Bool) (i : Nat) (ts : List α) :
    (atWithPredicate p i ts).value = TL.atWithPredicate p i ts := by
  fun_induction atWithPredicate p i ts
  · simp [TL.atWithPredicate]
  · rename_i u v ih
    simp only [inst_value, TL.atWithPredicate]
    split <;> simp_all
  · rename_i i u v ih1 ih2
    simp only [inst_value, TL.atWithPredicate]
    split <;> simp_all

theorem atPred_depth_le (p : α → Bool) (i : Nat) (ts : List α) :
    (atWithPredicate p i ts).depth ≤ 2 * ts.length := by
  fun_induction atWithPredicate p i ts
  · simp
  · rename_i u v ih
    simp only [inst_depth, List.length_cons]
    split
    · simp
    · omega
  · rename_i i u v ih1 ih2
    simp only [inst_depth, List.length_cons]
    split <;> omega

/-- Two instantiations for every element up to the one found. -/
theorem atPred_depth {p : α → Bool} {u : α} : ∀ {pre post : List α} {i : Nat}, pre.countP p = i → p u = true →
    (atWithPredicate p i (pre ++ u :: post)).depth = 2 * pre.length + 2
  | [], post, i, hc, hu => by
    simp at hc
    subst hc
    simp [atWithPredicate, hu]
  | x :: pre, post, i, hc, hu => by
    cases hx : p x with
    | true =>
      rw [List.countP_cons_of_pos hx] at hc
      subst hc
      simp only [List.cons_append, atWithPredicate, hx, if_true, inst_depth, List.length_cons]
      rw [atPred_depth rfl hu]
      omega
    | false =>
      rw [List.countP_cons_of_neg (by simp [hx])] at hc
      have ih := atPred_depth (post := post) hc hu
      cases i with
      | zero =>
        simp only [List.cons_append, atWithPredicate, hx, inst_depth, List.length_cons]
        simp [ih]
        omega
      | succ i =>
        simp only [List.cons_append, atWithPredicate, hx, inst_depth, List.length_cons]
        simp [ih]
        omega

theorem indexOf_value (p : α → Bool) (i : Nat) (ts : List α) :
    (indexOfImpl p i ts).value = some (TL.indexOfImpl p i ts) := by
  fun_induction indexOfImpl p i ts
  · simp [TL.indexOfImpl]
  · rename_i i u v ih
    simp only [inst_value, TL.indexOfImpl]
    split <;> simp_all

theorem indexOf_depth (p : α → Bool) (i : Nat) (ts : List α) :
    (indexOfImpl p i ts).depth = ts.findIdx p + 1 := by
  fun_induction indexOfImpl p i ts
  · simp
  · rename_i i u v ih
    simp only [inst_depth, List.findIdx_cons]
    cases hp : p u <;> simp_all

/-! ## Concatenation -/

theorem concat_value (ls : List (List α)) : (concatenate ls).value = TL.concatenate ls := by
  fun_induction concatenate ls <;> simp_all [TL.concatenate]

theorem concat_depth (ls : List (List α)) : (concatenate ls).depth = ls.length := by
  fun_induction concatenate ls <;> simp_all

theorem listOf_value (p : α → Bool) (ts : List α) :
    (listOfPredicateCompliant p ts).value = TL.listOfPredicateCompliant p ts := by
  simp only [listOfPredicateCompliant, TL.listOfPredicateCompliant, inst_value]
  split <;> simp [concat_value]

theorem listOf_depth (p : α → Bool) (ts : List α) :
    (listOfPredicateCompliant p ts).depth = ts.length + 2 := by
  simp only [listOfPredicateCompliant, inst_depth]
  split <;> simp_all [concat_depth]

/-! ## Slices -/

theorem mapM_map {f : α → Inst β} (l : List α) : (l.map f).mapM Inst.value = l.mapM fun a => (f a).value := by
  induction l with
  | nil => rfl
  | cons a l ih => simp [List.mapM_cons, ih]

theorem sublist_value (ts : List α) (first count : Nat) :
    (sublist ts first count).value = TL.sublist ts first count := by
  have himpl : (sublistImpl ts first count).value = TL.sublistImpl ts first count := by
    simp only [sublistImpl, inst_value, pack_value, mapM_map, TL.sublistImpl, typeAt, atImpl_value]
  unfold sublist TL.sublist
  rw [inst_value]
  split
  · split
    · rfl
    · split <;> rfl
  · rw [andThen_value, himpl]
    split
    · cases TL.sublistImpl ts first count <;> rfl
    · cases TL.sublistImpl ts first count <;> rfl

theorem typeAt_depth_le (i : Nat) (ts : List α) : (typeAt i ts).depth ≤ ts.length + 1 := by
  have := atImpl_depth_le i ts
  simp [typeAt]
  omega

theorem sublist_depth_le (ts : List α) (first count : Nat) : (sublist ts first count).depth ≤ ts.length + 3 := by
  unfold sublist
  rw [inst_depth]
  split
  · split
    · simp
    · split <;> simp
  · have h : (sublistImpl ts first count).depth ≤ ts.length + 2 := by
      rw [sublistImpl, inst_depth]
      have := pack_depth_le (n := ts.length + 1) (xs := (List.range count).map fun i =>
        typeAt ((first + i) % 2 ^ 64) ts) (by
          intro x hx
          obtain ⟨i, _, rfl⟩ := List.mem_map.1 hx
          exact typeAt_depth_le _ _)
      omega
    have := andThen_depth_le (f := fun r : List α => if (first + count) % 2 ^ 64 ≤ ts.length then done r else error)
      h (by intro b _; split <;> simp)
    omega

theorem sublist_depth {ts : List α} {first count : Nat} (hc : count ≠ 0) (hl : ts.length < 2 ^ 64)
    (h : first + count ≤ ts.length) : (sublist ts first count).depth = first + count + 3 := by
  have hv : (sublistImpl ts first count).value = TL.sublistImpl ts first count := by
    simp only [sublistImpl, inst_value, pack_value, mapM_map, TL.sublistImpl, typeAt, atImpl_value]
  have hs := TL.sublist_eq hc hl (first := first)
  unfold sublist
  rw [inst_depth, if_neg hc]
  have hmod : (first + count) % 2 ^ 64 = first + count := Nat.mod_eq_of_lt (by omega)
  have hd : (sublistImpl ts first count).depth = first + count + 2 := by
    rw [sublistImpl, inst_depth]
    have hle := pack_depth_le (n := first + count + 1) (xs := (List.range count).map fun i =>
        typeAt ((first + i) % 2 ^ 64) ts) (by
          intro x hx
          obtain ⟨i, hi, rfl⟩ := List.mem_map.1 hx
          have hi := List.mem_range.1 hi
          rw [Nat.mod_eq_of_lt (by omega), typeAt, inst_depth, atImpl_depth (by omega)]
          omega)
    have hval : (pack ((List.range count).map fun i => typeAt ((first + i) % 2 ^ 64) ts)).value ≠ none := by
      have e : (sublistImpl ts first count).value =
        (pack ((List.range count).map fun i => typeAt ((first + i) % 2 ^ 64) ts)).value := rfl
      rw [← e, hv]
      intro hn
      have : TL.sublist ts first count = none := by
        unfold TL.sublist
        rw [if_neg hc, hmod, if_pos h, hn]
      rw [hs (by omega)] at this
      simp [h] at this
    have hge := pack_depth_ge (x := typeAt ((first + (count - 1)) % 2 ^ 64) ts) hval
      (List.mem_map.2 ⟨count - 1, List.mem_range.2 (by omega), rfl⟩)
    rw [Nat.mod_eq_of_lt (by omega), typeAt, inst_depth, atImpl_depth (by omega)] at hge
    omega
  cases hval : (sublistImpl ts first count).value with
  | none =>
    unfold andThen
    rw [hval]
    simp [hd]
  | some r =>
    rw [andThen_depth_some hval, hd, hmod, if_pos h]
    simp

/-- The general case of `exclude_at_impl`. -/
theorem excludeGen_value (ts : List α) (i : Nat) :
    (if ts.length ≥ 2 ∧ i = ts.length - 1 then sublist ts 0 (ts.length - 1)
      else andThen (sublist ts 0 i) fun a =>
        andThen (sublist ts (i + 1) (ts.length - i - 1)) fun b => concatenate [a, b]).value =
    (if ts.length ≥ 2 ∧ i = ts.length - 1 then TL.sublist ts 0 (ts.length - 1)
      else do
        let a ← TL.sublist ts 0 i
        let b ← TL.sublist ts (i + 1) (ts.length - i - 1)
        TL.concatenate [a, b]) := by
  split
  · exact sublist_value _ _ _
  · rw [andThen_value, sublist_value]
    congr
    funext a
    rw [andThen_value, sublist_value]
    congr
    funext b
    exact concat_value _

theorem excludeGen_depth_le (ts : List α) (i : Nat) :
    (if ts.length ≥ 2 ∧ i = ts.length - 1 then sublist ts 0 (ts.length - 1)
      else andThen (sublist ts 0 i) fun a =>
        andThen (sublist ts (i + 1) (ts.length - i - 1)) fun b => concatenate [a, b]).depth ≤ ts.length + 3 := by
  split
  · exact sublist_depth_le _ _ _
  · refine andThen_depth_le (sublist_depth_le _ _ _) fun a _ =>
      andThen_depth_le (sublist_depth_le _ _ _) fun b _ => ?_
    rw [concat_depth]
    simp

theorem excludeAtImpl_value : ∀ (ts : List α) (i : Nat), (excludeAtImpl ts i).value = TL.excludeAtImpl ts i
  | _ :: _, 0 => rfl
  | [], 0 => excludeGen_value [] 0
  | [], i + 1 => excludeGen_value [] (i + 1)
  | u :: v, i + 1 => excludeGen_value (u :: v) (i + 1)

theorem excludeAtImpl_depth_le : ∀ (ts : List α) (i : Nat), (excludeAtImpl ts i).depth ≤ ts.length + 4
  | _ :: _, 0 => by simp [excludeAtImpl]
  | [], 0 => Nat.succ_le_succ (excludeGen_depth_le [] 0)
  | [], i + 1 => Nat.succ_le_succ (excludeGen_depth_le [] (i + 1))
  | u :: v, i + 1 => Nat.succ_le_succ (excludeGen_depth_le (u :: v) (i + 1))

theorem excludeAt_value (ts : List α) (i : Nat) : (excludeAt ts i).value = TL.excludeAt ts i := by
  unfold excludeAt TL.excludeAt
  rw [inst_value]
  split
  · exact excludeAtImpl_value _ _
  · rfl

theorem excludeAt_depth_le (ts : List α) (i : Nat) : (excludeAt ts i).depth ≤ ts.length + 6 := by
  unfold excludeAt
  rw [inst_depth]
  split
  · have := excludeAtImpl_depth_le ts i
    rw [inst_depth]
    omega
  · simp

/-! ## Sorting -/

theorem sortAsc_value (sz : α → Nat) : ∀ (n : Nat) (ts : List α),
    (sortAux (TL.minSizeofIndex sz) n ts).value = TL.sortAscAux sz n ts
  | n, [] => by cases n <;> rfl
  | n, [t] => by cases n <;> rfl
  | 0, _ :: _ :: _ => rfl
  | n + 1, u :: v :: w => by
    simp only [sortAux, TL.sortAscAux, inst_value, andThen_value, sizeofIndex, typeAt, atImpl_value,
      excludeAt_value, sortAsc_value sz n, concat_value]
    rfl

theorem sortDesc_value (sz : α → Nat) : ∀ (n : Nat) (ts : List α),
    (sortAux (TL.maxSizeofIndex sz) n ts).value = TL.sortDescAux sz n ts
  | n, [] => by cases n <;> rfl
  | n, [t] => by cases n <;> rfl
  | 0, _ :: _ :: _ => rfl
  | n + 1, u :: v :: w => by
    simp only [sortAux, TL.sortDescAux, inst_value, andThen_value, sizeofIndex, typeAt, atImpl_value,
      excludeAt_value, sortDesc_value sz n, concat_value]
    rfl

theorem excludeAt_length {ts r : List α} {i : Nat} (hl : ts.length < 2 ^ 64)
    (h : (excludeAt ts i).value = some r) : r.length + 1 = ts.length := by
  rw [excludeAt_value, TL.excludeAt_eq hl] at h
  split at h
  · rename_i hi
    have := Option.some.inj h
    rw [← this, List.length_eraseIdx]
    simp [hi]
    omega
  · cases h

theorem sort_depth_le (index : List α → Option Nat) : ∀ (n : Nat) (ts : List α), ts.length < 2 ^ 64 →
    (sortAux index n ts).depth ≤ ts.length + 7
  | n, [], _ => by cases n <;> simp [sortAux]
  | n, [t], _ => by cases n <;> simp [sortAux]
  | 0, _ :: _ :: _, _ => by simp [sortAux]
  | n + 1, u :: v :: w, hl => by
    simp only [sortAux, inst_depth]
    refine Nat.succ_le_succ (andThen_depth_le (by simp [sizeofIndex]) fun i _ =>
      andThen_depth_le (Nat.le_trans (typeAt_depth_le _ _) (by simp)) fun t _ =>
      andThen_depth_le (excludeAt_depth_le _ _) fun rest hr =>
      andThen_depth_le ?_ fun s _ => ?_)
    · have h1 := excludeAt_length hl hr
      have h2 := sort_depth_le index n rest (by omega)
      omega
    · rw [concat_depth]
      simp

theorem sort_depth_ge (index : List α → Option Nat) : ∀ (n : Nat) (ts : List α), ts.length < 2 ^ 64 →
    (sortAux index n ts).value ≠ none → ts.length ≤ (sortAux index n ts).depth
  | n, [], _, _ => by simp
  | n, [t], _, _ => by cases n <;> simp [sortAux]
  | 0, _ :: _ :: _, _, h => by simp [sortAux] at h
  | n + 1, u :: v :: w, hl, h => by
    simp only [sortAux, inst_value] at h
    simp only [sortAux, inst_depth]
    cases h1 : (sizeofIndex index (u :: v :: w)).value with
    | none => simp [h1] at h
    | some i =>
      cases h2 : (typeAt i (u :: v :: w)).value with
      | none => simp [h1, h2] at h
      | some t =>
        cases h3 : (excludeAt (u :: v :: w) i).value with
        | none => simp [h1, h2, h3] at h
        | some rest =>
          have hlen := excludeAt_length hl h3
          cases h4 : (sortAux index n rest).value with
          | none => simp [h1, h2, h3, h4] at h
          | some s =>
            have := sort_depth_ge index n rest (by omega) (by simp [h4])
            rw [andThen_depth_some h1, andThen_depth_some h2, andThen_depth_some h3, andThen_depth_some h4]
            omega

/-- An element in the middle is the worst to exclude. -/
theorem excludeAt_depth {ts : List α} {i : Nat} (hl : ts.length < 2 ^ 64) (h0 : i ≠ 0) (hi : i + 1 < ts.length) :
    (excludeAt ts i).depth = ts.length + 6 := by
  apply Nat.le_antisymm (excludeAt_depth_le _ _)
  have hgen : excludeAtImpl ts i = inst (if ts.length ≥ 2 ∧ i = ts.length - 1 then sublist ts 0 (ts.length - 1)
      else andThen (sublist ts 0 i) fun a =>
        andThen (sublist ts (i + 1) (ts.length - i - 1)) fun b => concatenate [a, b]) := by
    match ts, i, h0 with
    | [], i + 1, _ => rfl
    | _ :: _, i + 1, _ => rfl
  have hs1 : (sublist ts 0 i).value = some ((ts.drop 0).take i) := by
    rw [sublist_value, TL.sublist_eq h0 hl (by omega), if_pos (by omega)]
  have hs2 : (sublist ts (i + 1) (ts.length - i - 1)).value =
      some ((ts.drop (i + 1)).take (ts.length - i - 1)) := by
    rw [sublist_value, TL.sublist_eq (by omega) hl (by omega), if_pos (by omega)]
  rw [excludeAt, inst_depth, if_pos (by omega), inst_depth, hgen, inst_depth, if_neg (by omega),
    andThen_depth_some hs1, andThen_depth_some hs2]
  have h2 : (sublist ts (i + 1) (ts.length - i - 1)).depth = _ := sublist_depth (by omega) hl (by omega)
  omega

theorem excludeAt_depth_first {ts : List α} (h : 0 < ts.length) : (excludeAt ts 0).depth = 3 := by
  match ts, h with
  | u :: v, _ => simp [excludeAt, excludeAtImpl]

theorem excludeAt_depth_last {ts : List α} {i : Nat} (hl : ts.length < 2 ^ 64) (h0 : i ≠ 0) (hi : i + 1 = ts.length) :
    (excludeAt ts i).depth = ts.length + 5 := by
  have hgen : excludeAtImpl ts i = inst (if ts.length ≥ 2 ∧ i = ts.length - 1 then sublist ts 0 (ts.length - 1)
      else andThen (sublist ts 0 i) fun a =>
        andThen (sublist ts (i + 1) (ts.length - i - 1)) fun b => concatenate [a, b]) := by
    match ts, i, h0 with
    | [], i + 1, _ => rfl
    | _ :: _, i + 1, _ => rfl
  have h2 : (sublist ts 0 (ts.length - 1)).depth = _ := sublist_depth (by omega) hl (by omega)
  rw [excludeAt, inst_depth, if_pos (by omega), inst_depth, hgen, inst_depth, if_pos (by omega), h2]
  omega

theorem sort_depth {index : List α → Option Nat} {ts : List α} {i : Nat} (hl : ts.length < 2 ^ 64)
    (hidx : index ts = some i) (h0 : i ≠ 0) (hi : i + 1 < ts.length) :
    (sortAux index ts.length ts).depth = ts.length + 7 := by
  apply Nat.le_antisymm (sort_depth_le _ _ _ hl)
  have hd := excludeAt_depth hl h0 hi
  match ts, hi, hidx, hd with
  | [], hi, _, _ => simp at hi
  | [_], hi, _, _ => simp at hi
  | u :: v :: w, hi, hidx, hd =>
    have h1 : (sizeofIndex index (u :: v :: w)).value = some i := hidx
    obtain ⟨t, ht⟩ : ∃ t, (typeAt i (u :: v :: w)).value = some t := by
      rw [typeAt, inst_value, atImpl_value, TL.atImpl_eq]
      exact ⟨_, List.getElem?_eq_getElem (by omega)⟩
    rw [List.length_cons, sortAux, inst_depth, andThen_depth_some h1, andThen_depth_some ht]
    · have : (excludeAt (u :: v :: w) i).depth ≤
        (andThen (excludeAt (u :: v :: w) i) fun rest =>
          andThen (sortAux index (v :: w).length rest) fun s => concatenate [[t], s]).depth := by
        unfold andThen
        split
        · exact Nat.le_refl _
        · exact Nat.le_max_left _ _
      rw [hd] at this
      simp only [List.length_cons] at this ⊢
      omega
    · simp
    · simp

/-- A list that is sorted already: the first element is taken every time. -/
theorem sort_sorted {index : List α → Option Nat} : ∀ (n : Nat) (ts : List α), ts.length ≤ n →
    (∀ s, s ≠ [] → s <:+ ts → index s = some 0) →
    (sortAux index n ts).value = some ts ∧ (sortAux index n ts).depth = if ts.length ≤ 1 then 1 else ts.length + 2
  | n, [], _, _ => by cases n <;> exact ⟨rfl, rfl⟩
  | n, [t], _, _ => by cases n <;> exact ⟨rfl, rfl⟩
  | 0, _ :: _ :: _, hn, _ => by simp at hn
  | n + 1, u :: v :: w, hn, h => by
    obtain ⟨i1, i2⟩ := sort_sorted (index := index) n (v :: w) (by simpa using hn) fun s h0 hs =>
      h s h0 (List.IsSuffix.trans hs (List.suffix_cons u (v :: w)))
    have h1 : (sizeofIndex index (u :: v :: w)).value = some 0 := h _ (by simp) (List.suffix_refl _)
    have h2 : (typeAt 0 (u :: v :: w)).value = some u := rfl
    have e3 : excludeAt (u :: v :: w) 0 = inst (inst (inst (done (v :: w)))) := by
      rw [excludeAt, if_pos (by simp), excludeAtImpl]
    have h3 : (excludeAt (u :: v :: w) 0).value = some (v :: w) := by rw [e3]; rfl
    have d3 : (excludeAt (u :: v :: w) 0).depth = 3 := by rw [e3]; rfl
    have d1 : (sizeofIndex index (u :: v :: w)).depth = 1 := rfl
    have d2 : (typeAt 0 (u :: v :: w)).depth = 2 := rfl
    constructor
    · simp only [sortAux, inst_value, andThen_value, h1, h2, h3, i1, Option.bind_some, concat_value]
      rw [TL.concatenate_eq]
      simp
    · simp only [sortAux, inst_depth]
      rw [andThen_depth_some h1, andThen_depth_some h2, andThen_depth_some h3, andThen_depth_some i1, concat_depth,
        d1, d2, d3, i2]
      cases w with
      | nil => rfl
      | cons x w =>
        simp only [List.length_cons, List.length_nil]
        rw [if_neg (by omega), if_neg (by omega)]
        omega

/-! ## Products -/

theorem oneFirst_value (t : α) (ts : List α) : (oneElementMultFirst t ts).value = some (CP.oneElementMultFirst t ts) :=
  rfl

theorem one_value (t : α) (ts : List (List α)) : (oneElementMult t ts).value = CP.oneElementMult t ts := by
  simp only [oneElementMult, inst_value, pack_value, mapM_map, concat_value, CP.oneElementMult]

theorem mapM_some {f : α → β} (l : List α) : (l.mapM fun a => some (f a)) = some (l.map f) := by
  induction l with
  | nil => rfl
  | cons a l ih => simp [List.mapM_cons, ih]

theorem productImpl_value (ls : List (List α)) : (productImpl ls).value = CP.product ls := by
  fun_induction productImpl ls
  · rename_i l1 l2
    simp only [inst_value, andThen_value, pack_value, mapM_map, oneFirst_value, mapM_some, concat_value, CP.product,
      Option.bind_some]
  · rename_i l1 l2 l3 ls ih
    simp only [inst_value, andThen_value, pack_value, mapM_map, one_value, concat_value, CP.product, ih]
    rfl
  · rename_i h1 h2
    unfold CP.product
    split
    · exact absurd rfl (h1 _ _)
    · exact absurd rfl (h2 _ _ _ _)
    · rfl

theorem one_depth_le (t : α) (ts : List (List α)) : (oneElementMult t ts).depth ≤ 3 := by
  rw [oneElementMult, inst_depth]
  refine Nat.succ_le_succ (pack_depth_le fun x hx => ?_)
  obtain ⟨u, _, rfl⟩ := List.mem_map.1 hx
  rw [concat_depth]
  simp

theorem mapM_length {f : α → Option β} : ∀ {l : List α} {r : List β}, l.mapM f = some r → r.length = l.length
  | [], r, h => by
    simp at h
    simp [h]
  | a :: l, r, h => by
    rw [List.mapM_cons] at h
    cases h1 : f a with
    | none => simp [h1] at h
    | some b =>
      cases h2 : l.mapM f with
      | none => simp [h1, h2] at h
      | some bs =>
        simp [h1, h2] at h
        rw [← h, List.length_cons, List.length_cons, mapM_length h2]

theorem productImpl_depth_le {m : Nat} (hm : 3 ≤ m) : ∀ {ls : List (List α)}, (∀ l ∈ ls, l.length ≤ m) →
    (productImpl ls).depth + 1 ≤ ls.length + m
  | [], _ => by simp [productImpl]; omega
  | [_], _ => by simp [productImpl]
  | [l1, l2], h => by
    rw [productImpl, inst_depth]
    have : (andThen (pack (l1.map fun t => oneElementMultFirst t l2)) concatenate).depth ≤ m := by
      refine andThen_depth_le (pack_depth_le fun x hx => ?_) fun b hb => ?_
      · obtain ⟨u, _, rfl⟩ := List.mem_map.1 hx
        simp [oneElementMultFirst]
        omega
      · rw [pack_value] at hb
        rw [concat_depth, mapM_length hb, List.length_map]
        exact h l1 (by simp)
    simp
    omega
  | l1 :: l2 :: l3 :: ls, h => by
    rw [productImpl, inst_depth]
    have ih := productImpl_depth_le hm (ls := l2 :: l3 :: ls) fun l hl => h l (by simp [hl])
    refine Nat.le_trans (Nat.succ_le_succ (Nat.succ_le_succ
      (andThen_depth_le (n := (l2 :: l3 :: ls).length + m - 1) (by omega) fun r _ => ?_))) (by simp; omega)
    rw [inst_depth]
    have : (andThen (pack (l1.map fun t => oneElementMult t r)) concatenate).depth ≤ m := by
      refine andThen_depth_le (pack_depth_le fun x hx => ?_) fun b hb => ?_
      · obtain ⟨u, _, rfl⟩ := List.mem_map.1 hx
        exact Nat.le_trans (one_depth_le _ _) hm
      · rw [pack_value] at hb
        rw [concat_depth, mapM_length hb, List.length_map]
        exact h l1 (by simp)
    simp
    omega

theorem andThen_depth_ge (x : Inst β) (f : β → Inst γ) : x.depth ≤ (andThen x f).depth := by
  unfold andThen
  cases x.value with
  | none => exact Nat.le_refl _
  | some b => exact Nat.le_max_left _ _

theorem productImpl_depth_ge (l1 l2 : List α) : ∀ pre : List (List α),
    pre.length + 1 + l1.length ≤ (productImpl (pre ++ [l1, l2])).depth
  | [] => by
    rw [List.nil_append, productImpl, inst_depth,
      andThen_depth_some (b := l1.map fun t => CP.oneElementMultFirst t l2)]
    · rw [concat_depth, List.length_map]
      simp only [List.length_nil]
      omega
    · rw [pack_value, mapM_map]
      exact mapM_some l1
  | [a] => by
    rw [List.singleton_append, productImpl, inst_depth]
    have ih := productImpl_depth_ge l1 l2 []
    rw [List.nil_append] at ih
    have := andThen_depth_ge (productImpl [l1, l2]) fun r =>
      inst (andThen (pack (a.map fun t => oneElementMult t r)) concatenate)
    simp only [List.length_cons, List.length_nil] at ih ⊢
    omega
  | a :: b :: pre => by
    have ih := productImpl_depth_ge l1 l2 (b :: pre)
    obtain ⟨c, rest, e⟩ : ∃ c rest, pre ++ [l1, l2] = c :: rest := by
      cases pre with
      | nil => exact ⟨l1, [l2], rfl⟩
      | cons c pre => exact ⟨c, pre ++ [l1, l2], rfl⟩
    rw [List.cons_append, e] at ih
    rw [List.cons_append, List.cons_append, e, productImpl, inst_depth]
    have := andThen_depth_ge (productImpl (b :: c :: rest)) fun r =>
      inst (andThen (pack (a.map fun t => oneElementMult t r)) concatenate)
    simp only [List.length_cons] at ih ⊢
    omega

/-! ## Limits -/

theorem within_of_le {x : Inst β} {limit : Nat} (h : x.depth ≤ limit) : x.within limit = x.value := by
  simp [Inst.within, h]

theorem within_of_lt {x : Inst β} {limit : Nat} (h : limit < x.depth) : x.within limit = none := by
  unfold Inst.within
  rw [if_neg (by omega)]

/-! ## Values -/

section Values

variable {τ : Type} [DecidableEq τ]

theorem valueIndexOf_value (i : Nat) (u : VL.TVal τ) (vs : List (VL.TVal τ)) :
    (valueIndexOfImpl i u vs).value = some (VL.indexOfImpl u i vs) := by
  induction vs generalizing i with
  | nil => simp [valueIndexOfImpl, VL.indexOfImpl]
  | cons v vs ih =>
    simp only [valueIndexOfImpl, VL.indexOfImpl, inst_value, andThen_value, valueIsSame, done_value,
      Option.bind_some]
    split <;> simp_all

theorem valueIndexOf_depth (i : Nat) (u v : VL.TVal τ) (vs : List (VL.TVal τ)) :
    (valueIndexOfImpl i u (v :: vs)).depth =
      min ((v :: vs).findIdx (fun w => decide (u = w)) + 1) (v :: vs).length + 2 := by
  induction vs generalizing i v with
  | nil =>
    simp only [valueIndexOfImpl, inst_depth]
    rw [andThen_depth_some (b := VL.isSameImpl u v) rfl]
    split <;> simp [valueIsSame]
  | cons w vs ih =>
    rw [valueIndexOfImpl, inst_depth, andThen_depth_some (b := VL.isSameImpl u v) rfl, List.findIdx_cons,
      VL.isSameImpl_eq]
    cases decide (u = v) with
    | true => simp [valueIsSame]
    | false =>
      simp only [Bool.false_eq_true, if_false, cond_false]
      rw [ih]
      simp only [valueIsSame, inst_depth, done_depth, List.length_cons]
      omega

theorem packAllOf_value (t : τ) (vs : List (VL.TVal τ)) :
    (pack (vs.map (valueAllOfImpl t))).value = some (vs.map fun v => if v.ty = t then [v] else []) := by
  induction vs with
  | nil => rfl
  | cons v vs ih => simp [pack, ih, valueAllOfImpl]

theorem valueListAllOf_value (t : τ) (vs : List (VL.TVal τ)) :
    (valueListAllOf t vs).value = VL.allOf t vs := by
  cases vs with
  | nil => rfl
  | cons v vs =>
    rw [valueListAllOf, valueAllOf, inst_value, inst_value, andThen_value, packAllOf_value, Option.bind_some,
      concat_value]
    rfl

theorem valueListAllOf_depth (t : τ) (vs : List (VL.TVal τ)) :
    (valueListAllOf t vs).depth = vs.length + 2 := by
  cases vs with
  | nil => rfl
  | cons v vs =>
    have h : (pack ((v :: vs).map (valueAllOfImpl t))).depth ≤ 1 :=
      pack_depth_le fun x hx => by
        obtain ⟨w, _, rfl⟩ := List.mem_map.1 hx
        simp [valueAllOfImpl]
    rw [valueListAllOf, valueAllOf, inst_depth, inst_depth, andThen_depth_some (packAllOf_value t _), concat_depth,
      List.length_map, List.length_cons]
    omega

theorem packIsSame_value (u : VL.TVal τ) (vs : List (VL.TVal τ)) :
    (pack (vs.map (valueIsSame u))).value = some (vs.map fun v => VL.isSameImpl u v) := by
  induction vs with
  | nil => rfl
  | cons v vs ih => simp [pack, ih, valueIsSame]

theorem valueCountOf_value (u : VL.TVal τ) (vs : List (VL.TVal τ)) :
    (valueCountOf u vs).value = some (VL.countOf u vs) := by
  rw [valueCountOf, inst_value, andThen_value, packIsSame_value, Option.bind_some, VL.countOf]
  simp only [List.foldl_map]
  rfl

theorem valueCountOf_depth (u : VL.TVal τ) {vs : List (VL.TVal τ)} (h : vs ≠ []) :
    (valueCountOf u vs).depth = 3 := by
  rw [valueCountOf, inst_depth, andThen_depth_some (packIsSame_value u vs)]
  have h1 : (pack (vs.map (valueIsSame u))).depth ≤ 2 := pack_depth_le fun x hx => by
    obtain ⟨w, _, rfl⟩ := List.mem_map.1 hx
    exact Nat.le_refl _
  have h2 : 2 ≤ (pack (vs.map (valueIsSame u))).depth := by
    obtain ⟨v, vs, rfl⟩ := List.exists_cons_of_ne_nil h
    exact pack_depth_ge (x := valueIsSame u v) (by rw [packIsSame_value]; simp) (by simp)
  simp only [done]
  omega

omit [DecidableEq τ] in
theorem range_vals (l : List (VL.TVal τ)) :
    (List.range l.length).mapM (fun i => (VL.at' i l).map VL.TVal.val) = some (l.map VL.TVal.val) := by
  have key : ∀ (pre l : List (VL.TVal τ)),
      ((List.range l.length).map (pre.length + ·)).mapM (fun i => (VL.at' i (pre ++ l)).map VL.TVal.val) =
        some (l.map VL.TVal.val) := by
    intro pre l
    induction l generalizing pre with
    | nil => rfl
    | cons v l ih =>
      have := ih (pre ++ [v])
      rw [List.append_assoc] at this
      simp only [List.length_append, List.length_cons, List.length_nil, List.cons_append, List.nil_append] at this
      rw [List.length_cons, List.range_succ_eq_map, List.map_cons, List.map_map, List.mapM_cons]
      have e : ((List.range l.length).map ((pre.length + ·) ∘ Nat.succ)) =
          (List.range l.length).map (pre.length + (0 + 1) + ·) := by
        apply List.map_congr_left
        intro a _
        simp only [Function.comp]
        omega
      rw [e, this]
      simp [VL.at']
  have := key [] l
  simpa using this

theorem valueExtreme_min (t : τ) (vs : List (VL.TVal τ)) : (valueExtreme VL.stdMin t vs).value = VL.min t vs := by
  have h := valueListAllOf_value t vs
  rw [valueListAllOf, inst_value] at h
  rw [valueExtreme, inst_value, andThen_value, h, VL.min]
  cases VL.allOf t vs with
  | none => rfl
  | some l =>
    simp only [Option.bind_some, inst_value, Option.bind_eq_bind]
    rw [range_vals]
    rfl

theorem valueExtreme_max (t : τ) (vs : List (VL.TVal τ)) : (valueExtreme VL.stdMax t vs).value = VL.max t vs := by
  have h := valueListAllOf_value t vs
  rw [valueListAllOf, inst_value] at h
  rw [valueExtreme, inst_value, andThen_value, h, VL.max]
  cases VL.allOf t vs with
  | none => rfl
  | some l =>
    simp only [Option.bind_some, inst_value, Option.bind_eq_bind]
    rw [range_vals]
    rfl

theorem valueExtreme_depth (pick : List Int → Option Int) (t : τ) (vs : List (VL.TVal τ)) :
    (valueExtreme pick t vs).depth = vs.length + 2 := by
  have h := valueListAllOf_depth t vs
  rw [valueListAllOf, inst_depth] at h
  rw [valueExtreme, inst_depth]
  have h1 := andThen_depth_ge (valueAllOf t vs) fun l => inst (⟨pick (l.map VL.TVal.val), 0⟩ : Inst Int)
  have h2 := andThen_depth_le (x := valueAllOf t vs) (n := vs.length + 1)
    (f := fun l => inst (⟨pick (l.map VL.TVal.val), 0⟩ : Inst Int)) (by omega) (fun b _ => by rw [inst_depth]; simp)
  omega

end Values

end Utils.DepthProofs
