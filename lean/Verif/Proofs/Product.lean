import Verif.Proofs.TypeList
import Verif.Spec.Lists

/-! Lemmas about the model of `cartesian_product` and `value_list`. -/

namespace Utils.CP

open Utils.TL Utils.Spec

variable {α : Type}

/-- The list of all tuples, recursively. -/
def tuples : List (List α) → List (List α)
  | [] => [[]]
  | l :: ls => l.flatMap fun t => (tuples ls).map fun u => t :: u

theorem concatenate_ne_nil {ls : List (List α)} (h : ls ≠ []) :
    TL.concatenate ls = some ls.flatten := by
  cases ls with
  | nil => exact absurd rfl h
  | cons a ls => exact TL.concatenate_eq a ls

theorem mapM_some {β γ : Type} (f : β → γ) (l : List β) :
    l.mapM (fun x => some (f x)) = some (l.map f) := by
  induction l with
  | nil => rfl
  | cons a l ih => rw [List.mapM_cons, ih]; rfl

theorem oneElementMult_eq (t : α) (ts : List (List α)) :
    oneElementMult t ts = some (ts.map fun u => t :: u) := by
  unfold oneElementMult
  rw [← mapM_some]
  congr 1
  funext u
  rw [TL.concatenate_eq]
  simp

theorem product_eq : ∀ (ls : List (List α)), 2 ≤ ls.length → (∀ l ∈ ls.dropLast, l ≠ []) →
    product ls = some (tuples ls)
  | [], h, _ => by simp at h
  | [_], h, _ => by simp at h
  | [l1, l2], _, hne => by
    have h1 : l1 ≠ [] := hne l1 (by simp)
    rw [product, concatenate_ne_nil (by simpa using h1)]
    congr 1
    rw [tuples, List.flatMap_def]
    congr 1
    apply List.map_congr_left
    intro t _
    simp [oneElementMultFirst, tuples]
    rw [List.flatMap_def]
    induction l2 with
    | nil => rfl
    | cons a l ih => simp_all
  | l1 :: l2 :: l3 :: ls, _, hne => by
    have h1 : l1 ≠ [] := hne l1 (by simp)
    rw [product, product_eq (l2 :: l3 :: ls) (by simp) (fun l hl => hne l (by
      rw [List.dropLast_cons_of_ne_nil (by simp)]; exact List.mem_cons_of_mem _ hl))]
    simp only [Option.bind_eq_bind, Option.bind_some]
    have : (l1.mapM fun t => oneElementMult t (tuples (l2 :: l3 :: ls)))
        = some (l1.map fun t => (tuples (l2 :: l3 :: ls)).map fun u => t :: u) := by
      rw [← mapM_some]
      congr 1
      funext t
      exact oneElementMult_eq _ _
    rw [this, Option.bind_some, concatenate_ne_nil (by simpa using h1), ← List.flatMap_def]
    rfl

theorem product_none_short {ls : List (List α)} (h : ls.length < 2) : product ls = none := by
  match ls, h with
  | [], _ => rfl
  | [_], _ => rfl

theorem mapM_ne_nil {β : Type} {f : α → Option β} {l : List α} {r : List β}
    (h : l.mapM f = some r) (hl : l = []) : r = [] := by
  subst hl; simpa using h.symm

theorem product_none_empty : ∀ (ls : List (List α)), (∃ l ∈ ls.dropLast, l = []) →
    product ls = none
  | [], _ => rfl
  | [_], _ => rfl
  | [l1, l2], ⟨l, hl, he⟩ => by
    simp at hl
    subst hl
    subst he
    simp [product, TL.concatenate]
  | l1 :: l2 :: l3 :: ls, ⟨l, hl, he⟩ => by
    rw [List.dropLast_cons_of_ne_nil (by simp), List.mem_cons] at hl
    rw [product]
    rcases hl with rfl | hl
    · subst he
      cases product (l2 :: l3 :: ls) <;> simp [TL.concatenate]
    · rw [product_none_empty (l2 :: l3 :: ls) ⟨l, hl, he⟩]
      rfl

theorem length_tuples (ls : List (List α)) : (tuples ls).length = (ls.map List.length).prod := by
  induction ls with
  | nil => rfl
  | cons l ls ih =>
    rw [tuples, List.map_cons, List.prod_cons, ← ih]
    generalize tuples ls = r
    induction l with
    | nil => simp
    | cons a l ihl =>
      rw [List.flatMap_cons, List.length_append, ihl, List.length_map, List.length_cons]
      ring

theorem flatMap_getElem? {β : Type} (l : List α) (r : List β) (f : α → β → List α) (i : Nat)
    (hi : i < l.length * r.length) :
    (l.flatMap fun t => r.map fun u => f t u)[i]?
      = (do let x ← l[i / r.length]?; let y ← r[i % r.length]?; pure (f x y)) := by
  induction l generalizing i with
  | nil => simp at hi
  | cons a l ih =>
    have hr : 0 < r.length := by
      rcases Nat.eq_zero_or_pos r.length with h | h
      · rw [h] at hi; simp at hi
      · exact h
    rw [List.flatMap_cons]
    by_cases h : i < r.length
    · rw [List.getElem?_append_left (by simpa using h), Nat.div_eq_of_lt h, Nat.mod_eq_of_lt h]
      simp
      cases r[i]? <;> rfl
    · have h' : r.length ≤ i := Nat.le_of_not_lt h
      have hl : i - r.length < l.length * r.length := by
        rw [List.length_cons, Nat.succ_mul] at hi; omega
      rw [List.getElem?_append_right (by simpa using h'), List.length_map, ih _ hl]
      have e1 : i / r.length = (i - r.length) / r.length + 1 := by
        rw [Nat.div_eq i, if_pos ⟨hr, h'⟩]
      have e2 : i % r.length = (i - r.length) % r.length := Nat.mod_eq_sub_mod h'
      rw [e1, e2, List.getElem?_cons_succ]

theorem tuples_getElem? (ls : List (List α)) (i : Nat) (hi : i < (ls.map List.length).prod) :
    (tuples ls)[i]? = select ls (mixedRadix (ls.map List.length) i) := by
  induction ls generalizing i with
  | nil => simp at hi; subst hi; rfl
  | cons l ls ih =>
    have hlen := length_tuples ls
    rw [List.map_cons, List.prod_cons] at hi
    rw [tuples, flatMap_getElem? l (tuples ls) (fun t u => t :: u) i (by rw [hlen]; exact hi), hlen]
    simp only [List.map_cons, mixedRadix, select]
    have hp : 0 < (ls.map List.length).prod := by
      rcases Nat.eq_zero_or_pos (ls.map List.length).prod with h | h
      · rw [h] at hi; simp at hi
      · exact h
    rw [ih _ (Nat.mod_lt _ hp)]

theorem mem_tuples (ls : List (List α)) (tup : List α) :
    tup ∈ tuples ls ↔ OneOfEach ls tup := by
  unfold OneOfEach
  induction ls generalizing tup with
  | nil => simp [tuples]
  | cons l ls ih =>
    rw [tuples, List.mem_flatMap]
    constructor
    · rintro ⟨t, ht, h⟩
      obtain ⟨u, hu, rfl⟩ := List.mem_map.1 h
      exact .cons ht ((ih u).1 hu)
    · intro h
      cases h with
      | cons hx hxs => exact ⟨_, hx, List.mem_map.2 ⟨_, (ih _).2 hxs, rfl⟩⟩

theorem nodup_tuples (ls : List (List α)) (h : ∀ l ∈ ls, l.Nodup) : (tuples ls).Nodup := by
  induction ls with
  | nil => simp [tuples]
  | cons l ls ih =>
    have ih := ih fun m hm => h m (List.mem_cons_of_mem _ hm)
    have hl := h l List.mem_cons_self
    rw [tuples, List.flatMap_def, List.nodup_flatten]
    constructor
    · intro m hm
      obtain ⟨t, _, rfl⟩ := List.mem_map.1 hm
      exact (List.nodup_map_iff (by intro a b hab; simpa using hab)).2 ih
    · rw [List.pairwise_map]
      refine List.Pairwise.imp ?_ hl
      intro a b hab
      rw [List.disjoint_left]
      intro x hx hy
      obtain ⟨u, _, rfl⟩ := List.mem_map.1 hx
      obtain ⟨v, _, h2⟩ := List.mem_map.1 hy
      simp at h2
      exact hab h2.1.symm

end Utils.CP

namespace Utils.VL

variable {τ : Type} [DecidableEq τ]

theorem isSameImpl_eq (a b : TVal τ) : isSameImpl a b = decide (a = b) := by
  unfold isSameImpl
  cases a with | mk t v => cases b with | mk u w =>
  by_cases h : t = u
  · simp [h]
  · simp [h]

theorem countOf_eq (v : TVal τ) (vs : List (TVal τ)) : countOf v vs = vs.count v := by
  rw [← TL.countOf_eq]
  unfold countOf TL.countOf
  simp only [isSameImpl_eq, decide_eq_true_iff]

theorem indexOf_eq (v : TVal τ) (vs : List (TVal τ)) :
    indexOf v vs = vs.findIdx (fun u => decide (v = u)) := by
  rw [← TL.indexOf_eq]
  unfold indexOf TL.indexOf
  generalize 0 = i
  induction vs generalizing i with
  | nil => rfl
  | cons u us ih => rw [indexOfImpl, TL.indexOfImpl, ih, isSameImpl_eq]

theorem allOf_eq (t : τ) (vs : List (TVal τ)) :
    allOf t vs = some (vs.filter fun v => decide (v.ty = t)) := by
  cases vs with
  | nil => rfl
  | cons v vs =>
    have := TL.listOfPredicateCompliant_eq (fun v : TVal τ => decide (v.ty = t)) (v :: vs)
    unfold TL.listOfPredicateCompliant at this
    rw [if_neg (by simp)] at this
    simp only [decide_eq_true_iff] at this
    rw [← this]
    rfl

omit [DecidableEq τ] in
theorem values_eq (l : List (TVal τ)) :
    (List.range l.length).mapM (fun i => (at' i l).map TVal.val) = some (l.map TVal.val) := by
  have : ∀ n, n ≤ l.length → (List.range n).mapM (fun i => (at' i l).map TVal.val)
      = some ((l.map TVal.val).take n) := by
    intro n
    induction n with
    | zero => simp
    | succ n ih =>
      intro hn
      rw [List.range_succ, List.mapM_append, ih (by omega)]
      have hg : l[n]? = some l[n] := List.getElem?_eq_getElem (by omega)
      rw [List.take_add_one]
      simp [at', hg]
  rw [this _ (Nat.le_refl _), List.take_of_length_le (by simp)]

theorem foldl_min (xs : List Int) (x : Int) :
    (xs.foldl (fun m y => if y < m then y else m) x) ∈ x :: xs ∧
    ∀ y ∈ x :: xs, xs.foldl (fun m y => if y < m then y else m) x ≤ y := by
  induction xs generalizing x with
  | nil => simp
  | cons a xs ih =>
    rw [List.foldl_cons]
    obtain ⟨h1, h2⟩ := ih (if a < x then a else x)
    constructor
    · rcases List.mem_cons.1 h1 with h | h
      · rw [h]; split <;> simp
      · simp [h]
    · intro y hy
      have h3 := h2 _ List.mem_cons_self
      simp only [List.mem_cons] at hy
      rcases hy with rfl | rfl | hy
      · split at h3 <;> (rename_i hc; split <;> omega)
      · split at h3 <;> (rename_i hc; split <;> omega)
      · exact h2 _ (List.mem_cons_of_mem _ hy)

theorem foldl_max (xs : List Int) (x : Int) :
    (xs.foldl (fun m y => if m < y then y else m) x) ∈ x :: xs ∧
    ∀ y ∈ x :: xs, y ≤ xs.foldl (fun m y => if m < y then y else m) x := by
  induction xs generalizing x with
  | nil => simp
  | cons a xs ih =>
    rw [List.foldl_cons]
    obtain ⟨h1, h2⟩ := ih (if x < a then a else x)
    constructor
    · rcases List.mem_cons.1 h1 with h | h
      · rw [h]; split <;> simp
      · simp [h]
    · intro y hy
      have h3 := h2 _ List.mem_cons_self
      simp only [List.mem_cons] at hy
      rcases hy with rfl | rfl | hy
      · split at h3 <;> (rename_i hc; split <;> omega)
      · split at h3 <;> (rename_i hc; split <;> omega)
      · exact h2 _ (List.mem_cons_of_mem _ hy)

theorem min_eq (t : τ) (vs : List (TVal τ)) :
    min t vs = stdMin ((vs.filter fun v => decide (v.ty = t)).map TVal.val) := by
  unfold min
  rw [allOf_eq]
  simp only [Option.bind_eq_bind, Option.bind_some, values_eq]

theorem max_eq (t : τ) (vs : List (TVal τ)) :
    max t vs = stdMax ((vs.filter fun v => decide (v.ty = t)).map TVal.val) := by
  unfold max
  rw [allOf_eq]
  simp only [Option.bind_eq_bind, Option.bind_some, values_eq]

end Utils.VL
