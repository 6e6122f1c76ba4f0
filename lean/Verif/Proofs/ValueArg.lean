import Verif.Spec.ValueArg
import Verif.Proofs.Product

/-! Lemmas about Model/ValueArg.lean. -/

namespace Utils.VA

open Utils.Spec

variable {τ : Type} [DecidableEq τ] {env : Nat → Entity}

theorem isSameImpl_told {a b : Arg τ} (h : ToldApart env a b) :
    isSameImpl env a b = some (decide (a = b)) := by
  cases a with
  | val t v =>
    cases b with
    | val u w =>
      unfold isSameImpl
      by_cases ht : t = u <;> simp [ht]
    | ref u b => simp [isSameImpl]
  | ref t x =>
    cases b with
    | val u w => simp [isSameImpl]
    | ref u y =>
      by_cases ht : t = u
      · subst ht
        simp only [isSameImpl, if_true]
        unfold equalEntities
        rcases h t x y rfl rfl with ⟨h1, h2⟩ | ⟨v, w, h1, h2, h3⟩
        · rw [h1, h2]
          simp
        · rw [h1, h2]
          by_cases hv : v = w
          · simp [hv, h3 hv]
          · have : x ≠ y := by
              rintro rfl
              rw [h1] at h2
              cases h2
              exact hv rfl
            simp [hv, this]
      · simp [isSameImpl, ht]

theorem isSameImpl_only {a b : Arg τ} (h : isSameImpl env a b = some (decide (a = b))) :
    ToldApart env a b := by
  rintro t x y rfl rfl
  simp only [isSameImpl, if_true] at h
  unfold equalEntities at h
  split at h
  · rename_i h1 h2
    exact .inl ⟨h1, h2⟩
  · rename_i v w h1 h2
    refine .inr ⟨v, w, h1, h2, fun hv => ?_⟩
    subst hv
    simpa using h
  · cases h

end Utils.VA

namespace Utils.CP

open Utils.Spec

variable {α β : Type} {isRef : β → Bool}

theorem sameKind_refl (a : Pack α β) : SameKind a a := by
  cases a
  · exact .inl ⟨_, _, rfl, rfl⟩
  · exact .inr ⟨_, _, rfl, rfl⟩

theorem sameKind_symm {a b : Pack α β} (h : SameKind a b) : SameKind b a := by
  rcases h with ⟨l, m, rfl, rfl⟩ | ⟨l, m, rfl, rfl⟩
  · exact .inl ⟨_, _, rfl, rfl⟩
  · exact .inr ⟨_, _, rfl, rfl⟩

theorem sameKind_trans {a b c : Pack α β} (h : SameKind a b) (h' : SameKind b c) :
    SameKind a c := by
  rcases h with ⟨l, m, rfl, rfl⟩ | ⟨l, m, rfl, rfl⟩ <;>
    rcases h' with ⟨l', m', e, rfl⟩ | ⟨l', m', e, rfl⟩ <;> cases e
  · exact .inl ⟨_, _, rfl, rfl⟩
  · exact .inr ⟨_, _, rfl, rfl⟩

theorem concatenate_isSome {γ : Type} (ls : List (List γ)) :
    TL.concatenate ls = if ls = [] then none else some ls.flatten := by
  by_cases h : ls = []
  · subst h
    simp [TL.concatenate]
  · rw [if_neg h, concatenate_ne_nil h]

theorem append_some {a b : Pack α β} :
    (SameKind a b → ∃ c, Pack.append a b = some c ∧ SameKind c a) ∧
    (¬ SameKind a b → Pack.append a b = none) := by
  cases a with
  | types a =>
    cases b with
    | types b =>
      exact ⟨fun _ => ⟨_, rfl, .inl ⟨_, _, rfl, rfl⟩⟩, fun h => absurd (.inl ⟨_, _, rfl, rfl⟩) h⟩
    | values b =>
      refine ⟨fun h => ?_, fun _ => rfl⟩
      rcases h with ⟨_, _, _, e⟩ | ⟨_, _, e, _⟩ <;> cases e
  | values a =>
    cases b with
    | values b =>
      exact ⟨fun _ => ⟨_, rfl, .inr ⟨_, _, rfl, rfl⟩⟩, fun h => absurd (.inr ⟨_, _, rfl, rfl⟩) h⟩
    | types b =>
      refine ⟨fun h => ?_, fun _ => rfl⟩
      rcases h with ⟨_, _, e, _⟩ | ⟨_, _, _, e⟩ <;> cases e

/-- `mapM` of a function that is defined everywhere. -/
theorem mapM_all {γ δ : Type} (f : γ → Option δ) (Q : δ → Prop) :
    ∀ (l : List γ), (∀ x ∈ l, ∃ y, f x = some y ∧ Q y) →
      ∃ r, l.mapM f = some r ∧ r.length = l.length ∧ ∀ y ∈ r, Q y
  | [], _ => ⟨[], rfl, rfl, by simp⟩
  | x :: l, h => by
    obtain ⟨y, hy, qy⟩ := h x (by simp)
    obtain ⟨r, hr, lr, qr⟩ := mapM_all f Q l fun z hz => h z (by simp [hz])
    refine ⟨y :: r, ?_, by simp [lr], ?_⟩
    · simp [List.mapM_cons, hy, hr]
    · intro z hz
      rcases List.mem_cons.1 hz with rfl | hz
      · exact qy
      · exact qr z hz

theorem mapM_none {γ δ : Type} (f : γ → Option δ) :
    ∀ (l : List γ), (∃ x ∈ l, f x = none) → l.mapM f = none
  | [], h => by simp at h
  | x :: l, ⟨y, hy, hn⟩ => by
    rw [List.mapM_cons]
    cases hf : f x with
    | none => rfl
    | some z =>
      rcases List.mem_cons.1 hy with rfl | hy
      · rw [hf] at hn
        cases hn
      · rw [mapM_none f l ⟨y, hy, hn⟩]
        rfl

/-- The entries of the factor, each as a list of one element. -/
def singles : Pack α β → List (Pack α β)
  | .types ts => ts.map fun t => .types [t]
  | .values vs => vs.map fun v => .values [v]

theorem singles_nil {a : Pack α β} : singles a = [] ↔ EmptyPack a := by
  cases a <;> simp [singles, EmptyPack]

theorem singles_kind {a s : Pack α β} (h : s ∈ singles a) : SameKind s a := by
  cases a with
  | types ts =>
    obtain ⟨t, _, rfl⟩ := List.mem_map.1 h
    exact .inl ⟨_, _, rfl, rfl⟩
  | values vs =>
    obtain ⟨t, _, rfl⟩ := List.mem_map.1 h
    exact .inr ⟨_, _, rfl, rfl⟩

theorem noRefs_iff {vs : List β} : NoRefs (α := α) isRef (.values vs) ↔ vs.any isRef = false := by
  unfold NoRefs
  rw [List.any_eq_false]
  constructor
  · intro h v hv
    rw [h _ rfl v hv]
    decide
  · rintro h l rfl' v hv
    cases rfl'
    simpa using h v hv

theorem productMore_eq (l1 : Pack α β) (r : List (Pack α β)) :
    (NoRefs isRef l1 → productMore isRef l1 r =
      (((singles l1).mapM fun s => r.mapM fun u => Pack.append s u).bind TL.concatenate)) ∧
    (¬ NoRefs isRef l1 → productMore isRef l1 r = none) := by
  cases l1 with
  | types ts =>
    refine ⟨fun _ => ?_, fun h => absurd (fun l e => nomatch e) h⟩
    simp only [productMore, singles, List.mapM_map]
    rfl
  | values vs =>
    rw [noRefs_iff]
    constructor
    · intro h
      simp only [productMore, h, singles, List.mapM_map]
      rfl
    · intro h
      rw [Bool.not_eq_false] at h
      simp only [productMore, h, if_true]

theorem productMore_ok {l1 : Pack α β} {r : List (Pack α β)} (hr : NoRefs isRef l1)
    (he : ¬ EmptyPack l1) (hk : ∀ u ∈ r, SameKind l1 u) :
    ∃ r', productMore isRef l1 r = some r' ∧ (r' = [] ↔ r = []) ∧ ∀ x ∈ r', SameKind x l1 := by
  obtain ⟨parts, hp, hl, hq⟩ := mapM_all (fun s => r.mapM fun u => Pack.append s u)
    (fun p => p.length = r.length ∧ ∀ x ∈ p, SameKind x l1) (singles l1) (by
      intro s hs
      obtain ⟨p, e, l, q⟩ := mapM_all (fun u => Pack.append s u) (fun x => SameKind x l1) r (by
        intro u hu
        obtain ⟨c, hc, kc⟩ := append_some.1 (sameKind_trans (singles_kind hs) (hk u hu))
        exact ⟨c, hc, sameKind_trans kc (singles_kind hs)⟩)
      exact ⟨p, e, l, q⟩)
  have hne : parts ≠ [] := by
    rintro rfl
    exact he (singles_nil.1 (List.eq_nil_of_length_eq_zero hl.symm))
  refine ⟨parts.flatten, ?_, ?_, ?_⟩
  · rw [(productMore_eq l1 r).1 hr, hp, Option.bind_some, concatenate_isSome, if_neg hne]
  · rw [List.flatten_eq_nil_iff]
    constructor
    · intro h
      obtain ⟨p, hp'⟩ := List.exists_mem_of_ne_nil _ hne
      have := (hq p hp').1
      rw [h p hp'] at this
      exact List.eq_nil_of_length_eq_zero this.symm
    · rintro rfl p hp'
      exact List.eq_nil_of_length_eq_zero (hq p hp').1
  · intro x hx
    obtain ⟨p, hp', hx⟩ := List.mem_flatten.1 hx
    exact (hq p hp').2 x hx

theorem productMore_bad {l1 : Pack α β} {r : List (Pack α β)}
    (h : ¬ NoRefs isRef l1 ∨ EmptyPack l1 ∨ ∃ u ∈ r, ¬ SameKind l1 u) :
    productMore isRef l1 r = none := by
  by_cases hr : NoRefs isRef l1
  · rw [(productMore_eq l1 r).1 hr]
    rcases h.resolve_left (fun h => h hr) with he | ⟨u, hu, hk⟩
    · rw [singles_nil.2 he]
      simp [TL.concatenate]
    · cases hs : singles l1 with
      | nil => simp [TL.concatenate]
      | cons s ss =>
        rw [mapM_none _ (s :: ss) ⟨s, by simp, mapM_none _ r ⟨u, hu, append_some.2 fun h => hk
          (sameKind_trans (sameKind_symm (singles_kind (by rw [hs]; simp))) h)⟩⟩]
        rfl
  · exact (productMore_eq l1 r).2 hr

theorem productTwo_ok {a b : Pack α β} (ha : NoRefs isRef a) (hb : NoRefs isRef b)
    (he : ¬ EmptyPack a) (hk : SameKind a b) :
    ∃ r, productTwo isRef a b = some r ∧ (r = [] ↔ EmptyPack b) ∧ ∀ x ∈ r, SameKind x b := by
  rcases hk with ⟨l, m, rfl, rfl⟩ | ⟨l, m, rfl, rfl⟩
  · have hl : l ≠ [] := fun h => he (.inl (by rw [h]))
    refine ⟨_, by rw [productTwo, concatenate_isSome, if_neg (by simpa using hl)], ?_, ?_⟩
    · rw [List.flatten_eq_nil_iff]
      obtain ⟨t, ht⟩ := List.exists_mem_of_ne_nil _ hl
      constructor
      · intro h
        have := h _ (List.mem_map.2 ⟨t, ht, rfl⟩)
        exact .inl (by rw [List.map_eq_nil_iff.1 this])
      · rintro (e | e) p hp <;> cases e
        obtain ⟨_, _, rfl⟩ := List.mem_map.1 hp
        rfl
    · intro x hx
      obtain ⟨p, hp, hx⟩ := List.mem_flatten.1 hx
      obtain ⟨t, _, rfl⟩ := List.mem_map.1 hp
      obtain ⟨u, _, rfl⟩ := List.mem_map.1 hx
      exact .inl ⟨_, _, rfl, rfl⟩
  · have hl : l ≠ [] := fun h => he (.inr (by rw [h]))
    rw [noRefs_iff] at ha hb
    refine ⟨_, by rw [productTwo, ha, hb, if_neg (by decide), concatenate_isSome,
      if_neg (by simpa using hl)], ?_, ?_⟩
    · rw [List.flatten_eq_nil_iff]
      obtain ⟨t, ht⟩ := List.exists_mem_of_ne_nil _ hl
      constructor
      · intro h
        have := h _ (List.mem_map.2 ⟨t, ht, rfl⟩)
        exact .inr (by rw [List.map_eq_nil_iff.1 this])
      · rintro (e | e) p hp <;> cases e
        obtain ⟨_, _, rfl⟩ := List.mem_map.1 hp
        rfl
    · intro x hx
      obtain ⟨p, hp, hx⟩ := List.mem_flatten.1 hx
      obtain ⟨t, _, rfl⟩ := List.mem_map.1 hp
      obtain ⟨u, _, rfl⟩ := List.mem_map.1 hx
      exact .inr ⟨_, _, rfl, rfl⟩

theorem productTwo_bad {a b : Pack α β}
    (h : ¬ (NoRefs isRef a ∧ NoRefs isRef b ∧ ¬ EmptyPack a ∧ SameKind a b)) :
    productTwo isRef a b = none := by
  by_cases hk : SameKind a b
  · rcases hk with ⟨l, m, rfl, rfl⟩ | ⟨l, m, rfl, rfl⟩
    · have : l = [] := by
        by_contra hl
        exact h ⟨fun _ e => (nomatch e), fun _ e => (nomatch e), by simp [EmptyPack, hl],
          .inl ⟨_, _, rfl, rfl⟩⟩
      subst this
      simp [productTwo, TL.concatenate]
    · rw [productTwo]
      split
      · rfl
      · rename_i hr
        rw [Bool.not_eq_true, Bool.or_eq_false_iff] at hr
        have : l = [] := by
          by_contra hl
          exact h ⟨noRefs_iff.2 hr.1, noRefs_iff.2 hr.2, by simp [EmptyPack, hl],
            .inr ⟨_, _, rfl, rfl⟩⟩
        subst this
        simp [TL.concatenate]
  · cases a <;> cases b
    · exact absurd (.inl ⟨_, _, rfl, rfl⟩) hk
    · rfl
    · rfl
    · exact absurd (.inr ⟨_, _, rfl, rfl⟩) hk

theorem productOf_cons (l : Pack α β) (pre : List (Pack α β)) (a b : Pack α β) :
    productOf isRef (l :: (pre ++ [a, b])) =
      (productOf isRef (pre ++ [a, b])).bind fun r => productMore isRef l r := by
  cases pre with
  | nil => rfl
  | cons x pre =>
    cases pre with
    | nil => rfl
    | cons y pre => rfl

/-- The conditions of `ProductCompiles` on a decomposed list. -/
def Conds (isRef : β → Bool) (pre : List (Pack α β)) (a b : Pack α β) : Prop :=
  (∀ l ∈ pre ++ [a], ¬ EmptyPack l) ∧ (∀ l ∈ pre ++ [a, b], NoRefs isRef l) ∧
    SameKind a b ∧ (EmptyPack b ∨ ∀ l ∈ pre, SameKind l b)

theorem productOf_conds (a b : Pack α β) : ∀ (pre : List (Pack α β)),
    (Conds isRef pre a b → ∃ r, productOf isRef (pre ++ [a, b]) = some r ∧
      (r = [] ↔ EmptyPack b) ∧ ∀ x ∈ r, SameKind x b) ∧
    (¬ Conds isRef pre a b → productOf isRef (pre ++ [a, b]) = none)
  | [] => by
    constructor
    · rintro ⟨h1, h2, h3, -⟩
      exact productTwo_ok (h2 a (by simp)) (h2 b (by simp)) (h1 a (by simp)) h3
    · intro h
      refine productTwo_bad fun ⟨h1, h2, h3, h4⟩ => h ⟨?_, ?_, h4, .inr (by simp)⟩
      · intro l hl
        rw [List.nil_append, List.mem_singleton] at hl
        rwa [hl]
      · intro l hl
        simp only [List.nil_append, List.mem_cons, List.not_mem_nil, or_false] at hl
        rcases hl with rfl | rfl <;> assumption
  | l :: pre => by
    obtain ⟨ih1, ih2⟩ := productOf_conds a b pre
    rw [List.cons_append, productOf_cons]
    by_cases hc : Conds isRef pre a b
    · obtain ⟨r, e, hr, hk⟩ := ih1 hc
      rw [e, Option.bind_some]
      constructor
      · rintro ⟨h1, h2, h3, h4⟩
        obtain ⟨r', e', g1, g2⟩ := productMore_ok (r := r) (h2 l (by simp)) (h1 l (by simp)) (by
          intro u hu
          rcases h4 with h4 | h4
          · rw [hr.2 h4] at hu
            simp at hu
          · exact sameKind_trans (h4 l (by simp)) (sameKind_symm (hk u hu)))
        refine ⟨r', e', g1.trans hr, fun x hx => ?_⟩
        rcases h4 with h4 | h4
        · rw [g1.2 (hr.2 h4)] at hx
          simp at hx
        · exact sameKind_trans (g2 x hx) (h4 l (by simp))
      · intro h
        by_cases hn : NoRefs isRef l
        · by_cases he : EmptyPack l
          · exact productMore_bad (.inr (.inl he))
          · refine productMore_bad (.inr (.inr ?_))
            obtain ⟨c1, c2, c3, c4⟩ := hc
            have hb : ¬ EmptyPack b ∧ ¬ SameKind l b := by
              rw [← not_or]
              intro hor
              refine h ⟨?_, ?_, c3, ?_⟩
              · intro x hx
                rcases List.mem_cons.1 hx with rfl | hx
                · exact he
                · exact c1 x hx
              · intro x hx
                rcases List.mem_cons.1 hx with rfl | hx
                · exact hn
                · exact c2 x hx
              · rcases hor with hor | hor
                · exact .inl hor
                · refine c4.imp id fun c4 x hx => ?_
                  rcases List.mem_cons.1 hx with rfl | hx
                  · exact hor
                  · exact c4 x hx
            obtain ⟨u, hu⟩ := List.exists_mem_of_ne_nil r fun h => hb.1 (hr.1 h)
            exact ⟨u, hu, fun hs => hb.2 (sameKind_trans hs (hk u hu))⟩
        · exact productMore_bad (.inl hn)
    · rw [ih2 hc, Option.bind_none]
      refine ⟨fun ⟨h1, h2, h3, h4⟩ => absurd ⟨?_, ?_, h3, ?_⟩ hc, fun _ => rfl⟩
      · exact fun x hx => h1 x (List.mem_cons_of_mem _ hx)
      · exact fun x hx => h2 x (List.mem_cons_of_mem _ hx)
      · exact h4.imp id fun h4 x hx => h4 x (List.mem_cons_of_mem _ hx)

/-- On type lists alone, `productOf` is the product of Model/TypeList.lean. -/
theorem productOf_types : ∀ (ls : List (List α)),
    productOf (β := β) isRef (ls.map .types) = (product ls).map fun r => r.map .types
  | [] => rfl
  | [_] => rfl
  | [l1, l2] => by
    simp only [List.map_cons, List.map_nil, productOf, productTwo, product, concatenate_isSome,
      oneElementMultFirst]
    by_cases h : l1 = []
    · simp [h]
    · simp [h, List.map_flatten, Function.comp_def]
  | l1 :: l2 :: l3 :: ls => by
    have ih := productOf_types (l2 :: l3 :: ls)
    simp only [List.map_cons] at ih
    simp only [List.map_cons, productOf, product, ih]
    cases product (l2 :: l3 :: ls) with
    | none => rfl
    | some r =>
      simp only [Option.map_some, Option.bind_eq_bind, Option.bind_some, productMore]
      have e1 : (fun t : α => (r.map Pack.types).mapM fun u => Pack.append (β := β) (.types [t]) u) =
          fun t => some (r.map fun u => .types (t :: u)) := by
        funext t
        rw [List.mapM_map]
        exact List.mapM_pure (m := Option) (l := r) (f := fun u => Pack.types (t :: u))
      have e2 : (fun t => oneElementMult t r) = fun t => some (r.map fun u => t :: u) := by
        funext t
        have : (fun u : List α => TL.concatenate [[t], u]) = fun u => some (t :: u) := by
          funext u
          rw [concatenate_isSome]
          simp
        rw [oneElementMult, this]
        exact List.mapM_pure (m := Option) (l := r) (f := fun u => t :: u)
      rw [e1, e2]
      have p1 := List.mapM_pure (m := Option) (l := l1)
        (f := fun t => r.map fun u => (Pack.types (t :: u) : Pack α β))
      have p2 := List.mapM_pure (m := Option) (l := l1) (f := fun t => r.map fun u => t :: u)
      simp only [Option.pure_def] at p1 p2
      rw [p1, p2, Option.bind_some, Option.bind_some, concatenate_isSome, concatenate_isSome]
      by_cases h : l1 = []
      · simp [h]
      · simp [h, List.map_flatten, Function.comp_def]

/-- The same for value lists without references. -/
theorem productOf_values : ∀ (ls : List (List β)), (∀ l ∈ ls, l.any isRef = false) →
    productOf (α := α) isRef (ls.map .values) = (product ls).map fun r => r.map .values
  | [], _ => rfl
  | [_], _ => rfl
  | [l1, l2], hr => by
    simp only [List.map_cons, List.map_nil, productOf, productTwo, product, concatenate_isSome,
      oneElementMultFirst, hr l1 (by simp), hr l2 (by simp)]
    by_cases h : l1 = []
    · simp [h]
    · simp [h, List.map_flatten, Function.comp_def]
  | l1 :: l2 :: l3 :: ls, hr => by
    have ih := productOf_values (l2 :: l3 :: ls) fun l hl => hr l (List.mem_cons_of_mem _ hl)
    simp only [List.map_cons] at ih
    simp only [List.map_cons, productOf, product, ih]
    cases product (l2 :: l3 :: ls) with
    | none => rfl
    | some r =>
      simp only [Option.map_some, Option.bind_eq_bind, Option.bind_some, productMore, hr l1 (by simp)]
      have e1 : (fun t : β => (r.map Pack.values).mapM fun u => Pack.append (α := α) (.values [t]) u) =
          fun t => some (r.map fun u => .values (t :: u)) := by
        funext t
        rw [List.mapM_map]
        exact List.mapM_pure (m := Option) (l := r) (f := fun u => Pack.values (t :: u))
      have e2 : (fun t => oneElementMult t r) = fun t => some (r.map fun u => t :: u) := by
        funext t
        have : (fun u : List β => TL.concatenate [[t], u]) = fun u => some (t :: u) := by
          funext u
          rw [concatenate_isSome]
          simp
        rw [oneElementMult, this]
        exact List.mapM_pure (m := Option) (l := r) (f := fun u => t :: u)
      rw [e1, e2]
      have p1 := List.mapM_pure (m := Option) (l := l1)
        (f := fun t => r.map fun u => (Pack.values (t :: u) : Pack α β))
      have p2 := List.mapM_pure (m := Option) (l := l1) (f := fun t => r.map fun u => t :: u)
      simp only [Option.pure_def] at p1 p2
      rw [p1, p2, Option.bind_some, Option.bind_some, concatenate_isSome, concatenate_isSome]
      by_cases h : l1 = []
      · simp [h]
      · simp [h, List.map_flatten, Function.comp_def]

end Utils.CP
