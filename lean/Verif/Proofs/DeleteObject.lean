import Verif.Spec.DeleteObject

/-! # Lemmas about `delete_object` -/

namespace Utils.DeleteProofs

open Utils.Delete Utils.Spec

mutual
theorem destroy_eq (at_ : List Nat) : ∀ c : Cls, c.destroy at_ = (constructed at_ c).reverse
  | .mk _ _ _ bases => by
    simp [Cls.destroy, constructed, destroyBases_eq at_ 0 bases]
theorem destroyBases_eq (at_ : List Nat) (i : Nat) :
    ∀ l : List Cls, destroyBases at_ i l = (constructedBases at_ i l).reverse
  | [] => by simp [destroyBases, constructedBases]
  | b :: l => by
    simp [destroyBases, constructedBases, destroy_eq (at_ ++ [i]) b, destroyBases_eq at_ (i + 1) l]
end

mutual
theorem destroy_prefix (at_ : List Nat) : ∀ (c : Cls), ∀ x ∈ c.destroy at_, at_ <+: x
  | .mk _ _ _ bases => by
    intro x hx
    rw [Cls.destroy, List.mem_cons] at hx
    rcases hx with rfl | hx
    · exact List.prefix_rfl
    · exact destroyBases_prefix at_ 0 bases x hx
theorem destroyBases_prefix (at_ : List Nat) (i : Nat) : ∀ l : List Cls, ∀ x ∈ destroyBases at_ i l, at_ <+: x
  | [] => by simp [destroyBases]
  | b :: l => by
    intro x hx
    rw [destroyBases, List.mem_append] at hx
    rcases hx with hx | hx
    · exact destroyBases_prefix at_ (i + 1) l x hx
    · exact (List.prefix_append _ _).trans (destroy_prefix (at_ ++ [i]) b x hx)
end

theorem self_mem_destroy (at_ : List Nat) (c : Cls) : at_ ∈ c.destroy at_ := by
  cases c
  simp [Cls.destroy]

mutual
theorem polymorphic_of_dtor : ∀ c : Cls, c.hasVirtualDtor = true → c.polymorphic = true
  | .mk d o n bases => by
    simp only [Cls.hasVirtualDtor, Cls.polymorphic, Bool.or_eq_true]
    rintro (h | h)
    · exact Or.inl (Or.inl h)
    · exact Or.inr (any_of_dtor bases h)
theorem any_of_dtor : ∀ l : List Cls, anyVirtualDtor l = true → anyPolymorphic l = true
  | [] => by simp [anyVirtualDtor]
  | b :: l => by
    simp only [anyVirtualDtor, anyPolymorphic, Bool.or_eq_true]
    rintro (h | h)
    · exact Or.inl (polymorphic_of_dtor b h)
    · exact Or.inr (any_of_dtor l h)
end

theorem any_eq (l : List Cls) : anyPolymorphic l = l.any Cls.polymorphic := by
  induction l with
  | nil => rfl
  | cons b l ih => simp [anyPolymorphic, ih]

theorem wordsOf_append (l r : List Cls) : wordsOf (l ++ r) = wordsOf l + wordsOf r := by
  induction l with
  | nil => simp [wordsOf]
  | cons b l ih => simp only [List.cons_append, wordsOf, ih]; omega

theorem words_le_wordsOf {b : Cls} {l : List Cls} (h : b ∈ l) : b.words ≤ wordsOf l := by
  induction l with
  | nil => cases h
  | cons c l ih =>
    rw [wordsOf]
    rcases List.mem_cons.1 h with rfl | h
    · omega
    · have := ih h
      omega

mutual
theorem words_pos : ∀ c : Cls, c.polymorphic = true → 0 < c.words
  | .mk d o n bases => by
    intro h
    rw [Cls.polymorphic] at h
    rw [Cls.words]
    cases hb : anyPolymorphic bases with
    | true =>
      have := wordsOf_pos bases hb
      omega
    | false =>
      rw [hb, Bool.or_false] at h
      rw [h]
      simp
      omega
theorem wordsOf_pos : ∀ l : List Cls, anyPolymorphic l = true → 0 < wordsOf l
  | [] => by simp [anyPolymorphic]
  | b :: l => by
    intro h
    rw [anyPolymorphic, Bool.or_eq_true] at h
    rw [wordsOf]
    rcases h with h | h
    · have := words_pos b h
      omega
    · have := wordsOf_pos l h
      omega
end

theorem sub_polymorphic {c u : Cls} {path : List Nat} (h : sub c path = some u) (hu : u.polymorphic = true) :
    c.polymorphic = true := by
  induction path generalizing c with
  | nil => simp only [sub, Option.some.injEq] at h; rw [h, hu]
  | cons i path ih =>
    simp only [sub] at h
    cases hb : c.bases[i]? with
    | none => rw [hb] at h; cases h
    | some b =>
      rw [hb] at h
      have hp := ih h
      have hm := List.mem_of_getElem? hb
      cases c with
      | mk d o n bases =>
        simp only [Cls.polymorphic, any_eq, Bool.or_eq_true, List.any_eq_true]
        exact Or.inr ⟨b, hm, hp⟩

theorem wordsOf_take {b : Cls} {l : List Cls} {i : Nat} (h : l[i]? = some b) :
    wordsOf l = wordsOf (l.take i) + b.words + wordsOf (l.drop (i + 1)) := by
  obtain ⟨hi, rfl⟩ := List.getElem?_eq_some_iff.1 h
  conv => lhs; rw [← List.take_append_drop i l, List.drop_eq_getElem_cons hi]
  rw [wordsOf_append, wordsOf]
  omega

theorem wordsOf_take_le (l : List Cls) (i : Nat) : wordsOf (l.take i) ≤ wordsOf l := by
  conv => rhs; rw [← List.take_append_drop i l]
  rw [wordsOf_append]
  omega

theorem words_eq (c : Cls) : ∃ n, c.words =
    (if c.polymorphic && !anyPolymorphic c.bases then 1 else 0) + wordsOf c.bases + n := by
  cases c with
  | mk d o n bases =>
    refine ⟨n, ?_⟩
    simp only [Cls.words, Cls.polymorphic, Cls.bases]
    have : ∀ x : Bool, ((d || o) && !x) = ((d || o || x) && !x) := by
      intro x
      cases x <;> simp
    congr 2
    exact ite_congr (by rw [this]) (fun _ => rfl) (fun _ => rfl)

/-- A base lies inside its class. -/
theorem baseOffset_le {c b : Cls} {i : Nat} (h : c.bases[i]? = some b) : baseOffset c i + b.words ≤ c.words := by
  obtain ⟨n, hn⟩ := words_eq c
  have ht := wordsOf_take h
  unfold baseOffset
  split
  · rename_i hf
    rw [List.findIdx?_eq_none_iff] at hf
    have ha : anyPolymorphic c.bases = false := by
      rw [any_eq, List.any_eq_false]
      intro x hx
      simp [hf x hx]
    rw [ha] at hn
    simp only [Bool.not_false, Bool.and_true] at hn
    omega
  · rename_i k hf
    split
    · omega
    · split
      · rename_i hik
        -- the primary base lies behind in the list
        have hk : wordsOf ((c.bases.drop k).take 1) ≤ wordsOf (c.bases.drop (i + 1)) := by
          have : c.bases.drop k = (c.bases.drop (i + 1)).drop (k - (i + 1)) := by
            rw [List.drop_drop]
            congr 1
            omega
          rw [this]
          refine Nat.le_trans (wordsOf_take_le _ _) ?_
          conv => rhs; rw [← List.take_append_drop (k - (i + 1)) (c.bases.drop (i + 1))]
          rw [wordsOf_append]
          omega
        omega
      · omega

theorem offset_le {c u : Cls} {path : List Nat} (h : sub c path = some u) :
    offset c path + u.words ≤ c.words := by
  induction path generalizing c with
  | nil => simp only [sub, Option.some.injEq] at h; simp [offset, h]
  | cons i path ih =>
    simp only [sub] at h
    cases hb : c.bases[i]? with
    | none => rw [hb] at h; cases h
    | some b =>
      rw [hb] at h
      have h1 := ih h
      have h2 := baseOffset_le hb
      simp only [offset, hb]
      omega

/-- A polymorphic base lies at the beginning iff it is the first one. -/
theorem baseOffset_zero {c b : Cls} {i : Nat} (h : c.bases[i]? = some b) (hp : b.polymorphic = true) :
    baseOffset c i = 0 ↔ ∀ b' ∈ c.bases.take i, b'.polymorphic = false := by
  obtain ⟨hi, hbi⟩ := List.getElem?_eq_some_iff.1 h
  unfold baseOffset
  split
  · rename_i hf
    rw [List.findIdx?_eq_none_iff] at hf
    have := hf b (List.mem_of_getElem? h)
    rw [hp] at this
    cases this
  · rename_i k hf
    rw [List.findIdx?_eq_some_iff_getElem] at hf
    obtain ⟨hk, hkp, hmin⟩ := hf
    split
    · rename_i hik
      subst hik
      simp only [true_iff]
      intro b' hb'
      obtain ⟨j, hj, rfl⟩ := List.mem_iff_getElem.1 hb'
      rw [List.length_take] at hj
      rw [List.getElem_take]
      simpa using hmin j (by omega)
    · rename_i hne
      have hki : k < i := by
        refine Nat.lt_of_not_le fun hc => ?_
        have := hmin i (by omega)
        rw [hbi, hp] at this
        simp at this
      rw [if_neg (by omega)]
      have hmem : c.bases[k] ∈ c.bases.take i := by
        rw [List.mem_take_iff_getElem]
        exact ⟨k, by omega, rfl⟩
      have h1 := words_le_wordsOf hmem
      have h2 := words_pos _ hkp
      constructor
      · intro h0
        omega
      · intro hall
        rw [hall _ hmem] at hkp
        cases hkp

theorem offset_zero {c u : Cls} {path : List Nat} (h : sub c path = some u) (hp : u.polymorphic = true) :
    offset c path = 0 ↔ FirstPolymorphic c path := by
  induction path generalizing c with
  | nil => simp [offset, FirstPolymorphic]
  | cons i path ih =>
    simp only [sub] at h
    cases hb : c.bases[i]? with
    | none => rw [hb] at h; cases h
    | some b =>
      rw [hb] at h
      have hbp := sub_polymorphic h hp
      simp only [offset, hb, FirstPolymorphic, Nat.add_eq_zero_iff, baseOffset_zero hb hbp, ih h]
      constructor
      · rintro ⟨h1, h2⟩
        exact ⟨b, rfl, hbp, h1, h2⟩
      · rintro ⟨b', e, -, h1, h2⟩
        cases e
        exact ⟨h1, h2⟩

theorem first_of_one {c u : Cls} {path : List Nat} (h : sub c path = some u) (hp : u.polymorphic = true)
    (ho : OnePolymorphicBase c path) : FirstPolymorphic c path := by
  induction path generalizing c with
  | nil => trivial
  | cons i path ih =>
    simp only [sub] at h
    cases hb : c.bases[i]? with
    | none => rw [hb] at h; cases h
    | some b =>
      rw [hb] at h
      have hbp := sub_polymorphic h hp
      refine ⟨b, hb, hbp, ?_, ih h (ho.2 b hb)⟩
      intro b' hb'
      cases hpb : b'.polymorphic with
      | false => rfl
      | true =>
        exfalso
        have h1 := ho.1
        obtain ⟨hi, hbi⟩ := List.getElem?_eq_some_iff.1 hb
        rw [← List.take_append_drop i c.bases, List.filter_append, List.length_append,
          List.drop_eq_getElem_cons hi, hbi, List.filter_cons_of_pos hbp, List.length_cons] at h1
        have h2 : 0 < ((c.bases.take i).filter Cls.polymorphic).length :=
          List.length_pos_of_mem (List.mem_filter.2 ⟨hb', hpb⟩)
        omega

end Utils.DeleteProofs
