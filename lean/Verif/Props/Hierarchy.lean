import Verif.Model.Hierarchy
import Verif.Spec.Hierarchy
import Verif.Props.Traits

/-! # Property C124: member checkers and base classes -/

namespace Utils.Props

open Utils.Traits Utils.Spec

variable {τ : Type}

/-! ## Lookup -/

mutual
theorem mem_subs : (c : Class τ) → ∀ (p : List Nat) (pub : Bool) (s : SubObj τ),
    s ∈ c.subs p pub ↔ ∃ y, Contains p c s.path s.cls y ∧ s.viaPublic = (pub && y)
  | .mk id own bases => by
    intro p pub s
    rw [Class.subs, List.mem_cons, mem_bases_subs bases]
    constructor
    · rintro (rfl | ⟨v, pb, b, y, h, h', e⟩)
      · exact ⟨true, .self, by simp⟩
      · exact ⟨pb && y, .base h h', e⟩
    · rintro ⟨y, h, e⟩
      obtain ⟨q, d, vp⟩ := s
      cases h with
      | self => left; simp at e; rw [e]
      | base h h' => right; exact ⟨_, _, _, _, h, h', e⟩
theorem mem_bases_subs : (bs : Bases τ) → ∀ (p : List Nat) (pub : Bool) (s : SubObj τ),
    s ∈ bs.subs p pub ↔ ∃ v pb b y, DirectBase bs v pb b ∧
      Contains (if v then [b.id] else p ++ [b.id]) b s.path s.cls y ∧ s.viaPublic = (pub && (pb && y))
  | .nil => by
    intro p pub s
    rw [Bases.subs]
    constructor
    · intro h; cases h
    · rintro ⟨v, pb, b, y, h, _⟩; cases h
  | .cons v pb b rest => by
    intro p pub s
    rw [Bases.subs, List.mem_append, mem_subs b, mem_bases_subs rest]
    constructor
    · rintro (⟨y, h, e⟩ | ⟨v', pb', b', y, h, h', e⟩)
      · exact ⟨v, pb, b, y, .here, h, by rw [e, Bool.and_assoc]⟩
      · exact ⟨v', pb', b', y, .there h, h', e⟩
    · rintro ⟨v', pb', b', y, h, h', e⟩
      cases h with
      | here => left; exact ⟨y, h', by rw [e, Bool.and_assoc]⟩
      | there h => right; exact ⟨v', pb', b', y, h, h', e⟩
end

theorem mem_subobjects {t : Class τ} {s : SubObj τ} :
    s ∈ subobjects t ↔ Contains [t.id] t s.path s.cls s.viaPublic := by
  unfold subobjects
  rw [mem_subs]
  constructor
  · rintro ⟨y, h, e⟩
    rw [e, Bool.true_and]
    exact h
  · intro h
    exact ⟨_, h, by simp⟩

theorem _root_.Utils.Spec.Contains.trans {p : List Nat} {c : Class τ} {q d x r e y} (h : Contains p c q d x)
    (h' : Contains q d r e y) : Contains p c r e (x && y) := by
  induction h with
  | self => simpa using h'
  | base hb _ ih =>
    rw [Bool.and_assoc]
    exact .base hb (ih h')

/-- A path ends with the class it leads to. -/
theorem _root_.Utils.Spec.Contains.last {p : List Nat} {c : Class τ} {q d x} (h : Contains p c q d x)
    (hp : p.getLast? = some c.id) : q.getLast? = some d.id := by
  induction h with
  | self => exact hp
  | base hb _ ih =>
    apply ih
    split <;> simp

theorem _root_.Utils.Spec.DirectBase.lt {bs : Bases τ} {v pb b} (h : DirectBase bs v pb b) : sizeOf b < sizeOf bs := by
  induction h with
  | here => simp; omega
  | there _ ih => simp; omega

theorem _root_.Utils.Spec.Contains.size {p : List Nat} {c : Class τ} {q d x} (h : Contains p c q d x) :
    (p = q ∧ c = d ∧ x = true) ∨ sizeOf d < sizeOf c := by
  induction h with
  | self => exact .inl ⟨rfl, rfl, rfl⟩
  | @base p c v pb b q d pub hb _ ih =>
    right
    have h1 := DirectBase.lt hb
    have h2 : sizeOf c.bases < sizeOf c := by
      cases c
      simp [Class.bases]
      omega
    rcases ih with ⟨_, rfl, _⟩ | h
    · omega
    · omega

/-- In a consistent hierarchy a subobject is known by its path. -/
theorem _root_.Utils.Spec.Consistent.path {t : Class τ} (ht : Consistent t) {q c d x y}
    (h : Contains [t.id] t q c x) (h' : Contains [t.id] t q d y) : c = d := by
  refine ht _ _ _ _ _ _ h h' ?_
  have e := h.last rfl
  rw [h'.last rfl] at e
  exact (Option.some.inj e).symm

theorem mem_declaring {t : Class τ} {s : SubObj τ} :
    s ∈ declaring t ↔ Contains [t.id] t s.path s.cls s.viaPublic ∧ s.cls.own ≠ none := by
  unfold declaring
  rw [List.mem_filter, mem_subobjects, Option.isSome_iff_ne_none]

theorem hides_iff {s d : SubObj τ} :
    hides s d = true ↔ s.path ≠ d.path ∧ ∃ c y, Contains s.path s.cls d.path c y := by
  unfold hides
  rw [Bool.and_eq_true, decide_eq_true_eq, List.any_eq_true]
  constructor
  · rintro ⟨h, x, hx, e⟩
    rw [mem_subs] at hx
    obtain ⟨y, hx, _⟩ := hx
    rw [of_decide_eq_true e] at hx
    exact ⟨h, _, _, hx⟩
  · rintro ⟨h, c, y, hc⟩
    exact ⟨h, ⟨d.path, c, y⟩, (mem_subs _ _ _ _).2 ⟨y, hc, by simp⟩, by simp⟩

theorem mem_visible {t : Class τ} (ht : Consistent t) {s : SubObj τ} :
    s ∈ visible t ↔ Contains [t.id] t s.path s.cls s.viaPublic ∧ Visible t s.path s.cls := by
  unfold visible
  rw [List.mem_filter, mem_declaring, Bool.not_eq_true', List.any_eq_false]
  constructor
  · rintro ⟨⟨h1, h2⟩, h3⟩
    refine ⟨h1, ⟨_, h1⟩, h2, fun p c x y hc ho hd => ?_⟩
    by_cases hp : p = s.path
    · exact hp
    · exact absurd (hides_iff.2 ⟨hp, _, _, hd⟩)
        (h3 ⟨p, c, x⟩ (mem_declaring.2 ⟨hc, ho⟩))
  · rintro ⟨h1, _, h2, h3⟩
    refine ⟨⟨h1, h2⟩, fun r hr hh => ?_⟩
    obtain ⟨hp, c, y, hc⟩ := hides_iff.1 hh
    obtain ⟨hr1, hr2⟩ := mem_declaring.1 hr
    have e : c = s.cls := ht.path (hr1.trans hc) h1
    subst e
    exact hp (h3 _ _ _ _ hr1 hr2 hc)

theorem found_iff {t : Class τ} (ht : Consistent t) (c : Class τ) :
    found t = some c ↔ Finds t c := by
  have hv := fun s => mem_visible ht (s := s)
  unfold found Finds
  cases e : visible t with
  | nil =>
    rw [e] at hv
    constructor
    · intro h; cases h
    · rintro ⟨⟨q, h⟩, _⟩
      obtain ⟨⟨x, hx⟩, _⟩ := id h
      cases (hv ⟨q, c, x⟩).2 ⟨hx, h⟩
  | cons s rest =>
    rw [e] at hv
    have hs := (hv s).1 (List.mem_cons_self ..)
    have key : rest.all (fun x => decide (x.cls.id = s.cls.id)) = true ↔
        ∀ q d, Visible t q d → d = s.cls := by
      rw [List.all_eq_true]
      constructor
      · intro h q d hd
        obtain ⟨⟨x, hx⟩, _⟩ := id hd
        rcases List.mem_cons.1 ((hv ⟨q, d, x⟩).2 ⟨hx, hd⟩) with h' | h'
        · rw [← h']
        · exact ht _ _ _ _ _ _ hx hs.1 (of_decide_eq_true (h _ h'))
      · intro h x hx
        rw [decide_eq_true_eq, h _ _ ((hv x).1 (List.mem_cons_of_mem _ hx)).2]
    by_cases ha : rest.all (fun x => decide (x.cls.id = s.cls.id)) = true
    · simp only [ha, if_true, Option.some.injEq]
      constructor
      · rintro rfl
        exact ⟨⟨_, hs.2⟩, key.1 ha⟩
      · rintro ⟨_, h⟩
        exact h _ _ hs.2
    · simp only [if_neg ha]
      constructor
      · intro h; cases h
      · rintro ⟨⟨q, h⟩, h'⟩
        exact absurd (key.2 fun q d hd => by rw [h' q d hd, h' _ _ hs.2]) ha

theorem accessibleBase_iff {t : Class τ} (ht : Consistent t) {c : Class τ} {q x}
    (hc : Contains [t.id] t q c x) : accessibleBase t c = true ↔ PublicBase t c := by
  unfold accessibleBase PublicBase
  rw [List.any_eq_true]
  constructor
  · rintro ⟨s, hs, e⟩
    rw [Bool.and_eq_true, decide_eq_true_eq] at e
    rw [mem_subobjects, e.2] at hs
    rw [ht _ _ _ _ _ _ hs hc e.1] at hs
    exact ⟨_, hs⟩
  · rintro ⟨p, hp⟩
    exact ⟨⟨p, c, true⟩, mem_subobjects.2 hp, by simp⟩

theorem ambiguousBase_iff {t : Class τ} (ht : Consistent t) {c : Class τ} {q x}
    (hc : Contains [t.id] t q c x) : ambiguousBase t c = false ↔ OnceIn t c := by
  unfold ambiguousBase OnceIn
  rw [List.any_eq_false]
  constructor
  · intro h p q' x' y hp hq
    by_cases e : p = q'
    · exact e
    · refine absurd ?_ (h ⟨p, c, x'⟩ (mem_subobjects.2 hp))
      rw [List.any_eq_true]
      exact ⟨⟨q', c, y⟩, mem_subobjects.2 hq, by simp [e]⟩
  · intro h s hs h'
    rw [List.any_eq_true] at h'
    obtain ⟨s', hs', e⟩ := h'
    simp only [Bool.and_eq_true, decide_eq_true_eq] at e
    rw [mem_subobjects] at hs hs'
    have e1 := ht _ _ _ _ _ _ hs hc e.1.1
    have e2 := ht _ _ _ _ _ _ hs' hc e.1.2
    rw [e1] at hs
    rw [e2] at hs'
    exact e.2 (h _ _ _ _ hs hs')

theorem virtualBase_iff {t : Class τ} (ht : Consistent t) {c : Class τ} {q x}
    (hc : Contains [t.id] t q c x) : virtualBase t c = false ↔ NotVirtual t c := by
  unfold virtualBase NotVirtual
  rw [List.any_eq_false]
  constructor
  · intro h p y hp
    by_cases e : p.head? = some t.id
    · exact e
    · exact absurd (by simp [e]) (h ⟨p, c, y⟩ (mem_subobjects.2 hp))
  · intro h s hs e
    simp only [Bool.and_eq_true, decide_eq_true_eq] at e
    rw [mem_subobjects] at hs
    rw [ht _ _ _ _ _ _ hs hc e.1] at hs
    exact e.2 (h _ _ hs)

theorem _root_.Utils.Spec.Finds.contains {t c : Class τ} (h : Finds t c) : ∃ q x, Contains [t.id] t q c x := by
  obtain ⟨⟨q, ⟨x, hx⟩, _⟩, _⟩ := h
  exact ⟨q, x, hx⟩

theorem _root_.Utils.Spec.Finds.unique {t c d : Class τ} (h : Finds t c) (h' : Finds t d) : c = d := by
  obtain ⟨⟨q, hq⟩, _⟩ := h
  exact h'.2 _ _ hq

/-- Either the name is found nowhere, or in one class. -/
theorem found_cases {t : Class τ} (ht : Consistent t) :
    (found t = none ∧ ∀ c, ¬ Finds t c) ∨
    ∃ c o, found t = some c ∧ Finds t c ∧ c.own = some o ∧
      (accessibleBase t c = true ↔ PublicBase t c) ∧ (ambiguousBase t c = false ↔ OnceIn t c) ∧
      (virtualBase t c = false ↔ NotVirtual t c) := by
  cases e : found t with
  | none =>
    left
    refine ⟨rfl, fun c hc => ?_⟩
    rw [(found_iff ht c).2 hc] at e
    cases e
  | some c =>
    right
    have hf := (found_iff ht c).1 e
    obtain ⟨⟨q, ⟨x, hc⟩, ho, _⟩, _⟩ := id hf
    cases eo : c.own with
    | none => exact absurd eo ho
    | some o =>
      exact ⟨c, o, rfl, hf, eo, accessibleBase_iff ht hc, ambiguousBase_iff ht hc, virtualBase_iff ht hc⟩

/-- No two functions of the class can be told apart by access, return type and `noexcept` only. -/
def ProperOwn (t : Class τ) : Prop :=
  ∀ q c x l, Contains [t.id] t q c x → c.own = some (.functions l) → WellFormed (l.map (·.2))

theorem filter_pick [DecidableEq τ] {l : List (Bool × Bool × Fn τ)} (h : WellFormed (l.map (·.2)))
    (target : Fn τ) (st : Bool) (x : Bool × Bool × Fn τ) :
    (l.filter fun x => (x.2.1 == st) && pointerConvertible x.2.2 target) = [x] ↔
      x ∈ l ∧ x.2.1 = st ∧ Fits x.2.2 target := by
  unfold WellFormed at h
  rw [List.pairwise_map] at h
  have key := filter_length_one (P := fun x => (x.2.1 == st) && pointerConvertible x.2.2 target) h (by
    rintro ⟨_, s, f⟩ - ⟨_, s', f'⟩ - h1 h2 h3
    simp only [Bool.and_eq_true, beq_iff_eq, pointerConvertible_iff] at h1 h2
    obtain ⟨rfl, -, a1, a2, a3, a4, a5, -⟩ := h1
    obtain ⟨rfl, -, b1, b2, b3, b4, b5, -⟩ := h2
    exact h3 ⟨rfl, a1.trans b1.symm, a2.trans b2.symm, a3.trans b3.symm, a4.trans b4.symm,
      a5.trans b5.symm⟩)
  have mem : ∀ y, y ∈ (l.filter fun x => (x.2.1 == st) && pointerConvertible x.2.2 target) ↔
      y ∈ l ∧ y.2.1 = st ∧ Fits y.2.2 target := by
    intro y
    rw [List.mem_filter, Bool.and_eq_true, beq_iff_eq, pointerConvertible_iff]
  rw [← mem]
  constructor
  · intro e
    rw [e]
    exact List.mem_singleton.2 rfl
  · intro hx
    obtain ⟨y, hy⟩ := List.length_eq_one_iff.1
      (key.2 ⟨x, (List.mem_filter.1 hx).1, (List.mem_filter.1 hx).2⟩)
    rw [hy] at hx ⊢
    rw [List.mem_singleton.1 hx]

/-- What is inside a class is inside it wherever it is. -/
theorem _root_.Utils.Spec.Contains.move {p : List Nat} {c : Class τ} {q d x} (h : Contains p c q d x) :
    ∀ p', ∃ q', Contains p' c q' d x := by
  induction h with
  | self => exact fun p' => ⟨p', .self⟩
  | @base p c v pb b q d pub hb _ ih =>
    intro p'
    obtain ⟨q', h⟩ := ih (if v then [b.id] else p' ++ [b.id])
    exact ⟨q', .base hb h⟩

theorem _root_.Utils.Spec.Consistent.inside {t : Class τ} (ht : Consistent t) {q c x}
    (hc : Contains [t.id] t q c x) : Consistent c := by
  intro p1 c1 x1 p2 c2 x2 h1 h2 e
  obtain ⟨q1, h1⟩ := h1.move q
  obtain ⟨q2, h2⟩ := h2.move q
  exact ht _ _ _ _ _ _ (hc.trans h1) (hc.trans h2) e

/-- A class is no part of itself. -/
theorem _root_.Utils.Spec.Contains.same {p : List Nat} {c : Class τ} {q x} (h : Contains p c q c x) :
    p = q := by
  rcases h.size with h | h
  · exact h.1
  · omega

/-- A class that declares the name finds it in itself. -/
theorem self_finds {c : Class τ} (hc : Consistent c) (ho : c.own ≠ none) :
    Finds c c ∧ PublicBase c c ∧ OnceIn c c ∧ NotVirtual c c := by
  refine ⟨⟨⟨[c.id], ⟨true, .self⟩, ho, fun p d x y h1 h2 h3 => ?_⟩, fun q d h => ?_⟩, ⟨_, .self⟩,
    fun p q x y h1 h2 => ?_, fun q x h => ?_⟩
  · rcases h1.size with h | h
    · exact h.1.symm
    · rcases h3.size with h' | h'
      · exact h'.1
      · omega
  · obtain ⟨⟨x, hx⟩, hd, hv⟩ := h
    have e := hv _ _ _ _ .self ho hx
    subst e
    exact hc.path hx .self
  · rw [← h1.same, ← h2.same]
  · rw [← h.same]
    rfl

/-- All a checker can see if the name is found in a public base inherited once and not virtually. -/
theorem found_good {t c : Class τ} (ht : Consistent t) (hf : Finds t c) (hp : PublicBase t c)
    (h1 : OnceIn t c) (hv : NotVirtual t c) :
    found t = some c ∧ accessibleBase t c = true ∧ ambiguousBase t c = false ∧
      virtualBase t c = false := by
  rcases found_cases ht with ⟨e, hn⟩ | ⟨d, o', e, hf', ho', ha, hb, hc⟩
  · exact absurd hf (hn c)
  · obtain rfl := hf.unique hf'
    exact ⟨e, ha.2 hp, hb.2 h1, hc.2 hv⟩

/-! ## C124 -/

/-- `has_data_NAME_v<T>`, for every hierarchy: the name is found in one class `c`, perhaps in several
subobjects, is a public data member there, and `c` a public base.  Which kinds of data members count is
C73. -/
theorem C124_data {t : Class τ} (ht : Consistent t) :
    hasDataIn t = true ↔
      ∃ c m, Finds t c ∧ PublicBase t c ∧ c.own = some (.other true m) ∧ hasData m = true := by
  unfold hasDataIn
  rcases found_cases ht with ⟨e, hn⟩ | ⟨c, o, e, hf, ho, ha, -, -⟩
  · simp [e, hn]
  · have hu : ∀ d, Finds t d ↔ d = c := fun d => ⟨fun h => h.unique hf, fun h => h ▸ hf⟩
    cases o with
    | functions l => simp [e, ho, hu]
    | other pub m =>
      simp only [e, ho, hu, Bool.and_eq_true, ha]
      constructor
      · rintro ⟨⟨rfl, h2⟩, h3⟩
        exact ⟨c, m, rfl, h2, ho, h3⟩
      · rintro ⟨d, m', rfl, h2, h3, h4⟩
        rw [ho] at h3
        cases h3
        exact ⟨⟨rfl, h2⟩, h4⟩

/-- The same for `has_static_data_NAME_v<T>`. -/
theorem C124_static_data {t : Class τ} (ht : Consistent t) :
    hasStaticDataIn t = true ↔
      ∃ c m, Finds t c ∧ PublicBase t c ∧ c.own = some (.other true m) ∧ hasStaticData m = true := by
  unfold hasStaticDataIn
  rcases found_cases ht with ⟨e, hn⟩ | ⟨c, o, e, hf, ho, ha, -, -⟩
  · simp [e, hn]
  · have hu : ∀ d, Finds t d ↔ d = c := fun d => ⟨fun h => h.unique hf, fun h => h ▸ hf⟩
    cases o with
    | functions l => simp [e, ho, hu]
    | other pub m =>
      simp only [e, ho, hu, Bool.and_eq_true, ha]
      constructor
      · rintro ⟨⟨rfl, h2⟩, h3⟩
        exact ⟨c, m, rfl, h2, ho, h3⟩
      · rintro ⟨d, m', rfl, h2, h3, h4⟩
        rw [ho] at h3
        cases h3
        exact ⟨⟨rfl, h2⟩, h4⟩

/-- The same for `has_type_NAME_v<T>`. -/
theorem C124_type {t : Class τ} (ht : Consistent t) :
    hasTypeIn t = true ↔
      ∃ c, Finds t c ∧ PublicBase t c ∧ c.own = some (.other true .type) := by
  unfold hasTypeIn
  rcases found_cases ht with ⟨e, hn⟩ | ⟨c, o, e, hf, ho, ha, -, -⟩
  · simp [e, hn]
  · have hu : ∀ d, Finds t d ↔ d = c := fun d => ⟨fun h => h.unique hf, fun h => h ▸ hf⟩
    cases o with
    | functions l => simp [e, ho, hu]
    | other pub m =>
      cases m <;> simp [e, ho, hu, ha, and_comm]

/-- `has_invocable_r_NAME...<R, T, Args...>`, for every hierarchy in which the name denotes functions:
it is found in one class, a public function of the right type is there, and the class is a public base
of `T` that occurs once and not virtually. -/
theorem C124_method [DecidableEq τ] {t : Class τ} (ht : Consistent t) (hw : ProperOwn t)
    (hfun : ∀ c pub m, Finds t c → c.own ≠ some (.other pub m)) (target : Fn τ) :
    hasInvocableRIn t target = true ↔
      ∃ c l f, Finds t c ∧ PublicBase t c ∧ OnceIn t c ∧ NotVirtual t c ∧ c.own = some (.functions l) ∧
        (true, false, f) ∈ l ∧ Fits f target := by
  unfold hasInvocableRIn
  rcases found_cases ht with ⟨e, hn⟩ | ⟨c, o, e, hf, ho, ha, hb, hc⟩
  · simp [e, hn]
  · have hu : ∀ d, Finds t d ↔ d = c := fun d => ⟨fun h => h.unique hf, fun h => h ▸ hf⟩
    cases o with
    | other pub m => exact absurd ho (hfun c pub m hf)
    | functions l =>
      obtain ⟨q, x, hct⟩ := hf.contains
      have hp := filter_pick (hw q c x l hct ho) target false
      simp only [beq_false] at hp
      simp only [e, ho, hu]
      constructor
      · intro h
        split at h
        · rename_i y hy
          simp only [Bool.and_eq_true, Bool.not_eq_true', ha, hb, hc] at h
          obtain ⟨h1, h2, h3⟩ := (hp y).1 hy
          obtain ⟨pub, st, f⟩ := y
          simp only at h1 h2 h3 h
          rw [h.1.1.1, h2] at h1
          exact ⟨c, l, f, rfl, h.1.1.2, h.1.2, h.2, ho, h1, h3⟩
        · cases h
      · rintro ⟨d, l', f, rfl, h1, h2, h3, h4, h5, h6⟩
        rw [ho] at h4
        cases h4
        rw [(hp (true, false, f)).2 ⟨h5, rfl, h6⟩]
        simp [ha.2 h1, hb.2 h2, hc.2 h3]

/-- `has_static_invocable_r_NAME[_noexcept]<R, T, Args...>`: here it does not matter how often and how
the base is inherited. -/
theorem C124_static_method [DecidableEq τ] {t : Class τ} (ht : Consistent t) (hw : ProperOwn t)
    (hfun : ∀ c pub m, Finds t c → c.own ≠ some (.other pub m)) (target : Fn τ) :
    hasStaticInvocableRIn t target = true ↔
      ∃ c l f, Finds t c ∧ PublicBase t c ∧ c.own = some (.functions l) ∧
        (true, true, f) ∈ l ∧ Fits f target := by
  unfold hasStaticInvocableRIn
  rcases found_cases ht with ⟨e, hn⟩ | ⟨c, o, e, hf, ho, ha, hb, hc⟩
  · simp [e, hn]
  · have hu : ∀ d, Finds t d ↔ d = c := fun d => ⟨fun h => h.unique hf, fun h => h ▸ hf⟩
    cases o with
    | other pub m => exact absurd ho (hfun c pub m hf)
    | functions l =>
      obtain ⟨q, x, hct⟩ := hf.contains
      have hp := filter_pick (hw q c x l hct ho) target true
      simp only [beq_true] at hp
      simp only [e, ho, hu]
      constructor
      · intro h
        split at h
        · rename_i y hy
          simp only [Bool.and_eq_true, ha] at h
          obtain ⟨h1, h2, h3⟩ := (hp y).1 hy
          obtain ⟨pub, st, f⟩ := y
          simp only at h1 h2 h3 h
          rw [h.1, h2] at h1
          exact ⟨c, l, f, rfl, h.2, ho, h1, h3⟩
        · cases h
      · rintro ⟨d, l', f, rfl, h1, h4, h5, h6⟩
        rw [ho] at h4
        cases h4
        rw [(hp (true, true, f)).2 ⟨h5, rfl, h6⟩]
        simp [ha.2 h1]

/-- `has_invocable_NAME_v<T, Args...>`, if the name is found in class `c` and is one function there: the
function and the base are public, the base occurs once unless the function is static, and the object and
the arguments suit the function (C78).  A virtual base does no harm. -/
theorem C124_call (nonesuch : τ) (convert : List τ → List τ → Option Bool) {t c : Class τ}
    (ht : Consistent t) (hf : Finds t c) {pub st : Bool} {f : Fn τ}
    (ho : c.own = some (.functions [(pub, st, f)])) (o : Object) (args : List τ) :
    hasInvocable nonesuch (callIn convert t o) args = true ↔
      pub = true ∧ PublicBase t c ∧ (st = true ∨ OnceIn t c) ∧
      hasInvocable nonesuch (methodCall convert (st, f) o) args = true := by
  rcases found_cases ht with ⟨e, hn⟩ | ⟨d, o', e, hf', ho', ha, hb, hc⟩
  · exact absurd hf (hn c)
  · obtain rfl := hf.unique hf'
    unfold hasInvocable isDetected detector returnT callIn
    simp only [e, ho]
    rw [← ha, ← hb]
    cases pub <;> cases st <;> cases accessibleBase t c <;> cases ambiguousBase t c <;> simp

/-- The good case.  If the name is found in class `c` and `c` is a public base of `T`, inherited once
and not virtually, then all checkers answer for `T` what they answer for `c`.  Missing from C124: names
that are hidden or ambiguous, virtual, repeated and private bases. -/
theorem C124_inherited_partial [DecidableEq τ] {t c : Class τ} (ht : Consistent t) (hf : Finds t c)
    (hp : PublicBase t c) (h1 : OnceIn t c) (hv : NotVirtual t c) :
    hasDataIn t = hasDataIn c ∧ hasStaticDataIn t = hasStaticDataIn c ∧ hasTypeIn t = hasTypeIn c ∧
    (∀ target, hasInvocableRIn t target = hasInvocableRIn c target ∧
      hasStaticInvocableRIn t target = hasStaticInvocableRIn c target) ∧
    ∀ convert o args, callIn convert t o args = callIn convert c o args := by
  obtain ⟨⟨q, ⟨x, hc⟩, ho, _⟩, _⟩ := id hf
  obtain ⟨g1, g2, g3, g4⟩ := self_finds (ht.inside hc) ho
  obtain ⟨e1, e2, e3, e4⟩ := found_good ht hf hp h1 hv
  obtain ⟨f1, f2, f3, f4⟩ := found_good (ht.inside hc) g1 g2 g3 g4
  unfold hasDataIn hasStaticDataIn hasTypeIn hasInvocableRIn hasStaticInvocableRIn callIn
  simp only [e1, e2, e3, e4, f1, f2, f3, f4, implies_true, and_self]

/-- What a class declares itself hides everything of that name in its bases: the checkers answer as if
it had none. -/
theorem C124_hiding [DecidableEq τ] {id : Nat} {own : Own τ} {bases : Bases τ}
    (ht : Consistent (.mk id (some own) bases)) :
    hasDataIn (.mk id (some own) bases) = hasDataIn (.mk id (some own) .nil) ∧
    hasStaticDataIn (.mk id (some own) bases) = hasStaticDataIn (.mk id (some own) .nil) ∧
    hasTypeIn (.mk id (some own) bases) = hasTypeIn (.mk id (some own) .nil) ∧
    (∀ target, hasInvocableRIn (.mk id (some own) bases) target =
        hasInvocableRIn (.mk id (some own) .nil) target ∧
      hasStaticInvocableRIn (.mk id (some own) bases) target =
        hasStaticInvocableRIn (.mk id (some own) .nil) target) ∧
    ∀ convert o args, callIn convert (.mk id (some own) bases) o args =
      callIn convert (.mk id (some own) .nil) o args := by
  have hn : Consistent (.mk id (some own) .nil) := by
    intro p c x q d y h1 h2 _
    cases h1 with
    | self =>
      cases h2 with
      | self => rfl
      | base h => cases h
    | base h => cases h
  obtain ⟨g1, g2, g3, g4⟩ := self_finds ht (by simp [Class.own])
  obtain ⟨e1, e2, e3, e4⟩ := found_good ht g1 g2 g3 g4
  obtain ⟨g1, g2, g3, g4⟩ := self_finds hn (by simp [Class.own])
  obtain ⟨f1, f2, f3, f4⟩ := found_good hn g1 g2 g3 g4
  unfold hasDataIn hasStaticDataIn hasTypeIn hasInvocableRIn hasStaticInvocableRIn callIn
  simp only [e1, e2, e3, e4, f1, f2, f3, f4, Class.own, implies_true, and_self]

/-- `has_invocable_r_NAME...` and `has_invocable_NAME` disagree about virtual bases.  If the name is one
public function of a public virtual base, the first is false whatever the signature, although the second
answers for `T` what it answers for the base. -/
theorem C124_virtual [DecidableEq τ] {t c : Class τ} (ht : Consistent t) (hf : Finds t c)
    (hp : PublicBase t c) (h1 : OnceIn t c) (hv : ¬ NotVirtual t c) {st : Bool} {f : Fn τ}
    (ho : c.own = some (.functions [(true, st, f)])) :
    (∀ target, hasInvocableRIn t target = false) ∧
    ∀ convert o args, callIn convert t o args = methodCall convert (st, f) o args := by
  rcases found_cases ht with ⟨e, hn⟩ | ⟨d, o', e, hf', ho', ha, hb, hc⟩
  · exact absurd hf (hn c)
  · obtain rfl := hf.unique hf'
    have hvb : virtualBase t c = true := by
      cases h : virtualBase t c
      · exact absurd (hc.1 h) hv
      · rfl
    constructor
    · intro target
      unfold hasInvocableRIn
      simp only [e, ho, hvb]
      split <;> simp
    · intro convert o args
      unfold callIn
      simp [e, ho, ha.2 hp, hb.2 h1]

/-! The classes of the examples; what they declare is `int NAME()` or `int NAME;`. -/

def exNAME : Fn String := ⟨"int", [], false, {}⟩

/-- `struct B { int NAME(); };` -/
def exB : Class String := .mk 0 (some (.functions [(true, false, exNAME)])) .nil

/-- `struct I1 : B {}; struct V : virtual B {}; struct P : private B {};` -/
def exI1 : Class String := .mk 1 none (.cons false true exB .nil)
def exV : Class String := .mk 2 none (.cons true true exB .nil)
def exP : Class String := .mk 3 none (.cons false false exB .nil)

/-- `struct H : B { int NAME(long); };` -/
def exH : Class String :=
  .mk 4 (some (.functions [(true, false, ⟨"int", ["long"], false, {}⟩)])) (.cons false true exB .nil)

/-- `struct D { int NAME; }; struct J1 : D {}; struct J2 : D {}; struct R : J1, J2 {};` -/
def exD : Class String := .mk 5 (some (.other true (.data .object))) .nil
def exR : Class String :=
  .mk 8 none (.cons false true (.mk 6 none (.cons false true exD .nil))
    (.cons false true (.mk 7 none (.cons false true exD .nil)) .nil))

/-- `struct A : D, B {};` -/
def exA : Class String := .mk 9 none (.cons false true exD (.cons false true exB .nil))

/-- C124 is false.  `B` has the method and so has `I1`, but the checker by signature misses it in `V`,
where it can be called; it is hidden in `H` and private in `P`.  `A` has two members of that name, and
no checker sees any.  `R` has two subobjects with the data member, which is reported although `r.NAME`
does not compile. -/
theorem C124_counterexample :
    hasInvocableRIn exB exNAME = true ∧ hasInvocableRIn exI1 exNAME = true ∧
    hasInvocableRIn exV exNAME = false ∧ (callIn (fun _ _ => some true) exV {} []).isSome = true ∧
    hasInvocableRIn exH exNAME = false ∧ hasInvocableRIn exP exNAME = false ∧
    hasInvocableRIn exA exNAME = false ∧ hasDataIn exA = false ∧
    hasDataIn exR = true ∧ ambiguousBase exR exD = true := by
  decide +kernel

/-- `I1` satisfies the hypotheses of `C124_inherited_partial`. -/
example : Consistent exI1 ∧ Finds exI1 exB ∧ PublicBase exI1 exB ∧ OnceIn exI1 exB ∧
    NotVirtual exI1 exB := by
  have hall : ∀ q c x, Contains [exI1.id] exI1 q c x →
      (q = [1] ∧ c = exI1 ∧ x = true) ∨ (q = [1, 0] ∧ c = exB ∧ x = true) := by
    intro q c x h
    cases h with
    | self => exact .inl ⟨rfl, rfl, rfl⟩
    | base hb h' =>
      cases hb with
      | here =>
        cases h' with
        | self => exact .inr ⟨rfl, rfl, rfl⟩
        | base hb _ => cases hb
      | there hb => cases hb
  have hc : Consistent exI1 := by
    intro p c x q d y h1 h2 e
    rcases hall _ _ _ h1 with ⟨_, rfl, _⟩ | ⟨_, rfl, _⟩ <;>
      rcases hall _ _ _ h2 with ⟨_, rfl, _⟩ | ⟨_, rfl, _⟩ <;> first | rfl | cases e
  have hf : found exI1 = some exB := rfl
  refine ⟨hc, (found_iff hc _).1 hf, ⟨[1, 0], Contains.base (c := exI1) (b := exB) (v := false) (pb := true) .here .self⟩, fun p q x y h1 h2 => ?_,
    fun q x h => ?_⟩
  · rcases hall _ _ _ h1 with ⟨_, e, _⟩ | ⟨rfl, _, _⟩
    · cases e
    · rcases hall _ _ _ h2 with ⟨_, e, _⟩ | ⟨rfl, _, _⟩
      · cases e
      · rfl
  · rcases hall _ _ _ h with ⟨_, e, _⟩ | ⟨rfl, _, _⟩
    · cases e
    · rfl

end Utils.Props
