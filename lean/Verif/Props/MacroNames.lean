import Verif.Proofs.MacroNames

/-!
# C126 and C127: the names that the checker macros declare
-/

namespace Utils.Props

open Utils Utils.Macros Utils.Spec Utils.MacroProofs

/-- **C126**: two uses declare a common name exactly if one of the equations of the two macros holds between
the names. -/
theorem C126_iff {m n : Macro} {a b : String} :
    Collide (m, a) (n, b) ↔ ∃ e ∈ equationsOf m n, e.Holds a b := collide_iff

/-- **C126**: uses can share a namespace exactly if no two of them declare a common name.  One use never
declares a name twice. -/
theorem C126_compiles {uses : List (Macro × String)} :
    compiles uses = true ↔ uses.Pairwise fun u w => ¬ Collide u w := compiles_iff

/-- **C126**, what holds: different uses with names without underscore, and other than `r`, can share a
namespace. -/
theorem C126_words_partial {uses : List (Macro × String)} (hd : uses.Nodup)
    (hw : ∀ u ∈ uses, '_' ∉ u.2.toList ∧ u.2 ≠ "r") : compiles uses = true := by
  rw [compiles_iff]
  refine List.Pairwise.imp_of_mem ?_ hd
  rintro ⟨m, a⟩ ⟨n, b⟩ hu hv hne h
  obtain ⟨e, he, h⟩ := collide_chars.1 h
  have hr : ∀ s : String, s ≠ "r" → s.toList ≠ ['r'] := by
    intro s hs h
    exact hs (String.toList_inj.1 (by rw [h]; decide +kernel))
  refine words_apart (hw _ hu).1 (hw _ hv).1 (hr _ (hw _ hu).2) (hr _ (hw _ hv).2) ?_ e he h
  rintro ⟨rfl, hab⟩
  exact hne (Prod.ext rfl (String.toList_inj.1 hab))

example : compiles [(.type, "value"), (.data, "value"), (.staticData, "value"), (.method, "run"),
    (.rMethod, "run"), (.staticMethod, "run"), (.freeFunction, "run"), (.rMethod, "v")] = true :=
  C126_words_partial (by decide +kernel) (by decide +kernel)

/-- **C126** is false of the code: whatever the name, these pairs of different uses do not compile together. -/
theorem C126_counterexample (a : String) :
    Collide (.type, a) (.type, a ++ "_v") ∧ Collide (.data, a) (.data, a ++ "_v") ∧
    Collide (.staticData, a) (.staticData, a ++ "_v") ∧
    Collide (.method, a) (.method, a ++ "_noexcept") ∧
    Collide (.method, "r_" ++ a) (.rMethod, a) ∧
    Collide (.rMethod, a) (.rMethod, a ++ "_const") ∧
    Collide (.staticMethod, "r_" ++ a) (.staticMethod, a) ∧
    Collide (.freeFunction, a) (.freeFunction, a ++ "_noexcept") ∧
    Collide (.freeFunction, "is_invocable_" ++ a) (.method, a ++ "_return") ∧
    Collide (.freeFunction, "has_data_" ++ a) (.data, a ++ "_return_t") := by
  have go : ∀ {m n : Macro} {a b : String} (e : Equation), e ∈ equationsOf m n → e.Holds a b →
      Collide (m, a) (n, b) := fun e he h => collide_iff.2 ⟨e, he, h⟩
  refine ⟨go ⟨"", "_v", "", ""⟩ (by decide +kernel) ?_, go ⟨"", "_v", "", ""⟩ (by decide +kernel) ?_,
    go ⟨"", "_v", "", ""⟩ (by decide +kernel) ?_, go ⟨"", "_noexcept", "", ""⟩ (by decide +kernel) ?_,
    go ⟨"", "", "r_", ""⟩ (by decide +kernel) ?_, go ⟨"", "_const", "", ""⟩ (by decide +kernel) ?_,
    go ⟨"", "", "r_", ""⟩ (by decide +kernel) ?_, go ⟨"", "_noexcept", "", ""⟩ (by decide +kernel) ?_,
    go ⟨"", "_return", "is_invocable_", ""⟩ (by decide +kernel) ?_,
    go ⟨"", "_return_t", "has_data_", ""⟩ (by decide +kernel) ?_⟩ <;>
  · simp [Equation.Holds, ← String.toList_inj]

/-- **C126**: `r` has to be excluded in `C126_words_partial`, `CREATE_METHOD_CHECKERS(r)` and
`CREATE_R_METHOD_CHECKERS(v)` both declare `has_invocable_r_v`. -/
theorem C126_r_counterexample : compiles [(.method, "r"), (.rMethod, "v")] = false := by decide +kernel

/-- **C126**: the kinds that can always share a namespace. -/
theorem C126_kinds {m n : Macro} (h : m ≠ n) (hr : ¬ (m = .method ∧ n = .rMethod))
    (hr' : ¬ (m = .rMethod ∧ n = .method)) (hm : m ≠ .freeFunction) (hn : n ≠ .freeFunction) (a b : String) :
    ¬ Collide (m, a) (n, b) := by
  rw [collide_iff]
  rintro ⟨e, he, -⟩
  cases m <;> cases n <;> simp_all [equationsOf]

example : ¬ Collide (.type, "value") (.data, "value_v") := C126_kinds (by decide) (by decide) (by decide) (by decide)
  (by decide) _ _

/-- **C127**: a macro declares a name that is reserved for the implementation exactly if its argument begins or
ends with an underscore or contains two in a row. -/
theorem C127_iff {m : Macro} {a : String} (ha : a ≠ "") :
    (∃ d ∈ declared m a, Reserved d.2) ↔
      a.toList.head? = some '_' ∨ a.toList.getLast? = some '_' ∨ ∃ u w, a.toList = u ++ ['_', '_'] ++ w := by
  obtain ⟨c, l, hc⟩ : ∃ c l, a.toList = c :: l := by
    cases h : a.toList with
    | nil => exact absurd (String.toList_inj.1 (by rw [h]; decide +kernel)) ha
    | cons c l => exact ⟨c, l, rfl⟩
  obtain ⟨hf, ⟨sp, hsp, hp⟩, sx, hsx, hx⟩ := shape_facts m
  have last : ∀ p : Chars, (p ++ a.toList).getLast? = a.toList.getLast? := by
    intro p
    rw [List.getLast?_append, hc]
    simp [List.getLast?_cons]
  rw [← dbl_iff]
  constructor
  · rintro ⟨d, hd, hres⟩
    obtain ⟨t, ht, e⟩ := mem_declared.1 ⟨d, hd, rfl⟩
    obtain ⟨h1, h2, h3, h4, h5, h6⟩ := hf t ht
    rcases hres with hres | ⟨k, b, hk, -⟩
    · rw [← dbl_iff, e, dbl_append, dbl_append, h1, h2, last] at hres
      simp only [Bool.false_or, Bool.or_eq_true, Bool.and_eq_true, beq_iff_eq, Bool.or_false] at hres
      rcases hres with (hres | hres) | hres
      · exact Or.inr (Or.inr hres)
      · exact Or.inl hres.2
      · exact Or.inr (Or.inl hres.1)
    · rw [e] at hk
      cases hp1 : t.2.1 with
      | nil =>
        rw [hp1, hc] at hk
        simp only [List.nil_append, List.cons_append, List.cons.injEq] at hk
        left
        rw [hc, hk.1]
        rfl
      | cons p0 p =>
        rw [hp1] at hk h5
        simp only [List.cons_append, List.cons.injEq] at hk
        simp [hk.1] at h5
  · have make : ∀ t ∈ shapeChars m, dbl (t.2.1 ++ a.toList ++ t.2.2) = true →
        ∃ d ∈ declared m a, Reserved d.2 := by
      intro t ht h
      obtain ⟨d, hd, he⟩ := mem_declared.2
        ⟨t, ht, (String.toList_ofList : (String.ofList (t.2.1 ++ a.toList ++ t.2.2)).toList = _)⟩
      refine ⟨d, hd, Or.inl ?_⟩
      rw [he, String.toList_ofList, ← dbl_iff]
      exact h
    rintro (h | h | h)
    · refine make sp hsp ?_
      rw [dbl_append, dbl_append, hp, h]
      simp
    · refine make sx hsx ?_
      rw [dbl_append, last, h, hx]
      simp
    · refine make sp hsp ?_
      rw [dbl_append, dbl_append, h]
      simp

example : ¬ ∃ d ∈ declared .data "size", Reserved d.2 := by
  rw [C127_iff (by decide)]
  rw [← dbl_iff]
  decide +kernel

/-- **C127**, what holds: a name without underscores at its ends and without two in a row gives no reserved
name. -/
theorem C127_reserved_partial {m : Macro} {a : String} (ha : a ≠ "") (hb : a.toList.head? ≠ some '_')
    (he : a.toList.getLast? ≠ some '_') (hr : ¬ Reserved a) : ∀ d ∈ declared m a, ¬ Reserved d.2 := by
  intro d hd h
  rcases (C127_iff ha).1 ⟨d, hd, h⟩ with h | h | h
  · exact hb h
  · exact he h
  · exact hr (Or.inl h)

example : ∀ d ∈ declared .rMethod "do_allocate", ¬ Reserved d.2 :=
  C127_reserved_partial (by decide) (by decide +kernel) (by decide +kernel) (by
    rintro (h | ⟨c, b, h, -⟩)
    · rw [← dbl_iff] at h
      revert h
      decide +kernel
    · have := congrArg List.head? h
      revert this
      simp only [List.head?_cons]
      decide +kernel)

/-- **C127** is false of the code: a member written as this library writes its data members, with an underscore
at the end, is no reserved name, but `CREATE_MEMBER_DATA_CHECKERS(data_)` declares `has_data_data__v`. -/
theorem C127_counterexample :
    ¬ Reserved "data_" ∧ ∃ d ∈ declared .data "data_", d.2 = "has_data_data__v" ∧ Reserved d.2 := by
  constructor
  · rintro (h | ⟨c, b, h, -⟩)
    · rw [← dbl_iff] at h
      revert h
      decide +kernel
    · have := congrArg List.head? h
      revert this
      simp only [List.head?_cons]
      decide +kernel
  · refine ⟨(false, "has_data_data__v"), by decide +kernel, rfl, Or.inl ?_⟩
    rw [← dbl_iff]
    decide +kernel

end Utils.Props
