import Verif.Proofs.DeleteObject
import Verif.Props.SimpleResource

/-!
# C128: `delete_object` through a pointer to a base class
-/

namespace Utils.Props

open Utils Utils.Delete Utils.Spec Utils.DeleteProofs

/-- **C128**: for an object of any class and a pointer to any of its base class subobjects, `delete_object` does
what `delete` does exactly if the pointer is not to const, and either is the one that `new_object` returned, or
the destructor of the base class is virtual and every base on the way to it is the first one with virtual
functions. -/
theorem C128_iff {cls u : Cls} {path : List Nat} {address : Nat} {isConst : Bool} (h : sub cls path = some u) :
    DeletedRight cls address (deleteObject cls path address isConst) ↔
      isConst = false ∧ (path = [] ∨ (u.hasVirtualDtor = true ∧ FirstPolymorphic cls path)) := by
  cases isConst with
  | true => simp [DeletedRight, deleteObject]
  | false =>
    simp only [DeletedRight, deleteObject, h, Bool.false_eq_true, if_false, Option.map_some, Option.some.injEq,
      Prod.mk.injEq, true_and, ← destroy_eq]
    by_cases hp : path = []
    · subst hp
      simp only [sub, Option.some.injEq] at h
      subst h
      simp [offset]
    · cases hv : u.hasVirtualDtor with
      | true =>
        have := offset_zero h (polymorphic_of_dtor u hv)
        simp only [if_true, true_and, hp, false_or, ← this]
        omega
      | false =>
        simp only [Bool.false_eq_true, if_false, hp, false_and, or_false, iff_false, not_and]
        intro e
        exfalso
        have hm : ([] : List Nat) ∈ u.destroy path := e ▸ self_mem_destroy [] cls
        exact hp (List.prefix_nil.1 (destroy_prefix path u _ hm))

/-- A class with two bases that have virtual destructors and one word of data each. -/
def twoBases : Cls := .mk false false 1 [.mk true false 1 [], .mk true false 1 []]

example : sub twoBases [0] = some (.mk true false 1 []) ∧
    DeletedRight twoBases 4096 (deleteObject twoBases [0] 4096 false) :=
  ⟨rfl, (C128_iff rfl).2 ⟨rfl, Or.inr ⟨rfl, _, rfl, rfl, by simp, trivial⟩⟩⟩

/-- **C128**, what holds: where no class has more than one base with virtual functions, every base class with a
virtual destructor will do. -/
theorem C128_single_partial {cls u : Cls} {path : List Nat} {address : Nat} (h : sub cls path = some u)
    (hv : u.hasVirtualDtor = true) (ho : OnePolymorphicBase cls path) :
    DeletedRight cls address (deleteObject cls path address false) :=
  (C128_iff h).2 ⟨rfl, Or.inr ⟨hv, first_of_one h (polymorphic_of_dtor u hv) ho⟩⟩

/-- A chain of three classes, the middle one also with a base without virtual functions in front. -/
def chainOfBases : Cls := .mk false true 1 [.mk false false 2 [.mk false false 1 [], .mk true false 1 []]]

example : DeletedRight chainOfBases 4096 (deleteObject chainOfBases [0, 1] 4096 false) ∧
    deleteObject chainOfBases [0, 1] 4096 false = some ([[], [0], [0, 1], [0, 0]], 4096) :=
  ⟨C128_single_partial (u := .mk true false 1 []) rfl rfl (by
    simp [OnePolymorphicBase, chainOfBases, Cls.bases, Cls.polymorphic, anyPolymorphic, List.filter]), by
    decide +kernel⟩

/-- **C128** is false of the code: through a pointer to the second base, `deallocate` is given an address that
the resource has not handed out; through a pointer to const, `delete_object` does not compile. -/
theorem C128_counterexample :
    (sub twoBases [1]).map Cls.hasVirtualDtor = some true ∧
    deleteObject twoBases [1] 4096 false = some ([[], [1], [0]], 4112) ∧
    ¬ DeletedRight twoBases 4096 (deleteObject twoBases [1] 4096 false) ∧
    deleteObject twoBases [] 4096 true = none := by
  refine ⟨by decide +kernel, by decide +kernel, ?_, rfl⟩
  rw [C128_iff (u := .mk true false 1 []) rfl]
  rintro ⟨-, h | ⟨-, b, -, -, h, -⟩⟩
  · cases h
  · have := h (.mk true false 1 []) (by simp [twoBases, Cls.bases])
    simp [Cls.polymorphic] at this

/-- **C128**: with a virtual destructor everything is destroyed, in reverse order, whatever the base. -/
theorem C128_destroyed {cls u : Cls} {path : List Nat} {address : Nat} (h : sub cls path = some u)
    (hv : u.hasVirtualDtor = true) : ∃ ptr, deleteObject cls path address false =
      some ((constructed [] cls).reverse, ptr) ∧ (ptr = address ↔ FirstPolymorphic cls path) := by
  refine ⟨address + 8 * offset cls path, by simp [deleteObject, h, hv, destroy_eq], ?_⟩
  rw [← offset_zero h (polymorphic_of_dtor u hv)]
  omega

example : ∃ ptr, deleteObject twoBases [1] 4096 false = some ((constructed [] twoBases).reverse, ptr) ∧
    (ptr = 4096 ↔ FirstPolymorphic twoBases [1]) := C128_destroyed (u := .mk true false 1 []) rfl rfl

/-- **C128**: `simple_resource` notices.  Whatever its state, if the object lies in its area and the destructor
is virtual, then giving back the address of a base that does not lie at the beginning aborts. -/
theorem C128_simple_resource {σ : Type} {p : SR.Params} {up : Option (SR.Upstream σ)} (hv : SR.Valid p)
    {w : SR.World σ} {rs : List SR.Region} (ht : SR.Tracks p up w rs) {cls u : Cls} {path : List Nat}
    {address ptr : Nat} {destroyed : List (List Nat)} (h : sub cls path = some u)
    (hd : u.hasVirtualDtor = true) (hl : (address, 8 * cls.words) ∈ w.live)
    (ha : SR.inArea p w.st address = true)
    (hr : deleteObject cls path address false = some (destroyed, ptr)) (hn : ¬ FirstPolymorphic cls path) :
    SR.deallocate p up w.st w.up ptr = .aborted := by
  have hup := polymorphic_of_dtor u hd
  rw [← offset_zero h hup] at hn
  have hle := offset_le h
  have hpos := words_pos u hup
  simp only [deleteObject, h, Bool.false_eq_true, if_false, Option.map_some, Option.some.injEq,
    Prod.mk.injEq] at hr
  have hptr := hr.2
  have hs := ht.sound hv
  have hmem : (address, 8 * cls.words) ∈ SR.localLive p w := List.mem_filter.2 ⟨hl, ha⟩
  have hin := hs.inside _ hmem
  have hw := ht.placed.noWrap
  have hblocks := Nat.mul_le_mul_right p.blockSize ht.placed.le
  simp only [SR.inArea, Bool.and_eq_true, decide_eq_true_eq] at ha
  simp only at hin
  have harea : SR.inArea p w.st ptr = true := by
    simp only [SR.inArea, Bool.and_eq_true, decide_eq_true_eq]
    omega
  rw [C54_aborts_iff hv ht (by omega) (by omega)]
  refine Or.inr (Or.inl ⟨harea, ?_⟩)
  intro y hy e
  have hym : y ∈ SR.localLive p w := List.mem_filter.2 ⟨hy, by rw [e]; exact harea⟩
  have hne : (address, 8 * cls.words) ≠ y := by
    rintro rfl
    simp only at e
    omega
  haveI : Std.Symm SR.Apart := ⟨fun _ _ hab => Or.symm hab⟩
  have hap := hs.apart.forall hmem hym hne
  simp only [SR.Apart] at hap
  omega

/-- An object of `twoBases` in a fresh area, deleted through its second base. -/
example : 8 * twoBases.words = 40 ∧ liveAfter pDebug (fresh pDebug 4096 32) [.alloc 40 8] = .ok [(4096, 40)] ∧
    (deleteObject twoBases [1] 4096 false).map Prod.snd = some 4112 ∧
    ((SR.run pDebug none 1000 (⟨fresh pDebug 4096 32, (), []⟩ : SR.World Unit) [.alloc 40 8]).bind fun w =>
      (SR.deallocate pDebug none w.st () 4112).map fun _ => ()) = .aborted := by
  refine ⟨by decide +kernel, by decide +kernel, by decide +kernel, by decide +kernel⟩

theorem wordsOf_take_mono (l : List Cls) {i j : Nat} (h : i ≤ j) : wordsOf (l.take i) ≤ wordsOf (l.take j) := by
  obtain ⟨k, rfl⟩ := Nat.exists_eq_add_of_le h
  rw [List.take_add, wordsOf_append]
  omega

theorem wordsOf_take_succ {l : List Cls} {i : Nat} {b : Cls} (h : l[i]? = some b) :
    wordsOf (l.take (i + 1)) = wordsOf (l.take i) + b.words := by
  rw [List.take_add_one, h, wordsOf_append]
  simp [wordsOf]

theorem wordsOf_take_le (l : List Cls) (i : Nat) : wordsOf (l.take i) ≤ wordsOf l := by
  have h := wordsOf_append (l.take i) (l.drop i)
  rw [List.take_append_drop] at h
  omega

/-- What `offset` counts are places: the bases of a class lie inside it, apart from each other, and, if it has a
virtual table pointer of its own, after that. -/
theorem C128_layout {c b b' : Cls} {i j : Nat} (hi : c.bases[i]? = some b) (hj : c.bases[j]? = some b')
    (hne : i ≠ j) :
    (baseOffset c i + b.words ≤ baseOffset c j ∨ baseOffset c j + b'.words ≤ baseOffset c i) ∧
    baseOffset c i + b.words ≤ c.words ∧
    (c.polymorphic = true → (∀ x ∈ c.bases, x.polymorphic = false) → 0 < baseOffset c i) := by
  obtain ⟨d, o, n, l⟩ := c
  simp only [Cls.bases] at hi hj
  have si := wordsOf_take_succ hi
  have sj := wordsOf_take_succ hj
  have li := wordsOf_take_le l (i + 1)
  have lj := wordsOf_take_le l (j + 1)
  simp only [baseOffset, Cls.bases, Cls.words, Cls.polymorphic]
  cases hk : l.findIdx? Cls.polymorphic with
  | none =>
    have hall : anyPolymorphic l = false := by
      rw [any_eq, ← Bool.not_eq_true, List.any_eq_true]
      rintro ⟨x, hx, hp⟩
      have := List.findIdx?_eq_none_iff.1 hk x hx
      simp [hp] at this
    simp only [hall, Bool.or_false, Bool.not_false, Bool.and_true]
    refine ⟨?_, by omega, ?_⟩
    · rcases Nat.lt_or_gt_of_ne hne with hl | hl
      · have := wordsOf_take_mono l (show i + 1 ≤ j from hl)
        omega
      · have := wordsOf_take_mono l (show j + 1 ≤ i from hl)
        omega
    · intro hp _
      rw [if_pos hp]
      omega
  | some k =>
    obtain ⟨hkl, hkp, -⟩ := List.findIdx?_eq_some_iff_getElem.1 hk
    have hkg : l[k]? = some l[k] := List.getElem?_eq_getElem hkl
    have sk := wordsOf_take_succ hkg
    have lk := wordsOf_take_le l (k + 1)
    have hd : wordsOf ((l.drop k).take 1) = l[k].words := by
      rw [List.drop_eq_getElem_cons hkl, List.take_succ_cons, List.take_zero, wordsOf, wordsOf, Nat.add_zero]
    have hany : anyPolymorphic l = true := by
      rw [any_eq, List.any_eq_true]
      exact ⟨_, List.getElem_mem hkl, hkp⟩
    simp only [hd, hany, Bool.not_true, Bool.and_false]
    have mono := fun {x y : Nat} (h : x ≤ y) => wordsOf_take_mono l h
    refine ⟨?_, ?_, ?_⟩
    · by_cases ei : i = k
      · subst ei
        rw [hkg] at hi
        cases hi
        rw [if_pos rfl, if_neg (Ne.symm hne)]
        by_cases hl : j < i
        · rw [if_pos hl]; omega
        · have := mono (show i + 1 ≤ j by omega)
          rw [if_neg hl]; omega
      · rw [if_neg ei]
        by_cases ej : j = k
        · subst ej
          rw [hkg] at hj
          cases hj
          rw [if_pos rfl]
          by_cases hl : i < j
          · rw [if_pos hl]; omega
          · have := mono (show j + 1 ≤ i by omega)
            rw [if_neg hl]; omega
        · rw [if_neg ej]
          rcases Nat.lt_or_gt_of_ne hne with hl | hl
          · have := mono (show i + 1 ≤ j from hl)
            by_cases h1 : i < k <;> by_cases h2 : j < k <;> simp only [h1, h2, if_true, if_false]
            · omega
            · have := mono (show k + 1 ≤ j by omega)
              have := mono (show i + 1 ≤ k by omega)
              omega
            · omega
            · omega
          · have := mono (show j + 1 ≤ i from hl)
            by_cases h1 : i < k <;> by_cases h2 : j < k <;> simp only [h1, h2, if_true, if_false]
            · omega
            · omega
            · have := mono (show k + 1 ≤ i by omega)
              have := mono (show j + 1 ≤ k by omega)
              omega
            · omega
    · by_cases ei : i = k
      · subst ei
        rw [hkg] at hi
        cases hi
        rw [if_pos rfl]
        omega
      · rw [if_neg ei]
        by_cases hl : i < k
        · have := mono (show i + 1 ≤ k from hl)
          rw [if_pos hl]; omega
        · rw [if_neg hl]; omega
    · intro _ hno
      have := hno _ (List.getElem_mem hkl)
      rw [hkp] at this
      cases this

example : baseOffset (.mk true false 1 [.mk false false 2 [], .mk false false 1 []]) 1 = 3 ∧
    0 < baseOffset (.mk true false 1 [.mk false false 2 [], .mk false false 1 []]) 0 :=
  ⟨by decide +kernel, (C128_layout (j := 1) rfl rfl (by decide)).2.2 (by decide +kernel) (by decide +kernel)⟩

end Utils.Props
