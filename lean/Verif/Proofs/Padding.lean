import Verif.Spec.Padding
import Mathlib.Data.List.Perm.Subperm
import Mathlib.Data.List.Nodup

/-! # Lemmas about padding -/

namespace Utils.Padding

theorem le_roundUp {n a : Nat} (h : 0 < a) : n ≤ roundUp n a := by
  unfold roundUp
  have h1 := Nat.div_add_mod (n + a - 1) a
  have h2 := Nat.mod_lt (n + a - 1) h
  rw [Nat.mul_comm] at h1
  omega

mutual

theorem alignOf_pos : ∀ {t : Ty}, Proper t → 0 < alignOf t
  | .scalar _ a, h => by simpa [alignOf, Proper] using h
  | .cls true a ms, h => by
    have : 0 < a := by simp only [Proper] at h; exact h.1
    simp only [alignOf]; omega
  | .cls false a ms, h => by
    have : 0 < a := by simpa only [Proper] using h
    simp only [alignOf]; omega

end

mutual

/-- The bytes that belong to scalars or non-aggregates, in order. -/
def bytes : Ty → List Nat
  | .scalar s _ => List.range s
  | .cls true _ ms => bytesAll 0 ms
  | .cls false a ms => List.range (byteSize (.cls false a ms))

/-- The same for members. -/
def bytesAll (off : Nat) : List Ty → List Nat
  | [] => []
  | t :: ts => (bytes t).map (roundUp off (alignOf t) + ·) ++
      bytesAll (roundUp off (alignOf t) + byteSize t) ts

end

mutual

theorem mem_bytes : ∀ (t : Ty) (i : Nat), i ∈ bytes t ↔ Visible t i
  | .scalar s _, i => by simp [bytes, Visible]
  | .cls true _ ms, i => by
    simp only [bytes, Visible]
    exact mem_bytesAll ms 0 i
  | .cls false a ms, i => by simp [bytes, Visible]

theorem mem_bytesAll : ∀ (ts : List Ty) (off i : Nat), i ∈ bytesAll off ts ↔ VisibleAll off ts i
  | [], off, i => by simp [bytesAll, VisibleAll]
  | t :: ts, off, i => by
    simp only [bytesAll, VisibleAll, List.mem_append, List.mem_map]
    rw [mem_bytesAll ts]
    constructor
    · rintro (⟨j, hj, rfl⟩ | h)
      · refine Or.inl ⟨by omega, ?_⟩
        rw [Nat.add_sub_cancel_left]
        exact (mem_bytes t j).1 hj
      · exact Or.inr h
    · rintro (⟨h1, h2⟩ | h)
      · exact Or.inl ⟨_, (mem_bytes t _).2 h2, by omega⟩
      · exact Or.inr h

end

mutual

theorem bytes_facts : ∀ {t : Ty}, Proper t →
    (bytes t).Nodup ∧ (∀ i ∈ bytes t, i < byteSize t) ∧ sumSize t = some (bytes t).length
  | .scalar s _, _ => by
    simp only [bytes, byteSize, sumSize, List.length_range]
    exact ⟨List.nodup_range, fun i hi => List.mem_range.1 hi, trivial⟩
  | .cls false a ms, _ => by
    simp only [bytes, sumSize, List.length_range]
    exact ⟨List.nodup_range, fun i hi => List.mem_range.1 hi, trivial⟩
  | .cls true a ms, h => by
    have hp := alignOf_pos h
    simp only [Proper] at h
    obtain ⟨-, hne, hms⟩ := h
    obtain ⟨h1, h2, h3, h4⟩ := bytesAll_facts 0 hms
    simp only [bytes, sumSize]
    refine ⟨h1, fun i hi => ?_, h4 hne⟩
    have := (h2 i hi).2
    simp only [byteSize]
    have := le_roundUp (n := max 1 (endOf 0 ms)) hp
    omega

theorem bytesAll_facts : ∀ {ts : List Ty} (off : Nat), ProperAll ts →
    (bytesAll off ts).Nodup ∧ (∀ i ∈ bytesAll off ts, off ≤ i ∧ i < endOf off ts) ∧
    off ≤ endOf off ts ∧ (ts ≠ [] → sumAll ts = some (bytesAll off ts).length)
  | [], off, _ => by simp [bytesAll, endOf]
  | [t], off, h => by
    simp only [ProperAll] at h
    obtain ⟨h1, h2, h3⟩ := bytes_facts h.1
    have hle := le_roundUp (n := off) (alignOf_pos h.1)
    simp only [bytesAll, endOf, sumAll, List.append_nil, List.length_map]
    refine ⟨h1.map fun a b e => by simpa using e, fun i hi => ?_, by omega, fun _ => h3⟩
    obtain ⟨j, hj, rfl⟩ := List.mem_map.1 hi
    have := h2 j hj
    omega
  | t :: t' :: ts, off, h => by
    have hall : ProperAll (t' :: ts) := by simp only [ProperAll] at h ⊢; exact h.2
    have ht : Proper t := by simp only [ProperAll] at h; exact h.1
    obtain ⟨h1, h2, h3⟩ := bytes_facts ht
    have hle := le_roundUp (n := off) (alignOf_pos ht)
    obtain ⟨g1, g2, g3, g4⟩ := bytesAll_facts (ts := t' :: ts) (roundUp off (alignOf t) + byteSize t) hall
    rw [show bytesAll off (t :: t' :: ts) = (bytes t).map (roundUp off (alignOf t) + ·) ++
      bytesAll (roundUp off (alignOf t) + byteSize t) (t' :: ts) by rw [bytesAll],
      show endOf off (t :: t' :: ts) = endOf (roundUp off (alignOf t) + byteSize t) (t' :: ts) by
        rw [endOf]]
    refine ⟨?_, ?_, by omega, ?_⟩
    · rw [List.nodup_append]
      refine ⟨h1.map fun a b e => by simpa using e, g1, ?_⟩
      intro a ha b hb e
      obtain ⟨j, hj, rfl⟩ := List.mem_map.1 ha
      have := h2 j hj
      have := g2 b hb
      omega
    · intro i hi
      rcases List.mem_append.1 hi with hi | hi
      · obtain ⟨j, hj, rfl⟩ := List.mem_map.1 hi
        have := h2 j hj
        omega
      · have := g2 i hi
        omega
    · intro _
      rw [sumAll, h3, g4 (by simp)]
      simp

end

theorem nodup_full {l : List Nat} {n : Nat} (h1 : l.Nodup) (h2 : ∀ i ∈ l, i < n) :
    l.length = n ↔ ∀ i < n, i ∈ l := by
  have hsub : l.Subperm (List.range n) :=
    List.subperm_of_subset h1 fun i hi => List.mem_range.2 (h2 i hi)
  constructor
  · intro hl i hi
    have := hsub.perm_of_length_le (by simp [hl])
    exact this.mem_iff.2 (List.mem_range.2 hi)
  · intro h
    have h3 : (List.range n).Subperm l :=
      List.subperm_of_subset List.nodup_range fun i hi => h i (List.mem_range.1 hi)
    have a := hsub.length_le
    have b := h3.length_le
    rw [List.length_range] at a b
    omega

mutual

theorem visible_owned : ∀ (t : Ty) (i : Nat), Plain t → (Visible t i ↔ Owned t i)
  | .scalar s _, i, _ => by simp [Visible, Owned]
  | .cls true _ ms, i, h => by
    simp only [Plain] at h
    simp only [Visible, Owned]
    exact visibleAll_owned ms 0 i h.2
  | .cls false _ _, i, h => by simp [Plain] at h

theorem visibleAll_owned : ∀ (ts : List Ty) (off i : Nat), PlainAll ts →
    (VisibleAll off ts i ↔ OwnedAll off ts i)
  | [], off, i, _ => by simp [VisibleAll, OwnedAll]
  | t :: ts, off, i, h => by
    simp only [PlainAll] at h
    simp only [VisibleAll, OwnedAll]
    rw [visible_owned t _ h.1, visibleAll_owned ts _ i h.2]

end

mutual

theorem sumSize_none : ∀ (t : Ty), sumSize t = none ↔ EmptyInside t
  | .scalar s _ => by simp [sumSize, EmptyInside]
  | .cls false _ _ => by simp [sumSize, EmptyInside]
  | .cls true _ ms => by
    simp only [sumSize, EmptyInside]
    exact sumAll_none ms

theorem sumAll_none : ∀ (ts : List Ty), sumAll ts = none ↔ ts = [] ∨ EmptyInsideAll ts
  | [] => by simp [sumAll]
  | [t] => by simp [sumAll, EmptyInsideAll, sumSize_none t]
  | t :: t' :: ts => by
    have h1 := sumSize_none t
    have h2 := sumAll_none (t' :: ts)
    rw [show EmptyInsideAll (t :: t' :: ts) ↔ EmptyInside t ∨ EmptyInsideAll (t' :: ts) by
      simp only [EmptyInsideAll]]
    rw [← h1, sumAll]
    have h2' : EmptyInsideAll (t' :: ts) ↔ sumAll (t' :: ts) = none := by rw [h2]; simp
    rw [h2']
    cases sumSize t <;> cases sumAll (t' :: ts) <;> simp

end

theorem hasPadding_visible {t : Ty} (h : Proper t) :
    ∃ b, hasPadding true t = some b ∧ (b = false ↔ ∀ i < byteSize t, Visible t i) := by
  obtain ⟨h1, h2, h3⟩ := bytes_facts h
  refine ⟨byteSize t != (bytes t).length, ?_, ?_⟩
  · unfold hasPadding
    rw [h3]
    rfl
  · rw [bne_eq_false_iff_eq, eq_comm, nodup_full h1 h2]
    simp only [mem_bytes]

theorem posAlign_alignOf : ∀ {t : Ty}, PosAlign t → 0 < alignOf t
  | .scalar _ a, h => by simpa [alignOf, PosAlign] using h
  | .cls b a ms, h => by
    have : 0 < a := by simp only [PosAlign] at h; exact h.1
    simp only [alignOf]; omega

theorem le_endOf : ∀ (ts : List Ty) (off : Nat), PosAlignAll ts → off ≤ endOf off ts
  | [], off, _ => by simp [endOf]
  | t :: ts, off, h => by
    simp only [PosAlignAll] at h
    have h1 := le_roundUp (n := off) (posAlign_alignOf h.1)
    have h2 := le_endOf ts (roundUp off (alignOf t) + byteSize t) h.2
    simp only [endOf]
    omega

mutual

theorem owned_lt : ∀ (t : Ty) (i : Nat), PosAlign t → Owned t i → i < byteSize t
  | .scalar s _, i, _, h => by simpa [Owned, byteSize] using h
  | .cls b a ms, i, hp, h => by
    have hms : PosAlignAll ms := by simp only [PosAlign] at hp; exact hp.2
    simp only [Owned] at h
    have h1 := ownedAll_lt ms 0 i hms h
    have h2 := le_roundUp (n := max 1 (endOf 0 ms)) (posAlign_alignOf hp)
    simp only [byteSize]
    omega

theorem ownedAll_lt : ∀ (ts : List Ty) (off i : Nat), PosAlignAll ts → OwnedAll off ts i →
    i < endOf off ts
  | [], _, _, _, h => by simp [OwnedAll] at h
  | t :: ts, off, i, hp, h => by
    simp only [PosAlignAll] at hp
    simp only [OwnedAll] at h
    simp only [endOf]
    have h2 := le_endOf ts (roundUp off (alignOf t) + byteSize t) hp.2
    rcases h with ⟨h, ho⟩ | h
    · have := owned_lt t _ hp.1 ho
      omega
    · exact ownedAll_lt ts _ i hp.2 h

end

mutual

/-- What belongs to a scalar is visible. -/
theorem owned_visible : ∀ (t : Ty) (i : Nat), PosAlign t → Owned t i → Visible t i
  | .scalar s _, i, _, h => by simpa [Owned, Visible] using h
  | .cls true a ms, i, hp, h => by
    simp only [PosAlign] at hp
    simp only [Owned] at h
    simp only [Visible]
    exact ownedAll_visible ms 0 i hp.2 h
  | .cls false a ms, i, hp, h => by
    simp only [Visible]
    exact owned_lt _ i hp h

theorem ownedAll_visible : ∀ (ts : List Ty) (off i : Nat), PosAlignAll ts → OwnedAll off ts i →
    VisibleAll off ts i
  | [], _, _, _, h => by simp [OwnedAll] at h
  | t :: ts, off, i, hp, h => by
    simp only [PosAlignAll] at hp
    simp only [OwnedAll] at h
    simp only [VisibleAll]
    rcases h with ⟨h, ho⟩ | h
    · exact Or.inl ⟨h, owned_visible t _ hp.1 ho⟩
    · exact Or.inr (ownedAll_visible ts _ i hp.2 h)

end

end Utils.Padding
