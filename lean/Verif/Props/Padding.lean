import Verif.Proofs.Padding

/-! # Properties C34, C76: padding -/

namespace Utils.Props

open Utils.Padding

/-- `char` and `int`. -/
def tChar : Ty := .scalar 1 1
/-- `int`. -/
def tInt : Ty := .scalar 4 4
/-- `struct { char a; char b; }` -/
def tPair : Ty := .cls true 1 [tChar, tChar]
/-- `struct { struct { char a; char b; } x; struct { char a; char b; } y; int z; }`: no padding. -/
def tDense : Ty := .cls true 1 [tPair, tPair, tInt]
/-- `struct { struct { char a; char b; } x; int z; }`: two bytes of padding. -/
def tGap : Ty := .cls true 1 [tPair, tInt]
/-- `struct { int a; char b; }`: padding at the end. -/
def tTail : Ty := .cls true 1 [tInt, tChar]

/-! ## C34 -/

/-- For every nesting of non-empty aggregates over scalars, trivially copyable as a whole:
`has_padding_v<T>` is false iff every byte of the object belongs to a scalar. -/
theorem C34_padding {t : Ty} (h : Proper t) (hp : Plain t) :
    ∃ b, hasPadding true t = some b ∧ (b = false ↔ ∀ i < byteSize t, Owned t i) := by
  obtain ⟨b, h1, h2⟩ := hasPadding_visible h
  refine ⟨b, h1, h2.trans ?_⟩
  simp only [visible_owned t _ hp]

example : Proper tDense ∧ Plain tDense ∧ byteSize tDense = 8 ∧ hasPadding true tDense = some false ∧
    byteSize tGap = 8 ∧ hasPadding true tGap = some true ∧
    byteSize tTail = 8 ∧ hasPadding true tTail = some true := by
  refine ⟨?_, ?_, ?_, ?_, ?_, ?_, ?_, ?_⟩ <;>
  simp [Proper, ProperAll, Plain, PlainAll, tDense, tGap, tTail, tPair, tChar, tInt, byteSize, endOf,
    alignOf, alignAll, roundUp, hasPadding, sumSize, sumAll]

/-- A type that is not trivially copyable is always reported. -/
theorem C34_not_trivially_copyable (t : Ty) : hasPadding false t = some true := rfl

/-- The trait does not compile exactly for the trivially copyable types that contain an aggregate
without members. -/
theorem C34_rejected (t : Ty) : hasPadding true t = none ↔ EmptyInside t := by
  rw [← sumSize_none]
  unfold hasPadding
  cases sumSize t <;> simp

example : EmptyInside (.cls true 1 [tInt, .cls true 1 []]) := by
  simp [EmptyInside, EmptyInsideAll]

/-! ## The layout -/

/-- Members that start at the offsets `os`, the first of them at `off` or later: each at the first offset
it is aligned for that is not before the end of the one before. -/
def Laid (off : Nat) : List Ty → List Nat → Prop
  | [], os => os = []
  | _ :: _, [] => False
  | t :: ts, o :: os => (off ≤ o ∧ alignOf t ∣ o ∧ ∀ o', off ≤ o' → alignOf t ∣ o' → o ≤ o') ∧
      Laid (o + byteSize t) ts os

/-- Where members that start at the offsets `os` end. -/
def lastEnd (off : Nat) : List Ty → List Nat → Nat
  | t :: ts, o :: os => lastEnd (o + byteSize t) ts os
  | _, _ => off

theorem roundUp_least {n a : Nat} (ha : 0 < a) :
    n ≤ roundUp n a ∧ a ∣ roundUp n a ∧ ∀ m, n ≤ m → a ∣ m → roundUp n a ≤ m := by
  unfold roundUp
  have h1 := Nat.div_add_mod (n + a - 1) a
  have h2 := Nat.mod_lt (n + a - 1) ha
  rw [Nat.mul_comm] at h1
  refine ⟨by omega, ⟨_, Nat.mul_comm _ _⟩, ?_⟩
  rintro m hm ⟨k, rfl⟩
  rw [Nat.mul_comm a k]
  refine Nat.mul_le_mul_right a ?_
  have : (n + a - 1) / a < k + 1 := by
    rw [Nat.div_lt_iff_lt_mul ha, Nat.add_mul, Nat.mul_comm k a]
    omega
  omega

theorem laid_exists {ms : List Ty} (hp : ∀ t ∈ ms, 0 < alignOf t) (off : Nat) :
    ∃ os, Laid off ms os ∧ endOf off ms = lastEnd off ms os := by
  induction ms generalizing off with
  | nil => exact ⟨[], rfl, by simp [endOf, lastEnd]⟩
  | cons t ts ih =>
    obtain ⟨os, h1, h2⟩ := ih (fun t ht => hp t (List.mem_cons_of_mem _ ht))
      (roundUp off (alignOf t) + byteSize t)
    exact ⟨roundUp off (alignOf t) :: os, ⟨roundUp_least (hp t List.mem_cons_self), h1⟩,
      by simp only [endOf, lastEnd, h2]⟩

theorem pow2_max_dvd {a b : Nat} (ha : ∃ k, a = 2 ^ k) (hb : ∃ k, b = 2 ^ k) :
    (∃ k, max a b = 2 ^ k) ∧ a ∣ max a b ∧ b ∣ max a b := by
  obtain ⟨i, rfl⟩ := ha
  obtain ⟨j, rfl⟩ := hb
  rcases Nat.le_total i j with h | h
  · rw [Nat.max_eq_right (Nat.pow_le_pow_right (by decide) h)]
    exact ⟨⟨j, rfl⟩, Nat.pow_dvd_pow 2 h, Nat.dvd_refl _⟩
  · rw [Nat.max_eq_left (Nat.pow_le_pow_right (by decide) h)]
    exact ⟨⟨i, rfl⟩, Nat.dvd_refl _, Nat.pow_dvd_pow 2 h⟩

theorem alignAll_dvd {ms : List Ty} (hp : ∀ t ∈ ms, ∃ k, alignOf t = 2 ^ k) :
    (∃ k, alignAll ms = 2 ^ k) ∧ ∀ t ∈ ms, alignOf t ∣ alignAll ms := by
  induction ms with
  | nil => exact ⟨⟨0, by simp [alignAll]⟩, by simp⟩
  | cons t ts ih =>
    obtain ⟨h1, h2⟩ := ih fun t ht => hp t (List.mem_cons_of_mem _ ht)
    obtain ⟨h3, h4, h5⟩ := pow2_max_dvd (hp t List.mem_cons_self) h1
    simp only [alignAll]
    refine ⟨h3, fun x hx => ?_⟩
    rcases List.mem_cons.1 hx with rfl | hx
    · exact h4
    · exact Nat.dvd_trans (h2 x hx) h5

theorem alignAll_least {ms : List Ty} {k : Nat} (h : ∀ t ∈ ms, alignOf t ∣ k) : alignAll ms ∣ k := by
  induction ms with
  | nil => simp [alignAll]
  | cons t ts ih =>
    simp only [alignAll]
    rw [Nat.max_def]
    split
    · exact ih fun t ht => h t (List.mem_cons_of_mem _ ht)
    · exact h t List.mem_cons_self

/-- The layout the trait is judged by is the one of the ABI: every member at the first offset it is
aligned for behind the one before; the alignment of the class is the least common multiple of the
alignments of its members and of its `alignas`; its size is the first multiple of its alignment that is positive and not
before the end of the last member. -/
theorem C34_layout {b : Bool} {a : Nat} {ms : List Ty} (ha : ∃ k, a = 2 ^ k)
    (hm : ∀ t ∈ ms, ∃ k, alignOf t = 2 ^ k) :
    (∃ k, alignOf (.cls b a ms) = 2 ^ k) ∧ a ∣ alignOf (.cls b a ms) ∧
    (∀ t ∈ ms, alignOf t ∣ alignOf (.cls b a ms)) ∧
    (∀ k, a ∣ k → (∀ t ∈ ms, alignOf t ∣ k) → alignOf (.cls b a ms) ∣ k) ∧
    ∃ os, Laid 0 ms os ∧ 0 < byteSize (.cls b a ms) ∧ lastEnd 0 ms os ≤ byteSize (.cls b a ms) ∧
      alignOf (.cls b a ms) ∣ byteSize (.cls b a ms) ∧
      ∀ n, 0 < n → lastEnd 0 ms os ≤ n → alignOf (.cls b a ms) ∣ n → byteSize (.cls b a ms) ≤ n := by
  obtain ⟨h1, h2⟩ := alignAll_dvd hm
  obtain ⟨h3, h4, h5⟩ := pow2_max_dvd ha h1
  have he : alignOf (.cls b a ms) = max a (alignAll ms) := by simp only [alignOf]
  have hs : byteSize (.cls b a ms) = roundUp (max 1 (endOf 0 ms)) (alignOf (.cls b a ms)) := by
    simp only [byteSize]
  have hpos : 0 < alignOf (.cls b a ms) := by
    obtain ⟨k, hk⟩ := h3
    rw [he, hk]
    exact Nat.two_pow_pos k
  obtain ⟨os, g1, g2⟩ := laid_exists (ms := ms) (fun t ht => by
    obtain ⟨k, hk⟩ := hm t ht
    rw [hk]
    exact Nat.two_pow_pos k) 0
  obtain ⟨r1, r2, r3⟩ := roundUp_least (n := max 1 (endOf 0 ms)) hpos
  rw [← hs] at r1 r2 r3
  rw [he] at r2 r3 ⊢
  refine ⟨h3, h4, fun t ht => Nat.dvd_trans (h2 t ht) h5, fun k hk hks => ?_, os, g1, by omega, by omega, r2, ?_⟩
  · rw [Nat.max_def]
    split
    · exact alignAll_least hks
    · exact hk
  intro n h0 hn hd
  exact r3 n (by omega) hd

example : Laid 0 [tChar, tInt, tChar] [0, 4, 8] ∧ byteSize (.cls true 1 [tChar, tInt, tChar]) = 12 := by
  refine ⟨⟨⟨by omega, by simp, by omega⟩, ⟨?_, ?_, ?_⟩, ⟨?_, ?_, ?_⟩, rfl⟩, ?_⟩ <;>
    simp [tChar, tInt, byteSize, alignOf, alignAll, endOf, roundUp] <;> omega

/-! ## C76 -/

/-- With classes that are no aggregates inside, the trait counts all their bytes as data. -/
theorem C76_visible {t : Ty} (h : Proper t) :
    ∃ b, hasPadding true t = some b ∧ (b = false ↔ ∀ i < byteSize t, Visible t i) :=
  hasPadding_visible h

mutual

theorem owned_visible_of_dense : ∀ (t : Ty) (i : Nat), Dense t → (Visible t i ↔ Owned t i)
  | .scalar s _, i, _ => by simp [Visible, Owned]
  | .cls true _ ms, i, h => by
    simp only [Dense] at h
    simp only [Visible, Owned]
    exact ownedAll_visible_of_dense ms 0 i h
  | .cls false a ms, i, h => by
    simp only [Dense] at h
    simp only [Visible]
    exact (h i).symm

theorem ownedAll_visible_of_dense : ∀ (ts : List Ty) (off i : Nat), DenseAll ts →
    (VisibleAll off ts i ↔ OwnedAll off ts i)
  | [], off, i, _ => by simp [VisibleAll, OwnedAll]
  | t :: ts, off, i, h => by
    simp only [DenseAll] at h
    simp only [VisibleAll, OwnedAll]
    rw [owned_visible_of_dense t _ h.1, ownedAll_visible_of_dense ts _ i h.2]

end

/-- If the non-aggregate classes inside have no padding themselves, the trait is right. Missing from
C76: non-aggregate classes with padding. -/
theorem C76_padding_partial {t : Ty} (h : Proper t) (hd : Dense t) :
    ∃ b, hasPadding true t = some b ∧ (b = false ↔ ∀ i < byteSize t, Owned t i) := by
  obtain ⟨b, h1, h2⟩ := hasPadding_visible h
  refine ⟨b, h1, h2.trans ?_⟩
  simp only [owned_visible_of_dense t _ hd]

example : Proper (.cls true 1 [.cls false 1 [tInt, tInt], tInt]) ∧
    Dense (.cls true 1 [.cls false 1 [tInt, tInt], tInt]) ∧
    hasPadding true (.cls true 1 [.cls false 1 [tInt, tInt], tInt]) = some false := by
  refine ⟨by simp [Proper, ProperAll, tInt], ?_, ?_⟩
  · simp only [Dense, DenseAll, tInt, and_true]
    intro i
    simp [Owned, OwnedAll, byteSize, endOf, alignOf, alignAll, roundUp]
    omega
  · simp [tInt, byteSize, endOf, alignOf, alignAll, roundUp, hasPadding, sumSize, sumAll]

/-- C76 is false: `class { char a; int b; public: ... }` has three bytes of padding, and
`has_padding_v` says it has none. -/
theorem C76_counterexample :
    hasPadding true (.cls false 1 [tChar, tInt]) = some false ∧
    byteSize (.cls false 1 [tChar, tInt]) = 8 ∧ ¬ Owned (.cls false 1 [tChar, tInt]) 1 := by
  refine ⟨?_, ?_, ?_⟩ <;>
  simp [tChar, tInt, Owned, OwnedAll, byteSize, endOf, alignOf, alignAll, roundUp, hasPadding, sumSize]

/-- `long double` on x86-64: 10 bytes of data in 16. -/
def tLongDouble : Ty := .cls false 16 [.scalar 10 1]

/-- C76 is false of `long double`, and of a `struct` whose only member is one: no padding is reported,
although bytes 10 to 15 hold no data. -/
theorem C76_counterexample_scalar :
    byteSize (.cls true 1 [tLongDouble]) = 16 ∧
    hasPadding true (.cls true 1 [tLongDouble]) = some false ∧
    ∀ i, Owned (.cls true 1 [tLongDouble]) i ↔ i < 10 := by
  refine ⟨?_, ?_, fun i => ?_⟩ <;>
  simp [tLongDouble, Owned, OwnedAll, byteSize, endOf, alignOf, alignAll, roundUp, hasPadding, sumSize,
    sumAll]

end Utils.Props
