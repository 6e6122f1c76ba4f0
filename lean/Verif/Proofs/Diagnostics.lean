import Verif.Spec.Diagnostics

/-! # Lemmas about `printf` -/

namespace Utils.Diag

variable {sp : Nat → List Char}

theorem printf_char {c : Char} (hc : c ≠ '%') (f : List Char) (args : List PArg) :
    printf sp (c :: f) args = (printf sp f args).map (c :: ·) := by
  rw [printf]
  all_goals (intros; simp_all)

/-- Text without `%` is printed as it is. -/
theorem printf_text {t : List Char} (ht : '%' ∉ t) (f : List Char) (args : List PArg) :
    printf sp (t ++ f) args = (printf sp f args).map (t ++ ·) := by
  induction t with
  | nil => simp
  | cons c t ih =>
    rw [List.cons_append, printf_char (by rintro rfl; simp at ht), ih (by simp_all)]
    cases printf sp f args <;> simp

theorem printf_str (s f : List Char) (args : List PArg) :
    printf sp ('%' :: 's' :: f) (.str s :: args) = (printf sp f args).map (s ++ ·) := by
  rw [printf]

theorem decimal_digits (n : Nat) : '%' ∉ Nat.toDigits 10 n := by
  intro h
  have := Nat.isDigit_of_mem_toDigits (by decide) (by decide) h
  exact absurd this (by decide)

/-- Arguments that are left over change nothing. -/
theorem printf_more {f : List Char} {args : List PArg} {out : List Char} (more : List PArg)
    (h : printf sp f args = some out) : printf sp f (args ++ more) = some out := by
  fun_induction printf sp f args generalizing out with
  | case1 => simpa [printf] using h
  | case2 f args ih =>
    obtain ⟨x, hx, rfl⟩ := Option.map_eq_some_iff.1 h
    rw [printf, ih hx]; rfl
  | case3 f a args ih =>
    obtain ⟨t, ht, h⟩ := Option.bind_eq_some_iff.1 h
    obtain ⟨x, hx, rfl⟩ := Option.map_eq_some_iff.1 h
    simp [printf, ht, ih hx]
  | case4 f a args ih =>
    obtain ⟨t, ht, h⟩ := Option.bind_eq_some_iff.1 h
    obtain ⟨x, hx, rfl⟩ := Option.map_eq_some_iff.1 h
    simp [printf, ht, ih hx]
  | case5 f a args ih =>
    obtain ⟨t, ht, h⟩ := Option.bind_eq_some_iff.1 h
    obtain ⟨x, hx, rfl⟩ := Option.map_eq_some_iff.1 h
    simp [printf, ht, ih hx]
  | case6 f t args ih =>
    obtain ⟨x, hx, rfl⟩ := Option.map_eq_some_iff.1 h
    simp [printf, ih hx]
  | case7 f t args ih =>
    obtain ⟨x, hx, rfl⟩ := Option.map_eq_some_iff.1 h
    simp [printf, ih hx]
  | case8 => cases h
  | case9 c f args h1 h2 h3 h4 h5 h6 h7 ih =>
    obtain ⟨x, hx, rfl⟩ := Option.map_eq_some_iff.1 h
    rw [printf_char, ih hx]
    · rfl
    · rintro rfl
      exact h7 rfl

/-- The number of characters that stand for themselves. -/
def literals : List Char → Nat
  | [] => 0
  | '%' :: '%' :: f => literals f + 1
  | '%' :: 'z' :: 'u' :: f => literals f
  | '%' :: _ :: f => literals f
  | '%' :: [] => 0
  | _ :: f => literals f + 1

theorem literals_char {c : Char} (hc : c ≠ '%') (f : List Char) :
    literals (c :: f) = literals f + 1 := by
  rw [literals]
  all_goals (intros; simp_all)

theorem literals_text {t : List Char} (ht : '%' ∉ t) (f : List Char) :
    literals (t ++ f) = t.length + literals f := by
  induction t with
  | nil => simp
  | cons c t ih =>
    rw [List.cons_append, literals_char (by rintro rfl; simp at ht), ih (by simp_all), List.length_cons]
    omega

theorem conversions_char {c : Char} (hc : c ≠ '%') (f : List Char) :
    conversions (c :: f) = conversions f := by
  rw [conversions]
  all_goals (intros; simp_all)

/-- How long the text of an argument is. -/
def PArg.width (sp : Nat → List Char) : PArg → Nat
  | .int _ v => (decimal v).length
  | .str s => s.length
  | .ptr a => (sp a).length

theorem readInt_length {t t' : CTy} {a : PArg} {x : List Char} (h : readInt t t' a = some x) :
    x.length = a.width sp := by
  unfold readInt at h
  split at h
  · split at h
    · cases h; rfl
    · cases h
  · cases h

/-- The length of what is printed. -/
theorem printf_length {f : List Char} {args : List PArg} {out : List Char}
    (h : printf sp f args = some out) :
    out.length = literals f + ((args.take (conversions f)).map (PArg.width sp)).sum := by
  fun_induction printf sp f args generalizing out with
  | case1 => cases h; simp [literals, conversions]
  | case2 f args ih =>
    obtain ⟨x, hx, rfl⟩ := Option.map_eq_some_iff.1 h
    rw [List.length_cons, ih hx, literals, conversions]; omega
  | case3 f a args ih =>
    obtain ⟨t, ht, h⟩ := Option.bind_eq_some_iff.1 h
    obtain ⟨x, hx, rfl⟩ := Option.map_eq_some_iff.1 h
    rw [List.length_append, ih hx, readInt_length (sp := sp) ht]
    simp [literals, conversions]; omega
  | case4 f a args ih =>
    obtain ⟨t, ht, h⟩ := Option.bind_eq_some_iff.1 h
    obtain ⟨x, hx, rfl⟩ := Option.map_eq_some_iff.1 h
    rw [List.length_append, ih hx, readInt_length (sp := sp) ht]
    simp [literals, conversions]; omega
  | case5 f a args ih =>
    obtain ⟨t, ht, h⟩ := Option.bind_eq_some_iff.1 h
    obtain ⟨x, hx, rfl⟩ := Option.map_eq_some_iff.1 h
    rw [List.length_append, ih hx, readInt_length (sp := sp) ht]
    simp [literals, conversions]; omega
  | case6 f t args ih =>
    obtain ⟨x, hx, rfl⟩ := Option.map_eq_some_iff.1 h
    rw [List.length_append, ih hx]
    simp [literals, conversions, PArg.width]; omega
  | case7 f t args ih =>
    obtain ⟨x, hx, rfl⟩ := Option.map_eq_some_iff.1 h
    rw [List.length_append, ih hx]
    simp [literals, conversions, PArg.width]; omega
  | case8 => cases h
  | case9 c f args h1 h2 h3 h4 h5 h6 h7 ih =>
    obtain ⟨x, hx, rfl⟩ := Option.map_eq_some_iff.1 h
    have hc : c ≠ '%' := by rintro rfl; exact h7 rfl
    rw [literals_char hc, conversions_char hc, List.length_cons, ih hx]; omega

/-- A `%` in a text that ends at a line break costs at least one character. -/
theorem literals_line : ∀ (n : Nat) (t f : List Char), t.length ≤ n →
    literals (t ++ '\n' :: f) + (if '%' ∈ t then 1 else 0) ≤ t.length + 1 + literals f
  | _, [], f, _ => by rw [List.nil_append, literals_char (by decide)]; simp; omega
  | n + 1, [c], f, hn => by
    by_cases hc : c = '%'
    · subst hc
      simp [literals]; omega
    · have := literals_line n [] f (by simp)
      rw [List.cons_append, literals_char hc]
      simp at this ⊢
      rw [if_neg (by exact fun h => hc h.symm)]
      omega
  | n + 1, c :: d :: t, f, hn => by
    by_cases hc : c = '%'
    · subst hc
      simp only [List.length_cons] at hn ⊢
      rw [if_pos (by simp)]
      have h0 := literals_line n t f (by omega)
      have h0' : literals (t ++ '\n' :: f) ≤ t.length + 1 + literals f := by
        exact Nat.le_trans (Nat.le_add_right _ _) h0
      by_cases hd : d = '%'
      · subst hd
        simp only [List.cons_append, literals]
        omega
      · by_cases hz : ∃ t', d = 'z' ∧ t = 'u' :: t'
        · obtain ⟨t', rfl, rfl⟩ := hz
          have h1 := literals_line n t' f (by simp at hn; omega)
          have h1' : literals (t' ++ '\n' :: f) ≤ t'.length + 1 + literals f :=
            Nat.le_trans (Nat.le_add_right _ _) h1
          simp only [List.cons_append, literals, List.length_cons]
          omega
        · rw [List.cons_append, List.cons_append, literals]
          · omega
          · exact hd
          · intro x hx1 hx2
            cases t with
            | nil => simp at hx2
            | cons a t' =>
              simp only [List.cons_append, List.cons.injEq] at hx2
              exact hz ⟨t', hx1, by rw [hx2.1]⟩
    · have h0 := literals_line n (d :: t) f (by simp at hn ⊢; omega)
      rw [List.cons_append, literals_char hc]
      have : ('%' ∈ c :: d :: t) ↔ '%' ∈ d :: t := by
        simp only [List.mem_cons]
        constructor
        · rintro (h | h)
          · exact absurd h.symm hc
          · exact h
        · exact fun h => .inr h
      simp only [this]
      simp only [List.length_cons] at h0 ⊢
      omega

theorem sum_take_le : ∀ (l : List Nat) (n : Nat), (l.take n).sum ≤ l.sum
  | [], _ => by simp
  | _ :: _, 0 => by simp
  | a :: l, n + 1 => by simpa using sum_take_le l n

end Utils.Diag
