import Verif.Spec.ZeroOpt

/-! # Proofs for C139 -/

namespace Utils.Opt

theorem events_append (P Q : List Instr) (s : Machine) : events (P ++ Q) s = events P s ++ events Q (after P s) := by
  induction P generalizing s with
  | nil => rfl
  | cons i P ih => simp [events, after, ih]

theorem after_append (P Q : List Instr) (s : Machine) : after (P ++ Q) s = after Q (after P s) := by
  induction P generalizing s with
  | nil => rfl
  | cons i P ih => simp [after, ih]

theorem emit_length (s t : Machine) (i : Instr) : (emit s i).length = (emit t i).length := by
  cases i <;> rfl

theorem events_length (P : List Instr) (s t : Machine) : (events P s).length = (events P t).length := by
  induction P generalizing s t with
  | nil => rfl
  | cons i P ih => simp only [events, List.length_append]; rw [emit_length s t, ih]

/-- Bytes that do not reach the outside do not matter. -/
theorem events_agree {P : List Instr} {s t : Machine} (hc : s.coming = t.coming)
    (hm : ∀ a, reaches P a = true → s.mem a = t.mem a) : events P s = events P t := by
  induction P generalizing s t with
  | nil => rfl
  | cons i P ih =>
    have keep : ∀ (b : Nat) (v w : UInt8), v = w →
        (∀ a, a ≠ b → reaches P a = true → s.mem a = t.mem a) →
        ∀ a, reaches P a = true → put s.mem b v a = put t.mem b w a := by
      intro b v w hv h a ha
      unfold put
      split
      · exact hv
      · next hne => exact h a hne ha
    cases i with
    | write b v =>
      exact ih (s := ⟨put s.mem b v, s.coming⟩) (t := ⟨put t.mem b v, t.coming⟩) hc
        (keep b v v rfl fun a hne ha => hm a (by simp [reaches, hne, ha]))
    | strict b v =>
      exact congrArg (List.cons _) (ih (s := ⟨put s.mem b v, s.coming⟩) (t := ⟨put t.mem b v, t.coming⟩) hc
        (keep b v v rfl fun a hne ha => hm a (by simp [reaches, hne, ha])))
    | input b =>
      simp only [events, emit, next, hc]
      exact congrArg _ (ih rfl (keep b _ _ rfl fun a hne ha => hm a (by simp [reaches, hne, ha])))
    | output b =>
      simp only [events, emit, next]
      rw [hm b (by simp [reaches]), ih hc fun a ha => hm a (by simp [reaches, ha])]
    | copy dst src =>
      simp only [events, emit, next]
      refine congrArg _ (ih hc ?_)
      intro a ha
      simp only [put]
      split
      · next he =>
        subst he
        exact hm src (by simp [reaches, ha])
      · next hne => exact hm a (by simp [reaches, hne, ha])

/-- Bytes that reach the outside do. -/
theorem events_differ {P : List Instr} {s t : Machine} {a : Nat} (hr : reaches P a = true)
    (hm : s.mem a ≠ t.mem a) : events P s ≠ events P t := by
  induction P generalizing s t a with
  | nil => simp [reaches] at hr
  | cons i P ih =>
    intro he
    simp only [events] at he
    obtain ⟨h1, h2⟩ := List.append_inj he (emit_length s t i)
    have other : ∀ (b : Nat) (v w : UInt8), a ≠ b → put s.mem b v a ≠ put t.mem b w a := by
      intro b v w hne
      unfold put
      rw [if_neg hne, if_neg hne]
      exact hm
    cases i with
    | write b v =>
      simp only [reaches, Bool.and_eq_true, bne_iff_ne] at hr
      exact ih hr.2 (other b v v hr.1) h2
    | strict b v =>
      simp only [reaches, Bool.and_eq_true, bne_iff_ne] at hr
      exact ih hr.2 (other b v v hr.1) h2
    | input b =>
      simp only [reaches, Bool.and_eq_true, bne_iff_ne] at hr
      exact ih hr.2 (other b _ _ hr.1) h2
    | output b =>
      simp only [reaches, Bool.or_eq_true, beq_iff_eq] at hr
      rcases hr with rfl | hr
      · simp only [emit, List.cons.injEq, Event.output.injEq, and_true] at h1
        exact hm h1
      · exact ih hr hm h2
    | copy dst src =>
      simp only [reaches, Bool.or_eq_true, Bool.and_eq_true, beq_iff_eq, bne_iff_ne] at hr
      rcases hr with ⟨rfl, hr⟩ | ⟨hne, hr⟩
      · exact ih (a := dst) hr (by simpa [next, put] using hm) h2
      · exact ih hr (other dst _ _ hne) h2

theorem zeroCode_succ (lib : Lib) (ptr n : Nat) :
    zeroCode lib ptr (n + 1) = zeroCode lib ptr n ++ zeroCode lib (ptr + n) 1 := by
  cases lib <;> simp [zeroCode, List.range_succ]

theorem after_zero (lib : Lib) (ptr n : Nat) (s : Machine) :
    after (zeroCode lib ptr n) s = ⟨fun a => if ptr ≤ a ∧ a < ptr + n then 0 else s.mem a, s.coming⟩ := by
  induction n with
  | zero =>
    have : (fun a => if ptr ≤ a ∧ a < ptr + 0 then (0 : UInt8) else s.mem a) = s.mem := by
      funext a
      rw [if_neg (by omega)]
    rw [this]
    rfl
  | succ n ih =>
    rw [zeroCode_succ, after_append, ih]
    have h1 : ∀ t : Machine, after (zeroCode lib (ptr + n) 1) t = ⟨put t.mem (ptr + n) 0, t.coming⟩ := by
      intro t
      cases lib <;> rfl
    rw [h1]
    congr 1
    funext a
    unfold put
    by_cases h : a = ptr + n
    · rw [if_pos h, if_pos (by omega)]
    · rw [if_neg h]
      simp only
      by_cases h2 : ptr ≤ a ∧ a < ptr + n
      · rw [if_pos h2, if_pos (by omega)]
      · rw [if_neg h2, if_neg (by omega)]

theorem events_zero_handmade (ptr n : Nat) (s : Machine) : events (zeroCode .handmade ptr n) s = [] := by
  induction n generalizing s with
  | zero => rfl
  | succ n ih => rw [zeroCode_succ, events_append, ih]; rfl

theorem events_zero_strict {lib : Lib} (hl : lib ≠ .handmade) (ptr n : Nat) (s : Machine) :
    events (zeroCode lib ptr n) s = (List.range n).map fun i => .strict (ptr + i) 0 := by
  induction n generalizing s with
  | zero => rfl
  | succ n ih =>
    rw [zeroCode_succ, events_append, ih, List.range_succ, List.map_append]
    cases lib with
    | handmade => exact absurd rfl hl
    | memsetS => rfl
    | secureZeroMemory => rfl

theorem receive_succ (ptr n : Nat) : receive ptr (n + 1) = receive ptr n ++ receive (ptr + n) 1 := by
  simp [receive, List.range_succ]

theorem after_receive (ptr n : Nat) (s : Machine) :
    after (receive ptr n) s =
      ⟨fun a => if ptr ≤ a ∧ a < ptr + n then s.coming.getD (a - ptr) 0 else s.mem a, s.coming.drop n⟩ := by
  induction n with
  | zero =>
    have : (fun a => if ptr ≤ a ∧ a < ptr + 0 then s.coming.getD (a - ptr) 0 else s.mem a) = s.mem := by
      funext a
      rw [if_neg (by omega)]
    rw [this]
    rfl
  | succ n ih =>
    rw [receive_succ, after_append, ih]
    have h1 : ∀ t : Machine, after (receive (ptr + n) 1) t =
        ⟨put t.mem (ptr + n) (t.coming.headD 0), t.coming.tail⟩ := fun t => rfl
    rw [h1]
    simp only [List.tail_drop]
    congr 1
    funext a
    unfold put
    by_cases h : a = ptr + n
    · subst h
      rw [if_pos rfl, if_pos (by omega), Nat.add_sub_cancel_left]
      simp [List.headD_eq_head?_getD, List.getD_eq_getElem?_getD]
    · rw [if_neg h]
      simp only
      by_cases h2 : ptr ≤ a ∧ a < ptr + n
      · rw [if_pos h2, if_pos (by omega)]
      · rw [if_neg h2, if_neg (by omega)]

theorem someOf_succ (keep : Nat → Bool) (ptr n : Nat) :
    someOf keep ptr (n + 1) = someOf keep ptr n ++ if keep n then [.write (ptr + n) 0] else [] := by
  rw [someOf, List.range_succ, List.filter_append, List.map_append, someOf]
  congr 1
  cases h : keep n <;> simp [h]

theorem events_someOf (keep : Nat → Bool) (ptr n : Nat) (s : Machine) : events (someOf keep ptr n) s = [] := by
  induction n generalizing s with
  | zero => rfl
  | succ n ih =>
    rw [someOf_succ, events_append, ih]
    split <;> rfl

theorem after_someOf (keep : Nat → Bool) (ptr n : Nat) (s : Machine) :
    after (someOf keep ptr n) s =
      ⟨fun a => if (ptr ≤ a ∧ a < ptr + n) ∧ keep (a - ptr) = true then 0 else s.mem a, s.coming⟩ := by
  induction n with
  | zero =>
    have : (fun a => if (ptr ≤ a ∧ a < ptr + 0) ∧ keep (a - ptr) = true then (0 : UInt8) else s.mem a) = s.mem := by
      funext a
      rw [if_neg (by omega)]
    rw [this]
    rfl
  | succ n ih =>
    rw [someOf_succ, after_append, ih]
    cases hk : keep n
    · simp only [Bool.false_eq_true, if_false, after]
      congr 1
      funext a
      by_cases ha : a = ptr + n
      · subst ha
        rw [if_neg (by omega), if_neg (by rw [Nat.add_sub_cancel_left, hk]; simp)]
      · have : (ptr ≤ a ∧ a < ptr + n) ↔ (ptr ≤ a ∧ a < ptr + (n + 1)) := by omega
        simp only [this]
    · simp only [if_true, after, next]
      congr 1
      funext a
      simp only [put]
      by_cases ha : a = ptr + n
      · subst ha
        rw [if_pos rfl, if_pos ⟨by omega, by rw [Nat.add_sub_cancel_left, hk]⟩]
      · have : (ptr ≤ a ∧ a < ptr + n) ↔ (ptr ≤ a ∧ a < ptr + (n + 1)) := by omega
        rw [if_neg ha]
        simp only [this]

end Utils.Opt
