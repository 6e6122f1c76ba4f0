import Verif.Proofs.ZeroOpt
import Verif.Proofs.Memory

/-! # Property C139: secure_zero_memory is not optimised away -/

namespace Utils.Props

open Utils Utils.Opt Utils.Memory

variable {lib : Lib} {ptr n : Nat} {pre post Q : List Instr}

/-- The accesses are those of the loop: run as written, they leave what `secure_zero_memory` (C35) leaves. -/
theorem C139_code (s : Machine) :
    secureZeroMemory (fun a => some (s.mem a)) ptr n =
      .ok fun a => some ((after (zeroCode .handmade ptr n) s).mem a) := by
  rw [secureZeroMemory, zeroLoop_ok n 0 _ (fun j _ _ => rfl), after_zero]
  congr 1
  funext a
  simp only [Nat.add_zero, Nat.zero_add]
  split <;> rfl

/-- **C139** is false of the loop: whatever comes before, a program that ends with the call may be run without it. -/
theorem C139_counterexample (pre : List Instr) (ptr n : Nat) :
    Conforms (pre ++ zeroCode .handmade ptr n) pre ∧
    (¬ Erases pre ptr n → ∃ Q, Conforms (pre ++ zeroCode .handmade ptr n) Q ∧ ¬ Erases Q ptr n) := by
  have h : Conforms (pre ++ zeroCode .handmade ptr n) pre := by
    intro s
    rw [events_append, events_zero_handmade, List.append_nil]
  exact ⟨h, fun hn => ⟨pre, h, hn⟩⟩

/-- A secret of two bytes that is received, sent on and zeroed; afterwards it may still be there. -/
example : ¬ Erases [.input 16, .input 17, .output 16, .output 17] 16 2 := by
  intro h
  have := h ⟨fun _ => 0, [7, 9]⟩ 0 (by decide)
  revert this
  decide

/-- **C139**: the exact condition in any program.  The call may be left out if and only if it is the loop and every
zeroed byte that reaches the outside afterwards was zero before (or there is nothing to zero). -/
theorem C139_exact :
    Conforms (pre ++ zeroCode lib ptr n ++ post) (pre ++ post) ↔
      n = 0 ∨ lib = .handmade ∧ ∀ i < n, reaches post (ptr + i) = true → ∀ s, (after pre s).mem (ptr + i) = 0 := by
  constructor
  · intro h
    by_cases hn : n = 0
    · exact Or.inl hn
    by_cases hl : lib = .handmade
    · refine Or.inr ⟨hl, fun i hi hr s => ?_⟩
      subst hl
      apply Classical.byContradiction
      intro hz
      have := h s
      rw [events_append, events_append, events_append, events_zero_handmade, List.append_nil] at this
      refine events_differ hr ?_ (List.append_cancel_left this)
      rw [after_append, after_zero]
      simp only
      rw [if_pos (by omega)]
      exact hz
    · exfalso
      have := congrArg List.length (h ⟨fun _ => 0, []⟩)
      rw [events_append, events_append, events_append, events_zero_strict hl] at this
      simp only [List.length_append, List.length_map, List.length_range] at this
      rw [events_length post _ (after (pre ++ zeroCode lib ptr n) ⟨fun _ => 0, []⟩)] at this
      omega
  · rintro (rfl | ⟨rfl, h⟩)
    · intro s
      have : zeroCode lib ptr 0 = [] := rfl
      rw [this, List.append_nil]
    · intro s
      rw [events_append, events_append, events_append, events_zero_handmade, List.append_nil]
      refine congrArg _ (events_agree ?_ ?_)
      · rw [after_append, after_zero]
      · intro a ha
        rw [after_append, after_zero]
        simp only
        split
        · next hin =>
          have := h (a - ptr) (by omega)
          rw [show ptr + (a - ptr) = a by omega] at this
          exact this ha s
        · rfl

/-- A byte that was zero already may be looked at; one that was not may not. -/
example : Conforms ([.write 16 0] ++ zeroCode .handmade 16 1 ++ [.output 16]) ([.write 16 0] ++ [.output 16]) :=
  C139_exact.2 (Or.inr ⟨rfl, fun i hi _ s => by
    obtain rfl : i = 0 := by omega
    rfl⟩)
example : ¬ Conforms ([.write 16 5] ++ zeroCode .handmade 16 1 ++ [.output 16]) ([.write 16 5] ++ [.output 16]) := by
  rw [C139_exact]
  rintro (h | ⟨-, h⟩)
  · cases h
  · exact absurd (h 0 (by decide) (by decide) ⟨fun _ => 0, []⟩) (by decide)

/-- **C139**, store by store: exactly those stores of the loop may be left out whose byte does not reach the outside
afterwards, or was zero before.  So a part of a secret may stay although another part is zeroed. -/
theorem C139_stores {keep : Nat → Bool} :
    Conforms (pre ++ zeroCode .handmade ptr n ++ post) (pre ++ someOf keep ptr n ++ post) ↔
      ∀ i < n, keep i = false → reaches post (ptr + i) = true → ∀ s, (after pre s).mem (ptr + i) = 0 := by
  constructor
  · intro h i hi hk hr s
    apply Classical.byContradiction
    intro hz
    have := h s
    rw [events_append, events_append, events_append, events_append, events_zero_handmade, events_someOf] at this
    refine events_differ hr ?_ (List.append_cancel_left this)
    rw [after_append, after_append, after_zero, after_someOf]
    simp only
    rw [if_pos (show ptr ≤ ptr + i ∧ ptr + i < ptr + n by omega), if_neg (by rw [Nat.add_sub_cancel_left, hk]; simp)]
    exact hz
  · intro h s
    rw [events_append, events_append, events_append, events_append, events_zero_handmade, events_someOf]
    refine congrArg _ (events_agree ?_ ?_)
    · rw [after_append, after_append, after_zero, after_someOf]
    · intro a ha
      rw [after_append, after_append, after_zero, after_someOf]
      simp only
      by_cases hin : ptr ≤ a ∧ a < ptr + n
      · rw [if_pos hin]
        cases hk : keep (a - ptr)
        · rw [if_neg (by simp)]
          have := h (a - ptr) (by omega) hk
          rw [show ptr + (a - ptr) = a by omega] at this
          exact this ha s
        · rw [if_pos ⟨hin, rfl⟩]
      · rw [if_neg hin, if_neg (fun hh => hin hh.1)]

/-- Only the byte at 17 is looked at: the store to 16 may go, the one to 17 may not. -/
example : Conforms (receive 16 2 ++ zeroCode .handmade 16 2 ++ [.output 17])
    (receive 16 2 ++ someOf (· == 1) 16 2 ++ [.output 17]) := by
  rw [C139_stores]
  intro i hi hk hr
  obtain rfl : i = 0 := by
    have : i ≠ 1 := by simpa using hk
    omega
  exact absurd hr (by decide)
example : ¬ Conforms (receive 16 2 ++ zeroCode .handmade 16 2 ++ [.output 17])
    (receive 16 2 ++ someOf (· == 0) 16 2 ++ [.output 17]) := by
  rw [C139_stores]
  intro h
  exact absurd (h 1 (by decide) (by decide) (by decide) ⟨fun _ => 0, [7, 9]⟩) (by decide)

/-- **C139** when a secret was received: the call may be left out if and only if it is the loop and no byte it
zeroes reaches the outside afterwards (or there is nothing to zero). -/
theorem C139_iff :
    Conforms (receive ptr n ++ zeroCode lib ptr n ++ post) (receive ptr n ++ post) ↔
      n = 0 ∨ lib = .handmade ∧ ∀ i < n, reaches post (ptr + i) = false := by
  rw [C139_exact]
  refine or_congr Iff.rfl (and_congr Iff.rfl ⟨fun h i hi => ?_, fun h i hi hr => ?_⟩)
  · apply Classical.byContradiction
    intro hr
    have := h i hi (by simpa using hr) ⟨fun _ => 0, List.replicate i 0 ++ [1]⟩
    rw [after_receive] at this
    simp only at this
    rw [if_pos (by omega), Nat.add_sub_cancel_left] at this
    simp [List.getD_eq_getElem?_getD] at this
  · rw [h i hi] at hr
    cases hr

/-- The byte at 17 is copied and sent on, so the call stays; if it is overwritten before, it may go. -/
example : ¬ Conforms (receive 16 2 ++ zeroCode .handmade 16 2 ++ [.copy 40 17, .output 40])
    (receive 16 2 ++ [.copy 40 17, .output 40]) := by
  rw [C139_iff]
  rintro (h | ⟨-, h⟩)
  · cases h
  · exact absurd (h 1 (by decide)) (by decide)
example : Conforms (receive 16 2 ++ zeroCode .handmade 16 2 ++ [.write 17 5, .copy 40 17, .output 40])
    (receive 16 2 ++ [.write 17 5, .copy 40 17, .output 40]) :=
  C139_iff.2 (Or.inr ⟨rfl, by decide⟩)

/-- **C139** with `memset_s` or `SecureZeroMemory`: every implementation carries out the stores, after all that is
observed before the call and before all that is observed behind it.  Missing: the loop. -/
theorem C139_strict_partial (hl : lib ≠ .handmade) (h : Conforms (pre ++ zeroCode lib ptr n ++ post) Q)
    (s : Machine) :
    ∃ behind, events Q s = events pre s ++ ((List.range n).map fun i => .strict (ptr + i) 0) ++ behind := by
  refine ⟨events post (after (pre ++ zeroCode lib ptr n) s), ?_⟩
  rw [h s, events_append, events_append, events_zero_strict hl]

example : zeroCode .memsetS 16 2 = [.strict 16 0, .strict 17 0] := by decide
example : events ([.input 16] ++ zeroCode .memsetS 16 2 ++ [.output 17]) ⟨fun _ => 3, [8]⟩ =
    [.input 8, .strict 16 0, .strict 17 0, .output 0] := by decide

/-- **C139** for the loop as well: whoever looks at the range sees zeros, in every implementation.  Missing: what is
in memory if nobody looks. -/
theorem C139_seen_partial {i : Nat} (hi : i < n) (h : Conforms (pre ++ zeroCode lib ptr n ++ [.output (ptr + i)]) Q)
    (s : Machine) : (events Q s).getLast? = some (.output 0) := by
  have e : events [.output (ptr + i)] (after (pre ++ zeroCode lib ptr n) s) = [.output 0] := by
    rw [after_append, after_zero]
    simp only [events, emit]
    rw [if_pos (by omega)]
    rfl
  rw [h s, events_append, e]
  simp

example : Conforms ([.input 16] ++ zeroCode .handmade 16 1 ++ [.output (16 + 0)]) [.input 16, .write 16 0, .output 16] :=
  fun _ => rfl

end Utils.Props
