import Verif.Spec.MonoCapacity
import Verif.Props.Resources

/-! # Lemmas about packing -/

namespace Utils.CapacityProofs

open Utils Utils.Res Utils.SR Utils.Spec Utils.Props

variable {σ : Type}

theorem packed_exists {rs : List Req} (h : ∀ r ∈ rs, IsPow2 r.2) : ∀ pos, ∃ gs e, Packed pos rs gs e := by
  induction rs with
  | nil => exact fun pos => ⟨[], pos, .nil pos⟩
  | cons r rs ih =>
    intro pos
    obtain ⟨start, hs⟩ := round_exists (h r List.mem_cons_self) pos
    obtain ⟨gs, e, hp⟩ := ih (fun r' hr' => h r' (List.mem_cons_of_mem _ hr')) (start + r.1)
    exact ⟨_, e, .cons hs hp⟩

theorem packed_ge {pos e : Nat} {rs : List Req} {gs : List Grant} (h : Packed pos rs gs e) :
    pos + (rs.map Prod.fst).sum ≤ e := by
  induction h with
  | nil => simp
  | cons h _ ih =>
    have := h.2.1
    simp only [List.map_cons, List.sum_cons]
    omega

theorem least_lt {align pos start : Nat} (ha : 0 < align) (h : LeastMultiple align pos start) :
    start ≤ pos + (align - 1) := by
  have h1 := h.2.2 ((pos + (align - 1)) / align * align) (Nat.dvd_mul_left _ _) (by
    have := Nat.div_add_mod (pos + (align - 1)) align
    have := Nat.mod_lt (pos + (align - 1)) ha
    rw [Nat.mul_comm]
    omega)
  have h2 := Nat.div_mul_le_self (pos + (align - 1)) align
  omega

theorem packed_le {pos e : Nat} {rs : List Req} {gs : List Grant} (h : Packed pos rs gs e)
    (hp : ∀ r ∈ rs, IsPow2 r.2) : e ≤ pos + (rs.map fun r => r.1 + (r.2 - 1)).sum := by
  induction h with
  | nil => simp
  | cons h _ ih =>
    have h1 := ih fun r hr => hp r (List.mem_cons_of_mem _ hr)
    obtain ⟨k, hk⟩ := hp _ List.mem_cons_self
    simp only at hk
    have h2 := least_lt (by rw [hk]; exact Nat.two_pow_pos k) h
    simp only [List.map_cons, List.sum_cons]
    omega

/-- The end does not depend on the derivation. -/
theorem packed_unique {pos e e' : Nat} {rs : List Req} {gs gs' : List Grant} (h : Packed pos rs gs e)
    (h' : Packed pos rs gs' e') : gs = gs' ∧ e = e' := by
  induction h generalizing gs' e' with
  | nil => cases h'; exact ⟨rfl, rfl⟩
  | cons h _ ih =>
    cases h' with
    | cons k k' =>
      have := Nat.le_antisymm (h.2.2 _ k.1 k.2.1) (k.2.2 _ h.1 h.2.1)
      subst this
      obtain ⟨rfl, rfl⟩ := ih k'
      exact ⟨rfl, rfl⟩

/-- Sorted by alignment, with sizes that are multiples of the alignment, nothing is lost. -/
theorem packed_sorted {pos e : Nat} {rs : List Req} {gs : List Grant} (h : Packed pos rs gs e)
    (hp : ∀ r ∈ rs, IsPow2 r.2 ∧ r.2 ∣ r.1) (hs : rs.Pairwise fun r r' => r'.2 ≤ r.2)
    (hpos : ∀ r ∈ rs, r.2 ∣ pos) : e = pos + (rs.map Prod.fst).sum := by
  induction h with
  | nil => simp
  | @cons pos start e size align rs gs h _ ih =>
    have h0 : start = pos := Nat.le_antisymm (h.2.2 pos (hpos _ List.mem_cons_self) (Nat.le_refl _)) h.2.1
    subst h0
    rw [List.pairwise_cons] at hs
    have hd : ∀ r ∈ rs, r.2 ∣ start + size := by
      intro r hr
      refine (Nat.dvd_add_iff_right (hpos _ (List.mem_cons_of_mem _ hr))).1 ?_
      have h1 := hs.1 r hr
      obtain ⟨k, hk⟩ := (hp _ List.mem_cons_self).1
      obtain ⟨j, hj⟩ := (hp r (List.mem_cons_of_mem _ hr)).1
      have h2 := (hp (size, align) List.mem_cons_self).2
      simp only at h1 hk h2
      refine Nat.dvd_trans ?_ h2
      rw [hk, hj] at h1 ⊢
      exact Nat.pow_dvd_pow 2 ((Nat.pow_le_pow_iff_right (by decide)).1 h1)
    rw [ih (fun r hr => hp r (List.mem_cons_of_mem _ hr)) hs.2 hd]
    simp only [List.map_cons, List.sum_cons]
    omega

theorem run_packed {debug : Bool} {up : Option (Upstream σ)} {rs : List Req} :
    ∀ {m : Mono} {u : σ} {given : List Grant} {gs : List Grant} {e : Nat}, m.data ≠ 0 → m.data ≤ m.next →
    m.data + m.size < 2 ^ 64 → (∀ r ∈ rs, Proper r) → Packed m.next rs gs e → e ≤ m.data + m.size →
    monoRun debug up ⟨m, u, given⟩ (calls rs) = .ok ⟨{ m with next := e }, u, gs.reverse ++ given⟩ := by
  induction rs with
  | nil =>
    intro m u given gs e _ _ _ _ hp _
    cases hp
    simp [calls, monoRun]
  | cons r rs ih =>
    intro m u given gs e hd hn hend hr hp he
    cases hp with
    | @cons _ start _ size align _ gs h hp =>
      have hpr := hr _ List.mem_cons_self
      have hge := packed_ge hp
      have h2 := h.2.1
      have ha := (C39_refuses_partial (debug := debug) (up := up) (m := m) u (r := start) hd
        (Nat.pos_iff_ne_zero.1 hpr.1) hpr.2.1 hpr.2.2 hn (by omega) hend h (by simp only; omega)).1
        (by simp only; omega)
      simp only at ha
      have := ih (m := { m with next := start + size }) (u := u) (given := ⟨start, size, align⟩ :: given)
        hd (by simp only; omega) hend (fun r' hr' => hr r' (List.mem_cons_of_mem _ hr')) hp he
      simp only [calls, List.map_cons, monoRun, monoStep, ha, Outcome.ok_bind, Outcome.pure_eq]
      rw [if_neg (by omega)]
      rw [calls] at this
      rw [this]
      simp

/-- Without upstream, at most one allocation per call. -/
theorem run_length {debug : Bool} {rs : List Req} :
    ∀ {w w' : MonoWorld σ}, monoRun debug none w (calls rs) = .ok w' →
      w'.given.length ≤ w.given.length + rs.length := by
  induction rs with
  | nil => intro w w' h; simp only [calls, List.map_nil, monoRun, Outcome.ok.injEq] at h; simp [h]
  | cons r rs ih =>
    intro w w' h
    simp only [calls, List.map_cons, monoRun] at h
    cases hs : monoStep debug none w (.alloc r.1 r.2) with
    | ok w1 =>
      rw [hs, Outcome.ok_bind] at h
      have h1 := ih h
      have h2 : w1.given.length ≤ w.given.length + 1 := by
        simp only [monoStep] at hs
        cases ha : w.res.allocate debug none w.up r.1 r.2 with
        | ok x =>
          rw [ha, Outcome.ok_bind, Outcome.pure_eq, Outcome.ok.injEq] at hs
          rw [← hs]
          simp only
          split <;> simp
        | _ => rw [ha] at hs; cases hs
      simp only [List.length_cons]
      omega
    | _ => rw [hs] at h; cases h

theorem run_full {debug : Bool} {rs : List Req} :
    ∀ {m : Mono} {u : σ} {given gs : List Grant} {e : Nat} {w' : MonoWorld σ}, m.data ≠ 0 → m.data ≤ m.next →
    m.next ≤ m.data + m.size → m.data + m.size ≤ 2 ^ 63 → (∀ r ∈ rs, Proper r ∧ r.1 < 2 ^ 63) →
    Packed m.next rs gs e →
    monoRun debug none ⟨m, u, given⟩ (calls rs) = .ok w' → w'.given.length = given.length + rs.length →
    e ≤ m.data + m.size := by
  induction rs with
  | nil =>
    intro m u given gs e w' _ _ hn2 _ _ hp _ _
    cases hp
    exact hn2
  | cons r rs ih =>
    intro m u given gs e w' hd hn hn2 hend hr hp hrun hlen
    cases hp with
    | @cons _ start _ size align _ gs h hp =>
      have hpr := hr _ List.mem_cons_self
      have hle := round_le hpr.1.2.1 hpr.1.2.2 (by omega) h
      have hsz := hpr.2
      simp only at hsz
      have h2 := h.2.1
      have ha := C39_refuses_partial (debug := debug) (up := none) (m := m) u (r := start) hd
        (Nat.pos_iff_ne_zero.1 hpr.1.1) hpr.1.2.1 hpr.1.2.2 hn hn2 (by omega) h (by simp only; omega)
      simp only at ha
      simp only [calls, List.map_cons, monoRun, monoStep] at hrun
      by_cases hfit : start + size ≤ m.data + m.size
      · rw [ha.1 hfit] at hrun
        simp only [Outcome.ok_bind, Outcome.pure_eq] at hrun
        rw [if_neg (by omega)] at hrun
        exact ih (m := { m with next := start + size }) (u := u) hd (by simp only; omega) hfit hend
          (fun r' hr' => hr r' (List.mem_cons_of_mem _ hr')) hp hrun (by
            rw [hlen]
            simp only [List.length_cons]
            omega)
      · rw [ha.2 (by omega)] at hrun
        simp only [Outcome.ok_bind, Outcome.pure_eq, if_true] at hrun
        have := run_length hrun
        simp only [List.length_cons] at hlen
        simp only at this
        omega

end Utils.CapacityProofs
