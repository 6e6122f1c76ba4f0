import Verif.Spec.Resources
import Verif.Proofs.Bits

/-! # Lemmas about the other resources -/

namespace Utils.Res

open Utils.Bits Utils.SR Utils.Spec

variable {σ : Type} {debug : Bool} {up : Option (Upstream σ)}

theorem pow2_ofNat {align : Nat} (hp : IsPow2 align) (hlt : align < 2 ^ 64) :
    ∃ k, k < 64 ∧ align = 2 ^ k ∧ (BitVec.ofNat 64 align).toNat = 2 ^ k := by
  obtain ⟨k, rfl⟩ := hp
  refine ⟨k, (Nat.pow_lt_pow_iff_right (by decide)).1 hlt, rfl, ?_⟩
  rw [BitVec.toNat_ofNat, Nat.mod_eq_of_lt hlt]

/-- The buffer part of `allocate`, for a request that does not wrap around. -/
theorem allocateLocal_eq {m : Mono} {size align r : Nat} (hd : m.data ≠ 0)
    (hp : IsPow2 align) (hlt : align < 2 ^ 64) (hn : m.next < 2 ^ 64)
    (hend : m.data + m.size < 2 ^ 64) (hr : LeastMultiple align m.next r)
    (hr64 : r < 2 ^ 64) :
    m.allocateLocal debug size align =
      if (r + size) % 2 ^ 64 ≤ m.data + m.size then
        .ok ({ m with next := (r + size) % 2 ^ 64 }, r)
      else .ok (m, 0) := by
  obtain ⟨k, hk, rfl, hkb⟩ := pow2_ofNat hp hlt
  have hpos : 0 < 2 ^ k := Nat.two_pow_pos k
  have hskip : m.next + skipNat m.next (2 ^ k) = r := by
    apply leastMultiple_unique _ hr
    refine ⟨skipNat_dvd hpos, Nat.le_add_right _ _, fun s hs hps => ?_⟩
    obtain ⟨d, rfl⟩ := Nat.exists_eq_add_of_le hps
    have := skipNat_least hpos hs
    omega
  unfold Mono.allocateLocal
  rw [if_pos hd, skipToAlign_eq debug hk hkb, Outcome.ok_bind, BitVec.toNat_ofNat,
    BitVec.toNat_ofNat, Nat.mod_eq_of_lt hn, Nat.mod_eq_of_lt (a := skipNat _ _) (by omega), hskip,
    Nat.mod_eq_of_lt hr64, Nat.mod_eq_of_lt hend]
  simp only [Outcome.pure_eq]

/-- Rounding up ends at `2^64` at the latest. -/
theorem round_le64 {align next r : Nat} (hp : IsPow2 align) (hlt : align < 2 ^ 64)
    (hn : next < 2 ^ 64) (hr : LeastMultiple align next r) : r ≤ 2 ^ 64 := by
  obtain ⟨k, rfl⟩ := hp
  have hk : k < 64 := (Nat.pow_lt_pow_iff_right (by decide)).1 hlt
  exact hr.2.2 _ (Nat.pow_dvd_pow 2 (by omega)) (by omega)

/-- The buffer part of `allocate`, for every request. -/
theorem allocateLocal_all {m : Mono} {size align r : Nat} (hd : m.data ≠ 0)
    (hp : IsPow2 align) (hlt : align < 2 ^ 64) (hn : m.next < 2 ^ 64)
    (hend : m.data + m.size < 2 ^ 64) (hr : LeastMultiple align m.next r) :
    m.allocateLocal debug size align =
      if (r + size) % 2 ^ 64 ≤ m.data + m.size then
        .ok ({ m with next := (r + size) % 2 ^ 64 }, r % 2 ^ 64)
      else .ok (m, 0) := by
  have hr64 := round_le64 hp hlt hn hr
  obtain ⟨k, hk, rfl, hkb⟩ := pow2_ofNat hp hlt
  have hpos : 0 < 2 ^ k := Nat.two_pow_pos k
  have hskip : m.next + skipNat m.next (2 ^ k) = r := by
    apply leastMultiple_unique _ hr
    refine ⟨skipNat_dvd hpos, Nat.le_add_right _ _, fun s hs hps => ?_⟩
    obtain ⟨d, rfl⟩ := Nat.exists_eq_add_of_le hps
    have := skipNat_least hpos hs
    omega
  have hsl := skipNat_lt (p := m.next) hpos
  unfold Mono.allocateLocal
  rw [if_pos hd, skipToAlign_eq debug hk hkb, Outcome.ok_bind, BitVec.toNat_ofNat,
    BitVec.toNat_ofNat, Nat.mod_eq_of_lt hn, Nat.mod_eq_of_lt (a := skipNat _ _) (by omega), hskip,
    Nat.mod_eq_of_lt hend]
  simp only [Outcome.pure_eq, Nat.mod_add_mod]

/-- In the lower half of the address space rounding up never leaves it. -/
theorem round_le {align next r : Nat} (hp : IsPow2 align) (hlt : align < 2 ^ 64)
    (hn : next ≤ 2 ^ 63) (hr : LeastMultiple align next r) : r ≤ 2 ^ 63 := by
  obtain ⟨k, rfl⟩ := hp
  have hk : k < 64 := (Nat.pow_lt_pow_iff_right (by decide)).1 hlt
  exact hr.2.2 _ (Nat.pow_dvd_pow 2 (by omega)) hn

theorem round_exists {align : Nat} (hp : IsPow2 align) (next : Nat) :
    ∃ r, LeastMultiple align next r := by
  obtain ⟨k, rfl⟩ := hp
  exact ⟨_, leastMultiple_round (Nat.two_pow_pos k)⟩

theorem cassert_pow2 {align : Nat} (hp : IsPow2 align) (hlt : align < 2 ^ 64) :
    cassert debug (isPowerOf2 (BitVec.ofNat 64 align)) = .ok () := by
  obtain ⟨k, hk, -, hkb⟩ := pow2_ofNat hp hlt
  rw [isPowerOf2_of hk hkb, cassert_true]

/-- The whole `allocate`, given what the buffer part does. -/
theorem mono_allocate {m m' : Mono} {u : σ} {size align ptr : Nat} (hs : size ≠ 0)
    (hp : IsPow2 align) (hlt : align < 2 ^ 64)
    (h : m.allocateLocal debug size align = .ok (m', ptr)) :
    m.allocate debug up u size align = .ok (
      if ptr = 0 then
        match up with
        | some U => ((U.alloc u size align).1, m', (U.alloc u size align).2)
        | none => (0, m', u)
      else (ptr, m', u)) := by
  unfold Mono.allocate
  rw [if_neg hs, cassert_pow2 hp hlt, Outcome.ok_bind, h, Outcome.ok_bind]
  cases up with
  | none =>
    by_cases h0 : ptr = 0
    · simp [h0]
    · simp [h0]
  | some U =>
    by_cases h0 : ptr = 0
    · simp [h0]
    · simp [h0]

/-- What holds of a `monotonic_buffer_resource` between calls. -/
structure MonoInv (w : MonoWorld σ) : Prop where
  low : w.res.data + w.res.size < 2 ^ 64
  null : w.res.data = 0 → w.res.size = 0
  next1 : w.res.data ≤ w.res.next
  next2 : w.res.next ≤ w.res.data + w.res.size
  sound : MonoSound w
  behind : ∀ g ∈ fromBuffer w, g.ptr + g.size ≤ w.res.next

theorem inBuffer_iff {m : Mono} {p : Nat} :
    m.inBuffer p = true ↔ m.data ≤ p ∧ p < m.data + m.size := by
  simp [Mono.inBuffer]

theorem monoStep_ok {w : MonoWorld σ} (h : MonoInv w) (hu : ApartFrom w.res up) {op : MonoOp}
    (hop : Unwrapped w.res op) :
    ∃ w', monoStep debug up w op = .ok w' ∧ MonoInv w' ∧ w'.res.data = w.res.data ∧
      w'.res.size = w.res.size := by
  obtain ⟨m, u, given⟩ := w
  obtain ⟨hlow, hnull, hn1, hn2, hs, hb⟩ := h
  simp only at *
  cases op with
  | free ptr => exact ⟨_, rfl, ⟨hlow, hnull, hn1, hn2, hs, hb⟩, rfl, rfl⟩
  | release =>
    refine ⟨_, rfl, ⟨hlow, hnull, Nat.le_refl _, Nat.le_add_right _ _, ⟨?_, ?_, ?_⟩, ?_⟩, rfl, rfl⟩
    · intro g hg; cases hg
    · intro g hg; cases hg
    · exact List.Pairwise.nil
    · intro g hg; cases hg
  | alloc size align =>
    obtain ⟨hsz, hp, hlt, hwr⟩ := hop
    by_cases h0 : size = 0
    · refine ⟨⟨m, u, given⟩, ?_, ⟨hlow, hnull, hn1, hn2, hs, hb⟩, rfl, rfl⟩
      unfold monoStep Mono.allocate
      simp [h0]
    · -- a pointer outside the buffer, and the buffer unchanged
      have outside : ∀ (p : Nat) (u' : σ), m.inBuffer p = false →
          MonoInv (⟨m, u', if p = 0 then given else ⟨p, size, align⟩ :: given⟩ : MonoWorld σ) := by
        intro p u' hout
        have e : fromBuffer (⟨m, u', if p = 0 then given else ⟨p, size, align⟩ :: given⟩ :
            MonoWorld σ) = fromBuffer (⟨m, u, given⟩ : MonoWorld σ) := by
          unfold fromBuffer
          simp only
          split
          · rfl
          · rw [List.filter_cons_of_neg]
            simpa using hout
        refine ⟨hlow, hnull, hn1, hn2, ⟨?_, ?_, ?_⟩, ?_⟩
        · rw [e]; exact hs.aligned
        · rw [e]; exact hs.inside
        · rw [e]; exact hs.ordered
        · rw [e]; exact hb
      have refused : m.allocateLocal debug size align = .ok (m, 0) →
          ∃ w', monoStep debug up ⟨m, u, given⟩ (.alloc size align) = .ok w' ∧ MonoInv w' ∧
            w'.res.data = m.data ∧ w'.res.size = m.size := by
        intro e
        simp only [monoStep]
        rw [mono_allocate h0 hp hlt e]
        cases up with
        | none =>
          refine ⟨_, rfl, ?_, rfl, rfl⟩
          exact ⟨hlow, hnull, hn1, hn2, hs, hb⟩
        | some U =>
          refine ⟨_, rfl, ?_, rfl, rfl⟩
          exact outside _ _ (hu U rfl u size align)
      by_cases hd : m.data = 0
      · apply refused
        unfold Mono.allocateLocal
        rw [if_neg (by simpa using hd)]
        rfl
      · obtain ⟨r, hr⟩ := round_exists hp m.next
        have hr64 := round_le64 hp hlt (by omega) hr
        have e := allocateLocal_all (debug := debug) (size := size) hd hp hlt (by omega) (by omega) hr
        have hrn := hr.2.1
        have hwr := hwr r hr
        by_cases hfit : (r + size) % 2 ^ 64 ≤ m.data + m.size
        · have hlt64 : r + size < 2 ^ 64 := by omega
          rw [if_pos hfit, Nat.mod_eq_of_lt hlt64, Nat.mod_eq_of_lt (by omega : r < 2 ^ 64)] at e
          rw [Nat.mod_eq_of_lt hlt64] at hfit
          simp only [monoStep]
          rw [mono_allocate h0 hp hlt e, if_neg (by omega)]
          simp only [Outcome.ok_bind, Outcome.pure_eq]
          rw [if_neg (by omega)]
          refine ⟨_, rfl, ?_, rfl, rfl⟩
          have e2 : fromBuffer (⟨{ m with next := r + size }, u, ⟨r, size, align⟩ :: given⟩ :
              MonoWorld σ) = ⟨r, size, align⟩ :: fromBuffer (⟨m, u, given⟩ : MonoWorld σ) := by
            unfold fromBuffer
            simp only
            rw [List.filter_cons_of_pos]
            · rfl
            · exact inBuffer_iff.2 ⟨by simp only; omega, by simp only; omega⟩
          refine ⟨hlow, hnull, by simp only; omega, by simp only; omega, ⟨?_, ?_, ?_⟩, ?_⟩
          · rw [e2]
            intro g hg
            rcases List.mem_cons.1 hg with rfl | hg
            · exact hr.1
            · exact hs.aligned g hg
          · rw [e2]
            intro g hg
            rcases List.mem_cons.1 hg with rfl | hg
            · simp only; omega
            · exact hs.inside g hg
          · rw [e2, List.pairwise_cons]
            refine ⟨fun g hg => ?_, hs.ordered⟩
            have := hb g hg
            simp only at this ⊢
            omega
          · rw [e2]
            intro g hg
            simp only
            rcases List.mem_cons.1 hg with rfl | hg
            · simp only; omega
            · have := hb g hg
              omega
        · rw [if_neg hfit] at e
          exact refused e

theorem monoRun_ok {ops : List MonoOp} : ∀ {w : MonoWorld σ}, MonoInv w → ApartFrom w.res up →
    MonoAlong debug up Unwrapped w ops →
    ∃ w', monoRun debug up w ops = .ok w' ∧ MonoInv w' ∧ w'.res.data = w.res.data ∧
      w'.res.size = w.res.size := by
  induction ops with
  | nil => intro w h _ _; exact ⟨w, rfl, h, rfl, rfl⟩
  | cons op ops ih =>
    intro w h hu hops
    obtain ⟨w1, e1, h1, d1, s1⟩ := monoStep_ok (debug := debug) h hu hops.1
    have hu1 : ApartFrom w1.res up := by
      intro U hU u size align
      have := hu U hU u size align
      unfold Mono.inBuffer at this ⊢
      rw [d1, s1]
      exact this
    obtain ⟨w2, e2, h2, d2, s2⟩ := ih h1 hu1 (hops.2 w1 e1)
    refine ⟨w2, ?_, h2, by rw [d2, d1], by rw [s2, s1]⟩
    unfold monoRun
    rw [e1, Outcome.ok_bind, e2]

theorem make_inv {buffer bytes : Nat} (u : σ) (h : buffer + bytes < 2 ^ 64) :
    MonoInv (⟨Mono.make buffer bytes, u, []⟩ : MonoWorld σ) := by
  refine ⟨?_, ?_, ?_, ?_, ⟨?_, ?_, ?_⟩, ?_⟩
  · simp only [Mono.make]; split <;> split <;> omega
  · simp only [Mono.make]; split <;> split <;> omega
  · simp only [Mono.make]; omega
  · simp only [Mono.make]; omega
  · intro g hg; cases hg
  · intro g hg; cases hg
  · exact List.Pairwise.nil
  · intro g hg; cases hg

/-- Everything handed out lies in the buffer. -/
def AllInside (w : MonoWorld σ) : Prop :=
  ∀ g ∈ w.given, w.res.data ≤ g.ptr ∧ g.ptr + g.size ≤ w.res.data + w.res.size

theorem monoStep_inside {w : MonoWorld σ} (h : MonoInv w) (hlow : w.res.data + w.res.size ≤ 2 ^ 63)
    (hin : AllInside w) {op : MonoOp}
    (hop : ∀ size align, op = .alloc size align → size < 2 ^ 64 ∧ IsPow2 align ∧ align < 2 ^ 64) :
    ∃ w', monoStep debug none w op = .ok w' ∧ (AllInside w' ↔ Unwrapped w.res op) := by
  cases op with
  | free ptr => exact ⟨_, rfl, iff_of_true hin trivial⟩
  | release => exact ⟨_, rfl, iff_of_true nofun trivial⟩
  | alloc size align =>
    obtain ⟨hsz, hp, hlt⟩ := hop _ _ rfl
    obtain ⟨m, u, given⟩ := w
    obtain ⟨-, hnull, hn1, hn2, -, -⟩ := h
    simp only at *
    obtain ⟨r, hr⟩ := round_exists hp m.next
    have hr63 := round_le hp hlt (by omega) hr
    have hrn := hr.2.1
    have hun : Unwrapped m (.alloc size align) ↔ r + size < 2 ^ 64 ∨ m.data + m.size < (r + size) % 2 ^ 64 := by
      constructor
      · exact fun h => h.2.2.2 r hr
      · refine fun h => ⟨hsz, hp, hlt, fun r' hr' => ?_⟩
        rw [hr'.2.2 r hr.1 hrn |>.antisymm (hr.2.2 r' hr'.1 hr'.2.1)]
        exact h
    rw [hun]
    by_cases h0 : size = 0
    · refine ⟨⟨m, u, given⟩, ?_, iff_of_true hin (Or.inl (by omega))⟩
      unfold monoStep Mono.allocate
      simp [h0]
    by_cases hd : m.data = 0
    · have e : m.allocateLocal debug size align = .ok (m, 0) := by
        unfold Mono.allocateLocal
        rw [if_neg (by simpa using hd)]
        rfl
      refine ⟨⟨m, u, given⟩, ?_, iff_of_true hin (Or.inl ?_)⟩
      · simp only [monoStep]
        rw [mono_allocate h0 hp hlt e]
        rfl
      · have := hnull hd
        have : r ≤ 0 := hr.2.2 0 (Nat.dvd_zero _) (by omega)
        omega
    have e := allocateLocal_all (debug := debug) (size := size) hd hp hlt (by omega) (by omega) hr
    rw [Nat.mod_eq_of_lt (by omega : r < 2 ^ 64)] at e
    by_cases hfit : (r + size) % 2 ^ 64 ≤ m.data + m.size
    · rw [if_pos hfit] at e
      refine ⟨⟨{ m with next := (r + size) % 2 ^ 64 }, u, ⟨r, size, align⟩ :: given⟩, ?_, ?_⟩
      · simp only [monoStep]
        rw [mono_allocate h0 hp hlt e, if_neg (by omega)]
        simp only [Outcome.ok_bind, Outcome.pure_eq]
        rw [if_neg (by omega)]
      · constructor
        · intro h
          have := (h _ List.mem_cons_self).2
          simp only at this
          omega
        · intro h g hg
          rcases List.mem_cons.1 hg with rfl | hg
          · simp only; omega
          · exact hin g hg
    · rw [if_neg hfit] at e
      refine ⟨⟨m, u, given⟩, ?_, iff_of_true hin (Or.inr (by omega))⟩
      simp only [monoStep]
      rw [mono_allocate h0 hp hlt e]
      rfl

theorem monoInside_iff {ops : List MonoOp} : ∀ {w : MonoWorld σ}, MonoInv w →
    w.res.data + w.res.size ≤ 2 ^ 63 → AllInside w →
    (∀ size align, MonoOp.alloc size align ∈ ops → size < 2 ^ 64 ∧ IsPow2 align ∧ align < 2 ^ 64) →
    ((∀ n w', monoRun debug none w (ops.take n) = .ok w' → AllInside w') ↔
      MonoAlong debug none Unwrapped w ops) := by
  induction ops with
  | nil =>
    intro w _ _ hin _
    refine iff_of_true (fun n w' h => ?_) trivial
    rw [List.take_nil] at h
    cases h
    exact hin
  | cons op ops ih =>
    intro w h hlow hin hops
    obtain ⟨w1, e1, hiff⟩ := monoStep_inside (debug := debug) h hlow hin
      (op := op) (fun size align ho => hops size align (ho ▸ List.mem_cons_self))
    have hops' := fun size align hm => hops size align (List.mem_cons_of_mem _ hm)
    have next : Unwrapped w.res op → ((∀ n w', monoRun debug none w1 (ops.take n) = .ok w' → AllInside w') ↔
        MonoAlong debug none Unwrapped w1 ops) := by
      intro ho
      obtain ⟨w2, e2, h2, d2, s2⟩ := monoStep_ok (debug := debug) (up := none) h (by intro U hU; cases hU) ho
      rw [e1] at e2; cases e2
      exact ih h2 (by omega) (hiff.2 ho) hops'
    constructor
    · intro hall
      have h1 : Unwrapped w.res op := hiff.1 (hall 1 w1 (by simp [monoRun, e1]))
      refine ⟨h1, fun w' e => ?_⟩
      rw [e1] at e; cases e
      exact (next h1).1 fun n w' hr => hall (n + 1) w' (by simp [monoRun, e1, hr])
    · rintro ⟨h1, h2⟩ n w' hr
      cases n with
      | zero => cases hr; exact hin
      | succ n =>
        simp only [List.take_succ_cons, monoRun, e1, Outcome.ok_bind] at hr
        exact (next h1).2 (h2 w1 e1) n w' hr

/-- The size and the address of the buffer never change. -/
theorem monoStep_fixed {w w' : MonoWorld σ} {op : MonoOp} (h : monoStep debug up w op = .ok w') :
    w'.res.data = w.res.data ∧ w'.res.size = w.res.size := by
  cases op with
  | free ptr => cases h; exact ⟨rfl, rfl⟩
  | release => cases h; exact ⟨rfl, rfl⟩
  | alloc size align =>
    unfold monoStep at h
    obtain ⟨⟨ptr, m, u⟩, h1, h2⟩ := Outcome.bind_eq_ok.1 h
    cases h2
    unfold Mono.allocate at h1
    split at h1
    · cases h1; exact ⟨rfl, rfl⟩
    · obtain ⟨_, -, h1⟩ := Outcome.bind_eq_ok.1 h1
      obtain ⟨⟨m1, p1⟩, h3, h1⟩ := Outcome.bind_eq_ok.1 h1
      have e : m = m1 := by
        cases up with
        | none => cases h1; rfl
        | some U =>
          simp only at h1
          split at h1 <;> (cases h1; rfl)
      subst e
      unfold Mono.allocateLocal at h3
      split at h3
      · obtain ⟨skip, -, h3⟩ := Outcome.bind_eq_ok.1 h3
        simp only at h3
        split at h3 <;> (cases h3; exact ⟨rfl, rfl⟩)
      · cases h3; exact ⟨rfl, rfl⟩

/-- In the lower half of the address space, sizes up to `PTRDIFF_MAX` never wrap around. -/
theorem sane_along {ops : List MonoOp} : ∀ {w : MonoWorld σ}, MonoInv w → ApartFrom w.res up →
    w.res.data + w.res.size ≤ 2 ^ 63 → (∀ op ∈ ops, SaneCall op) →
    MonoAlong debug up Unwrapped w ops := by
  induction ops with
  | nil => intro w _ _ _ _; exact trivial
  | cons op ops ih =>
    intro w h hu hlow hops
    have hop : Unwrapped w.res op := by
      cases op with
      | alloc size align =>
        obtain ⟨h1, h2, h3⟩ := hops _ List.mem_cons_self
        refine ⟨by omega, h2, h3, fun r hr => Or.inl ?_⟩
        have := round_le h2 h3 (by have := h.next2; omega) hr
        omega
      | free ptr => trivial
      | release => trivial
    refine ⟨hop, fun w' e => ?_⟩
    obtain ⟨w1, e1, h1, d1, s1⟩ := monoStep_ok (debug := debug) h hu hop
    rw [e] at e1
    cases Outcome.ok.inj e1
    refine ih h1 ?_ (by omega) fun o ho => hops o (List.mem_cons_of_mem _ ho)
    intro U hU u size align
    have := hu U hU u size align
    unfold Mono.inBuffer at this ⊢
    rw [d1, s1]
    exact this

theorem monoRun_fixed {ops : List MonoOp} : ∀ {w w' : MonoWorld σ},
    monoRun debug up w ops = .ok w' → w'.res.data = w.res.data ∧ w'.res.size = w.res.size := by
  induction ops with
  | nil => intro w w' h; cases h; exact ⟨rfl, rfl⟩
  | cons op ops ih =>
    intro w w' h
    obtain ⟨w1, h1, h2⟩ := Outcome.bind_eq_ok.1 h
    obtain ⟨a, b⟩ := monoStep_fixed h1
    obtain ⟨c, d⟩ := ih h2
    exact ⟨c.trans a, d.trans b⟩

/-- The resource calls its upstream only to allocate. -/
theorem monoStep_upstream {w w' : MonoWorld σ} {op : MonoOp} {P : σ → Prop}
    (hP : ∀ U, up = some U → ∀ u size align, P u → P (U.alloc u size align).2)
    (h : monoStep debug up w op = .ok w') (hw : P w.up) : P w'.up := by
  cases op with
  | free ptr => cases h; exact hw
  | release => cases h; exact hw
  | alloc size align =>
    unfold monoStep at h
    obtain ⟨⟨ptr, m, u⟩, h1, h2⟩ := Outcome.bind_eq_ok.1 h
    cases h2
    unfold Mono.allocate at h1
    split at h1
    · cases h1; exact hw
    · obtain ⟨_, -, h1⟩ := Outcome.bind_eq_ok.1 h1
      obtain ⟨⟨m1, p1⟩, h3, h1⟩ := Outcome.bind_eq_ok.1 h1
      cases up with
      | none => cases h1; exact hw
      | some U =>
        simp only at h1
        split at h1
        · cases h1; exact hP U rfl _ _ _ hw
        · cases h1; exact hw

theorem monoRun_upstream {P : σ → Prop}
    (hP : ∀ U, up = some U → ∀ u size align, P u → P (U.alloc u size align).2) :
    ∀ {ops : List MonoOp} {w w' : MonoWorld σ},
    monoRun debug up w ops = .ok w' → P w.up → P w'.up := by
  intro ops
  induction ops with
  | nil => intro w w' h hw; cases h; exact hw
  | cons op ops ih =>
    intro w w' h hw
    obtain ⟨w1, h1, h2⟩ := Outcome.bind_eq_ok.1 h
    exact ih h2 (monoStep_upstream hP h1 hw)

theorem monoRun_filter {ops : List MonoOp} : ∀ (w : MonoWorld σ),
    monoRun debug up w (ops.filter fun op => match op with | .free _ => false | _ => true) =
      monoRun debug up w ops := by
  induction ops with
  | nil => intro w; rfl
  | cons op ops ih =>
    intro w
    cases op with
    | free ptr =>
      rw [List.filter_cons_of_neg (by simp), ih]
      rfl
    | alloc size align =>
      rw [List.filter_cons_of_pos (by simp)]
      unfold monoRun
      cases monoStep debug up w (.alloc size align) <;> first | rfl | exact ih _
    | release =>
      rw [List.filter_cons_of_pos (by simp)]
      unfold monoRun
      cases monoStep debug up w .release <;> first | rfl | exact ih _

/-! ## The default resource -/

theorem setReturns_append : ∀ (a b : List (RegOp × Nat)),
    setReturns (a ++ b) = setReturns a ++ setReturns b
  | [], _ => rfl
  | (.set v, r) :: a, b => by simp [setReturns, setReturns_append a b]
  | (.get, r) :: a, b => by simp [setReturns, setReturns_append a b]

/-- Values still to be set. -/
def pending (ts : List Thread) : List Nat := (ts.map fun t => setValues t.todo).flatten

/-- Values returned by `set` so far. -/
def returned (ts : List Thread) : List Nat := (ts.map fun t => setReturns t.done).flatten

theorem stepThread_perm (reg : Nat) (ts : List Thread) (i : Nat) :
    (returned (stepThread reg ts i).2 ++ (stepThread reg ts i).1 ::
      pending (stepThread reg ts i).2).Perm (returned ts ++ reg :: pending ts) := by
  unfold stepThread
  cases hi : ts[i]? with
  | none => exact List.Perm.refl _
  | some t =>
    obtain ⟨todo, done⟩ := t
    cases todo with
    | nil => exact List.Perm.refl _
    | cons op todo =>
      obtain ⟨hlt, hget⟩ := List.getElem?_eq_some_iff.1 hi
      have hsplit : ts = ts.take i ++ ⟨op :: todo, done⟩ :: ts.drop (i + 1) := by
        rw [← hget, ← List.drop_eq_getElem_cons hlt, List.take_append_drop]
      simp only [List.set_eq_take_append_cons_drop, if_pos hlt]
      rw [List.perm_iff_count]
      intro a
      conv_rhs => rw [hsplit]
      cases op <;>
        simp [returned, pending, RegOp.apply, setValues, setReturns, setReturns_append,
          List.count_append, List.count_cons] <;> omega

theorem runThreads_perm : ∀ (sched : List Nat) (reg : Nat) (ts : List Thread),
    (returned (runThreads reg ts sched).2 ++ (runThreads reg ts sched).1 ::
      pending (runThreads reg ts sched).2).Perm (returned ts ++ reg :: pending ts)
  | [], _, _ => List.Perm.refl _
  | i :: sched, reg, ts =>
    (runThreads_perm sched _ _).trans (stepThread_perm reg ts i)

/-- Threads make their own calls in program order. -/
theorem stepThread_program (reg : Nat) (ts : List Thread) (i : Nat) :
    (stepThread reg ts i).2.map (fun t => t.done.map Prod.fst ++ t.todo) =
      ts.map fun t => t.done.map Prod.fst ++ t.todo := by
  unfold stepThread
  split
  · next op todo done hi =>
    obtain ⟨hlt, hget⟩ := List.getElem?_eq_some_iff.1 hi
    simp only [List.map_set]
    apply List.ext_getElem?
    intro j
    rw [List.getElem?_set]
    split
    · next h =>
      subst h
      rw [if_pos (by simpa using hlt), List.getElem?_map, hi]
      simp
    · rfl
  · rfl

theorem runThreads_program : ∀ (sched : List Nat) (reg : Nat) (ts : List Thread),
    (runThreads reg ts sched).2.map (fun t => t.done.map Prod.fst ++ t.todo) =
      ts.map fun t => t.done.map Prod.fst ++ t.todo
  | [], _, _ => rfl
  | i :: sched, reg, ts => (runThreads_program sched _ _).trans (stepThread_program reg ts i)

theorem stepThread_lastSet (reg : Nat) (ts : List Thread) (i : Nat) :
    (stepThread reg ts i).1 = lastSet reg (callOf reg ts i) := by
  unfold stepThread callOf
  cases hi : ts[i]? with
  | none => rfl
  | some t =>
    obtain ⟨todo, done⟩ := t
    cases todo with
    | nil => rfl
    | cons op todo => cases op <;> rfl

theorem lastSet_append : ∀ (a b : List (Nat × RegOp × Nat)) (init : Nat),
    lastSet init (a ++ b) = lastSet (lastSet init a) b
  | [], _, _ => rfl
  | (_, .set v, _) :: a, b, init => lastSet_append a b v
  | (_, .get, _) :: a, b, init => lastSet_append a b init

theorem runThreads_lastSet : ∀ (sched : List Nat) (reg : Nat) (ts : List Thread),
    (runThreads reg ts sched).1 = lastSet reg (callLog reg ts sched)
  | [], _, _ => rfl
  | i :: sched, reg, ts => by
    unfold callLog
    rw [lastSet_append, ← stepThread_lastSet]
    exact runThreads_lastSet sched _ _

theorem callLog_returns : ∀ (sched : List Nat) (reg : Nat) (ts : List Thread) (k i : Nat) (op : RegOp)
    (ret : Nat), (callLog reg ts sched)[k]? = some (i, op, ret) →
    ret = lastSet reg ((callLog reg ts sched).take k)
  | [], _, _, _, _, _, _, h => by simp [callLog] at h
  | j :: sched, reg, ts, k, i, op, ret, h => by
    unfold callLog at h ⊢
    simp only at h ⊢
    have hlen : callOf reg ts j = [] ∨ ∃ o, callOf reg ts j = [(j, o, (o.apply reg).2)] := by
      unfold callOf
      split
      · exact Or.inr ⟨_, rfl⟩
      · exact Or.inl rfl
    have hstep := stepThread_lastSet reg ts j
    rcases hlen with e | ⟨o, e⟩
    · rw [e] at h hstep ⊢
      have := callLog_returns sched _ _ k i op ret h
      rw [this, hstep]
      rfl
    · rw [e] at h hstep ⊢
      cases k with
      | zero =>
        simp at h
        obtain ⟨-, rfl, rfl⟩ := h
        cases o <;> rfl
      | succ k =>
        have := callLog_returns sched _ _ k i op ret (by simpa using h)
        rw [this, hstep, List.singleton_append, List.take_succ_cons]
        exact (lastSet_append [_] _ reg).symm

theorem stepThread_done (reg : Nat) (ts : List Thread) (i j : Nat) (t : Thread)
    (ht : ts[j]? = some t) :
    ∃ t', (stepThread reg ts i).2[j]? = some t' ∧
      t'.done = t.done ++ ((callOf reg ts i).filter (·.1 == j)).map (·.2) := by
  unfold stepThread callOf
  split
  · next op todo done hi =>
    obtain ⟨hlt, -⟩ := List.getElem?_eq_some_iff.1 hi
    simp only
    by_cases hij : i = j
    · subst hij
      rw [hi] at ht
      cases ht
      refine ⟨_, by rw [List.getElem?_set_self hlt], ?_⟩
      simp [hi]
    · exact ⟨t, by rw [List.getElem?_set_ne hij, ht], by simp [hi, hij]⟩
  · exact ⟨t, ht, by simp⟩

theorem runThreads_done : ∀ (sched : List Nat) (reg : Nat) (ts : List Thread) (j : Nat) (t : Thread),
    ts[j]? = some t →
    ∃ t', (runThreads reg ts sched).2[j]? = some t' ∧
      t'.done = t.done ++ ((callLog reg ts sched).filter (·.1 == j)).map (·.2)
  | [], _, _, _, t, ht => ⟨t, ht, by simp [callLog]⟩
  | i :: sched, reg, ts, j, t, ht => by
    obtain ⟨t1, h1, h2⟩ := stepThread_done reg ts i j t ht
    obtain ⟨t2, h3, h4⟩ := runThreads_done sched (stepThread reg ts i).1 _ j t1 h1
    refine ⟨t2, h3, ?_⟩
    rw [h4, h2]
    show _ = t.done ++ ((callOf reg ts i ++ callLog (stepThread reg ts i).1
      (stepThread reg ts i).2 sched).filter (·.1 == j)).map (·.2)
    simp

/-! ## new_object and delete_object -/

theorem objStep_blocks {R : Upstream σ} {w : ObjWorld σ} (op : ObjOp)
    (hlive : ∀ p ∈ w.live, p ≠ 0) :
    (∃ bs : List (List Event), (objStep R w op).log = w.log ++ bs.flatten ∧ ∀ b ∈ bs, Block b) ∧
    (∀ p ∈ (objStep R w op).live, p ≠ 0) ∧
    ((constructed w.log).Perm (destroyed w.log ++ w.live) →
      (constructed (objStep R w op).log).Perm
        (destroyed (objStep R w op).log ++ (objStep R w op).live)) := by
  cases op with
  | new sizeOf alignOf =>
    unfold objStep newObject
    simp only
    generalize allocateObjects R w.res sizeOf alignOf 1 = r
    obtain ⟨ptr, s⟩ := r
    simp only
    by_cases h0 : ptr = 0
    · subst h0
      refine ⟨⟨[[.allocate (1 * sizeOf % 2 ^ 64) alignOf 0]], by simp, ?_⟩, by simpa using hlive, ?_⟩
      · intro b hb
        rw [List.mem_singleton.1 hb]
        exact .failed _ _
      · simp [constructed, destroyed]
    · rw [if_pos h0]
      simp only
      rw [if_neg h0]
      refine ⟨⟨[[.allocate (1 * sizeOf % 2 ^ 64) alignOf ptr, .construct ptr]], by simp, ?_⟩,
        ?_, ?_⟩
      · intro b hb
        rw [List.mem_singleton.1 hb]
        exact .created _ _ _ h0
      · intro p hp
        rcases List.mem_cons.1 hp with rfl | hp
        · exact h0
        · exact hlive p hp
      · intro h
        unfold constructed destroyed at h ⊢
        simp only [List.filterMap_append, List.filterMap_cons, List.filterMap_nil,
          List.nil_append, List.append_nil]
        rw [List.perm_iff_count] at h ⊢
        intro a
        have := h a
        simp only [List.count_append, List.count_cons, List.count_nil] at this ⊢
        omega
  | delete i =>
    unfold objStep
    simp only
    cases hi : w.live[i]? with
    | none => exact ⟨⟨[], by simp, by simp⟩, hlive, id⟩
    | some ptr =>
      obtain ⟨hlt, hget⟩ := List.getElem?_eq_some_iff.1 hi
      have h0 : ptr ≠ 0 := hlive ptr (hget ▸ List.getElem_mem hlt)
      unfold deleteObject
      simp only
      rw [if_pos h0]
      refine ⟨⟨[[.destroy ptr, .deallocate ptr]], by simp, ?_⟩, ?_, ?_⟩
      · intro b hb
        rw [List.mem_singleton.1 hb]
        exact .deleted _ h0
      · intro p hp
        exact hlive p (List.mem_of_mem_eraseIdx hp)
      · intro h
        unfold constructed destroyed at h ⊢
        simp only [List.filterMap_append, List.filterMap_cons, List.filterMap_nil,
          List.append_nil]
        have hsplit : w.live = w.live.take i ++ ptr :: w.live.drop (i + 1) := by
          rw [← hget, ← List.drop_eq_getElem_cons hlt, List.take_append_drop]
        rw [List.eraseIdx_eq_take_drop_succ]
        rw [hsplit] at h
        rw [List.perm_iff_count] at h ⊢
        intro a
        have := h a
        simp only [List.count_append, List.count_cons, List.count_nil] at this ⊢
        omega
  | deleteNull =>
    unfold objStep deleteObject
    simp only
    exact ⟨⟨[], by simp, by simp⟩, hlive, by simp⟩

theorem objRun_blocks {R : Upstream σ} : ∀ (ops : List ObjOp) (w : ObjWorld σ),
    (∀ p ∈ w.live, p ≠ 0) → (constructed w.log).Perm (destroyed w.log ++ w.live) →
    (∃ bs : List (List Event), (objRun R w ops).log = w.log ++ bs.flatten ∧ ∀ b ∈ bs, Block b) ∧
    (constructed (objRun R w ops).log).Perm
      (destroyed (objRun R w ops).log ++ (objRun R w ops).live)
  | [], w, _, h => ⟨⟨[], by simp [objRun], by simp⟩, h⟩
  | op :: ops, w, hl, h => by
    obtain ⟨⟨b1, e1, g1⟩, hl1, h1⟩ := objStep_blocks (R := R) op hl
    obtain ⟨⟨b2, e2, g2⟩, h2⟩ := objRun_blocks (R := R) ops (objStep R w op) hl1 (h1 h)
    refine ⟨⟨b1 ++ b2, ?_, ?_⟩, h2⟩
    · show (objRun R (objStep R w op) ops).log = _
      rw [e2, e1]
      simp
    · intro b hb
      rcases List.mem_append.1 hb with hb | hb
      · exact g1 b hb
      · exact g2 b hb

theorem replay_append {R : Upstream σ} : ∀ (l l' : List Event) (s : σ),
    replay R s (l ++ l') = (replay R s l).bind fun s => replay R s l'
  | [], _, _ => rfl
  | .allocate bytes align ptr :: l, l', s => by
    rw [List.cons_append, replay, replay]
    split
    · exact replay_append l l' _
    · rfl
  | .deallocate ptr :: l, l', s => by
    rw [List.cons_append, replay, replay]; exact replay_append l l' _
  | .construct _ :: l, l', s => by
    rw [List.cons_append, replay, replay]; exact replay_append l l' _
  | .destroy _ :: l, l', s => by
    rw [List.cons_append, replay, replay]; exact replay_append l l' _

theorem objStep_replay {R : Upstream σ} {s : σ} {w : ObjWorld σ} (op : ObjOp)
    (h : replay R s w.log = some w.res) :
    replay R s (objStep R w op).log = some (objStep R w op).res := by
  cases op with
  | new sizeOf alignOf =>
    unfold objStep newObject allocateObjects
    simp only
    split <;> simp [replay_append, h, replay]
  | delete i =>
    unfold objStep
    simp only
    cases hi : w.live[i]? with
    | none => exact h
    | some ptr =>
      unfold deleteObject
      simp only
      split <;> simp [replay_append, h, replay]
  | deleteNull =>
    unfold objStep deleteObject
    simpa using h

theorem objRun_replay {R : Upstream σ} {s : σ} : ∀ (ops : List ObjOp) (w : ObjWorld σ),
    replay R s w.log = some w.res → replay R s (objRun R w ops).log = some (objRun R w ops).res
  | [], _, h => h
  | op :: ops, w, h => objRun_replay ops (objStep R w op) (objStep_replay op h)

end Utils.Res
