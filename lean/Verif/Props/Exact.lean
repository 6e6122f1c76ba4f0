import Verif.Props.Arrays
import Verif.Props.Bits
import Verif.Props.Memory
import Verif.Props.Objects
import Verif.Props.Padding
import Verif.Props.Resources
import Verif.Props.SimpleResource
import Verif.Props.Traits
import Verif.Props.TypeList
import Verif.Proofs.DivExact
import Verif.Proofs.SRLarge

/-!
Exact conditions: for properties that are false in general, when precisely they hold.
-/

namespace Utils.Props
open Utils Utils.Bits Utils.Spec

/-! ## C15 -/

/-- Results lie in the common type, so nothing else can be right. -/
theorem divConst_inRange {debug : Bool} {tn td : CTy} {n d q r : Int}
    (h : divConst debug tn n td d = .ok (q, r)) :
    (CTy.common tn td).InRange q ∧ (CTy.common tn td).InRange r := by
  unfold divConst at h
  obtain ⟨_, -, h⟩ := Outcome.bind_eq_ok.1 h
  obtain ⟨a, -, h⟩ := Outcome.bind_eq_ok.1 h
  obtain ⟨b, -, h⟩ := Outcome.bind_eq_ok.1 h
  obtain ⟨rfl, rfl⟩ := Prod.mk.inj (Outcome.ok.inj h)
  exact ⟨CTy.conv_inRange _ _, CTy.conv_inRange _ _⟩

theorem divRun_inRange {debug : Bool} {tn td : CTy} {n d q r : Int}
    (h : divRun debug tn n td d = .ok (q, r)) :
    (CTy.common tn td).InRange q ∧ (CTy.common tn td).InRange r := by
  unfold divRun at h
  obtain ⟨_, -, h⟩ := Outcome.bind_eq_ok.1 h
  obtain ⟨a, -, h⟩ := Outcome.bind_eq_ok.1 h
  obtain ⟨b, -, h⟩ := Outcome.bind_eq_ok.1 h
  obtain ⟨rfl, rfl⟩ := Prod.mk.inj (Outcome.ok.inj h)
  exact ⟨CTy.conv_inRange _ _, CTy.conv_inRange _ _⟩

/-- When `div(n, d)` is right during constant evaluation, for all operands of all integral types:
the common type has to hold the numerator and the quotient, and either it holds the denominator too
or the quotient is zero before and after the denominator is wrapped. -/
theorem C15_const_iff (debug : Bool) (tn td : CTy) (n d : Int) (hn : tn.InRange n)
    (hd : td.InRange d) (hd0 : d ≠ 0) :
    (∃ q r, divConst debug tn n td d = .ok (q, r) ∧ TruncDiv n d q r) ↔
      (CTy.common tn td).InRange n ∧
      ¬ ((CTy.common tn td).signed = true ∧ n = (CTy.common tn td).minVal ∧ d = -1) ∧
      ((CTy.common tn td).InRange d ∨ n < -d ∧ n < 2 ^ (CTy.common tn td).width + d) := by
  obtain ⟨l1, l2, l3⟩ := common_left tn td
  obtain ⟨r1, r2⟩ := common_right tn td
  obtain ⟨-, -, b3, b4, b5⟩ := ty_bounds (CTy.common tn td)
  have hw := common_wide tn td
  have hrange := fun q r => @divConst_inRange debug tn td n d q r
  have hpart := C15_div_const_partial debug tn td n d hd0
  have hwrap : (CTy.common tn td).isUInt = true →
      CTy.usual (CTy.common tn td) (CTy.common tn td) = CTy.common tn td →
      (CTy.common tn td).InRange n → d < 0 → 0 < 2 ^ (CTy.common tn td).width + d →
      divConst debug tn n td d = .ok (Int.tdiv n (2 ^ (CTy.common tn td).width + d),
        Int.tmod n (2 ^ (CTy.common tn td).width + d)) := by
    intro hu hus hcn hneg hpos
    have hc : (CTy.common tn td).conv d = 2 ^ (CTy.common tn td).width + d := by
      rw [CTy.conv_unsigned hu, ← Int.add_emod_left]
      exact Int.emod_eq_of_lt (by omega) (by omega)
    have hcd := (CTy.common tn td).conv_inRange d
    rw [hc] at hcd
    have hns : (CTy.common tn td).signed = false := by
      revert hu; unfold CTy.isUInt; cases (CTy.common tn td).signed <;> simp
    have hne : 2 ^ (CTy.common tn td).width + d ≠ 0 := by omega
    obtain ⟨hq, hm⟩ := tdiv_inRange hcn hne (by rintro ⟨h, -, -⟩; rw [hns] at h; cases h) hcd
    unfold divConst
    simp only [show (d != 0) = true by simpa using hd0, cassert_true, Outcome.ok_bind, CVal.cast,
      CTy.conv_eq_self hcn, hc]
    exact divRem_eq hcn hcd hne (by rw [hus]; exact hq) (by rw [hus]; exact hm) hq hm
  generalize CTy.common tn td = t at *
  unfold CTy.InRange at hn hd
  constructor
  · rintro ⟨q, r, h, hqr⟩
    obtain ⟨⟨q1, q2⟩, r3, r4⟩ := hrange q r h
    have hcn : t.InRange n := by
      refine ⟨?_, by omega⟩
      cases hs : t.signed with
      | true => have := l1 hs; omega
      | false =>
        obtain ⟨z1, z2⟩ := l3 hs
        by_contra hlt
        have hdp : 0 ≤ d := by omega
        have := hqr.1
        have := Int.mul_nonneg (by omega : (0 : Int) ≤ q) hdp
        omega
    refine ⟨hcn, ?_, ?_⟩
    · rintro ⟨hs, rfl, rfl⟩
      have h1 := (truncDiv_unique hqr (truncDiv_tdiv hd0)).1
      rw [Int.tdiv_neg, Int.tdiv_one] at h1
      have := b5 hs
      omega
    · by_cases hcd : t.InRange d
      · exact Or.inl hcd
      · right
        have hs : t.signed = false := by
          by_contra hs
          have := r1 (by simpa using hs)
          exact hcd ⟨by omega, by omega⟩
        obtain ⟨z1, z2⟩ := l3 hs
        have hdn : d < 0 := by
          by_contra hh
          exact hcd ⟨by omega, by omega⟩
        obtain ⟨w1, w2, w3, w4, w5⟩ := hw hs (by omega)
        have hpw : (2 : Int) ^ t.width = 2 * 2 ^ (t.width - 1) := by
          conv_lhs => rw [show t.width = (t.width - 1) + 1 by omega]
          rw [Int.pow_succ]; omega
        have hpp : (0 : Int) < 2 ^ (t.width - 1) := by exact_mod_cast Nat.two_pow_pos _
        have e := hwrap w1 w2 hcn hdn (by omega)
        rw [e] at h
        obtain ⟨rfl, rfl⟩ := Prod.mk.inj (Outcome.ok.inj h)
        have hn0 : 0 ≤ n := by unfold CTy.InRange at hcn; omega
        have hk := truncDiv_tdiv (n := n) (d := 2 ^ t.width + d) (by omega)
        obtain ⟨k1, k2, k3, -⟩ := hk
        obtain ⟨j1, j2, j3, -⟩ := hqr
        have hz : Int.tdiv n (2 ^ t.width + d) = 0 := by
          have h5 : Int.tdiv n (2 ^ t.width + d) * (2 ^ t.width) = 0 := by
            rw [Int.mul_add] at k1; omega
          rcases Int.mul_eq_zero.1 h5 with h6 | h6
          · exact h6
          · omega
        rw [hz] at k1 j1
        have := k3 hn0
        omega
  · rintro ⟨hcn, hov, hor⟩
    by_cases hcd : t.InRange d
    · exact ⟨_, _, hpart hcn hcd hov⟩
    · obtain ⟨hlt1, hlt2⟩ := hor.resolve_left hcd
      have hs : t.signed = false := by
        by_contra hs
        have := r1 (by simpa using hs)
        exact hcd ⟨by omega, by omega⟩
      obtain ⟨z1, z2⟩ := l3 hs
      have hdn : d < 0 := by
        by_contra hh
        exact hcd ⟨by omega, by omega⟩
      obtain ⟨w1, w2, w3, w4, w5⟩ := hw hs (by omega)
      have hn0 : 0 ≤ n := by unfold CTy.InRange at hcn; omega
      refine ⟨_, _, hwrap w1 w2 hcn hdn (by omega), ?_⟩
      rw [Int.tdiv_eq_zero_of_lt hn0 hlt2, Int.tmod_eq_of_lt hn0 hlt2]
      exact ⟨by omega, by omega, fun _ => hn0, fun h => h⟩

/-- `div(3u, -5)` is right, `div(7u, -5)` is not. -/
example : divConst true .uint 3 .int (-5) = .ok (0, 3) ∧
    divConst true .uint 7 .int (-5) = .ok (0, 7) ∧ ¬ CTy.uint.InRange (-5) := by decide

/-- When `div(n, d)` is right at run time, for all operands of all integral types.  Within `long long`
the common type has to hold quotient and remainder.  A numerator from `2^63` on is divided rightly only
by 1 and by itself; a denominator from `2^63` on is handled rightly only if the numerator is smaller
than its distance to `2^64`, or equal to it. -/
theorem C15_run_iff (debug : Bool) (tn td : CTy) (n d : Int) (hn : tn.InRange n)
    (hd : td.InRange d) (hd0 : d ≠ 0) :
    (∃ q r, divRun debug tn n td d = .ok (q, r) ∧ TruncDiv n d q r) ↔
      (CTy.llong.InRange n ∧ CTy.llong.InRange d ∧ (CTy.common tn td).InRange (Int.tdiv n d) ∧
        (CTy.common tn td).InRange (Int.tmod n d)) ∨
      (2 ^ 63 ≤ n ∧ (d = 1 ∨ d = n)) ∨ (2 ^ 63 ≤ d ∧ 0 ≤ n ∧ n < 2 ^ 64 - d) := by
  obtain ⟨l1, l2, l3⟩ := common_left tn td
  obtain ⟨r1, r2⟩ := common_right tn td
  obtain ⟨-, -, b3, b4, b5⟩ := ty_bounds (CTy.common tn td)
  obtain ⟨n1, n2, n3, n4, n5⟩ := ty_bounds tn
  obtain ⟨d1, d2, d3, d4, d5⟩ := ty_bounds td
  have hhl := common_huge_left tn td
  have hhr := common_huge_right tn td
  have hrange := fun q r => @divRun_inRange debug tn td n d q r
  have hdne : (d != 0) = true := by simpa using hd0
  have hrun : ∀ a b, CTy.conv .llong n = a → CTy.conv .llong d = b → b ≠ 0 →
      ¬ (a = -2 ^ 63 ∧ b = -1) → divRun debug tn n td d =
        .ok ((CTy.common tn td).conv (Int.tdiv a b), (CTy.common tn td).conv (Int.tmod a b)) := by
    intro a b ha hb hb0 hov
    have ha' := CTy.llong.conv_inRange n
    have hb' := CTy.llong.conv_inRange d
    unfold divRun
    simp only [hdne, cassert_true, Outcome.ok_bind, CVal.cast, divWorkType_eq]
    rw [ha] at ha' ⊢
    rw [hb] at hb' ⊢
    exact divRem_llong ha' hb' hb0 hov
  generalize CTy.common tn td = t at *
  unfold CTy.InRange at hn hd
  have hnr : CTy.llong.InRange n ∨ 2 ^ 63 ≤ n := by rw [llong_inRange]; omega
  have hdr : CTy.llong.InRange d ∨ 2 ^ 63 ≤ d := by rw [llong_inRange]; omega
  rcases hnr with hln | hln <;> rcases hdr with hld | hld
  · -- both operands within long long
    rw [llong_inRange] at hln hld
    constructor
    · rintro ⟨q, r, h, hqr⟩
      obtain ⟨hq, hr⟩ := hrange q r h
      obtain ⟨e1, e2⟩ := truncDiv_unique hqr (truncDiv_tdiv hd0)
      rw [e1] at hq
      rw [e2] at hr
      exact Or.inl ⟨llong_inRange.2 hln, llong_inRange.2 hld, hq, hr⟩
    · rintro (⟨-, -, hq, hr⟩ | h | h)
      · have hov : ¬ (n = -2 ^ 63 ∧ d = -1) := by
          rintro ⟨rfl, rfl⟩
          rw [Int.tdiv_neg, Int.tdiv_one] at hq
          obtain ⟨q1, q2⟩ := hq
          cases hs : t.signed with
          | true => have := b5 hs; have := ty_bounds t; omega
          | false => have := l3 hs; omega
        refine ⟨_, _, hrun n d (CTy.conv_eq_self (llong_inRange.2 hln))
          (CTy.conv_eq_self (llong_inRange.2 hld)) hd0 hov, ?_⟩
        rw [CTy.conv_eq_self hq, CTy.conv_eq_self hr]
        exact truncDiv_tdiv hd0
      · omega
      · omega
  · -- large denominator
    rw [llong_inRange] at hln
    obtain ⟨t1, t2, t3, t4, -, -⟩ := hhr (by omega)
    have hcu : ∀ x : Int, t.conv x = x % 2 ^ 64 := by
      intro x; rw [CTy.conv_unsigned t3, t4]
    have hcd := conv_llong_huge hld (by omega)
    have hcn := CTy.conv_eq_self (llong_inRange.2 hln)
    have hm0 : d - 2 ^ 64 ≠ 0 := by omega
    have hneg : ∀ x : Int, Int.tdiv x (d - 2 ^ 64) = -Int.tdiv x (2 ^ 64 - d) := by
      intro x; rw [← Int.tdiv_neg]; congr 1; omega
    have hnegm : ∀ x : Int, Int.tmod x (d - 2 ^ 64) = Int.tmod x (2 ^ 64 - d) := by
      intro x; rw [← Int.tmod_neg]; congr 1; omega
    constructor
    · rintro ⟨q, r, h, hqr⟩
      obtain ⟨⟨q1, q2⟩, r3, r4⟩ := hrange q r h
      have hn0 : 0 ≤ n := by
        have := hqr.1
        have := Int.mul_nonneg (by omega : (0 : Int) ≤ q) (by omega : (0 : Int) ≤ d)
        omega
      refine Or.inr (Or.inr ⟨hld, hn0, ?_⟩)
      by_contra hge
      have hq0 := (truncDiv_unique hqr (truncDiv_tdiv hd0)).1
      rw [Int.tdiv_eq_zero_of_lt hn0 (by omega)] at hq0
      rw [hrun n (d - 2 ^ 64) hcn hcd hm0 (by omega), hneg, hcu] at h
      have h := (Prod.mk.inj (Outcome.ok.inj h)).1
      have k := truncDiv_tdiv (n := n) (d := 2 ^ 64 - d) (by omega)
      obtain ⟨k1, k2, k3, -⟩ := k
      have hle : (Int.tdiv n (2 ^ 64 - d)).natAbs ≤ n.natAbs := by
        rw [Int.natAbs_tdiv]; exact Nat.div_le_self _ _
      have hnn : 0 ≤ Int.tdiv n (2 ^ 64 - d) := Int.tdiv_nonneg hn0 (by omega)
      have hne : Int.tdiv n (2 ^ 64 - d) ≠ 0 := by
        intro h0
        rw [h0] at k1
        omega
      omega
    · rintro (⟨-, h, -⟩ | h | ⟨-, hn0, hlt⟩)
      · rw [llong_inRange] at h; omega
      · omega
      · refine ⟨_, _, hrun n (d - 2 ^ 64) hcn hcd hm0 (by omega), ?_⟩
        rw [hneg, hnegm, Int.tdiv_eq_zero_of_lt hn0 hlt, Int.tmod_eq_of_lt hn0 hlt, hcu, hcu,
          show (-0 % 2 ^ 64 : Int) = 0 by decide, Int.emod_eq_of_lt hn0 (by omega)]
        exact ⟨by omega, by omega, by omega, by omega⟩
  · -- large numerator
    rw [llong_inRange] at hld
    obtain ⟨t1, t2, t3, t4, -, -⟩ := hhl (by omega)
    have hcu : ∀ x : Int, t.conv x = x % 2 ^ 64 := by
      intro x; rw [CTy.conv_unsigned t3, t4]
    have hcn := conv_llong_huge hln (by omega)
    have hcd := CTy.conv_eq_self (llong_inRange.2 hld)
    constructor
    · rintro ⟨q, r, h, hqr⟩
      obtain ⟨⟨q1, q2⟩, r3, r4⟩ := hrange q r h
      obtain ⟨j1, j2, j3, -⟩ := hqr
      refine Or.inr (Or.inl ⟨hln, Or.inl ?_⟩)
      by_contra hne
      rcases Int.lt_or_gt_of_ne hd0 with hneg | hpos
      · have := Int.mul_nonneg (by omega : (0 : Int) ≤ q) (by omega : 0 ≤ -d)
        rw [Int.mul_neg] at this
        omega
      · rw [hrun (n - 2 ^ 64) d hcn hcd hd0 (by omega), hcu] at h
        have h := (Prod.mk.inj (Outcome.ok.inj h)).1
        have hng : Int.tdiv (n - 2 ^ 64) d = -Int.tdiv (2 ^ 64 - n) d := by
          rw [← Int.neg_tdiv]; congr 1; omega
        rw [hng] at h
        have hle : (Int.tdiv (2 ^ 64 - n) d).natAbs * 2 ≤ (2 ^ 64 - n).natAbs := by
          rw [Int.natAbs_tdiv]
          have := Nat.div_mul_le_self (2 ^ 64 - n).natAbs d.natAbs
          have h2 : (2 ^ 64 - n).natAbs / d.natAbs * 2 ≤ (2 ^ 64 - n).natAbs / d.natAbs * d.natAbs :=
            Nat.mul_le_mul_left _ (by omega)
          exact le_trans h2 this
        have hnn : 0 ≤ Int.tdiv (2 ^ 64 - n) d := Int.tdiv_nonneg (by omega) (by omega)
        have hqd : q * 2 ≤ q * d := Int.mul_le_mul_of_nonneg_left (by omega) (by omega)
        have hr := j3 (by omega)
        have hq0 : q ≠ 0 := by
          rintro rfl
          omega
        omega
    · rintro (⟨h, -⟩ | ⟨-, h | h⟩ | h)
      · rw [llong_inRange] at h; omega
      · subst h
        refine ⟨_, _, hrun (n - 2 ^ 64) 1 hcn hcd hd0 (by omega), ?_⟩
        rw [Int.tdiv_one, Int.tmod_one, hcu, hcu]
        exact ⟨by omega, by omega, by omega, by omega⟩
      · omega
      · omega
  · -- both large
    obtain ⟨t1, t2, t3, t4, -, -⟩ := hhl (by omega)
    have hcu : ∀ x : Int, t.conv x = x % 2 ^ 64 := by
      intro x; rw [CTy.conv_unsigned t3, t4]
    have hcn := conv_llong_huge hln (by omega)
    have hcd := conv_llong_huge hld (by omega)
    have hm0 : d - 2 ^ 64 ≠ 0 := by omega
    constructor
    · rintro ⟨q, r, h, hqr⟩
      refine Or.inr (Or.inl ⟨hln, Or.inr ?_⟩)
      obtain ⟨⟨q1, q2⟩, r3, r4⟩ := hrange q r h
      obtain ⟨j1, j2, j3, -⟩ := hqr
      by_contra hne
      by_cases hov : n - 2 ^ 64 = -2 ^ 63 ∧ d - 2 ^ 64 = -1
      · have hub : divRun debug tn n td d = .ub := by
          unfold divRun
          simp only [hdne, cassert_true, Outcome.ok_bind, CVal.cast, divWorkType_eq, hcn, hcd,
            hov.1, hov.2]
          rfl
        rw [hub] at h
        cases h
      · rw [hrun _ _ hcn hcd hm0 hov, hcu] at h
        have h := (Prod.mk.inj (Outcome.ok.inj h)).1
        have hng : Int.tdiv (n - 2 ^ 64) (d - 2 ^ 64) = Int.tdiv (2 ^ 64 - n) (2 ^ 64 - d) := by
          rw [← Int.neg_tdiv_neg]; congr 1 <;> omega
        rw [hng] at h
        have hnn : 0 ≤ Int.tdiv (2 ^ 64 - n) (2 ^ 64 - d) := Int.tdiv_nonneg (by omega) (by omega)
        have hle : (Int.tdiv (2 ^ 64 - n) (2 ^ 64 - d)).natAbs ≤ (2 ^ 64 - n).natAbs := by
          rw [Int.natAbs_tdiv]; exact Nat.div_le_self _ _
        have hr := j3 (by omega)
        rcases Int.lt_or_gt_of_ne hne with hlt | hgt
        · -- d < n: the code's quotient is 0
          rw [Int.tdiv_eq_zero_of_lt (by omega) (by omega)] at h
          have : q = 0 := by omega
          subst this
          omega
        · -- n < d: the code's quotient is at least 1
          have h1 : Int.tdiv (2 ^ 64 - n) (2 ^ 64 - d) ≠ 0 := by
            intro h0
            have k := (truncDiv_tdiv (n := 2 ^ 64 - n) (d := 2 ^ 64 - d) (by omega))
            obtain ⟨k1, k2, -, -⟩ := k
            rw [h0] at k1
            omega
          have : 1 * d ≤ q * d := Int.mul_le_mul_of_nonneg_right (by omega) (by omega)
          omega
    · rintro (⟨h, -⟩ | ⟨-, h | h⟩ | h)
      · rw [llong_inRange] at h; omega
      · omega
      · subst h
        refine ⟨_, _, hrun _ _ hcn hcd hm0 (by omega), ?_⟩
        rw [Int.tdiv_self hm0, Int.tmod_self, hcu, hcu]
        exact ⟨by omega, by omega, by omega, by omega⟩
      · omega

/-- `div(2^63 + 5, 1)` and `div(7, 2^64 - 8)` are right at run time, `div(8, 2^64 - 8)` is not. -/
example : divRun true .ulong (2 ^ 63 + 5) .int 1 = .ok (2 ^ 63 + 5, 0) ∧
    divRun true .int 7 .ulong (2 ^ 64 - 8) = .ok (0, 7) ∧
    divRun true .int 8 .ulong (2 ^ 64 - 8) = .ok (2 ^ 64 - 1, 0) := by decide

/-! ## C20 -/

/-- For a type whose copies and moves give the value: `make_array<T, N>(v)` is `N` copies of `v` exactly
if `N` is at most 1 or moving from `v` leaves `v`. -/
theorem C20_iff {α : Type} (E : Arrays.Elem α) (n : Nat) (v : α) (hc : E.copy v = v)
    (hm : ∀ x, (E.move x).1 = x) :
    Arrays.makeArrayFill E n v = List.replicate n v ↔ n ≤ 1 ∨ (E.move v).2 = v := by
  constructor
  · intro h
    by_cases hn : n ≤ 1
    · exact Or.inl hn
    · right
      have h1 := (C20_elements E n v).2 1 (by omega)
      rw [h, List.getElem?_replicate, if_pos (by omega), hc, hm] at h1
      exact (Option.some.inj h1).symm
  · rintro (h | h)
    · match n, h with
      | 0, _ => rfl
      | 1, _ => simp [Arrays.makeArrayFill, Arrays.fillMoves, hc, hm]
    · exact (C20_fill_partial E n v (Prod.ext (hm v) h)).1 hc

example : stringElem.copy "a" = "a" ∧ (∀ x, (stringElem.move x).1 = x) ∧
    (stringElem.move "a").2 ≠ "a" ∧ (stringElem.move "").2 = "" :=
  ⟨rfl, fun _ => rfl, by decide, rfl⟩

/-! ## C24 -/

/-- The types that are no lists, at any depth. -/
def leaves : TL.Ty → List Nat
  | .base n => [n]
  | .tlist [] => []
  | .tlist (t :: ts) => leaves t ++ leaves (.tlist ts)

/-- `contains_v` for every query, lists of lists included: it holds iff every type at the bottom of the
query is an element. -/
theorem C24_exact (ts : List TL.Ty) : ∀ q : TL.Ty,
    TL.contains ts q = true ↔ ∀ n ∈ leaves q, TL.Ty.base n ∈ ts
  | .base n => by rw [C24_contains_partial]; simp [leaves]
  | .tlist [] => by rw [C24_contains_all]; simp [leaves]
  | .tlist (t :: us) => by
    have h := C24_exact ts (.tlist us)
    rw [C24_contains_all] at h ⊢
    rw [leaves, List.forall_mem_cons, h, C24_exact ts t, List.forall_mem_append]

example : leaves (.tlist [.base 1, .tlist [.base 2, .tlist []]]) = [1, 2] := by
  simp [leaves]

/-! ## C36 -/

/-- In constant evaluation `memmove` is right exactly if the destination does not start inside the
source, or the source repeats with the distance between the two. -/
theorem C36_iff {m : Memory.Mem} {dst src n : Nat}
    (hs : Spec.Accessible m src n) (hd : Spec.Accessible m dst n) :
    (∃ m', Memory.memmove true m dst src n = .ok (dst, m') ∧ ∀ i < n, m' (dst + i) = m (src + i)) ↔
      ¬ (src < dst ∧ dst < src + n) ∨ ∀ i, i + (dst - src) < n → m (src + i) = m (dst + i) := by
  by_cases h : src < dst ∧ dst < src + n
  · obtain ⟨m1, e1, e2, -⟩ := C36_constant_evaluation hs hd h
    constructor
    · rintro ⟨m', e, hm⟩
      rw [e1] at e
      obtain ⟨-, rfl⟩ := Prod.mk.inj (Outcome.ok.inj e)
      right
      intro i hi
      have h1 := e2 i (by omega)
      have h2 := e2 (i + (dst - src)) (by omega)
      rw [Nat.add_mod_right, ← h1, hm _ (by omega), hm _ (by omega)] at h2
      rw [← h2]
      congr 1
      omega
    · rintro (h' | h')
      · exact absurd h h'
      · refine ⟨m1, e1, fun i hi => ?_⟩
        rw [e2 i hi]
        have key : ∀ k, k < n → m (src + k % (dst - src)) = m (src + k) := by
          intro k
          induction k using Nat.strongRecOn with
          | _ k ih =>
            intro hk
            by_cases hlt : k < dst - src
            · rw [Nat.mod_eq_of_lt hlt]
            · rw [Nat.mod_eq_sub_mod (by omega), ih (k - (dst - src)) (by omega) (by omega),
                h' (k - (dst - src)) (by omega)]
              congr 1
              omega
        exact key i hi
  · constructor
    · intro _
      exact Or.inl h
    · intro _
      obtain ⟨m', e1, e2, -⟩ := C36_memmove_partial true hs hd (by simp) (fun _ => h)
      exact ⟨m', e1, e2⟩

/-- Moving `1 2 1 2` up by two happens to be right. -/
example : ((Memory.memmove true (mem16 [1, 2, 1, 2, 9, 9]) 18 16 4).map fun r => dump 16 6 r.2) =
    .ok [some 1, some 2, some 1, some 2, some 1, some 2] := by decide

/-! ## C43 -/

/-- The room for `count` objects is guaranteed by the contract of the resource exactly if their total
size is below `2^64`. -/
theorem C43_iff {sizeOf alignOf count : Nat} (ha : 0 < alignOf) :
    (∀ (σ : Type) (R : SR.Upstream σ) (room : σ → Nat → Nat) (s : σ), Res.Delivers R room →
      (Res.allocateObjects R s sizeOf alignOf count).1 ≠ 0 →
      count * sizeOf ≤ room (Res.allocateObjects R s sizeOf alignOf count).2
        (Res.allocateObjects R s sizeOf alignOf count).1) ↔ count * sizeOf < 2 ^ 64 := by
  constructor
  · intro h
    let R : SR.Upstream Nat := ⟨fun _ bytes align => (align, bytes), fun s _ => s⟩
    have h1 := h Nat R (fun s _ => s) 0 (fun s bytes align _ => ⟨Nat.dvd_refl _, Nat.le_refl _⟩)
      (by show alignOf ≠ 0; omega)
    have h2 : count * sizeOf ≤ count * sizeOf % 2 ^ 64 := h1
    have := Nat.mod_lt (count * sizeOf) (show 0 < 2 ^ 64 by decide)
    omega
  · intro h σ R room s hR hne
    exact (C43_room_partial hR s h hne).2

/-- The total wraps for `2^60 + 1` objects of 16 bytes, not for `2^59`. -/
example : ¬ (2 ^ 60 + 1) * 16 < 2 ^ 64 ∧ 2 ^ 59 * 16 < 2 ^ 64 := by decide

/-! ## C58 -/

/-- A request that the area refuses goes to the upstream.  Without assertions the caller receives what
the upstream answered, whatever its alignment, and giving it back aborts exactly if it is no multiple
of `BlockSize`; with assertions the allocation itself fails exactly then. -/
theorem C58_iff {p : SR.Params} {s : SR.State} {σ : Type} {U : SR.Upstream σ} {fuel size align : Nat}
    {u : σ} (hv : SR.Valid p) (hp : SR.Placed p s) (hr : SR.Request size align)
    (hl : SR.allocateLocal p fuel s size align = .ok (s, 0))
    (h0 : (U.alloc u size align).1 ≠ 0) (hlt : (U.alloc u size align).1 < 2 ^ 64)
    (hout : SR.inArea p s (U.alloc u size align).1 = false) :
    (p.debug = false → SR.allocate p (some U) fuel s u size align = .ok
      ((U.alloc u size align).1, s, (U.alloc u size align).2)) ∧
    (p.debug = true → (SR.allocate p (some U) fuel s u size align = .assertFailed ↔
      ¬ p.blockSize ∣ (U.alloc u size align).1)) ∧
    (SR.deallocate p (some U) s (U.alloc u size align).2 (U.alloc u size align).1 = .aborted ↔
      ¬ p.blockSize ∣ (U.alloc u size align).1) ∧
    (p.blockSize ∣ (U.alloc u size align).1 →
      SR.deallocate p (some U) s (U.alloc u size align).2 (U.alloc u size align).1 =
        .ok (s, U.dealloc (U.alloc u size align).2 (U.alloc u size align).1)) := by
  have hd : p.blockSize ∣ (U.alloc u size align).1 →
      SR.deallocate p (some U) s (U.alloc u size align).2 (U.alloc u size align).1 =
        .ok (s, U.dealloc (U.alloc u size align).2 (U.alloc u size align).1) :=
    fun h => SR.deallocate_upstream hv hp h0 hlt h hout
  refine ⟨fun hn => ?_, fun hdb => ⟨fun h hc => ?_, fun h => ?_⟩, ⟨fun h hc => ?_, fun h => ?_⟩, hd⟩
  · exact SR.allocate_refused (up := some U) hv hr hl hlt (fun h => by rw [hn] at h; cases h)
  · rw [SR.allocate_refused (up := some U) hv hr hl hlt (fun _ => hc)] at h
    cases h
  · obtain ⟨k, hk, hak⟩ := hr.align_lt
    have hpos := hr.pos
    have hno := hr.noOverflow
    have hp2 : isPowerOf2 (BitVec.ofNat 64 align) = true :=
      isPowerOf2_of hk (by rw [BitVec.toNat_ofNat, ← hak, Nat.mod_eq_of_lt (by omega)])
    unfold SR.allocate
    rw [if_neg (by omega), hp2, cassert_true, Outcome.ok_bind, hl, Outcome.ok_bind]
    simp only [if_true]
    rw [SR.isAligned_block hv hlt, Outcome.ok_bind, decide_eq_false h, hdb]
    rfl
  · rw [hd hc] at h
    cases h
  · unfold SR.deallocate
    rw [if_neg h0, SR.isAligned_block hv hlt, Outcome.ok_bind, decide_eq_false h]
    rfl

/-- The upstream of `C58_counterexample` and one that answers with a multiple of 8. -/
example : SR.allocateLocal pRelease 1000 (fresh pRelease 4096 32) 300 1 =
      .ok (fresh pRelease 4096 32, 0) ∧
    SR.inArea pRelease (fresh pRelease 4096 32) (tight.alloc () 300 1).1 = false ∧
    ¬ pRelease.blockSize ∣ (tight.alloc () 300 1).1 ∧ pRelease.blockSize ∣ (tight.alloc () 300 8).1 :=
  ⟨by with_unfolding_all rfl, by decide +kernel⟩

/-! ## C60 -/

/-- Over an area whose address has `c` trailing zero bits, every request is undefined behaviour, with
assertions and without, if `c` is at least 32, or if `c` is not 31 and `2^c` plus the size of the area
exceeds `2^32`; whatever the bookkeeping says. -/
theorem C60_undefined {p : SR.Params} {s : SR.State} {size align : Nat} {σ : Type}
    {up : Option (SR.Upstream σ)} (hv : SR.Valid p) (hp : SR.Placed p s) {c : Nat}
    (hc : TrailingZeros s.data c)
    (hl : 32 ≤ c ∨ c ≠ 31 ∧ 2 ^ 32 < 2 ^ c + s.blockCount * p.blockSize)
    (hr : SR.Request size align) (fuel : Nat) (u : σ) :
    SR.allocate p up fuel s u size align = .ub :=
  SR.allocate_undefined hv hp hc hl hr fuel u

/-- With assertions these are the only areas with undefined behaviour: over any other, no history of
calls with any arguments has any, whatever state the bookkeeping was in. -/
theorem C60_iff {p : SR.Params} {σ : Type} {up : Option (SR.Upstream σ)} (hv : SR.Valid p)
    (hd : p.debug = true) (w : SR.World σ) (hp : SR.Placed p w.st) {c : Nat}
    (hc : TrailingZeros w.st.data c) :
    (∃ fuel ops, SR.run p up fuel w ops = .ub) ↔
      32 ≤ c ∨ c ≠ 31 ∧ 2 ^ 32 < 2 ^ c + w.st.blockCount * p.blockSize := by
  constructor
  · rintro ⟨fuel, ops, h⟩
    by_contra hn
    refine (SR.run_no_ub_shiftable (up := up) (fuel := fuel) hv hd ops w hp hc ?_).1 h
    unfold SR.Shiftable
    omega
  · intro h
    refine ⟨0, [.alloc 1 1], ?_⟩
    have := C60_undefined (up := up) hv hp hc h ⟨⟨0, rfl⟩, by decide, by decide⟩ 0 w.up (size := 1)
      (align := 1)
    show (do let w ← SR.doAlloc p up 0 w 1 1; SR.run p up 0 w []) = .ub
    unfold SR.doAlloc
    rw [this]
    rfl

/-- Three blocks at `2^31 + 8`, and at `2^32`. -/
example : TrailingZeros (2 ^ 31 + 8) 3 ∧ TrailingZeros (2 ^ 32) 32 := by
  unfold TrailingZeros
  decide

/-! ## C61 -/

/-- When all timers are gone, every callback was invoked exactly as often as it was handed over if and
only if no timer was move-assigned to while it held a callback. -/
theorem C61_iff (clock : Nat → Int) (n : Nat) (ops : List Objects.TOp)
    (hdead : ∀ i, Objects.at? (Objects.trun clock (Objects.noTimers n) ops).timers i = none) :
    (∀ cb, (Objects.trun clock (Objects.noTimers n) ops).fired.count cb =
      (Objects.trun clock (Objects.noTimers n) ops).created.count cb) ↔
    (Objects.trun clock (Objects.noTimers n) ops).overwritten = [] := by
  refine ⟨fun h => ?_, fun h cb => C61_once_partial clock n ops h hdead cb⟩
  have hc := C61_conservation clock n ops
  by_contra hne
  obtain ⟨cb, hcb⟩ := List.exists_mem_of_ne_nil _ hne
  have h1 := hc.count_eq cb
  rw [List.count_append, List.count_append, ← h cb] at h1
  have := List.count_pos_iff.2 hcb
  omega

/-- Timer 1 is move-assigned to while it holds a callback: that one is never invoked. -/
example :
    (Objects.trun (fun k => k) (Objects.noTimers 2)
      [.make 0 ⟨1, 10⟩, .make 1 ⟨2, 20⟩, .moveAssign 1 0, .destroy 0, .destroy 1]).overwritten =
        [⟨2, 20⟩] ∧
    (∀ i < 2, Objects.at? (Objects.trun (fun k => k) (Objects.noTimers 2)
      [.make 0 ⟨1, 10⟩, .make 1 ⟨2, 20⟩, .moveAssign 1 0, .destroy 0, .destroy 1]).timers i = none) := by
  decide

/-! ## C67, C75, C77 -/

/-- `is_detected_exact_v` for every expected type. -/
theorem C67_exact_iff {τ : Type} [DecidableEq τ] (nonesuch expected : τ) (op : List τ → Option τ)
    (args : List τ) :
    Traits.isDetectedExact nonesuch expected op args = true ↔
      op args = some expected ∨ op args = none ∧ expected = nonesuch := by
  unfold Traits.isDetectedExact Traits.detectedT Traits.detector
  cases op args with
  | none => simp
  | some t => simp [eq_comm]

example : Traits.isDetectedExact "nonesuch" "int" exOp ["vector"] = true ∧
    Traits.isDetectedExact "nonesuch" "nonesuch" exOp ["int"] = true ∧
    Traits.isDetectedExact "nonesuch" "int" exOp ["int"] = false := by decide

/-- `is_NAME_invocable_r_v` for every `R`. -/
theorem C75_callable_r_iff {τ : Type} [DecidableEq τ] (nonesuch r : τ) (call : Traits.Calls τ)
    (args : List τ) :
    Traits.isCallableR nonesuch r call args = true ↔
      (∃ n, call args = some (r, n)) ∨ call args = none ∧ r = nonesuch := by
  unfold Traits.isCallableR
  rw [C67_exact_iff]
  unfold Traits.returnT
  match h : call args with
  | none => simp
  | some (r', n) => simp

example : Traits.isCallableR "nonesuch" "nonesuch" exCalls ["long"] = true ∧
    exCalls ["long"] = none := by decide

/-- `has_exact_type_NAME_v` and `has_convertible_type_NAME_v` for every target. -/
theorem C77_iff {τ : Type} [DecidableEq τ] (convertible : τ → τ → Bool) (nonesuch : τ)
    (memberType : τ → Option τ) (t e target : τ) :
    (Traits.hasExactType nonesuch memberType t e = true ↔
      memberType t = some e ∨ memberType t = none ∧ e = nonesuch) ∧
    (Traits.hasConvertibleType convertible nonesuch memberType t target = true ↔
      (∃ u, memberType t = some u ∧ convertible u target = true) ∨
      memberType t = none ∧ convertible nonesuch target = true) := by
  constructor
  · exact C67_exact_iff _ _ _ _
  · unfold Traits.hasConvertibleType Traits.isDetectedConvertible Traits.detectedT Traits.detector
    cases h : memberType t <;> simp [Traits.memberTypeOp, h]

/-- A type without the member `"has"` the exact member type `nonesuch`. -/
example : Traits.hasExactType "nonesuch" (fun t => exOp [t]) "vector" "int" = true ∧
    Traits.hasExactType "nonesuch" (fun t => exOp [t]) "int" "nonesuch" = true := by decide

/-! ## C71 -/

/-- `is_invocable_v` for every type: functions, unqualified pointers to functions without an ellipsis,
unqualified pointers to member functions, and classes whose only call operator is no template. -/
theorem C71_iff {τ : Type} (t : Traits.TypeForm τ) :
    Traits.isInvocable t = true ↔
      (∃ f, t = .function f) ∨
      (∃ ret params n, t = .pointer (some ⟨ret, params, false, ⟨false, false, .none, n⟩⟩) false) ∨
      (∃ f, t = .memberPointer (some f) false) ∨ (∃ f, t = .cls [f] false) := by
  constructor
  · intro h
    unfold Traits.isInvocable at h
    split at h
    · next m =>
      cases m with
      | none => simp at h
      | some f => exact Or.inr (Or.inr (Or.inl ⟨f, rfl⟩))
    · next ret params n => exact Or.inr (Or.inl ⟨ret, params, n, rfl⟩)
    · rcases Bool.or_eq_true_iff.1 h with h | h
      · unfold Traits.isFunction at h
        split at h
        · exact Or.inl ⟨_, rfl⟩
        · cases h
      · unfold Traits.isSimpleFunctor Traits.callOperatorPointer at h
        split at h
        · exact Or.inr (Or.inr (Or.inr ⟨_, rfl⟩))
        · cases h
  · rintro (⟨f, rfl⟩ | ⟨ret, params, n, rfl⟩ | ⟨f, rfl⟩ | ⟨f, rfl⟩) <;> rfl

example : Traits.isInvocable (.cls [exFn] false) = true ∧
    Traits.isInvocable (.cls [exFn, exFn] false) = false ∧
    Traits.isInvocable (.memberPointer (some exFn) true) = false := ⟨rfl, rfl, rfl⟩

/-! ## C76 -/

/-- `has_padding_v` is right about a type exactly if it has no padding at all, or has some that is not
inside a class that is no aggregate. -/
theorem C76_iff {t : Padding.Ty} (h : Padding.Proper t) (hp : Padding.PosAlign t) :
    (∃ b, Padding.hasPadding true t = some b ∧
      (b = false ↔ ∀ i < Padding.byteSize t, Padding.Owned t i)) ↔
    (∀ i < Padding.byteSize t, Padding.Owned t i) ∨
      ∃ i < Padding.byteSize t, ¬ Padding.Visible t i := by
  obtain ⟨b, h1, h2⟩ := C76_visible h
  rw [h1]
  constructor
  · rintro ⟨b', e, hb⟩
    obtain rfl := Option.some.inj e
    by_cases hv : ∀ i < Padding.byteSize t, Padding.Visible t i
    · exact Or.inl (hb.1 (h2.2 hv))
    · right
      by_contra hn
      exact hv fun i hi => by_contra fun hc => hn ⟨i, hi, hc⟩
  · rintro (ho | ⟨i, hi, hv⟩)
    · refine ⟨b, rfl, fun _ => ho, fun _ => h2.2 fun i hi => ?_⟩
      exact Padding.owned_visible t i hp (ho i hi)
    · refine ⟨b, rfl, fun hb => absurd (h2.1 hb i hi) hv, fun ho => ?_⟩
      exact absurd (Padding.owned_visible t i hp (ho i hi)) hv

/-- A class with private members and padding, followed by padding of its own or not. -/
example : Padding.Proper (.cls true 1 [.cls false 1 [tChar, tInt], tChar]) ∧
    Padding.PosAlign (.cls true 1 [.cls false 1 [tChar, tInt], tChar]) ∧
    Padding.hasPadding true (.cls true 1 [.cls false 1 [tChar, tInt], tChar]) = some true ∧
    Padding.hasPadding true (.cls true 1 [.cls false 1 [tChar, tInt], tInt]) = some false := by
  simp [tChar, tInt, Padding.Proper, Padding.ProperAll, Padding.PosAlign, Padding.PosAlignAll,
    Padding.byteSize, Padding.endOf, Padding.alignOf, Padding.alignAll, Padding.roundUp,
    Padding.hasPadding, Padding.sumSize, Padding.sumAll]

end Utils.Props
