import Verif.Proofs.SRScan

/-! `allocate` as a whole. -/

namespace Utils.SR

open Utils Utils.Bits Utils.Spec

variable {p : Params} {s : State} {size align : Nat}

/-- Stepping over busy regions. -/
theorem scanFrom_skip {pre mid post : List Region} {fuel : Nat} (hle : s.blockCount ≤ p.maxBlocks)
    (hb : ∀ r ∈ mid, r.busy = true) (hpost : post ≠ []) (ht : Tiles s (pre ++ mid ++ post)) :
    scanFrom p size align (fuel + mid.length) s (blocks pre)
      = scanFrom p size align fuel s (blocks (pre ++ mid)) := by
  induction mid generalizing pre with
  | nil => simp
  | cons r mid ih =>
    obtain ⟨len, b⟩ := r
    have : b = true := hb ⟨len, b⟩ (by simp)
    subst this
    have ht' : Tiles s (pre ++ ⟨len, true⟩ :: (mid ++ post)) := by simpa using ht
    rw [List.length_cons, ← Nat.add_assoc, scanFrom_busy hle ht', if_neg (by simp [hpost])]
    have := ih (pre := pre ++ [⟨len, true⟩]) (fun r hr => hb r (by simp [hr])) (by simpa using ht)
    rw [blocks_append, blocks_cons, blocks_nil, Nat.add_zero] at this
    rw [this]
    simp

theorem scanFrom_full {pre mid : List Region} {fuel : Nat} (hle : s.blockCount ≤ p.maxBlocks)
    (hb : ∀ r ∈ mid, r.busy = true) (hne : mid ≠ []) (ht : Tiles s (pre ++ mid)) :
    scanFrom p size align (fuel + mid.length) s (blocks pre) = .ok (s, 0) := by
  induction mid generalizing pre with
  | nil => exact absurd rfl hne
  | cons r mid ih =>
    obtain ⟨len, b⟩ := r
    have : b = true := hb ⟨len, b⟩ (by simp)
    subst this
    rw [List.length_cons, ← Nat.add_assoc, scanFrom_busy hle ht]
    split
    · rfl
    · rename_i h
      have := ih (pre := pre ++ [⟨len, true⟩]) (fun r hr => hb r (by simp [hr])) h (by simpa using ht)
      rw [blocks_append, blocks_cons, blocks_nil, Nat.add_zero] at this
      exact this

theorem noneFits_busy {rs : List Region} (hb : ∀ r ∈ rs, r.busy = true) :
    NoneFits p s size align rs := by
  rintro pre len post rfl
  have := hb ⟨len, false⟩ (by simp)
  simp at this

/-- In a list with exactly one free region, that is the one. -/
theorem noneFits_append {pre post : List Region} {len : Nat} (hb : ∀ r ∈ pre, r.busy = true)
    (hb2 : ∀ r ∈ post, r.busy = true)
    (hf : len * p.blockSize < need p s size align (blocks pre)) :
    NoneFits p s size align (pre ++ ⟨len, false⟩ :: post) := by
  rintro pre' len' post' e
  rcases List.append_eq_append_iff.1 e with ⟨c, h1, h2⟩ | ⟨c, h1, h2⟩
  · cases c with
    | nil =>
      simp only [List.append_nil, List.nil_append, List.cons.injEq, Region.mk.injEq] at h1 h2
      obtain ⟨⟨h2, -⟩, -⟩ := h2
      subst h1
      subst h2
      exact hf
    | cons x c =>
      simp only [List.cons_append, List.cons.injEq] at h2
      have := hb2 ⟨len', false⟩ (by rw [h2.2]; simp)
      simp at this
  · cases c with
    | nil =>
      simp only [List.append_nil, List.nil_append, List.cons.injEq, Region.mk.injEq] at h1 h2
      obtain ⟨⟨h2, -⟩, -⟩ := h2
      subst h1
      subst h2
      exact hf
    | cons x c =>
      simp only [List.cons_append, List.cons.injEq] at h2
      have := hb x (by rw [h1]; simp)
      rw [← h2.1] at this
      simp at this

theorem noneFits_cons {rs : List Region}
    (h0 : p.blockSize < need p s size align 0)
    (hrs : ∀ pre len post, rs = pre ++ ⟨len, false⟩ :: post →
      len * p.blockSize < need p s size align (1 + blocks pre)) :
    NoneFits p s size align (⟨1, false⟩ :: rs) := by
  rintro pre' len' post' e
  cases pre' with
  | nil =>
    simp only [List.nil_append, List.cons.injEq, Region.mk.injEq] at e
    rw [← e.1.1, Nat.one_mul]
    exact h0
  | cons x pre' =>
    simp only [List.cons_append, List.cons.injEq] at e
    rw [← e.1]
    exact hrs pre' len' post' e.2

/-- The outcome of a scan that goes right: first fit, or refusal if nothing fits. -/
def GoodScan (p : Params) (s : State) (size align : Nat) (rs : List Region)
    (o : Outcome (State × Nat)) : Prop :=
  (∃ s' ptr pre len post a, o = .ok (s', ptr) ∧ rs = pre ++ ⟨len, false⟩ :: post ∧
    NoneFits p s size align pre ∧
    need p s size align (blocks pre) < len * p.blockSize ∧
    ServedFrom p s s' size align ptr pre len post a) ∨
  (o = .ok (s, 0) ∧ NoneFits p s size align rs)

theorem scan_safe {rs : List Region} {fuel : Nat} (hv : Valid p) (hp : Placed p s)
    (ht : Tiled s rs) (hr : Request size align) (hs : SafeScan p s size align rs)
    (hfuel : rs.length ≤ fuel) : GoodScan p s size align rs (scan p fuel s size align) := by
  have hle := hp.le
  have hsome := hp.some
  have ht' := (tiled_iff.1 ht).1
  have hbl := ht'.blocks_eq
  obtain ⟨f, rfl⟩ := Nat.exists_eq_add_of_le' hfuel
  change GoodScan p s size align rs (scanFrom p size align (f + rs.length) s (blocks []))
  cases hs with
  | full hb =>
    right
    refine ⟨scanFrom_full (pre := []) hle hb ?_ ht', noneFits_busy hb⟩
    rintro rfl
    simp at hbl
    omega
  | @first pre len post hb hf =>
    left
    obtain ⟨s', ptr, a, h1, h2⟩ := scanFrom_fit (fuel := f + post.length) hv hp ht hr hf
    refine ⟨s', ptr, pre, len, post, a, ?_, rfl, noneFits_busy hb, hf, h2⟩
    have := scanFrom_skip (pre := []) (fuel := f + post.length + 1) (size := size) (align := align)
      hle hb (List.cons_ne_nil _ _) ht'
    rw [List.length_append, List.length_cons,
      (by omega : f + (pre.length + (post.length + 1)) = f + post.length + 1 + pre.length), this]
    exact h1
  | @last pre len hb hf =>
    right
    refine ⟨?_, noneFits_append hb (by simp) hf⟩
    have := scanFrom_skip (pre := []) (fuel := f + 1) (size := size) (align := align)
      hle hb (List.cons_ne_nil _ _) ht'
    rw [List.length_append, List.length_cons, List.length_nil,
      (by omega : f + (pre.length + (0 + 1)) = f + 1 + pre.length), this]
    have := scanFrom_reject (fuel := f) hv hp ht' hr hf
    rw [if_pos rfl] at this
    exact this
  | @skipFull rs hb h0 =>
    right
    refine ⟨?_, noneFits_cons h0 (fun pre len post e => by
      have := hb ⟨len, false⟩ (by rw [e]; simp)
      simp at this)⟩
    have h1 := scanFrom_reject (pre := []) (fuel := f + rs.length) hv hp ht' hr
      (by simpa using h0)
    rw [List.length_cons, ← Nat.add_assoc, h1]
    split
    · rfl
    · rename_i hne
      exact scanFrom_full (pre := [⟨1, false⟩]) hle hb hne (by simpa using ht')
  | @skipFirst pre len post hb h0 hf =>
    left
    have e : blocks (⟨1, false⟩ :: pre) = 1 + blocks pre := by simp
    rw [← e] at hf
    obtain ⟨s', ptr, a, h1, h2⟩ := scanFrom_fit (fuel := f + post.length) hv hp ht hr hf
    refine ⟨s', ptr, ⟨1, false⟩ :: pre, len, post, a, ?_, rfl, ?_, hf, h2⟩
    · have h3 := scanFrom_reject (pre := []) (fuel := f + (pre ++ ⟨len, false⟩ :: post).length) hv hp
        ht' hr (by simpa using h0)
      rw [List.cons_append, List.length_cons, ← Nat.add_assoc, h3, if_neg (by simp)]
      have := scanFrom_skip (pre := [⟨1, false⟩]) (fuel := f + post.length + 1) (size := size)
        (align := align) hle hb (List.cons_ne_nil _ _) (by simpa using ht')
      rw [List.length_append, List.length_cons,
        (by omega : f + (pre.length + (post.length + 1)) = f + post.length + 1 + pre.length)]
      exact this.trans h1
    · exact noneFits_cons h0 (fun pre' len post e => by
        have := hb ⟨len, false⟩ (by rw [e]; simp)
        simp at this)
  | @skipLast pre len hb h0 hf =>
    right
    have e : blocks (⟨1, false⟩ :: pre) = 1 + blocks pre := by simp
    refine ⟨?_, noneFits_cons h0 ?_⟩
    · rw [← e] at hf
      have h3 := scanFrom_reject (pre := []) (fuel := f + (pre ++ [Region.mk len false]).length) hv hp
        ht' hr (by simpa using h0)
      rw [List.cons_append, List.length_cons, ← Nat.add_assoc, h3, if_neg (by simp)]
      have := scanFrom_skip (pre := [⟨1, false⟩]) (fuel := f + 1) (size := size)
        (align := align) hle hb (List.cons_ne_nil _ _) (by simpa using ht')
      rw [List.length_append, List.length_cons, List.length_nil,
        (by omega : f + (pre.length + (0 + 1)) = f + 1 + pre.length)]
      refine this.trans ?_
      have := scanFrom_reject (fuel := f) hv hp ht' hr hf
      rw [if_pos rfl] at this
      exact this
    · intro pre' len' post' e'
      rcases List.append_eq_append_iff.1 e' with ⟨c, h1, h2⟩ | ⟨c, h1, h2⟩
      · cases c with
        | nil =>
          simp only [List.append_nil, List.nil_append, List.cons.injEq, Region.mk.injEq] at h1 h2
          obtain ⟨⟨h2, -⟩, -⟩ := h2
          subst h1
          subst h2
          exact hf
        | cons x c => simp at h2
      · cases c with
        | nil =>
          simp only [List.append_nil, List.nil_append, List.cons.injEq, Region.mk.injEq] at h1 h2
          obtain ⟨⟨h2, -⟩, -⟩ := h2
          subst h1
          subst h2
          exact hf
        | cons x c =>
          simp only [List.cons_append, List.cons.injEq] at h2
          have := hb x (by rw [h1]; simp)
          rw [← h2.1] at this
          simp at this

/-! ## The alignment gate -/

/-- `allocateLocal` is the scan behind a test of the alignment; `2^m` is the largest power of two
that does not exceed (address alignment + area size - 1). -/
theorem allocateLocal_eq (hv : Valid p) (hp : Placed p s) (hsm : Small p s) :
    ∃ c m, TrailingZeros s.data c ∧ m < 31 ∧
      2 ^ m ≤ 2 ^ c + s.blockCount * p.blockSize - 1 ∧
      2 ^ c + s.blockCount * p.blockSize - 1 < 2 ^ (m + 1) ∧
      ∀ fuel size align, allocateLocal p fuel s size align =
        if align ≤ 2 ^ m then scan p fuel s size align else .ok (s, 0) := by
  have hnw := hp.noWrap
  have hd := hp.data
  have hle := hp.le
  have hB := hv.pos
  have hn : s.blockCount * p.blockSize ≤ p.maxBlocks * p.blockSize := Nat.mul_le_mul_right _ hle
  have hn0 : 0 < s.blockCount * p.blockSize := Nat.mul_pos hp.some hB
  have hdt : (BitVec.ofNat 64 s.data).toNat = s.data := by
    rw [BitVec.toNat_ofNat, Nat.mod_eq_of_lt (by omega)]
  have hd0 : BitVec.ofNat 64 s.data ≠ 0#64 := by
    intro h
    have := congrArg BitVec.toNat h
    rw [hdt] at this
    simp at this
    omega
  obtain ⟨c, hc, htz⟩ := calcCtz_spec .builtin p.debug hd0
  rw [hdt] at htz
  have hsmall := hsm c htz.1
  have hc31 : c < 31 := by
    apply Nat.lt_of_not_le
    intro h
    have : 2 ^ 31 ≤ 2 ^ c := Nat.pow_le_pow_right (by decide) h
    omega
  have hcp := Nat.two_pow_pos c
  have h1 : (BitVec.ofInt 64 (2 ^ c)).toNat = 2 ^ c := by
    have : ((2 : Int) ^ c) = ((2 ^ c : Nat) : Int) := by norm_cast
    rw [this, BitVec.ofInt_natCast, BitVec.toNat_ofNat, Nat.mod_eq_of_lt (by omega)]
  have h2 : (BitVec.ofNat 64 (s.blockCount * p.blockSize)).toNat = s.blockCount * p.blockSize := by
    rw [BitVec.toNat_ofNat, Nat.mod_eq_of_lt (by omega)]
  obtain ⟨m, hm, heq, hlo, hhi⟩ := maxAlignmentInsideBlock_eq
    (al := BitVec.ofInt 64 (2 ^ c)) (size := BitVec.ofNat 64 (s.blockCount * p.blockSize))
    p.debug h1 (by rw [h2]; omega) (by rw [h1, h2]; exact hsmall)
  rw [h1, h2] at hlo hhi
  refine ⟨c, m, htz, hm, hlo, hhi, ?_⟩
  intro fuel size align
  unfold allocateLocal ctz64
  rw [if_pos hd, hc, Outcome.ok_bind, shl_one_int hc31, Outcome.ok_bind]
  simp only [heq, Outcome.ok_bind, Outcome.pure_eq]
  have : 2 ^ m < 2 ^ 64 := Nat.pow_lt_pow_right (by decide) (by omega)
  rw [BitVec.toNat_ofNat, Nat.mod_eq_of_lt this]

/-- The gate lets every alignment through that the area itself has or that is at most its size. -/
theorem gate_passes {c m : Nat} (hn : 0 < s.blockCount * p.blockSize)
    (htz : TrailingZeros s.data c)
    (hhi : 2 ^ c + s.blockCount * p.blockSize - 1 < 2 ^ (m + 1))
    (ha : ∃ k, align = 2 ^ k) (hal : GateOpen p s align) : align ≤ 2 ^ m := by
  have hle : align ≤ 2 ^ c + s.blockCount * p.blockSize - 1 := by
    have := Nat.two_pow_pos c
    rcases hal with h | h
    · have := (greatest_of_trailingZeros htz).2.2 align ha h
      omega
    · omega
  obtain ⟨k, rfl⟩ := ha
  have : k < m + 1 := (Nat.pow_lt_pow_iff_right (by decide)).1 (Nat.lt_of_le_of_lt hle hhi)
  exact Nat.pow_le_pow_right (by decide) (by omega)

theorem allocateLocal_scan (hv : Valid p) (hp : Placed p s) (hsm : Small p s)
    (ha : ∃ k, align = 2 ^ k) (hal : GateOpen p s align) (fuel : Nat) :
    allocateLocal p fuel s size align = scan p fuel s size align := by
  obtain ⟨c, m, htz, -, -, hhi, h⟩ := allocateLocal_eq hv hp hsm
  rw [h, if_pos]
  exact gate_passes (Nat.mul_pos hp.some hv.pos) htz hhi ha hal

/-- `align ≤ BlockSize` divides the address of the area. -/
theorem align_dvd_data (hv : Valid p) (hp : Placed p s) (ha : ∃ k, align = 2 ^ k)
    (hle : align ≤ p.blockSize) : align ∣ s.data := by
  obtain ⟨k, rfl⟩ := ha
  obtain ⟨b, hb⟩ := hv.pow2
  rw [hb] at hle
  have : k ≤ b := (Nat.pow_le_pow_iff_right (by decide)).1 hle
  exact Nat.dvd_trans (Nat.pow_dvd_pow 2 this) (hb ▸ hp.aligned)

end Utils.SR
