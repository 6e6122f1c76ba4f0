import Verif.Proofs.SRNoUB

/-!
# Areas too large for the `int` shifts in `allocate`
-/

namespace Utils.SR

open Utils Utils.Bits Utils.Spec

variable {p : Params} {s : State} {size align : Nat} {σ : Type} {up : Option (Upstream σ)}

theorem shl_one_large {m : Nat} (hm : 32 ≤ m) : CVal.shl ⟨.int, 1⟩ m = .ub := by
  unfold CVal.shl
  exact if_pos (by show 32 ≤ _; omega)

/-- Up to `2^32` there is a result, right or wrong. -/
theorem maxAlignment_defined {al size : BitVec 64} (debug : Bool) {a : Nat}
    (ha : al.toNat = 2 ^ a) (hs : size.toNat ≠ 0) (h : al.toNat + size.toNat ≤ 2 ^ 32) :
    ∃ r, maxAlignmentInsideBlock debug al size = .ok r := by
  have ha64 : a < 64 := by
    apply Nat.lt_of_not_le
    intro hle
    have : 2 ^ 64 ≤ 2 ^ a := Nat.pow_le_pow_right (by decide) hle
    have := al.isLt
    omega
  have hp := Nat.two_pow_pos a
  have hv := value_toNat (al := al) hs (by omega)
  obtain ⟨hb1, hb2⟩ := hv ▸ bitsCount_bitLength (al + size - 1#64)
  have hle := hb2 32 (by omega)
  have hpos : bitsCount (al + size - 1#64) ≠ 0 := by
    intro h0
    rw [h0] at hb1
    omega
  obtain ⟨m, hm⟩ : ∃ m, bitsCount (al + size - 1#64) = m + 1 := ⟨_, (Nat.succ_pred hpos).symm⟩
  have hconv : CTy.conv .ulong (((m + 1 : Nat) : Int) - 1) = (m : Int) := by
    rw [(by omega : ((m + 1 : Nat) : Int) - 1 = m)]
    apply CTy.conv_eq_self
    simp only [CTy.InRange, CTy.minVal, CTy.maxVal, CTy.signed, CTy.width, Bool.false_eq_true,
      if_false]
    omega
  unfold maxAlignmentInsideBlock
  rw [isPowerOf2_of ha64 ha, size_gt_zero hs, cassert_true, Outcome.ok_bind, Outcome.ok_bind]
  simp only [hm, hconv, Int.toNat_natCast]
  rcases Nat.lt_or_ge m 31 with h31 | h31
  · exact ⟨_, by rw [shl_one_int h31]; rfl⟩
  · obtain rfl : m = 31 := by omega
    exact ⟨_, rfl⟩

/-- Beyond it there is none. -/
theorem maxAlignment_undefined (debug : Bool) {al size : BitVec 64} {k : Nat} (hk : k < 64)
    (hak : al.toNat = 2 ^ k) (hs : size.toNat ≠ 0) (h : 2 ^ 32 < al.toNat + size.toNat)
    (h2 : al.toNat + size.toNat ≤ 2 ^ 64) :
    maxAlignmentInsideBlock debug al size = .ub := by
  have hv := value_toNat (al := al) hs h2
  have hb := bitsCount_bitLength (al + size - 1#64)
  rw [hv] at hb
  have hge : 33 ≤ bitsCount (al + size - 1#64) := by
    apply Nat.le_of_not_lt
    intro hlt
    have : 2 ^ bitsCount (al + size - 1#64) ≤ 2 ^ 32 := Nat.pow_le_pow_right (by decide) (by omega)
    have := hb.1
    omega
  have hle := bitsCount_le (al + size - 1#64)
  unfold maxAlignmentInsideBlock
  rw [isPowerOf2_of hk hak, size_gt_zero hs, cassert_true, Outcome.ok_bind, Outcome.ok_bind]
  have hconv : CTy.conv .ulong ((bitsCount (al + size - 1#64) : Int) - 1)
      = (bitsCount (al + size - 1#64) : Int) - 1 := by
    apply CTy.conv_eq_self
    simp only [CTy.InRange, CTy.minVal, CTy.maxVal, CTy.signed, CTy.width, Bool.false_eq_true,
      if_false]
    omega
  simp only [hconv]
  rw [shl_one_large (by omega)]
  rfl

/-- The buffer part of `allocate`, by the alignment and size of the area, on any bookkeeping. -/
theorem allocateLocal_cases (hv : Valid p) (hp : Placed p s) {c : Nat} (htz : TrailingZeros s.data c)
    (fuel size align : Nat) :
    (32 ≤ c → allocateLocal p fuel s size align = .ub) ∧
    (c < 31 → 2 ^ 32 < 2 ^ c + s.blockCount * p.blockSize →
      allocateLocal p fuel s size align = .ub) ∧
    (c = 31 → p.debug = true → allocateLocal p fuel s size align = .assertFailed) ∧
    (c < 31 → 2 ^ c + s.blockCount * p.blockSize ≤ 2 ^ 32 →
      allocateLocal p fuel s size align = scan p fuel s size align ∨
      allocateLocal p fuel s size align = .ok (s, 0)) := by
  have hnw := hp.noWrap
  have hd := hp.data
  have hle := hp.le
  have hB := hv.pos
  have hn : s.blockCount * p.blockSize ≤ p.maxBlocks * p.blockSize := Nat.mul_le_mul_right _ hle
  have hn0 : 0 < s.blockCount * p.blockSize := Nat.mul_pos hp.some hB
  have hdt : (BitVec.ofNat 64 s.data).toNat = s.data := by
    rw [BitVec.toNat_ofNat, Nat.mod_eq_of_lt (by omega)]
  have hd0 : BitVec.ofNat 64 s.data ≠ 0#64 := by
    intro h
    have := congrArg BitVec.toNat h
    rw [hdt] at this
    simp at this
    omega
  obtain ⟨c', hc, htz'⟩ := calcCtz_spec .builtin p.debug hd0
  rw [hdt] at htz'
  obtain rfl : c' = c := trailingZeros_unique htz' htz
  have h2 : (BitVec.ofNat 64 (s.blockCount * p.blockSize)).toNat = s.blockCount * p.blockSize := by
    rw [BitVec.toNat_ofNat, Nat.mod_eq_of_lt (by omega)]
  have hcd : 2 ^ c' ≤ s.data := Nat.le_of_dvd (by omega) htz.1
  unfold allocateLocal ctz64
  rw [if_pos hd, hc, Outcome.ok_bind]
  have h1 : (BitVec.ofInt 64 (2 ^ c')).toNat = 2 ^ c' := by
    have : ((2 : Int) ^ c') = ((2 ^ c' : Nat) : Int) := by norm_cast
    rw [this, BitVec.ofInt_natCast, BitVec.toNat_ofNat, Nat.mod_eq_of_lt (by omega)]
  refine ⟨fun h => ?_, fun h hl => ?_, fun h hdb => ?_, fun h hl => ?_⟩
  · rw [shl_one_large h]; rfl
  · rw [shl_one_int h, Outcome.ok_bind]
    simp only
    rw [maxAlignment_undefined p.debug (k := c') (by omega) h1 (by omega) (by omega) (by omega)]
    rfl
  · subst h
    rw [hdb]
    rfl
  · rw [shl_one_int h, Outcome.ok_bind]
    simp only
    obtain ⟨r, hr⟩ := maxAlignment_defined p.debug (al := BitVec.ofInt 64 (2 ^ c'))
      (size := BitVec.ofNat 64 (s.blockCount * p.blockSize)) h1 (by omega) (by omega)
    rw [hr, Outcome.ok_bind]
    by_cases hg : align ≤ r.toNat
    · rw [if_pos hg]; exact Or.inl rfl
    · rw [if_neg hg]; exact Or.inr rfl

/-- The areas for which `allocate` is defined in debug builds. -/
def Shiftable (p : Params) (s : State) (c : Nat) : Prop :=
  c = 31 ∨ c < 31 ∧ 2 ^ c + s.blockCount * p.blockSize ≤ 2 ^ 32

theorem ensures_allocate_shiftable (hv : Valid p) (hd : p.debug = true) (hp : Placed p s) {c : Nat}
    (htz : TrailingZeros s.data c) (hs : Shiftable p s c) (fuel : Nat) (u : σ) (size align : Nat) :
    Ensures (allocate p up fuel s u size align) fun r => Frame s r.2.1 := by
  unfold allocate
  split
  · exact .pure (.refl _)
  · refine (Ensures.assert hd _).bind fun _ _ => ?_
    obtain ⟨-, -, h3, h4⟩ := allocateLocal_cases hv hp htz fuel size align
    refine Ensures.bind (P := fun r => Frame s r.1) ?_ fun r hr => ?_
    · rcases hs with h | ⟨h, h'⟩
      · rw [h3 h hd]
        exact ⟨nofun, nofun⟩
      · rcases h4 h h' with e | e
        · rw [e]
          exact ensures_scan hd hp.le fuel
        · rw [e]
          exact .ok (.refl _)
    · exact (ensures_isAligned hd _ _).bind fun _ _ => (Ensures.assert hd _).bind fun _ _ => .pure hr

theorem run_no_ub_shiftable (hv : Valid p) (hd : p.debug = true) {fuel c : Nat} (ops : List Op) :
    ∀ (w : World σ), Placed p w.st → TrailingZeros w.st.data c → Shiftable p w.st c →
      Ensures (run p up fuel w ops) fun w' => Frame w.st w'.st := by
  induction ops with
  | nil => intro w _ _ _; exact .ok (.refl _)
  | cons op ops ih =>
    intro w hp htz hsm
    unfold run
    have hstep : Ensures (step p up fuel w op) fun w' => Frame w.st w'.st := by
      cases op with
      | alloc size align =>
        exact (ensures_allocate_shiftable hv hd hp htz hsm _ _ _ _).bind fun r hr => .pure hr
      | free i =>
        unfold step doFree
        simp only
        split
        · exact .pure (.refl _)
        · exact (ensures_deallocate hd hp.le _ _).bind fun r hr => .pure hr
    refine hstep.bind fun w' h => ?_
    refine (ih w' (hp.congr h.data h.count) (by rw [h.data]; exact htz) ?_).mono
      fun w2 h2 => h.trans h2
    unfold Shiftable at hsm ⊢
    rw [h.count]
    exact hsm

/-- Beyond: every request is undefined, in both kinds of build. -/
theorem allocate_undefined (hv : Valid p) (hp : Placed p s) {c : Nat}
    (htz : TrailingZeros s.data c)
    (hl : 32 ≤ c ∨ c ≠ 31 ∧ 2 ^ 32 < 2 ^ c + s.blockCount * p.blockSize)
    (hr : Request size align) (fuel : Nat) (u : σ) :
    allocate p up fuel s u size align = .ub := by
  obtain ⟨h1, h2, -, -⟩ := allocateLocal_cases hv hp htz fuel size align
  have hu : allocateLocal p fuel s size align = .ub := by
    rcases Nat.lt_or_ge c 32 with hc | hc
    · obtain ⟨h3, h4⟩ := hl.resolve_left (by omega)
      exact h2 (by omega) h4
    · exact h1 hc
  have hpos := hr.pos
  have hno := hr.noOverflow
  obtain ⟨k, rfl⟩ := hr.pow2
  have hk : 2 ^ k < 2 ^ 64 := by omega
  have hk64 : k < 64 := (Nat.pow_lt_pow_iff_right (by decide)).1 hk
  unfold allocate
  rw [if_neg (by omega), isPowerOf2_of hk64 (by rw [BitVec.toNat_ofNat, Nat.mod_eq_of_lt hk]),
    cassert_true, Outcome.ok_bind, hu]
  rfl

end Utils.SR
