import Verif.Proofs.BitsMore

/-!
# Properties C01-C17: bit and integer helpers

`debug` is universally quantified: the statements hold with and without `NDEBUG`.
-/

namespace Utils.Props

open Utils Utils.Bits Utils.Spec

/-! ## C01 -/

/-- `is_power_of_2(v)` is true exactly for the powers of two (any word width). -/
theorem C01_is_power_of_2 {w : Nat} (v : BitVec w) : isPowerOf2 v = true ↔ IsPow2 v.toNat := by
  rw [isPowerOf2_iff]
  constructor
  · rintro ⟨k, _, h⟩; exact ⟨k, h⟩
  · rintro ⟨k, h⟩
    refine ⟨k, ?_, h⟩
    apply Nat.lt_of_not_le
    intro hle
    have : 2 ^ w ≤ 2 ^ k := Nat.pow_le_pow_right (by decide) hle
    have := v.isLt
    omega

example : isPowerOf2 (2 ^ 63 : BitVec 64) = true ∧ isPowerOf2 (3 : BitVec 64) = false ∧
    isPowerOf2 (0 : BitVec 64) = false := by
  decide +kernel

theorem pow2_lt {w : Nat} {a : BitVec w} (h : IsPow2 a.toNat) : ∃ k, k < w ∧ a.toNat = 2 ^ k :=
  (isPowerOf2_iff a).1 ((C01_is_power_of_2 a).2 h)

/-! ## C02 -/

/-- `next_multiple_of(m, v)` for a power of two `m`: the least multiple of `m` not below `v` if it is
representable, and 0 exactly when it is not. -/
theorem C02_next_multiple_of {w : Nat} (debug : Bool) (m v : BitVec w) (hm : IsPow2 m.toNat) :
    ∃ r L, nextMultipleOf debug m v = .ok r ∧ LeastMultiple m.toNat v.toNat L ∧
      (L < 2 ^ w → r.toNat = L) ∧ (2 ^ w ≤ L → r.toNat = 0) := by
  obtain ⟨k, hk, hmk⟩ := pow2_lt hm
  have hkw : 2 ^ k < 2 ^ w := Nat.pow_lt_pow_right (by decide) hk
  refine ⟨_, (v.toNat + (2 ^ k - 1)) / 2 ^ k * 2 ^ k,
    by rw [nextMultipleOf, isPowerOf2_of hk hmk, cassert_true, Outcome.ok_bind]; rfl, ?_, ?_, ?_⟩
  · rw [hmk]; exact leastMultiple_round (Nat.two_pow_pos k)
  · intro h
    rw [nextMultipleOf_toNat hk hmk, Nat.mod_eq_of_lt h]
  · intro h
    rw [nextMultipleOf_toNat hk hmk]
    have hl := Nat.div_mul_le_self (v.toNat + (2 ^ k - 1)) (2 ^ k)
    have hv := v.isLt
    have hd : 2 ^ k ∣ 2 ^ w := Nat.pow_dvd_pow 2 (Nat.le_of_lt hk)
    have hd2 : 2 ^ k ∣ (v.toNat + (2 ^ k - 1)) / 2 ^ k * 2 ^ k := ⟨_, Nat.mul_comm _ _⟩
    have hd3 := Nat.dvd_sub hd2 hd
    have hz : (v.toNat + (2 ^ k - 1)) / 2 ^ k * 2 ^ k - 2 ^ w = 0 := by
      apply Nat.eq_zero_of_dvd_of_lt hd3
      omega
    rw [(by omega : (v.toNat + (2 ^ k - 1)) / 2 ^ k * 2 ^ k = 2 ^ w), Nat.mod_self]

/-- In a debug build any other multiple is rejected by the assertion. -/
theorem C02_next_multiple_of_assert {w : Nat} (m v : BitVec w) (hm : ¬ IsPow2 m.toNat) :
    nextMultipleOf true m v = .assertFailed := by
  rw [← C01_is_power_of_2, Bool.not_eq_true] at hm
  rw [nextMultipleOf, hm]
  rfl

example : IsPow2 (16 : BitVec 64).toNat := ⟨4, by decide⟩
example : nextMultipleOf true (16 : BitVec 64) 17 = .ok 32 := by decide
example : nextMultipleOf true (16 : BitVec 64) (BitVec.ofNat 64 (2 ^ 64 - 1)) = .ok 0 := by decide

/-! ## C03 -/

/-- `next_multiple_of<2^k, U>(v)` for every unsigned type `U` that can hold `2^k`. -/
theorem C03_next_multiple_of_typed (t : CTy) (ht : t.isUInt = true) (k : Nat) (hk : k < t.width)
    (v : Int) (hv : t.InRange v) :
    ∃ (r : Int) (L : Nat), nextMultipleOfT t (2 ^ k) v = .ok r ∧
      LeastMultiple (2 ^ k) v.toNat L ∧
      (L < 2 ^ t.width → r = L) ∧ (2 ^ t.width ≤ L → r = 0) := by
  have hv' := (CTy.inRange_unsigned ht).1 hv
  refine ⟨_, _, nextMultipleOfT_eq ht hk hv, leastMultiple_round (Nat.two_pow_pos k), ?_, ?_⟩
  · intro h; rw [Nat.mod_eq_of_lt h]
  · intro h
    have hl := Nat.div_mul_le_self (v.toNat + (2 ^ k - 1)) (2 ^ k)
    have hd : 2 ^ k ∣ 2 ^ t.width := Nat.pow_dvd_pow 2 (Nat.le_of_lt hk)
    have hd2 : 2 ^ k ∣ (v.toNat + (2 ^ k - 1)) / 2 ^ k * 2 ^ k := ⟨_, Nat.mul_comm _ _⟩
    have hd3 := Nat.dvd_sub hd2 hd
    have hc : ((2 ^ t.width : Nat) : Int) = 2 ^ t.width := by norm_num
    have hp := Nat.two_pow_pos k
    have hz : (v.toNat + (2 ^ k - 1)) / 2 ^ k * 2 ^ k - 2 ^ t.width = 0 := by
      apply Nat.eq_zero_of_dvd_of_lt hd3
      omega
    rw [(by omega : (v.toNat + (2 ^ k - 1)) / 2 ^ k * 2 ^ k = 2 ^ t.width), Nat.mod_self]
    rfl

/-- If `2^k` does not fit `U` the result is 0, whatever the value. -/
theorem C03_next_multiple_of_too_big (t : CTy) (ht : t.isUInt = true) (k : Nat) (hk : t.width ≤ k)
    (v : Int) (hv : t.InRange v) : nextMultipleOfT t (2 ^ k) v = .ok 0 :=
  nextMultipleOfT_big ht hk hv

example : nextMultipleOfT .uchar (2 ^ 4) 17 = .ok 32 ∧ nextMultipleOfT .ushort (2 ^ 15) 3 = .ok 32768
    ∧ nextMultipleOfT .uchar (2 ^ 4) 250 = .ok 0 ∧ nextMultipleOfT .uchar (2 ^ 8) 7 = .ok 0 := by
  decide

/-! ## C04 -/

/-- `skip_to_align(p, A)` is the least distance to an address aligned to `A`; it is below `A`. -/
theorem C04_skip_to_align {w : Nat} (debug : Bool) (p a : BitVec w) (ha : IsPow2 a.toNat) :
    ∃ r, skipToAlign debug p a = .ok r ∧ r.toNat < a.toNat ∧ a.toNat ∣ (p + r).toNat ∧
      ∀ d, a.toNat ∣ p.toNat + d → r.toNat ≤ d := by
  obtain ⟨k, hk, hak⟩ := pow2_lt ha
  have hp := Nat.two_pow_pos k
  have hkw : 2 ^ k < 2 ^ w := Nat.pow_lt_pow_right (by decide) hk
  have hs := skipNat_lt (p := p.toNat) hp
  have hr : (BitVec.ofNat w (skipNat p.toNat (2 ^ k))).toNat = skipNat p.toNat (2 ^ k) := by
    rw [BitVec.toNat_ofNat, Nat.mod_eq_of_lt (by omega)]
  refine ⟨_, skipToAlign_eq debug hk hak, ?_, ?_, ?_⟩
  · rw [hr, hak]; exact hs
  · rw [BitVec.toNat_add, hr, hak]
    exact (Nat.dvd_mod_iff (Nat.pow_dvd_pow 2 (Nat.le_of_lt hk))).2 (skipNat_dvd hp)
  · intro d hd
    rw [hr]
    rw [hak] at hd
    exact skipNat_least hp hd

example : skipToAlign true (1003 : BitVec 64) 16 = .ok 5 := by decide
example : skipToAlign true (BitVec.ofNat 64 (2 ^ 64 - 3)) 16 = .ok 3 := by decide

/-- Other alignments are rejected in debug builds. -/
theorem C04_skip_to_align_assert {w : Nat} (p a : BitVec w) (ha : ¬ IsPow2 a.toNat) :
    skipToAlign true p a = .assertFailed := by
  rw [← C01_is_power_of_2, Bool.not_eq_true] at ha
  rw [skipToAlign, ha]
  rfl

example : ¬ IsPow2 (24 : BitVec 64).toNat := by
  rw [← C01_is_power_of_2]; decide

/-! ## C05 -/

/-- `is_aligned(p, A)` decides whether `A` divides the address. -/
theorem C05_is_aligned {w : Nat} (debug : Bool) (p a : BitVec w) (ha : IsPow2 a.toNat) :
    isAligned debug p a = .ok (decide (a.toNat ∣ p.toNat)) := by
  obtain ⟨k, hk, hak⟩ := pow2_lt ha
  rw [isAligned_eq debug hk hak, hak]

example : isAligned true (1008 : BitVec 64) 16 = .ok true := by decide
example : isAligned true (1004 : BitVec 64) 16 = .ok false := by decide

/-- Other alignments are rejected in debug builds. -/
theorem C05_is_aligned_assert {w : Nat} (p a : BitVec w) (ha : ¬ IsPow2 a.toNat) :
    isAligned true p a = .assertFailed := by
  rw [← C01_is_power_of_2, Bool.not_eq_true] at ha
  rw [isAligned, ha]
  rfl

/-! ## C06 -/

/-- `greatest_divisor_that_is_power_of_2(v)`, `v ≠ 0`, for every unsigned type. -/
theorem C06_greatest_divisor (t : CTy) (ht : t.isUInt = true) (v : Int) (hv : t.InRange v)
    (h0 : v ≠ 0) :
    ∃ d : Nat, greatestDivisorPow2 t v = .ok d ∧ GreatestPow2Divisor v.toNat d := by
  have hv' := (CTy.inRange_unsigned ht).1 hv
  obtain ⟨k, m, hkm⟩ := exists_pow_mul_odd v.toNat (by omega)
  refine ⟨2 ^ k, ?_, greatestPow2Divisor_of hkm⟩
  rw [greatestDivisorPow2_eq ht hv (k := k) (m := m) (by omega)]
  norm_num

/-- For 0 the result is the most significant bit of the type. -/
theorem C06_greatest_divisor_zero (t : CTy) (ht : t.isUInt = true) :
    greatestDivisorPow2 t 0 = .ok (2 ^ (t.width - 1)) := greatestDivisorPow2_zero ht

/-- `bool` is unsigned for `std::is_unsigned`: there the result is `true` for both values. -/
theorem C06_greatest_divisor_bool (v : Int) (hv : CTy.InRange .bool v) :
    greatestDivisorPow2 .bool v = .ok 1 := by
  have : v = 0 ∨ v = 1 := by
    simp [CTy.InRange, CTy.minVal, CTy.maxVal, CTy.signed, CTy.width] at hv
    omega
  rcases this with rfl | rfl <;> decide

example : greatestDivisorPow2 .uchar 96 = .ok 32 ∧ greatestDivisorPow2 .ullong 12 = .ok 4 := by
  decide

/-! ## C07 -/

/-- `bits_count(v)` is the number of bits needed to write `v`. -/
theorem C07_bits_count (v : BitVec 64) : BitLength v.toNat (bitsCount v) := bitsCount_bitLength v

/-- So is `nbits_occupied(v)`, for every unsigned type. -/
theorem C07_nbits_occupied {w : Nat} (v : BitVec w) : BitLength v.toNat (nbitsOccupied v) :=
  nbitsOccupied_bitLength v

/-- The two functions agree. -/
theorem C07_agree (v : BitVec 64) : bitsCount v = nbitsOccupied v :=
  bitLength_unique (C07_bits_count v) (C07_nbits_occupied v)

/-! ## C08 -/

/-- `kNumBitsTable` has one entry per byte value, and entry `i` is the number of one bits of `i`. -/
theorem C08_num_bits_table :
    numBitsTable.length = 256 ∧
    ∀ i, i < 256 → numBitsTable[i]? = some ((List.range 8).countP fun j => i.testBit j) := by
  constructor
  · simp [numBitsTable]
  · intro i hi
    have key : ∀ i : Fin 256, getNumBits (BitVec.ofNat 8 i.val)
        = (List.range 8).countP fun j => i.val.testBit j := by decide +kernel
    rw [numBitsTable, List.getElem?_map, List.getElem?_range hi, Option.map_some, key ⟨i, hi⟩]

/-! ## C09 -/

/-- `max_alignment_inside_block(A, S)`: the greatest alignment guaranteed to occur among the
addresses of every block of `S` bytes that starts at a multiple of `A`. -/
theorem C09_max_alignment_inside_block (debug : Bool) (al size : BitVec 64)
    (ha : IsPow2 al.toNat) (hs : size.toNat ≠ 0) (h : al.toNat + size.toNat ≤ 2 ^ 31) :
    ∃ r, maxAlignmentInsideBlock debug al size = .ok r ∧ IsPow2 r.toNat ∧
      (∀ start, al.toNat ∣ start → BlockContainsAligned start size.toNat r.toNat) ∧
      (∀ e, r.toNat < 2 ^ e → ∃ start, al.toNat ∣ start ∧
        ¬ BlockContainsAligned start size.toNat (2 ^ e)) := by
  obtain ⟨a, hak⟩ := ha
  obtain ⟨m, hm, heq, hlo, hhi⟩ := maxAlignmentInsideBlock_eq debug hak hs h
  have hm64 : 2 ^ m < 2 ^ 64 := Nat.pow_lt_pow_right (by decide) (by omega)
  have hr : (BitVec.ofNat 64 (2 ^ m)).toNat = 2 ^ m := by
    rw [BitVec.toNat_ofNat, Nat.mod_eq_of_lt hm64]
  have hp := Nat.two_pow_pos a
  have ham : a ≤ m := by
    apply Nat.le_of_not_lt
    intro hlt
    have : 2 ^ (m + 1) ≤ 2 ^ a := Nat.pow_le_pow_right (by decide) hlt
    omega
  refine ⟨_, heq, ⟨m, hr⟩, ?_, ?_⟩
  · intro start hst
    rw [hr]
    have hpm := Nat.two_pow_pos m
    have hd := skipNat_dvd (p := start) hpm
    have hl := skipNat_lt (p := start) hpm
    -- the distance is itself a multiple of `A`, hence at most `2^m - A`
    have hda : 2 ^ a ∣ skipNat start (2 ^ m) := by
      rw [hak] at hst
      exact (Nat.dvd_add_right hst).1 (Nat.dvd_trans (Nat.pow_dvd_pow 2 ham) hd)
    have hda2 : 2 ^ a ∣ 2 ^ m - skipNat start (2 ^ m) :=
      Nat.dvd_sub (Nat.pow_dvd_pow 2 ham) hda
    have hle := Nat.le_of_dvd (by omega) hda2
    exact ⟨start + skipNat start (2 ^ m), by omega, by omega, hd⟩
  · intro e he
    rw [hr] at he
    have hme : m + 1 ≤ e := (Nat.pow_lt_pow_iff_right (by decide)).1 he
    refine ⟨al.toNat, Nat.dvd_refl _, ?_⟩
    rintro ⟨x, hx1, hx2, hx3⟩
    have : 2 ^ (m + 1) ≤ 2 ^ e := Nat.pow_le_pow_right (by decide) hme
    have := Nat.le_of_dvd (by omega) hx3
    omega

example : maxAlignmentInsideBlock true 8 64 = .ok 64 := by decide +kernel

/-- The precondition matters: the shift is an `int` shift.  From `A + S - 1 = 2^31` on the value is
wrong, from `2^32` on the behaviour is undefined. -/
theorem C09_int_shift_limits :
    maxAlignmentInsideBlock true 1 (BitVec.ofNat 64 (2 ^ 31))
      = .ok (BitVec.ofNat 64 (2 ^ 64 - 2 ^ 31)) ∧
    maxAlignmentInsideBlock true 1 (BitVec.ofNat 64 (2 ^ 32)) = .ub := by
  constructor <;> decide +kernel

/-- Beyond `2^32` the call is undefined for every alignment and size (as long as the sum is
representable). -/
theorem C09_undefined_for_large_blocks (debug : Bool) (al size : BitVec 64)
    (ha : IsPow2 al.toNat) (hs : size.toNat ≠ 0) (h : 2 ^ 32 < al.toNat + size.toNat)
    (h2 : al.toNat + size.toNat ≤ 2 ^ 64) :
    maxAlignmentInsideBlock debug al size = .ub := by
  obtain ⟨k, hk, hak⟩ := pow2_lt ha
  have hv := value_toNat (al := al) hs h2
  have hb := bitsCount_bitLength (al + size - 1#64)
  rw [hv] at hb
  have hge : 33 ≤ bitsCount (al + size - 1#64) := by
    apply Nat.le_of_not_lt
    intro hlt
    have : 2 ^ bitsCount (al + size - 1#64) ≤ 2 ^ 32 := Nat.pow_le_pow_right (by decide) (by omega)
    have := hb.1
    omega
  have hle := bitsCount_le (al + size - 1#64)
  unfold maxAlignmentInsideBlock
  rw [isPowerOf2_of hk hak, size_gt_zero hs, cassert_true, Outcome.ok_bind, Outcome.ok_bind]
  have hconv : CTy.conv .ulong ((bitsCount (al + size - 1#64) : Int) - 1)
      = (bitsCount (al + size - 1#64) : Int) - 1 := by
    apply CTy.conv_eq_self
    simp only [CTy.InRange, CTy.minVal, CTy.maxVal, CTy.signed, CTy.width, Bool.false_eq_true,
      if_false]
    omega
  simp only [hconv]
  have : CVal.shl ⟨.int, 1⟩ ((bitsCount (al + size - 1#64) : Int) - 1).toNat = .ub := by
    unfold CVal.shl
    exact if_pos (by show 32 ≤ _; omega)
  rw [this]
  rfl

example : IsPow2 (8 : BitVec 64).toNat ∧ (2 : Nat) ^ 32 < (8 : BitVec 64).toNat
    + (BitVec.ofNat 64 (2 ^ 33)).toNat := ⟨⟨3, by decide⟩, by decide⟩

/-- In between, for every alignment and size, the `int` shift gives `INT_MIN`, which becomes a number
far too large. -/
theorem C09_wrong_for_medium_blocks (debug : Bool) (al size : BitVec 64)
    (ha : IsPow2 al.toNat) (hs : size.toNat ≠ 0) (h : 2 ^ 31 < al.toNat + size.toNat)
    (h2 : al.toNat + size.toNat ≤ 2 ^ 32) :
    maxAlignmentInsideBlock debug al size = .ok (BitVec.ofNat 64 (2 ^ 64 - 2 ^ 31)) := by
  obtain ⟨k, hk, hak⟩ := pow2_lt ha
  have hv := value_toNat (al := al) hs (by omega)
  have hb := bitsCount_bitLength (al + size - 1#64)
  rw [hv] at hb
  have hge : 32 ≤ bitsCount (al + size - 1#64) := by
    apply Nat.le_of_not_lt
    intro hlt
    have : 2 ^ bitsCount (al + size - 1#64) ≤ 2 ^ 31 := Nat.pow_le_pow_right (by decide) (by omega)
    have := hb.1
    omega
  have hle : bitsCount (al + size - 1#64) ≤ 32 := hb.2 32 (by omega)
  have heq : bitsCount (al + size - 1#64) = 32 := by omega
  unfold maxAlignmentInsideBlock
  rw [isPowerOf2_of hk hak, size_gt_zero hs, cassert_true, Outcome.ok_bind, Outcome.ok_bind]
  simp only [heq]
  decide +kernel

example : maxAlignmentInsideBlock true 8 (BitVec.ofNat 64 (2 ^ 31 - 7)) =
    .ok (BitVec.ofNat 64 (2 ^ 64 - 2 ^ 31)) :=
  C09_wrong_for_medium_blocks true 8 _ ⟨3, by decide⟩ (by decide) (by decide) (by decide)

/-- An alignment that is no power of two and an empty block are rejected in debug builds. -/
theorem C09_assert (al size : BitVec 64) (h : ¬ IsPow2 al.toNat ∨ size = 0#64) :
    maxAlignmentInsideBlock true al size = .assertFailed := by
  unfold maxAlignmentInsideBlock
  rcases h with h | rfl
  · rw [← C01_is_power_of_2, Bool.not_eq_true] at h
    rw [h]
    rfl
  · cases isPowerOf2 al <;> rfl

/-! ## C10 -/

/-- `uint_from_nbits_t<n>` is the narrowest standard unsigned type with at least `n` bits, for
`1 ≤ n ≤ 64`. -/
theorem C10_uint_from_nbits (n w : Nat) :
    uintFromNbits n = some w ↔ 1 ≤ n ∧ LeastStdWidth n w := by
  unfold uintFromNbits LeastStdWidth
  constructor
  · intro h
    split at h
    · cases h; simp; omega
    · split at h
      · cases h; simp; omega
      · split at h
        · cases h; simp; omega
        · split at h
          · cases h; simp; omega
          · cases h
  · rintro ⟨h1, hm, h2, h3⟩
    have h8 := h3 8 (by simp)
    have h16 := h3 16 (by simp)
    have h32 := h3 32 (by simp)
    have h64 := h3 64 (by simp)
    simp only [List.mem_cons, List.not_mem_nil, or_false] at hm
    rcases hm with rfl | rfl | rfl | rfl
    · rw [if_pos (by omega)]
    · rw [if_neg (by omega), if_pos (by omega)]
    · rw [if_neg (by omega), if_neg (by omega), if_pos (by omega)]
    · rw [if_neg (by omega), if_neg (by omega), if_neg (by omega), if_pos (by omega)]

/-- It does not compile exactly for `n = 0` and `n > 64`. -/
theorem C10_uint_from_nbits_rejected (n : Nat) :
    uintFromNbits n = none ↔ n = 0 ∨ 64 < n := by
  unfold uintFromNbits
  constructor
  · intro h
    repeat (split at h; · cases h)
    omega
  · intro h
    rw [if_neg (by omega), if_neg (by omega), if_neg (by omega), if_neg (by omega)]

/-- `enum_properties<E>::SerializeT` exists iff `E::Count ≠ 0`, and then holds every value up to and
including `Count`. -/
theorem C10_serialize_type (count : BitVec 64) :
    (serializeWidth count = none ↔ count = 0#64) ∧
    ∀ w, serializeWidth count = some w → (∀ x, x ≤ count.toNat → x < 2 ^ w) ∧
      ∀ w' ∈ [8, 16, 32, 64], count.toNat < 2 ^ w' → w ≤ w' := by
  have hb := bitsCount_bitLength count
  have hle := bitsCount_le count
  constructor
  · unfold serializeWidth
    rw [C10_uint_from_nbits_rejected]
    constructor
    · rintro (h | h)
      · rw [h] at hb
        have := hb.1
        exact BitVec.eq_of_toNat_eq (by simp; omega)
      · omega
    · rintro rfl
      left
      rw [bitsCount, dif_pos rfl]
  · intro w hw
    obtain ⟨_, _, h, hmin⟩ := (C10_uint_from_nbits _ _).1 hw
    refine ⟨fun x hx => ?_, fun w' hw' hc => hmin w' hw' (hb.2 w' hc)⟩
    have : 2 ^ bitsCount count ≤ 2 ^ w := Nat.pow_le_pow_right (by decide) h
    have := hb.1
    omega

/-- `uint_from_nbytes_t<n>`: the least standard width of at least `n` bytes; it exists for one to
eight bytes. -/
theorem C10_uint_from_nbytes (n w : Nat) :
    uintFromNbytes n = some w ↔ 1 ≤ n ∧ n ≤ 8 ∧ LeastStdWidth (8 * n) w := by
  unfold uintFromNbytes
  rw [Nat.mul_comm n 8]
  split
  · rw [C10_uint_from_nbits]
    constructor
    · rintro ⟨h1, h2⟩
      refine ⟨by omega, ?_, h2⟩
      have h3 := h2.1
      have h4 := h2.2.1
      simp at h3
      omega
    · rintro ⟨h1, _, h2⟩
      exact ⟨by omega, h2⟩
  · simp only [reduceCtorEq, false_iff]
    omega

example : uintFromNbytes 3 = some 32 ∧ uintFromNbytes 9 = none ∧ uintFromNbytes 33 = none := by decide

example : uintFromNbits 9 = some 16 ∧ serializeWidth 256 = some 16 := by decide +kernel

/-! ## C89 -/

/-- `fast_uint_from_nbits_t<n>` exists iff `1 ≤ n ≤ 64` and is the fast version of the narrowest standard
type with at least `n` bits. -/
theorem C89_fast_uint (F : FastWidths) (n w : Nat) :
    fastUintFromNbits F n = some w ↔ 1 ≤ n ∧ ∃ s, LeastStdWidth n s ∧
      ((s = 8 ∧ w = F.fast8) ∨ (s = 16 ∧ w = F.fast16) ∨ (s = 32 ∧ w = F.fast32) ∨
        (s = 64 ∧ w = F.fast64)) := by
  have h : fastUintFromNbits F n = some w ↔ ∃ s, uintFromNbits n = some s ∧
      ((s = 8 ∧ w = F.fast8) ∨ (s = 16 ∧ w = F.fast16) ∨ (s = 32 ∧ w = F.fast32) ∨
        (s = 64 ∧ w = F.fast64)) := by
    unfold fastUintFromNbits uintFromNbits
    split
    · simp [eq_comm]
    · split
      · simp [eq_comm]
      · split
        · simp [eq_comm]
        · split
          · simp [eq_comm]
          · simp
  rw [h]
  constructor
  · rintro ⟨s, h1, h2⟩
    obtain ⟨h3, h4⟩ := (C10_uint_from_nbits n s).1 h1
    exact ⟨h3, s, h4, h2⟩
  · rintro ⟨h1, s, h2, h3⟩
    exact ⟨s, (C10_uint_from_nbits n s).2 ⟨h1, h2⟩, h3⟩

/-- It holds every `n`-bit number, on every platform whose fast types have at least their nominal
widths. -/
theorem C89_wide_enough {F : FastWidths}
    (hF : 8 ≤ F.fast8 ∧ 16 ≤ F.fast16 ∧ 32 ≤ F.fast32 ∧ 64 ≤ F.fast64) {n w : Nat}
    (h : fastUintFromNbits F n = some w) : ∀ x, x < 2 ^ n → x < 2 ^ w := by
  obtain ⟨-, s, ⟨-, hs, -⟩, hw⟩ := (C89_fast_uint F n w).1 h
  intro x hx
  exact Nat.lt_of_lt_of_le hx (Nat.pow_le_pow_right (by decide) (by omega))

/-- `FastUInt<n>` and `fast_uint_from_nbytes_t<n>` exist for one to eight bytes, then have at least
`8 * n` bits. -/
theorem C89_fast_bytes {F : FastWidths}
    (hF : 8 ≤ F.fast8 ∧ 16 ≤ F.fast16 ∧ 32 ≤ F.fast32 ∧ 64 ≤ F.fast64) (n : Nat) :
    ((fastUintFromNbytes F n).isSome ↔ 1 ≤ n ∧ n ≤ 8) ∧
    ∀ w, fastUintFromNbytes F n = some w → 8 * n ≤ w ∧ fastUintFromNbits F (8 * n) = some w := by
  have h0 : fastUintFromNbytes F n = if n < 32 then fastUintFromNbits F (8 * n) else none := by
    unfold fastUintFromNbytes
    rw [Nat.mul_comm n 8]
    split
    · split
      · rw [if_pos (by omega)]
      · rw [if_neg (by omega)]
    · rw [if_neg (by omega)]
  rw [h0]
  constructor
  · unfold fastUintFromNbits
    repeat' split
    all_goals simp
    all_goals omega
  · intro w h
    split at h
    · obtain ⟨-, s, ⟨-, hs, -⟩, hw⟩ := (C89_fast_uint F _ w).1 h
      exact ⟨by omega, h⟩
    · cases h

/-- The widths of glibc on x86-64. -/
example : fastUintFromNbits ⟨8, 64, 64, 64⟩ 9 = some 64 ∧ fastUintFromNbytes ⟨8, 64, 64, 64⟩ 9 = none := by
  decide

/-! ## C11 -/

/-- `clz(v)` for every unsigned type, every list of intrinsics and every implementation of them:
the number of leading zeros of `v ≠ 0` whenever some intrinsic is wide enough. -/
theorem C11_clz (impl : Impl) (supported : List Supported) (hl : supported.length < 2 ^ 64)
    (debug : Bool) (size : Nat) (hsup : ∃ u ∈ supported, size ≤ u.size) (v : BitVec (8 * size))
    (hv : v ≠ 0) :
    ∃ c : Nat, clz impl supported debug size v = some (.ok (c : Int)) ∧
      LeadingZeros (8 * size) v.toNat c := by
  obtain ⟨s, hd, hs, -⟩ := dispatch_some hl hsup
  have hn := toNat_ne_zero (v := v) hv
  have htn : (v.zeroExtend (8 * s)).toNat = v.toNat := by
    rw [BitVec.zeroExtend, BitVec.toNat_setWidth, Nat.mod_eq_of_lt]
    exact Nat.lt_of_lt_of_le v.isLt (Nat.pow_le_pow_right (by decide) (by omega))
  have hze : v.zeroExtend (8 * s) ≠ 0#_ := by
    intro h
    rw [h] at htn
    simp at htn
    omega
  obtain ⟨c, hc, hlz⟩ := calcClz_spec impl debug hze
  rw [htn] at hlz
  obtain ⟨h1, h2⟩ := leadingZeros_narrow (w := 8 * size) (by omega) v.isLt hlz
  refine ⟨c - (8 * s - 8 * size), ?_, h2⟩
  unfold clz
  rw [hd]
  simp only [Option.bind_eq_bind, Option.bind_some, hc, Outcome.ok_bind, Outcome.pure_eq,
    Option.pure_def]
  congr 2
  omega

/-- If no intrinsic is wide enough the call does not compile. -/
theorem C11_clz_rejected (impl : Impl) (supported : List Supported)
    (hl : supported.length < 2 ^ 64) (debug : Bool) (size : Nat)
    (hsup : ¬ ∃ u ∈ supported, size ≤ u.size) (v : BitVec (8 * size)) :
    clz impl supported debug size v = none := by
  unfold clz
  rw [dispatch_none hl hsup]
  rfl

/-- On 64-bit and 32-bit GCC and Clang and on 64-bit MSVC `clz` takes exactly the types of up to 8 bytes,
on 32-bit MSVC those of up to 4. -/
theorem C11_platforms (impl : Impl) (debug : Bool) (size : Nat) (v : BitVec (8 * size)) :
    ((clz impl gccLP64 debug size v).isSome ↔ size ≤ 8) ∧
    ((clz impl gccILP32 debug size v).isSome ↔ size ≤ 8) ∧
    ((clz impl msvc64 debug size v).isSome ↔ size ≤ 8) ∧
    ((clz impl msvc32 debug size v).isSome ↔ size ≤ 4) := by
  have key : ∀ (l : List Supported) (n : Nat), l.length < 2 ^ 64 →
      ((∃ u ∈ l, size ≤ u.size) ↔ size ≤ n) → ((clz impl l debug size v).isSome ↔ size ≤ n) := by
    intro l n hl h
    rw [← h]
    constructor
    · intro hs
      refine Classical.byContradiction fun hn => ?_
      rw [C11_clz_rejected impl l hl debug size hn v] at hs
      cases hs
    · intro hs
      obtain ⟨s, hd, -⟩ := dispatch_some hl hs
      unfold clz
      rw [hd]
      rfl
  refine ⟨key _ _ (by decide) ?_, key _ _ (by decide) ?_, key _ _ (by decide) ?_,
    key _ _ (by decide) ?_⟩ <;> simp [gccLP64, gccILP32, msvc64, msvc32] <;> omega

/-- All four platform lists serve all unsigned types up to 4 bytes; all but 32-bit MSVC serve 8. -/
example : (∀ l ∈ [gccLP64, gccILP32, msvc64], ∀ s ∈ [1, 2, 4, 8], ∃ u ∈ l, s ≤ u.size) ∧
    (∀ s ∈ [1, 2, 4], ∃ u ∈ msvc32, s ≤ u.size) ∧ ¬ ∃ u ∈ msvc32, 8 ≤ u.size := by decide
example : clz .builtin gccLP64 true 2 (5 : BitVec 16) = some (.ok 13) := by decide +kernel

/-! ## C12 -/

/-- `ctz(v)` for every unsigned type, list of intrinsics and implementation. -/
theorem C12_ctz (impl : Impl) (supported : List Supported) (hl : supported.length < 2 ^ 64)
    (debug : Bool) (size : Nat) (hsup : ∃ u ∈ supported, size ≤ u.size) (v : BitVec (8 * size))
    (hv : v ≠ 0) :
    ∃ c : Nat, ctz impl supported debug size v = some (.ok c) ∧ TrailingZeros v.toNat c := by
  obtain ⟨s, hd, hs, -⟩ := dispatch_some hl hsup
  have hn := toNat_ne_zero (v := v) hv
  have htn : (v.zeroExtend (8 * s)).toNat = v.toNat := by
    rw [BitVec.zeroExtend, BitVec.toNat_setWidth, Nat.mod_eq_of_lt]
    exact Nat.lt_of_lt_of_le v.isLt (Nat.pow_le_pow_right (by decide) (by omega))
  have hze : v.zeroExtend (8 * s) ≠ 0#_ := by
    intro h
    rw [h] at htn
    simp at htn
    omega
  obtain ⟨c, hc, htz⟩ := calcCtz_spec impl debug hze
  rw [htn] at htz
  refine ⟨c, ?_, htz⟩
  unfold ctz
  rw [hd]
  simp only [Option.bind_eq_bind, Option.bind_some, hc, Option.pure_def]

/-- If no intrinsic is wide enough the call does not compile. -/
theorem C12_ctz_rejected (impl : Impl) (supported : List Supported)
    (hl : supported.length < 2 ^ 64) (debug : Bool) (size : Nat)
    (hsup : ¬ ∃ u ∈ supported, size ≤ u.size) (v : BitVec (8 * size)) :
    ctz impl supported debug size v = none := by
  unfold ctz
  rw [dispatch_none hl hsup]
  rfl

/-- On 64-bit and 32-bit GCC and Clang and on 64-bit MSVC `ctz` takes exactly the types of up to 8 bytes,
on 32-bit MSVC those of up to 4. -/
theorem C12_platforms (impl : Impl) (debug : Bool) (size : Nat) (v : BitVec (8 * size)) :
    ((ctz impl gccLP64 debug size v).isSome ↔ size ≤ 8) ∧
    ((ctz impl gccILP32 debug size v).isSome ↔ size ≤ 8) ∧
    ((ctz impl msvc64 debug size v).isSome ↔ size ≤ 8) ∧
    ((ctz impl msvc32 debug size v).isSome ↔ size ≤ 4) := by
  have key : ∀ (l : List Supported) (n : Nat), l.length < 2 ^ 64 →
      ((∃ u ∈ l, size ≤ u.size) ↔ size ≤ n) → ((ctz impl l debug size v).isSome ↔ size ≤ n) := by
    intro l n hl h
    rw [← h]
    constructor
    · intro hs
      refine Classical.byContradiction fun hn => ?_
      rw [C12_ctz_rejected impl l hl debug size hn v] at hs
      cases hs
    · intro hs
      obtain ⟨s, hd, -⟩ := dispatch_some hl hs
      unfold ctz
      rw [hd]
      rfl
  refine ⟨key _ _ (by decide) ?_, key _ _ (by decide) ?_, key _ _ (by decide) ?_,
    key _ _ (by decide) ?_⟩ <;> simp [gccLP64, gccILP32, msvc64, msvc32] <;> omega

example : ctz .builtin gccLP64 true 2 (40 : BitVec 16) = some (.ok 3) := by decide +kernel

/-! ## C13 -/

/-- The handmade loops used in constant expressions return what the intrinsics return at run time,
for every unsigned type and non-zero value. -/
theorem C13_crafted_agrees {w : Nat} (debug : Bool) (i j : Impl) (v : BitVec w) (hv : v ≠ 0#w) :
    calcClz i debug v = calcClz j debug v ∧ calcCtz i debug v = calcCtz j debug v := by
  obtain ⟨c, hc, hc'⟩ := calcClz_spec i debug hv
  obtain ⟨d, hd, hd'⟩ := calcClz_spec j debug hv
  obtain ⟨e, he, he'⟩ := calcCtz_spec i debug hv
  obtain ⟨f, hf, hf'⟩ := calcCtz_spec j debug hv
  rw [hc, hd, he, hf, leadingZeros_unique hc' hd', trailingZeros_unique he' hf']
  exact ⟨rfl, rfl⟩

example : calcClz .crafted true (6 : BitVec 8) = .ok 5 ∧ calcClz .builtin true (6 : BitVec 8) = .ok 5 := by
  decide +kernel

/-- At zero a debug build stops at the assertion and the intrinsics are undefined otherwise. -/
theorem C13_zero {w : Nat} (i : Impl) :
    calcClz i true (0#w) = .assertFailed ∧ calcCtz i true (0#w) = .assertFailed ∧
    calcClz .builtin false (0#w) = .ub ∧ calcCtz .builtin false (0#w) = .ub := by
  have h : decide (0#w > 0#w) = false := by simp
  refine ⟨?_, ?_, ?_, ?_⟩ <;> simp [calcClz, calcCtz]

/-! ## C14 -/

/-- `get_alignment(p)`, `p` non-null: the greatest power of two dividing the address. -/
theorem C14_get_alignment (debug : Bool) (p : BitVec 64) (hp : p ≠ 0#64) :
    ∃ r, getAlignment debug p = .ok r ∧ GreatestPow2Divisor p.toNat r.toNat := by
  obtain ⟨c, hc, htz⟩ := calcCtz_spec .builtin debug hp
  have hlt := trailingZeros_lt (toNat_ne_zero hp) p.isLt htz
  refine ⟨1#64 <<< c, ?_, ?_⟩
  · unfold getAlignment ctz64
    have : (p != 0#64) = true := by simpa using hp
    simp only [this, cassert_true, Outcome.ok_bind, hc, hlt, if_true, Outcome.pure_eq]
  · have : (1#64 <<< c).toNat = 2 ^ c := by
      rw [BitVec.toNat_shiftLeft, BitVec.toNat_ofNat, Nat.shiftLeft_eq, Nat.mod_eq_of_lt (a := 1) (by decide),
        Nat.one_mul, Nat.mod_eq_of_lt (Nat.pow_lt_pow_right (by decide) hlt)]
    rw [this]
    exact greatest_of_trailingZeros htz

example : getAlignment true 24 = .ok 8 := by decide

/-- A null pointer is rejected in debug builds and undefined otherwise. -/
theorem C14_null : getAlignment true 0#64 = .assertFailed ∧ getAlignment false 0#64 = .ub := by
  constructor <;> decide +kernel

/-! ## C15

The full claim — `div(n, d)` is the truncating division of the *values* for every pair of integral
types, and compile time and run time agree — is false; the two counterexamples follow the theorem.
What is missing from the partial theorem: operands that the common type or `long long` cannot
represent (negative operands mixed with unsigned types of at least the width of `int`, and unsigned
values of at least `2^63`), and `min / -1`. -/

/-- `tdiv` and `tmod` are quotient and remainder. -/
theorem truncDiv_tdiv {n d : Int} (hd0 : d ≠ 0) : TruncDiv n d (Int.tdiv n d) (Int.tmod n d) := by
  refine ⟨?_, ?_, ?_, ?_⟩
  · have := Int.tmod_add_mul_tdiv n d
    rw [Int.mul_comm] at this
    omega
  · rw [Int.natAbs_tmod]
    exact Nat.mod_lt _ (by omega)
  · intro h; exact Int.tmod_nonneg _ h
  · intro h
    have : Int.tmod n d = -(Int.tmod (-n) d) := by rw [Int.neg_tmod]; omega
    rw [this]
    have := Int.tmod_nonneg (a := -n) d (by omega)
    omega

/-- During constant evaluation: right whenever the common type can represent both operands and the
quotient, unsigned values from `2^63` on included. -/
theorem C15_div_const_partial (debug : Bool) (tn td : CTy) (n d : Int) (hd0 : d ≠ 0)
    (hcn : (CTy.common tn td).InRange n) (hcd : (CTy.common tn td).InRange d)
    (hov : ¬ ((CTy.common tn td).signed = true ∧ n = (CTy.common tn td).minVal ∧ d = -1)) :
    divConst debug tn n td d = .ok (Int.tdiv n d, Int.tmod n d) ∧
      TruncDiv n d (Int.tdiv n d) (Int.tmod n d) := by
  obtain ⟨hq, hm⟩ := tdiv_inRange hcn hd0 hov hcd
  have hup : ∀ x, (CTy.common tn td).InRange x →
      (CTy.usual (CTy.common tn td) (CTy.common tn td)).InRange x := by
    intro x hx
    revert hx
    unfold CTy.InRange
    generalize CTy.common tn td = t
    cases t <;> simp [CTy.usual, CTy.promote, CTy.minVal, CTy.maxVal, CTy.signed, CTy.width] <;> omega
  have hdne : (d != 0) = true := by simpa using hd0
  refine ⟨?_, truncDiv_tdiv hd0⟩
  unfold divConst
  simp only [hdne, cassert_true, Outcome.ok_bind, CVal.cast, CTy.conv_eq_self hcn,
    CTy.conv_eq_self hcd]
  exact divRem_eq hcn hcd hd0 (hup _ hq) (hup _ hm) hq hm

example : divConst true .ulong (2 ^ 64 - 1) .uint 10 = .ok (1844674407370955161, 5) := by decide

/-- At compile time and at run time. -/
theorem C15_div_partial (debug : Bool) (tn td : CTy) (n d : Int) (hd0 : d ≠ 0)
    (hcn : (CTy.common tn td).InRange n) (hcd : (CTy.common tn td).InRange d)
    (hln : CTy.llong.InRange n) (hld : CTy.llong.InRange d)
    (hov : ¬ ((CTy.common tn td).signed = true ∧ n = (CTy.common tn td).minVal ∧ d = -1)) :
    ∃ q r, divConst debug tn n td d = .ok (q, r) ∧ divRun debug tn n td d = .ok (q, r) ∧
      TruncDiv n d q r := by
  have hov2 : ¬ (CTy.signed .llong = true ∧ n = CTy.minVal .llong ∧ d = -1) := by
    rintro ⟨-, h1, h2⟩
    subst h2
    apply hov
    revert hcn hcd
    rw [h1]
    unfold CTy.InRange
    generalize CTy.common tn td = t
    cases t <;> simp [CTy.minVal, CTy.maxVal, CTy.signed, CTy.width]
  obtain ⟨hq, hm⟩ := tdiv_inRange hcn hd0 hov hcd
  obtain ⟨hq2, hm2⟩ := tdiv_inRange hln hd0 hov2 hld
  have hdne : (d != 0) = true := by simpa using hd0
  obtain ⟨h1, h2⟩ := C15_div_const_partial debug tn td n d hd0 hcn hcd hov
  refine ⟨Int.tdiv n d, Int.tmod n d, h1, ?_, h2⟩
  unfold divRun
  simp only [hdne, cassert_true, Outcome.ok_bind, CVal.cast, divWorkType_eq,
    CTy.conv_eq_self hln, CTy.conv_eq_self hld]
  exact divRem_eq hln hld hd0 hq2 hm2 hq hm

/-- `div_as<R>`: the same, if `R` can represent the operands and the quotient. -/
theorem C15_div_as_partial (const debug : Bool) (tr tn td : CTy) (n d : Int) (hd0 : d ≠ 0)
    (hn : tr.InRange n) (hd : tr.InRange d) (hl : const = true ∨ CTy.llong.InRange n ∧ CTy.llong.InRange d)
    (hov : ¬ (tr.signed = true ∧ n = tr.minVal ∧ d = -1)) :
    ∃ q r, divAs const debug tr tn n td d = .ok (q, r) ∧ TruncDiv n d q r := by
  have hc : CTy.common tr tr = tr := by simp [CTy.common]
  unfold divAs
  simp only [CVal.cast, CTy.conv_eq_self hn, CTy.conv_eq_self hd]
  rcases hl with rfl | ⟨h1, h2⟩
  · exact ⟨_, _, (C15_div_const_partial debug tr tr n d hd0 (by rwa [hc]) (by rwa [hc])
      (by rwa [hc])).1, truncDiv_tdiv hd0⟩
  · obtain ⟨q, r, h3, h4, h5⟩ := C15_div_partial debug tr tr n d hd0 (by rwa [hc]) (by rwa [hc]) h1 h2
      (by rwa [hc])
    cases const
    · exact ⟨q, r, h4, h5⟩
    · exact ⟨q, r, h3, h5⟩

example : divAs false true .int .uint 2147483647 .schar (-2) = .ok (-1073741823, 1) := by decide

/-- Division by zero is rejected in debug builds and undefined otherwise, at compile time and at run
time. -/
theorem C15_zero (tn td : CTy) (n : Int) :
    divConst true tn n td 0 = .assertFailed ∧ divRun true tn n td 0 = .assertFailed ∧
    divConst false tn n td 0 = .ub ∧ divRun false tn n td 0 = .ub := by
  have hz : ∀ t : CTy, t.conv 0 = 0 := by intro t; cases t <;> decide
  refine ⟨rfl, rfl, ?_, ?_⟩
  · simp [divConst, CVal.cast, hz, CVal.div, cassert]
  · simp [divRun, CVal.cast, hz, CVal.div, cassert]

/-- `div_as<R>` divides the operands converted to `R`: whatever the operand types, the result is the
truncated quotient of the values wrapped into `R`. -/
theorem C15_div_as_wrapped (const debug : Bool) (tr tn td : CTy) (n d : Int) (hd0 : tr.conv d ≠ 0)
    (hl : const = true ∨ CTy.llong.InRange (tr.conv n) ∧ CTy.llong.InRange (tr.conv d))
    (hov : ¬ (tr.signed = true ∧ tr.conv n = tr.minVal ∧ tr.conv d = -1)) :
    ∃ q r, divAs const debug tr tn n td d = .ok (q, r) ∧ TruncDiv (tr.conv n) (tr.conv d) q r := by
  have hn := tr.conv_inRange n
  have hd := tr.conv_inRange d
  have h := C15_div_as_partial const debug tr tr tr (tr.conv n) (tr.conv d) hd0 hn hd hl hov
  unfold divAs at h ⊢
  simpa only [CVal.cast, CTy.conv_eq_self hn, CTy.conv_eq_self hd] using h

/-- A denominator that the conversion to `R` turns into 0 is refused like 0 itself: `div_as` checks
the converted value. -/
theorem C15_div_as_zero (const : Bool) (tr tn td : CTy) (n d : Int) (hd : tr.conv d = 0) :
    divAs const true tr tn n td d = .assertFailed ∧ divAs const false tr tn n td d = .ub := by
  unfold divAs
  simp only [CVal.cast, hd]
  have h := C15_zero tr tr (tr.conv n)
  cases const
  · exact ⟨h.2.1, h.2.2.2⟩
  · exact ⟨h.1, h.2.2.1⟩

/-- `div_as<uint8_t>(7, 256)`. -/
example : CTy.conv .uchar 256 = 0 ∧ divAs false true .uchar .int 7 .int 256 = .assertFailed ∧
    divAs true true .uchar .int 263 .int 2 = .ok (3, 1) := by decide

example : CTy.InRange .int (-7) ∧ CTy.InRange .short 2 ∧ (CTy.common .int .short).InRange (-7) ∧
    CTy.llong.InRange (-7) := by decide
example : divRun true .int (-7) .short 2 = .ok (-3, -1) := by decide

/-- Counterexample 1: `div(2^63, 2)` on `unsigned long`: right at compile time, wrong at run time. -/
theorem C15_counterexample_large_unsigned :
    divConst true .ulong (2 ^ 63) .ulong 2 = .ok (2 ^ 62, 0) ∧
    divRun true .ulong (2 ^ 63) .ulong 2 = .ok (2 ^ 64 - 2 ^ 62, 0) := by decide

/-- Counterexample 2: `div(-1, 2u)`: compile time and run time disagree, neither is `-1 = 0*2 - 1`. -/
theorem C15_counterexample_mixed_sign :
    divConst true .int (-1) .uint 2 = .ok (2 ^ 31 - 1, 1) ∧
    divRun true .int (-1) .uint 2 = .ok (0, 2 ^ 32 - 1) := by decide

/-- Counterexample 3: `div(INT_MIN, -1)`: undefined at compile time, `INT_MIN` at run time. -/
theorem C15_counterexample_min :
    divConst true .int (-2 ^ 31) .int (-1) = .ub ∧
    divRun true .int (-2 ^ 31) .int (-1) = .ok (-2 ^ 31, 0) := by decide

/-- Counterexample 1 is not isolated: halving is wrong at run time for *every* `unsigned long`
numerator from `2^63` on. -/
theorem C15_run_time_halving_wrong (n : Int) (h1 : 2 ^ 63 ≤ n) (h2 : n < 2 ^ 64) (debug : Bool) :
    ∃ q r, divRun debug .ulong n .ulong 2 = .ok (q, r) ∧ ¬ TruncDiv n 2 q r := by
  have hcn : CTy.conv .llong n = n - 2 ^ 64 := by
    simp [CTy.conv, CTy.ofBits, CTy.signed, CTy.width, BitVec.toInt_ofInt, Int.bmod_def]
    omega
  have hn' : CTy.InRange .llong (n - 2 ^ 64) := by
    simp only [CTy.InRange, CTy.minVal, CTy.maxVal, CTy.signed, CTy.width, if_true]
    omega
  have h22 : CTy.conv .llong 2 = 2 := by decide
  have hr2 : CTy.InRange .llong 2 := by decide
  obtain ⟨hq, hm⟩ := tdiv_inRange hn' (by decide : (2 : Int) ≠ 0) (by rintro ⟨-, -, h⟩; omega) hr2
  have en := CTy.conv_eq_self hn'
  have hdm := Int.tmod_add_mul_tdiv (n - 2 ^ 64) 2
  have hneg : Int.tmod (n - 2 ^ 64) 2 ≤ 0 := by
    have : Int.tmod (n - 2 ^ 64) 2 = -(Int.tmod (-(n - 2 ^ 64)) 2) := by rw [Int.neg_tmod]; omega
    have := Int.tmod_nonneg (a := -(n - 2 ^ 64)) 2 (by omega)
    omega
  have hgt : -2 < Int.tmod (n - 2 ^ 64) 2 := by
    have : (Int.tmod (n - 2 ^ 64) 2).natAbs < 2 := by
      rw [Int.natAbs_tmod]; exact Nat.mod_lt _ (by decide)
    omega
  refine ⟨CTy.conv .ulong (Int.tdiv (n - 2 ^ 64) 2), CTy.conv .ulong (Int.tmod (n - 2 ^ 64) 2), ?_, ?_⟩
  · unfold divRun
    simp only [show ((2 : Int) != 0) = true by decide, cassert_true, Outcome.ok_bind, CVal.cast,
      divWorkType_eq, hcn, h22, CVal.div, CVal.rem,
      show CTy.usual .llong .llong = .llong by decide, en, show ¬ (2 : Int) = 0 by decide, if_false,
      CVal.arith, show CTy.signed .llong = true by decide, if_true, hq, hm,
      show CTy.common .ulong .ulong = .ulong by decide, Outcome.pure_eq]
  · rintro ⟨e1, e2, e3, e4⟩
    have c1 : ∀ x : Int, CTy.conv .ulong x = x % 2 ^ 64 := fun x => CTy.conv_unsigned (t := .ulong) (by decide) x
    rw [c1, c1] at e1
    rw [c1] at e2
    have h5 : 2 ^ 64 - 2 ^ 62 ≤ Int.tdiv (n - 2 ^ 64) 2 % 2 ^ 64 ∨ Int.tdiv (n - 2 ^ 64) 2 = 0 := by
      omega
    omega

/-! ## C16 -/

/-- `shift_right` on unsigned types (any width) is floor division by a power of two. -/
theorem C16_shift_right (debug : Bool) (t : CTy) (ht : t ≠ .bool) (v : Int) (hv : t.InRange v)
    (n : Nat) (hn : n < t.width) : shiftRight debug t v n = .ok (v / 2 ^ n) :=
  shiftRight_eq ht debug hv hn

/-- `shift_left` on unsigned types is multiplication modulo `2^width`, without undefined behaviour
even when the shift happens in `int`. -/
theorem C16_shift_left (debug : Bool) (t : CTy) (ht : t.isUInt = true) (v : Int)
    (hv : t.InRange v) (n : Nat) (hn : n < t.width) :
    shiftLeft debug t v n = .ok (v * 2 ^ n % 2 ^ t.width) :=
  shiftLeft_eq ht debug hv hn

/-- A shift by the width of the type or more is rejected in debug builds. -/
theorem C16_shift_assert (t : CTy) (ht : t ≠ .bool) (v : Int) (n : Nat) (hn : t.width ≤ n) :
    shiftRight true t v n = .assertFailed ∧ shiftLeft true t v n = .assertFailed := by
  have h : decide (n < t.sizeof * 8) = false := by
    rw [CTy.sizeof_mul_eight ht, decide_eq_false_iff_not]; omega
  unfold shiftRight shiftLeft
  rw [h]
  exact ⟨rfl, rfl⟩

example : shiftLeft true .ushort 0xABCD 12 = .ok 0xD000 ∧ shiftRight true .ushort 0xABCD 12 = .ok 0xA := by
  decide

/-! ## C17 -/

/-- `sum_size<Ts...>()`: the least number of bytes with room for the bits of all `Ts`. -/
theorem C17_sum_size (ts : List (Bool × Nat)) (h : ts ≠ []) :
    ∃ b, sumSize ts = some b ∧
      LeastBytes ((ts.map fun t => if t.1 then 1 else 8 * t.2).sum) b := by
  cases ts with
  | nil => exact absurd rfl h
  | cons t ts =>
    refine ⟨_, rfl, ?_⟩
    unfold LeastBytes
    simp only [numBits]
    have key : ∀ b : Nat, b ≤ 8 * (b / 8 + if b % 8 ≠ 0 then 1 else 0) ∧
        ∀ c, b ≤ 8 * c → (b / 8 + if b % 8 ≠ 0 then 1 else 0) ≤ c := by
      intro b
      split <;> constructor <;> omega
    exact key _

example : sumSize [(true, 1), (false, 2), (true, 1)] = some 3 := by decide

/-- `sum_size<>()` does not compile. -/
theorem C17_sum_size_empty : sumSize [] = none := rfl

end Utils.Props
