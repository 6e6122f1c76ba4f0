import Verif.Proofs.SRFresh
import Verif.Proofs.SRHistory

/-! Builds without assertions: an exact fit of the last region makes the resource believe in blocks
behind the end of the area. -/

namespace Utils.SR

open Utils Utils.Bits

variable {p : Params} {s : State} {size : Nat} {σ : Type} {up : Option (Upstream σ)}

/-- The state after taking the front of a region recorded as last. -/
def takeFront (s : State) (i last : Nat) : State :=
  { s with
    inUse := upd s.inUse i true
    prev := upd s.prev (last + 1) i
    next := upd (upd s.next (last + 1) 0) i (last + 1)
    busyCount := inc64 s.busyCount }

theorem tryRegion_front (hv : Valid p) (hd : p.debug = false) (hp : Placed p s) {i ptr : Nat}
    (hi : s.next i = 0) (hsz : 0 < size)
    (hfit : size ≤ (s.blockCount + (2 ^ 64 - i)) % 2 ^ 64 * p.blockSize % 2 ^ 64)
    (hlast : i + size / p.blockSize + 1 < p.maxBlocks)
    (hne : i + size / p.blockSize ≠ s.blockCount - 1) :
    tryRegion p size 1 s ptr i
      = .ok (takeFront s i (i + size / p.blockSize), s.data + i * p.blockSize, false) := by
  have hB := hv.pos
  have hw := hv.le_width
  have hnw := hp.noWrap
  have hc := hp.le
  have hs1 := hp.some
  have h64 : p.maxBlocks < 2 ^ 64 := by
    have := hv.area
    have : p.maxBlocks * 1 ≤ p.maxBlocks * p.blockSize := Nat.mul_le_mul_left _ hB
    omega
  have hib : i * p.blockSize + size < p.maxBlocks * p.blockSize := by
    have h1 := Nat.div_add_mod size p.blockSize
    have h2 := Nat.mod_lt size hB
    have h3 : (i + size / p.blockSize + 1 + 1) * p.blockSize ≤ p.maxBlocks * p.blockSize :=
      Nat.mul_le_mul_right _ hlast
    have h4 : (i + size / p.blockSize + 1 + 1) * p.blockSize
        = i * p.blockSize + p.blockSize * (size / p.blockSize) + p.blockSize + p.blockSize := by
      rw [Nat.add_mul, Nat.add_mul, Nat.add_mul, Nat.mul_comm p.blockSize (size / p.blockSize)]; omega
    omega
  have hk : skipToAlign p.debug (BitVec.ofNat 64 ((s.data + i * p.blockSize) % 2 ^ 64))
      (BitVec.ofNat 64 1) = .ok (BitVec.ofNat 64 0) := by
    rw [skipToAlign_eq (k := 0) _ (by decide) (by decide)]
    simp [skipNat, Nat.mod_one]
  have e1 : pointerToBlockIndex p s (s.data + i * p.blockSize) = .ok i := by
    rw [pointerToBlockIndex_ok hv hp (by omega), Nat.mul_div_cancel _ hB]
  have e2 : pointerToBlockIndex p s (s.data + i * p.blockSize + size) = .ok (i + size / p.blockSize) := by
    rw [Nat.add_assoc, pointerToBlockIndex_ok hv hp hib, Nat.add_comm (i * p.blockSize),
      Nat.add_mul_div_right _ _ hB, Nat.add_comm]
  clear hB
  generalize size / p.blockSize = q at *
  have hmod1 : (s.data + i * p.blockSize) % 2 ^ 64 = s.data + i * p.blockSize :=
    Nat.mod_eq_of_lt (by omega)
  have hmod2 : (s.data + i * p.blockSize + size) % 2 ^ 64 = s.data + i * p.blockSize + size :=
    Nat.mod_eq_of_lt (by omega)
  have hdec : p.trunc (dec64 s.blockCount) = s.blockCount - 1 := by
    unfold dec64 Params.trunc
    rw [if_neg (by omega), Nat.mod_eq_of_lt (by omega)]
  have htr : p.trunc (i + q + 1) = i + q + 1 :=
    Nat.mod_eq_of_lt (by omega)
  have hi' : i < p.maxBlocks := by omega
  have hsmod : size % 2 ^ 64 = size := Nat.mod_eq_of_lt (by omega)
  unfold tryRegion
  simp only [blockSizeInBytes, nextAt, checkIdx, hd, cassert_ndebug, Outcome.ok_bind, if_pos hi',
    Outcome.pure_eq, hi, if_true, blockIndexToPointer]
  rw [hd] at hk
  rw [hk, Outcome.ok_bind]
  have hz : (BitVec.ofNat 64 0).toNat = 0 := rfl
  rw [hz, Nat.zero_add, Nat.add_zero, hsmod, if_pos hfit, hmod1, hmod1]
  have e3 : allocateBlocks p s i (s.data + i * p.blockSize) size
      = .ok (takeFront s i (i + q)) := by
    unfold allocateBlocks
    rw [e1, Outcome.ok_bind, hmod2, e2, Outcome.ok_bind]
    simp only [nextAt, checkIdx, hd, cassert_ndebug, Outcome.ok_bind, if_pos hi', Outcome.pure_eq,
      hi, ne_eq, not_true_eq_false, if_false, if_true, hdec]
    rw [if_pos hne]
    unfold allocateBeginMatched
    simp only [setInUse, checkIdx, hd, cassert_ndebug, Outcome.ok_bind, if_pos hi', Outcome.pure_eq,
      setPrevNext, htr, if_pos hlast]
    have hlt : i < i + q + 1 := by omega
    rw [if_pos (Or.inl hlt), hi, if_pos (Or.inr rfl)]
    have hsel : upd s.next (i + q + 1) 0 i = 0 := by
      unfold upd
      rw [if_neg (by omega)]
      exact hi
    simp only [hsel, setPrev, setNext, checkIdx, hd, cassert_ndebug, Outcome.ok_bind, if_pos hi',
      Outcome.pure_eq]
    rw [if_neg (by omega), Outcome.ok_bind, if_pos (Or.inl hlt)]
    rfl
  rw [e3]
  rfl

/-- Two requests on a fresh resource over `n` blocks: all of it, and one more. -/
theorem run_overflow (hv : Valid p) (hd : p.debug = false) {buffer bytes : Nat}
    (hf : Fresh p buffer bytes s) (u : σ) {fuel : Nat} (hfuel : 2 ≤ fuel) (hsz : 0 < size)
    (hroom : s.blockCount + size / p.blockSize + 2 < p.maxBlocks) :
    run p up fuel ⟨s, u, []⟩ [.alloc (s.blockCount * p.blockSize) 1, .alloc size 1]
      = .ok ⟨takeFront (takeFront s 0 s.blockCount) (s.blockCount + 1)
          (s.blockCount + 1 + size / p.blockSize), u,
        [(s.data + (s.blockCount + 1) * p.blockSize, size),
          (s.data, s.blockCount * p.blockSize)]⟩ := by
  obtain ⟨h1, h2, h3⟩ := hf.eq hv
  have ht := (hf.start (up := up) hv u).1
  have hp : Placed p s := ht.placed
  have hsm : Small p s := ht.small
  have hnext : ∀ j, s.next j = 0 := by rw [h3]; exact fun _ => rfl
  have huse : ∀ j, s.inUse j = false := by rw [h3]; exact fun _ => rfl
  clear h1 h2 h3 ht
  have hB := hv.pos
  have hnw := hp.noWrap
  have hs1 := hp.some
  have hd0 := hp.data
  have hq : 0 ≤ size / p.blockSize := Nat.zero_le _
  have hdiv := Nat.div_add_mod size p.blockSize
  have hml := Nat.mod_lt size hB
  obtain ⟨n, hn⟩ : ∃ n, s.blockCount = n := ⟨_, rfl⟩
  have hdv : n * p.blockSize / p.blockSize = n := Nat.mul_div_cancel _ hB
  have hroom' : (n + size / p.blockSize + 3) * p.blockSize ≤ p.maxBlocks * p.blockSize :=
    Nat.mul_le_mul_right _ (by omega)
  have hexp : (n + size / p.blockSize + 3) * p.blockSize
      = n * p.blockSize + p.blockSize * (size / p.blockSize) + 3 * p.blockSize := by
    rw [Nat.add_mul, Nat.add_mul, Nat.mul_comm p.blockSize (size / p.blockSize)]
  have hn1 : (n + 1) * p.blockSize = n * p.blockSize + p.blockSize := by rw [Nat.add_mul]; omega
  have hpos : 0 < n * p.blockSize := Nat.mul_pos (by omega) hB
  have hnlt : n < 2 ^ 64 := by
    have : n * 1 ≤ n * p.blockSize := Nat.mul_le_mul_left _ hB
    omega
  -- the first request
  have t1 : tryRegion p (n * p.blockSize) 1 s 0 0
      = .ok (takeFront s 0 n, s.data, false) := by
    have := tryRegion_front (ptr := 0) hv hd hp (hnext 0) hpos (by
      rw [hn, Nat.sub_zero, Nat.add_mod_right, Nat.mod_eq_of_lt hnlt, Nat.mod_eq_of_lt (by omega)])
      (by rw [hdv]; omega) (by rw [hdv, hn]; omega)
    rw [hdv, Nat.zero_add, Nat.zero_mul, Nat.add_zero] at this
    exact this
  obtain ⟨fuel, rfl⟩ : ∃ f, fuel = f + 2 := ⟨fuel - 2, by omega⟩
  have s1 : scan p (fuel + 2) s (n * p.blockSize) 1 = .ok (takeFront s 0 n, s.data) := by
    unfold scan
    rw [applyLoop, checkIdx_ok (by omega) hp.le, Outcome.ok_bind]
    simp only [isFree, inUseAt, checkIdx_ok (by omega : 0 < s.blockCount) hp.le, Outcome.ok_bind,
      Outcome.pure_eq, huse, Bool.not_false, if_true, t1]
    rfl
  have a1 : allocate p up (fuel + 2) s u (n * p.blockSize) 1 = .ok (s.data, takeFront s 0 n, u) := by
    refine allocate_served hv ⟨⟨0, rfl⟩, hpos, by omega⟩ ?_ hd0 (by omega) hp.aligned
    rw [allocateLocal_scan (align := 1) hv hp hsm ⟨0, rfl⟩ (Or.inl (Nat.one_dvd _))]
    exact s1
  -- the second request
  have hp' : Placed p (takeFront s 0 n) := ⟨hp.data, hp.aligned, hp.noWrap, hp.some, hp.le⟩
  have hsm' : Small p (takeFront s 0 n) := hsm
  have hbc : (takeFront s 0 n).blockCount = n := hn
  have hn0 : (takeFront s 0 n).next 0 = n + 1 := by simp [takeFront, upd]
  have hnn : (takeFront s 0 n).next (n + 1) = 0 := by simp [takeFront, upd]
  have hu0 : (takeFront s 0 n).inUse 0 = true := by simp [takeFront, upd]
  have hun : (takeFront s 0 n).inUse (n + 1) = false := by simp [takeFront, upd, huse]
  have hwrap : (n + (2 ^ 64 - (n + 1))) % 2 ^ 64 * p.blockSize % 2 ^ 64 = 2 ^ 64 - p.blockSize := by
    rw [(by omega : n + (2 ^ 64 - (n + 1)) = 2 ^ 64 - 1), Nat.mod_eq_of_lt (by decide : 2 ^ 64 - 1 < 2 ^ 64),
      Nat.sub_mul, Nat.one_mul]
    obtain ⟨b, hb⟩ : ∃ b, p.blockSize = b + 1 := ⟨p.blockSize - 1, by omega⟩
    have : 2 ^ 64 * p.blockSize - p.blockSize = (2 ^ 64 - p.blockSize) + 2 ^ 64 * b := by
      rw [hb, Nat.mul_add]; omega
    rw [this, Nat.add_mul_mod_self_left, Nat.mod_eq_of_lt (by omega)]
  have t2 : tryRegion p size 1 (takeFront s 0 n) 0 (n + 1)
      = .ok (takeFront (takeFront s 0 n) (n + 1) (n + 1 + size / p.blockSize),
        s.data + (n + 1) * p.blockSize, false) := by
    refine tryRegion_front (ptr := 0) hv hd hp' hnn hsz ?_ (by omega) (by rw [hbc]; omega)
    rw [hbc, hwrap]
    omega
  have hc0 : checkIdx p (takeFront s 0 n) 0 = .ok () := by
    unfold checkIdx
    rw [hd, cassert_ndebug, Outcome.ok_bind, if_pos (by omega)]; rfl
  have hcn : checkIdx p (takeFront s 0 n) (n + 1) = .ok () := by
    unfold checkIdx
    rw [hd, cassert_ndebug, Outcome.ok_bind, if_pos (by omega)]; rfl
  have s2 : scan p (fuel + 2) (takeFront s 0 n) size 1
      = .ok (takeFront (takeFront s 0 n) (n + 1) (n + 1 + size / p.blockSize),
        s.data + (n + 1) * p.blockSize) := by
    unfold scan
    rw [applyLoop, hc0, Outcome.ok_bind]
    simp only [isFree, inUseAt, hc0, Outcome.ok_bind, Outcome.pure_eq, hu0, Bool.not_true,
      Bool.false_eq_true, if_false, hn0]
    rw [if_pos (by omega), applyLoop, hcn, Outcome.ok_bind]
    simp only [isFree, inUseAt, hcn, Outcome.ok_bind, Outcome.pure_eq, hun, Bool.not_false, if_true, t2]
    rfl
  have a2 : allocate p up (fuel + 2) (takeFront s 0 n) u size 1
      = .ok (s.data + (n + 1) * p.blockSize,
        takeFront (takeFront s 0 n) (n + 1) (n + 1 + size / p.blockSize), u) := by
    refine allocate_served hv ⟨⟨0, rfl⟩, hsz, by omega⟩ ?_ (by omega) (by omega)
      ((Nat.dvd_add_right hp.aligned).2 (Nat.dvd_mul_left _ _))
    rw [allocateLocal_scan (align := 1) hv hp' hsm' ⟨0, rfl⟩ (Or.inl (Nat.one_dvd _))]
    exact s2
  simp only [run, step, doAlloc, hn, a1, a2, Outcome.ok_bind, Outcome.pure_eq]
  rw [if_neg hd0, if_neg (by omega)]

end Utils.SR
