import Verif.Proofs.SRScanExact

/-! Builds without assertions: filling a region to its last byte. -/

namespace Utils.SR
open Utils Utils.Bits
variable {p : Params} {s : State} {size align : Nat} {σ : Type} {up : Option (Upstream σ)}

section release
variable (hd : p.debug = false)
include hd

theorem setInUse_release {i : Nat} (hi : i < p.maxBlocks) (v : Bool) :
    Succeeds (setInUse p s i v) fun s' => s'.next = s.next ∧ s'.inUse = upd s.inUse i v := by
  unfold setInUse checkIdx
  rw [hd, cassert_ndebug, Outcome.ok_bind, if_pos hi]
  exact .ok ⟨rfl, rfl⟩

theorem setPrev_release {i : Nat} (hi : i < p.maxBlocks) (pv : Nat) :
    Succeeds (setPrev p s i pv) fun s' => s'.next = s.next ∧ s'.inUse = s.inUse := by
  unfold setPrev checkIdx
  rw [hd, cassert_ndebug, Outcome.ok_bind, if_pos hi]
  split <;> exact .ok ⟨rfl, rfl⟩

theorem setNext_release {i : Nat} (hi : i < p.maxBlocks) {nx : Nat} (h : i < nx) :
    Succeeds (setNext p s i nx) fun s' => s'.next = upd s.next i nx ∧ s'.inUse = s.inUse := by
  unfold setNext checkIdx
  rw [hd, cassert_ndebug, Outcome.ok_bind, if_pos hi, if_pos (Or.inl h)]
  exact .ok ⟨rfl, rfl⟩

theorem setPrevNext_release {i : Nat} (hi : i < p.maxBlocks) (pv nx : Nat) :
    Succeeds (setPrevNext p s i pv nx) fun s' =>
      s'.next = (if i < nx ∨ nx = 0 then upd s.next i nx else s.next) ∧ s'.inUse = s.inUse := by
  unfold setPrevNext checkIdx
  rw [hd, cassert_ndebug, Outcome.ok_bind, Outcome.ok_bind, if_pos hi]
  refine .ok ?_
  split <;> split <;> exact ⟨rfl, rfl⟩

theorem checkIdx_release {i : Nat} (hi : i < p.maxBlocks) :
    Succeeds (checkIdx p s i) fun _ => True := by
  unfold checkIdx
  rw [hd, cassert_ndebug, Outcome.ok_bind, if_pos hi]
  exact .ok trivial

end release

/-- Without assertions, filling a recorded region to its last byte records a region that is one block
too long. -/
theorem allocateBlocks_overlong (hv : Valid p) (hp : Placed p s) (hl : LinksForward s)
    (hd : p.debug = false) {i a size : Nat} (hi : i < s.blockCount) (hpos : 0 < size)
    (hfit : a * p.blockSize + size = (stop s i - i) * p.blockSize)
    (hroom : stop s i + 1 < p.maxBlocks) :
    ∃ s', allocateBlocks p s i (s.data + (i + a) * p.blockSize) size = .ok s' ∧
      s'.inUse (i + a) = true ∧ s'.next (i + a) = stop s i + 1 := by
  have hle := hp.le
  have hnw := hp.noWrap
  have hB := hv.pos
  have hw := hv.le_width
  have hst : i < stop s i ∧ stop s i ≤ s.blockCount := by
    unfold stop
    have := hl i hi
    split <;> omega
  have hnx : s.next i = 0 ∨ s.next i = stop s i := by
    unfold stop
    split <;> omega
  have hlB : stop s i * p.blockSize < p.maxBlocks * p.blockSize :=
    Nat.mul_lt_mul_of_pos_right (by omega) hB
  have e1 : (i + a) * p.blockSize = i * p.blockSize + a * p.blockSize := Nat.add_mul _ _ _
  have e2 : stop s i * p.blockSize = i * p.blockSize + (stop s i - i) * p.blockSize := by
    rw [← Nat.add_mul]; congr 1; omega
  have hal : a < stop s i - i := by
    apply Nat.lt_of_not_le
    intro hge
    have : (stop s i - i) * p.blockSize ≤ a * p.blockSize := Nat.mul_le_mul_right _ hge
    omega
  have htr : p.trunc (stop s i + 1) = stop s i + 1 := Nat.mod_eq_of_lt (by omega)
  unfold allocateBlocks
  rw [pointerToBlockIndex_ok hv hp (by omega), Outcome.ok_bind, Nat.mul_div_cancel _ hB,
    Nat.mod_eq_of_lt (by omega), Nat.add_assoc, (by omega : (i + a) * p.blockSize + size
      = stop s i * p.blockSize), pointerToBlockIndex_ok hv hp hlB,
      Outcome.ok_bind, Nat.mul_div_cancel _ hB, nextAt_ok hi hle, Outcome.ok_bind]
  simp only [lastOfFree_eq hv hp hl hi]
  generalize stop s i = n at *
  have c1 : i < p.maxBlocks := by omega
  have c2 : i + a < p.maxBlocks := by omega
  have c3 : s.next i < p.maxBlocks := by omega
  have c4 : n + 1 < p.maxBlocks := hroom
  split
  · next ha =>
    have ha0 : a = 0 := by omega
    subst ha0
    rw [if_pos (by omega)]
    unfold allocateBeginMatched
    rw [hd, cassert_ndebug, Outcome.ok_bind, cassert_ndebug, Outcome.ok_bind, htr]
    refine (setInUse_release hd c1 true).bind fun s1 h1 => ?_
    refine (checkIdx_release hd c1).bind fun _ _ => ?_
    refine (setPrevNext_release hd c4 i _).bind fun s2 h2 => ?_
    have k2 : s2.next i = s.next i := by
      rw [h2.1]
      split
      · unfold upd
        rw [if_neg (by omega), h1.1]
      · rw [h1.1]
    refine (setPrev_release hd (k2 ▸ c3) _).bind fun s3 h3 => ?_
    refine (setNext_release hd c1 (by omega)).bind fun s4 h4 => ?_
    refine .ok ⟨?_, ?_⟩
    · show s4.inUse (i + 0) = true
      rw [h4.2, h3.2, h2.2, h1.2]
      simp [upd]
    · show s4.next (i + 0) = n + 1
      rw [h4.1]
      simp [upd]
  · next ha =>
    rw [if_pos (by omega)]
    unfold allocateNotMatched
    rw [hd, cassert_ndebug, Outcome.ok_bind, cassert_ndebug, Outcome.ok_bind, cassert_ndebug,
      Outcome.ok_bind, htr]
    refine (setInUse_release hd c2 true).bind fun s1 h1 => ?_
    refine (checkIdx_release hd c1).bind fun _ _ => ?_
    refine (setPrevNext_release hd c2 i _).bind fun s2 h2 => ?_
    rw [if_pos (Or.inl (by omega))] at h2
    have k2 : s2.next i = s.next i := by
      rw [h2.1]
      unfold upd
      rw [if_neg (by omega), h1.1]
    refine (setPrevNext_release hd c4 _ _).bind fun s3 h3 => ?_
    have k3 : s3.next i = s.next i ∧ s3.next (i + a) = n + 1 := by
      rw [h3.1]
      split
      · unfold upd
        rw [if_neg (by omega), if_neg (by omega), k2, h2.1]
        simp [upd]
      · rw [k2, h2.1]
        simp [upd]
    refine (setPrev_release hd (k3.1 ▸ c3) _).bind fun s4 h4 => ?_
    refine (setNext_release hd c1 (by omega)).bind fun s5 h5 => ?_
    refine .ok ⟨?_, ?_⟩
    · show s5.inUse (i + a) = true
      rw [h5.2, h4.2, h3.2, h2.2, h1.2]
      simp [upd]
    · show s5.next (i + a) = n + 1
      rw [h5.1]
      unfold upd
      rw [if_neg (by omega), h4.1, k3.2]

/-- Without assertions, filling a recorded region to its last byte writes behind the table if the table ends there. -/
theorem allocateBlocks_past (hv : Valid p) (hp : Placed p s) (hl : LinksForward s)
    (hd : p.debug = false) {i a size : Nat} (hi : i < s.blockCount) (hpos : 0 < size)
    (hfit : a * p.blockSize + size = (stop s i - i) * p.blockSize)
    (hfull : p.maxBlocks ≤ stop s i + 1) (hwide : stop s i + 1 < 2 ^ p.width) :
    allocateBlocks p s i (s.data + (i + a) * p.blockSize) size = .ub := by
  have hle := hp.le
  have hnw := hp.noWrap
  have hB := hv.pos
  have hst : i < stop s i ∧ stop s i ≤ s.blockCount := by
    unfold stop
    have := hl i hi
    split <;> omega
  have hlB : stop s i * p.blockSize ≤ p.maxBlocks * p.blockSize :=
    Nat.mul_le_mul_right _ (by omega)
  have e1 : (i + a) * p.blockSize = i * p.blockSize + a * p.blockSize := Nat.add_mul _ _ _
  have e2 : stop s i * p.blockSize = i * p.blockSize + (stop s i - i) * p.blockSize := by
    rw [← Nat.add_mul]; congr 1; omega
  have hal : a < stop s i - i := by
    apply Nat.lt_of_not_le
    intro hge
    have : (stop s i - i) * p.blockSize ≤ a * p.blockSize := Nat.mul_le_mul_right _ hge
    omega
  have htr : p.trunc (stop s i + 1) = stop s i + 1 := Nat.mod_eq_of_lt hwide
  have hend : pointerToBlockIndex p s (s.data + stop s i * p.blockSize) = .ok (stop s i) := by
    unfold pointerToBlockIndex
    rw [hd, cassert_ndebug, Outcome.ok_bind, cassert_ndebug, Outcome.ok_bind, Outcome.pure_eq,
      show (s.data + stop s i * p.blockSize + (2 ^ 64 - s.data)) % 2 ^ 64 = stop s i * p.blockSize by omega,
      Nat.mul_div_cancel _ hB]
    exact congrArg _ (Nat.mod_eq_of_lt (by omega))
  unfold allocateBlocks
  rw [pointerToBlockIndex_ok hv hp (by omega), Outcome.ok_bind, Nat.mul_div_cancel _ hB,
    Nat.mod_eq_of_lt (by omega), Nat.add_assoc, (by omega : (i + a) * p.blockSize + size
      = stop s i * p.blockSize), hend, Outcome.ok_bind, nextAt_ok hi hle, Outcome.ok_bind]
  simp only [lastOfFree_eq hv hp hl hi]
  generalize stop s i = n at *
  have c1 : i < p.maxBlocks := by omega
  have c2 : i + a < p.maxBlocks := by omega
  have c4 : ¬ n + 1 < p.maxBlocks := by omega
  have past : ∀ (t : State) pv nx, setPrevNext p t (n + 1) pv nx = .ub := by
    intro t pv nx
    unfold setPrevNext checkIdx
    rw [hd, cassert_ndebug, Outcome.ok_bind, cassert_ndebug, Outcome.ok_bind, Outcome.ok_bind, if_neg c4]
    rfl
  split
  · rw [if_pos (by omega)]
    unfold allocateBeginMatched
    rw [hd, cassert_ndebug, Outcome.ok_bind, cassert_ndebug, Outcome.ok_bind, htr]
    obtain ⟨s1, h1, -⟩ := setInUse_release (s := s) hd c1 true
    obtain ⟨_, h2, -⟩ := checkIdx_release (s := s1) hd c1
    rw [h1, Outcome.ok_bind, h2, Outcome.ok_bind, past]
    rfl
  · rw [if_pos (by omega)]
    unfold allocateNotMatched
    rw [hd, cassert_ndebug, Outcome.ok_bind, cassert_ndebug, Outcome.ok_bind, cassert_ndebug,
      Outcome.ok_bind, htr]
    obtain ⟨s1, h1, -⟩ := setInUse_release (s := s) hd c2 true
    obtain ⟨_, h2, -⟩ := checkIdx_release (s := s1) hd c1
    obtain ⟨s2, h3, -⟩ := setPrevNext_release (s := s1) hd c2 i (n + 1)
    rw [h1, Outcome.ok_bind, h2, Outcome.ok_bind, h3, Outcome.ok_bind, past]
    rfl

end Utils.SR
