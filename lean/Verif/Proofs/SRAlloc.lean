import Verif.Proofs.SRChain

/-! Carving an allocation out of a free region. -/

namespace Utils.SR

open Utils Utils.Bits

variable {p : Params} {s : State}

/-- A list of regions, dropping it if empty. -/
def freeRun (n : Nat) : List Region := if n = 0 then [] else [⟨n, false⟩]

/-- What an allocation of `m` blocks at offset `a` makes of a free region of `len` blocks. -/
def carve (a m len : Nat) : List Region := freeRun a ++ [⟨m, true⟩] ++ freeRun (len - a - m)

/-- All that a caller needs to know about a carved state: the tiling of the middle part, what stays,
and the counters. -/
structure CarvedMid (s s' : State) (h pv a m len : Nat) : Prop where
  data : s'.data = s.data
  count : s'.blockCount = s.blockCount
  lo : ∀ j, j < h → s'.prev j = s.prev j ∧ s'.next j = s.next j ∧ s'.inUse j = s.inUse j
  hi : ∀ j, h + len ≤ j → j < s.blockCount → (j ≠ h + len → s'.prev j = s.prev j) ∧
    s'.next j = s.next j ∧ s'.inUse j = s.inUse j
  mid : ∃ pm, Seg s' h pv (carve a m len) (h + len) pm ∧
    (h + len < s.blockCount → s'.prev (h + len) = pm)
  free : s'.freeCount
    = s.freeCount + (if a = 0 then 0 else 1) + (if len - a - m = 0 then 0 else 1) - 1
  busy : s'.busyCount = s.busyCount + 1
  links : ∀ j, j ≠ h → j ≠ h + a → j ≠ h + a + m → s'.next j = s.next j

variable {h pv len : Nat}

theorem carve_begin (hv : Valid p) (hle : s.blockCount ≤ p.maxBlocks) {pm : Nat}
    (hseg : Seg s h pv [⟨len, false⟩] (h + len) pm)
    (hb : s.busyCount + 1 < 2 ^ 64)
    {m : Nat} (hm : 0 < m) (hml : m < len) :
    ∃ s', allocateBeginMatched p s h (h + m - 1) (h + len - 1) = .ok s' ∧
      CarvedMid s s' h pv 0 m len := by
  obtain ⟨h1, h2, h3, h4, h5, h6, -⟩ := hseg
  simp only at h1 h2 h3 h4 h5 h6
  have ht : p.trunc (h + m - 1 + 1) = h + m := by
    rw [Nat.sub_add_cancel (by omega)]; exact hv.trunc_eq (by omega)
  have hnx : s.next h < s.blockCount := by rw [h4]; split <;> omega
  have hnx2 : h + m < s.next h ∨ s.next h = 0 := by rw [h4]; split <;> omega
  refine ⟨incBusy (withNext (linkPrev (withNext (withPrev (withUse s h true) (h + m) h) (h + m)
    (s.next h)) (h + len) (h + m)) h (h + m)), ?_, ?_⟩
  · unfold allocateBeginMatched
    rw [decide_eq_true (by omega), decide_eq_true (by omega), cassert_true, Outcome.ok_bind,
      Outcome.ok_bind, setInUse_ok (by omega) hle, Outcome.ok_bind]
    simp only [ht]
    rw [checkIdx_ok (by simp; omega) (by simpa using hle), Outcome.ok_bind,
      setPrevNext_ok (by simp; omega) (by simpa using hle) (by omega) (by simpa using hnx)
        (by simpa using hnx2), Outcome.ok_bind,
      setPrev_link (e := h + len) (by simpa using hle) (by simpa using h2) (by omega) (by omega)
        (by simp only [sr_proj]; rw [upd_ne _ _ (by omega), h4]; rfl), Outcome.ok_bind,
      setNext_ok (by simp; omega) (by simpa using hle) (by omega) (by simp; omega), Outcome.ok_bind]
    rfl
  · refine ⟨by simp, by simp, ?_, ?_, ?_, ?_, by simp [inc64_eq hb],
      by intro j h1 h2 h3; simp only [sr_proj, upd]; grind⟩
    · intro j hj
      simp only [sr_proj, upd]
      grind
    · intro j hj hj'
      simp only [sr_proj, upd]
      grind
    · refine ⟨h + m, ?_, ?_⟩
      · simp only [carve, freeRun, if_true, List.nil_append, List.cons_append,
          if_neg (by omega : ¬ len - 0 - m = 0), Seg, sr_proj, upd]
        and_intros <;> grind
      · intro hlt
        simp only [sr_proj, upd]
        grind
    · simp only [sr_proj, if_neg (by omega : ¬ len - 0 - m = 0)]; simp

theorem carve_matched (hle : s.blockCount ≤ p.maxBlocks) {pm : Nat}
    (hseg : Seg s h pv [⟨len, false⟩] (h + len) pm)
    (hlink : h + len < s.blockCount → s.prev (h + len) = pm)
    (hf1 : 0 < s.freeCount) (hb : s.busyCount + 1 < 2 ^ 64) :
    ∃ s', allocateMatched p s h = .ok s' ∧ CarvedMid s s' h pv 0 len len := by
  obtain ⟨h1, h2, h3, h4, h5, h6, h7⟩ := hseg
  simp only at h1 h2 h3 h4 h5 h6
  simp only [Seg] at h7
  refine ⟨incBusy (decFree (withUse s h true)), ?_, ?_⟩
  · unfold allocateMatched
    rw [decide_eq_true (by omega), cassert_true, Outcome.ok_bind, setInUse_ok (by omega) hle,
      Outcome.ok_bind]
    rfl
  · refine ⟨by simp, by simp, ?_, ?_, ?_, ?_, by simp [inc64_eq hb],
      by intro j h1 h2 h3; simp only [sr_proj]⟩
    · intro j hj
      simp only [sr_proj, upd]
      grind
    · intro j hj hj'
      simp only [sr_proj, upd]
      grind
    · refine ⟨h, ?_, ?_⟩
      · simp only [carve, freeRun, if_true, List.nil_append, List.cons_append,
          if_pos (by omega : len - 0 - len = 0), Seg, sr_proj, upd]
        and_intros <;> grind
      · intro hlt
        simp only [sr_proj]
        grind
    · simp only [sr_proj, if_pos (by omega : len - 0 - len = 0), dec64_eq hf1]; simp

theorem carve_not (hv : Valid p) (hle : s.blockCount ≤ p.maxBlocks) {pm : Nat}
    (hseg : Seg s h pv [⟨len, false⟩] (h + len) pm)
    (hf : s.freeCount + 1 < 2 ^ 64) (hb : s.busyCount + 1 < 2 ^ 64)
    {a m : Nat} (ha : 0 < a) (hm : 0 < m) (hml : a + m < len) :
    ∃ s', allocateNotMatched p s h (h + a) (h + a + m - 1) (h + len - 1) = .ok s' ∧
      CarvedMid s s' h pv a m len := by
  obtain ⟨h1, h2, h3, h4, h5, h6, -⟩ := hseg
  simp only at h1 h2 h3 h4 h5 h6
  have ht : p.trunc (h + a + m - 1 + 1) = h + a + m := by
    rw [Nat.sub_add_cancel (by omega)]; exact hv.trunc_eq (by omega)
  have hnx : s.next h < s.blockCount := by rw [h4]; split <;> omega
  have hnx2 : h + a + m < s.next h ∨ s.next h = 0 := by rw [h4]; split <;> omega
  refine ⟨incBusy (incFree (withNext (linkPrev (withNext (withPrev (withNext (withPrev
    (withUse s (h + a) true) (h + a) h) (h + a) (h + a + m)) (h + a + m) (h + a)) (h + a + m)
    (s.next h)) (h + len) (h + a + m)) h (h + a))), ?_, ?_⟩
  · unfold allocateNotMatched
    rw [decide_eq_true (by omega), decide_eq_true (by omega), decide_eq_true (by omega),
      cassert_true, Outcome.ok_bind,
      Outcome.ok_bind, Outcome.ok_bind, setInUse_ok (by omega) hle, Outcome.ok_bind]
    simp only [ht]
    have e1 : upd s.next (h + a) (h + a + m) h = s.next h := upd_ne _ _ (by omega)
    rw [checkIdx_ok (by simp; omega) (by simpa using hle), Outcome.ok_bind,
      setPrevNext_ok (by simp; omega) (by simpa using hle) (by omega) (by simp; omega)
        (by omega), Outcome.ok_bind,
      setPrevNext_ok (by simp; omega) (by simpa using hle) (by omega)
        (by simp only [sr_proj]; rw [e1]; exact hnx) (by simp only [sr_proj]; rw [e1]; exact hnx2),
      Outcome.ok_bind,
      setPrev_link (e := h + len) (by simpa using hle) (by simpa using h2) (by omega) (by omega)
        (by simp only [sr_proj]; rw [upd_ne _ _ (by omega), e1, h4]; rfl), Outcome.ok_bind,
      setNext_ok (by simp; omega) (by simpa using hle) (by omega) (by simp; omega), Outcome.ok_bind]
    simp only [sr_proj, e1]
    rfl
  · refine ⟨by simp, by simp, ?_, ?_, ?_, ?_, by simp [inc64_eq hb],
      by intro j h1 h2 h3; simp only [sr_proj, upd]; grind⟩
    · intro j hj
      simp only [sr_proj, upd]
      grind
    · intro j hj hj'
      simp only [sr_proj, upd]
      grind
    · refine ⟨h + a + m, ?_, ?_⟩
      · simp only [carve, freeRun, List.nil_append, List.cons_append,
          if_neg (by omega : ¬ len - a - m = 0), if_neg (by omega : ¬ a = 0), Seg, sr_proj, upd]
        and_intros <;> grind
      · intro hlt
        simp only [sr_proj, upd]
        grind
    · simp only [sr_proj, if_neg (by omega : ¬ len - a - m = 0), if_neg (by omega : ¬ a = 0),
        inc64_eq hf]
      omega

theorem carve_end (hv : Valid p) (hle : s.blockCount ≤ p.maxBlocks) {pm : Nat}
    (hseg : Seg s h pv [⟨len, false⟩] (h + len) pm)
    (hb : s.busyCount + 1 < 2 ^ 64)
    {a m : Nat} (ha : 0 < a) (hm : 0 < m) (hml : a + m = len) :
    ∃ s', allocateEndMatched p s h (h + a) (h + len - 1) = .ok s' ∧
      CarvedMid s s' h pv a m len := by
  obtain ⟨h1, h2, h3, h4, h5, h6, -⟩ := hseg
  simp only at h1 h2 h3 h4 h5 h6
  have ht : p.trunc (if h + len - 1 < dec64 (withUse s (h + a) true).blockCount
      then h + len - 1 + 1 else 0) = s.next h := by
    rw [withUse_blockCount, dec64_eq (by omega), h4]
    by_cases he : h + len = s.blockCount
    · rw [if_neg (by omega), if_pos he]; exact hv.trunc_eq (by omega)
    · rw [if_pos (by omega), if_neg he, hv.trunc_eq (by omega)]; omega
  have hnx : s.next h < s.blockCount := by rw [h4]; split <;> omega
  have hnx2 : h + a < s.next h ∨ s.next h = 0 := by rw [h4]; split <;> omega
  refine ⟨incBusy (withNext (linkPrev (withNext (withPrev (withUse s (h + a) true) (h + a) h)
    (h + a) (s.next h)) (h + len) (h + a)) h (h + a)), ?_, ?_⟩
  · unfold allocateEndMatched
    rw [decide_eq_true (by omega), decide_eq_true (by omega), cassert_true, Outcome.ok_bind,
      Outcome.ok_bind, setInUse_ok (by omega) hle, Outcome.ok_bind]
    simp only [ht]
    rw [checkIdx_ok (by simp; omega) (by simpa using hle), Outcome.ok_bind,
      setPrevNext_ok (by simp; omega) (by simpa using hle) (by omega) (by simpa using hnx)
        (by simpa using hnx2), Outcome.ok_bind,
      setPrev_link (e := h + len) (by simpa using hle) (by simpa using h2) (by omega) (by omega)
        (by simp only [sr_proj]; rw [upd_ne _ _ (by omega), h4]; rfl), Outcome.ok_bind,
      setNext_ok (by simp; omega) (by simpa using hle) (by omega) (by simp; omega), Outcome.ok_bind]
    rfl
  · refine ⟨by simp, by simp, ?_, ?_, ?_, ?_, by simp [inc64_eq hb],
      by intro j h1 h2 h3; simp only [sr_proj, upd]; grind⟩
    · intro j hj
      simp only [sr_proj, upd]
      grind
    · intro j hj hj'
      simp only [sr_proj, upd]
      grind
    · refine ⟨h + a, ?_, ?_⟩
      · simp only [carve, freeRun, List.nil_append, List.cons_append, List.append_nil,
          if_pos (by omega : len - a - m = 0), if_neg (by omega : ¬ a = 0), Seg, sr_proj, upd]
        and_intros <;> grind
      · intro hlt
        simp only [sr_proj, upd]
        grind
    · simp only [sr_proj, if_pos (by omega : len - a - m = 0), if_neg (by omega : ¬ a = 0)]
      omega

/-- `allocate_blocks` on a free region that holds the request with at least one byte to spare. -/
theorem allocateBlocks_ok (hv : Valid p) (hp : Placed p s) {pm : Nat}
    (hseg : Seg s h pv [⟨len, false⟩] (h + len) pm)
    (hlink : h + len < s.blockCount → s.prev (h + len) = pm)
    (hf1 : 0 < s.freeCount) (hf : s.freeCount + 1 < 2 ^ 64) (hb : s.busyCount + 1 < 2 ^ 64)
    {a size : Nat} (hfit : a * p.blockSize + size < len * p.blockSize) :
    ∃ s', allocateBlocks p s h (s.data + (h + a) * p.blockSize) size = .ok s' ∧
      CarvedMid s s' h pv a (size / p.blockSize + 1) len := by
  have hseg' := hseg
  obtain ⟨h1, h2, h3, h4, h5, h6, -⟩ := hseg'
  simp only at h1 h2 h3 h4 h5 h6
  have hB := hv.pos
  have hle := hp.le
  have hnw := hp.noWrap
  have hlB : (h + len) * p.blockSize ≤ p.maxBlocks * p.blockSize := Nat.mul_le_mul_right _ (by omega)
  have e1 : (h + a) * p.blockSize = h * p.blockSize + a * p.blockSize := Nat.add_mul _ _ _
  have e2 : (h + len) * p.blockSize = h * p.blockSize + len * p.blockSize := Nat.add_mul _ _ _
  have hfirst : pointerToBlockIndex p s (s.data + (h + a) * p.blockSize) = .ok (h + a) := by
    rw [pointerToBlockIndex_ok hv hp (by omega), Nat.mul_div_cancel _ hB]
  have hq : a + size / p.blockSize < len := by
    have : (a * p.blockSize + size) / p.blockSize < len := by
      rw [Nat.div_lt_iff_lt_mul hB]; exact hfit
    rw [Nat.add_comm, Nat.add_mul_div_right _ _ hB] at this
    omega
  have hlast : pointerToBlockIndex p s ((s.data + (h + a) * p.blockSize + size) % 2 ^ 64)
      = .ok (h + a + size / p.blockSize) := by
    rw [Nat.mod_eq_of_lt (by omega), Nat.add_assoc, pointerToBlockIndex_ok hv hp (by omega),
      Nat.add_comm ((h + a) * p.blockSize) size, Nat.add_mul_div_right _ _ hB, Nat.add_comm]
  have hnext : nextAt p s h = .ok (s.next h) := by
    unfold nextAt
    rw [checkIdx_ok (by omega) hle]
    rfl
  have hlof : (if s.next h ≠ 0 then s.next h - 1 else p.trunc (dec64 s.blockCount))
      = h + len - 1 := by
    rw [dec64_eq (by omega), hv.trunc_eq (by omega), h4]
    by_cases he : h + len = s.blockCount
    · rw [if_pos he, if_neg (by omega)]; omega
    · rw [if_neg he, if_pos (by omega)]
  unfold allocateBlocks
  rw [hfirst, Outcome.ok_bind, hlast, Outcome.ok_bind, hnext, Outcome.ok_bind]
  simp only [hlof]
  clear hfirst hlast hnext hfit e1 e2 hlB hlof hnw
  generalize size / p.blockSize = q at *
  have hmm : h + a + q = h + a + (q + 1) - 1 := by omega
  by_cases ha : a = 0
  · subst ha
    rw [if_pos (by omega)]
    by_cases hl : h + 0 + q = h + len - 1
    · rw [if_neg (by omega)]
      rw [(by omega : q + 1 = len)]
      exact carve_matched hle hseg hlink hf1 hb
    · rw [if_pos hl, hmm]
      exact carve_begin hv hle hseg hb (by omega) (by omega)
  · rw [if_neg (by omega)]
    by_cases hl : h + a + q = h + len - 1
    · rw [if_neg (by omega), hl]
      exact carve_end hv hle hseg hb (by omega) (by omega) (by omega)
    · rw [if_pos hl, hmm]
      exact carve_not hv hle hseg hf hb (by omega) (by omega) (by omega)

end Utils.SR
