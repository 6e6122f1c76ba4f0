import Verif.Spec.SimpleResource
import Verif.Proofs.BitsMore
import Verif.Proofs.SRAttr

/-! Lemmas about the region chains of `simple_resource`. -/

namespace Utils.SR

open Utils Utils.Bits

theorem blocks_append (a b : List Region) : blocks (a ++ b) = blocks a + blocks b := by
  simp [blocks]

@[simp] theorem blocks_nil : blocks [] = 0 := rfl

@[simp] theorem blocks_cons (r : Region) (rs : List Region) : blocks (r :: rs) = r.len + blocks rs := by
  simp [blocks]

theorem Seg.end_eq {s : State} {h pv h' pv' : Nat} {rs : List Region} (hs : Seg s h pv rs h' pv') :
    h' = h + blocks rs := by
  induction rs generalizing h pv with
  | nil => exact hs.1
  | cons r rs ih =>
    obtain ⟨_, _, _, _, _, _, h7⟩ := hs
    have := ih h7
    rw [blocks_cons]
    omega

theorem seg_append {s : State} {h pv h' pv' : Nat} {a b : List Region} :
    Seg s h pv (a ++ b) h' pv' ↔ ∃ m pm, Seg s h pv a m pm ∧ Seg s m pm b h' pv' := by
  induction a generalizing h pv with
  | nil =>
    constructor
    · intro hs; exact ⟨h, pv, ⟨rfl, rfl⟩, hs⟩
    · rintro ⟨m, pm, ⟨rfl, rfl⟩, hs⟩; exact hs
  | cons r a ih =>
    simp only [List.cons_append, Seg, ih]
    constructor
    · rintro ⟨h1, h2, h3, h4, h5, h6, m, pm, h7, h8⟩
      exact ⟨m, pm, ⟨h1, h2, h3, h4, h5, h6, h7⟩, h8⟩
    · rintro ⟨m, pm, ⟨h1, h2, h3, h4, h5, h6, h7⟩, h8⟩
      exact ⟨h1, h2, h3, h4, h5, h6, m, pm, h7, h8⟩

/-- Only the blocks of the segment matter. -/
theorem Seg.frame {s s' : State} {h pv h' pv' : Nat} {rs : List Region}
    (hs : Seg s h pv rs h' pv') (hn : s'.blockCount = s.blockCount)
    (hf : ∀ j, h ≤ j → j < h' → s'.prev j = s.prev j ∧ s'.next j = s.next j ∧
      s'.inUse j = s.inUse j) : Seg s' h pv rs h' pv' := by
  induction rs generalizing h pv with
  | nil => exact hs
  | cons r rs ih =>
    have he := hs.end_eq
    rw [blocks_cons] at he
    obtain ⟨h1, h2, h3, h4, h5, h6, h7⟩ := hs
    obtain ⟨f1, f2, f3⟩ := hf h (Nat.le_refl _) (by omega)
    refine ⟨h1, by omega, by rw [f1, h3], by rw [f2, h4, hn], by rw [f3, h5], ?_,
      ih h7 fun j hj hj' => hf j (by omega) hj'⟩
    intro j hj hj'
    rw [(hf j (by omega) (by omega)).2.2]
    exact h6 j hj hj'

/-- As `Seg.frame`, with the back link of the first region changed. -/
theorem Seg.relink {s s' : State} {h pv h' pv' x : Nat} {rs : List Region}
    (hs : Seg s h pv rs h' pv') (hn : s'.blockCount = s.blockCount)
    (hx : h < h' → s'.prev h = x)
    (hf : ∀ j, h ≤ j → j < h' → (j ≠ h → s'.prev j = s.prev j) ∧ s'.next j = s.next j ∧
      s'.inUse j = s.inUse j) : ∃ pv'', Seg s' h x rs h' pv'' := by
  cases rs with
  | nil => exact ⟨x, hs.1, rfl⟩
  | cons r rs =>
    have he := hs.end_eq
    rw [blocks_cons] at he
    obtain ⟨h1, h2, h3, h4, h5, h6, h7⟩ := hs
    obtain ⟨-, f2, f3⟩ := hf h (Nat.le_refl _) (by omega)
    refine ⟨pv', h1, by omega, hx (by omega), by rw [f2, h4, hn], by rw [f3, h5], ?_,
      h7.frame hn fun j hj hj' => ?_⟩
    · intro j hj hj'
      rw [(hf j (by omega) (by omega)).2.2]
      exact h6 j hj hj'
    · obtain ⟨g1, g2, g3⟩ := hf j (by omega) hj'
      exact ⟨g1 (by omega), g2, g3⟩

/-- Replace the middle of a chain. -/
theorem Seg.replace {s s' : State} {h e pv : Nat} {pre mid' post : List Region} {pve : Nat}
    (hpre : Seg s 0 0 pre h pv) (hpost : ∃ pm, Seg s e pm post s.blockCount pve)
    (hn : s'.blockCount = s.blockCount)
    (hlo : ∀ j, j < h → s'.prev j = s.prev j ∧ s'.next j = s.next j ∧ s'.inUse j = s.inUse j)
    (hhi : ∀ j, e ≤ j → j < s.blockCount → (j ≠ e → s'.prev j = s.prev j) ∧ s'.next j = s.next j ∧
      s'.inUse j = s.inUse j)
    {pm' : Nat} (hmid : Seg s' h pv mid' e pm') (hlink : e < s.blockCount → s'.prev e = pm') :
    ∃ pv', Seg s' 0 0 (pre ++ mid' ++ post) s'.blockCount pv' := by
  obtain ⟨pm, hpost⟩ := hpost
  obtain ⟨pv'', hp⟩ := hpost.relink hn hlink hhi
  refine ⟨pv'', ?_⟩
  rw [seg_append]
  refine ⟨e, pm', ?_, by rw [hn]; exact hp⟩
  rw [seg_append]
  exact ⟨h, pv, hpre.frame hn fun j _ hj => hlo j hj, hmid⟩

/-! ## Primitive operations that succeed -/

variable {p : Params} {s : State}

theorem checkIdx_ok {i : Nat} (hi : i < s.blockCount) (hle : s.blockCount ≤ p.maxBlocks) :
    checkIdx p s i = .ok () := by
  unfold checkIdx
  rw [decide_eq_true hi, cassert_true, Outcome.ok_bind, if_pos (by omega)]
  rfl

theorem Valid.le_width (hv : Valid p) : p.maxBlocks ≤ 2 ^ p.width := by
  obtain ⟨k, hk⟩ := hv.pow2
  have hp := Nat.two_pow_pos k
  have h2 := hv.two
  have hlt : p.maxBlocks < 2 ^ 64 := by
    have := hv.area
    have : p.maxBlocks * 1 ≤ p.maxBlocks * p.blockSize := Nat.mul_le_mul_left _ (by omega)
    omega
  have hb := bitsCount_bitLength (BitVec.ofNat 64 (p.maxBlocks - 1))
  have hle := bitsCount_le (BitVec.ofNat 64 (p.maxBlocks - 1))
  have ht : (BitVec.ofNat 64 (p.maxBlocks - 1)).toNat = p.maxBlocks - 1 := by
    rw [BitVec.toNat_ofNat, Nat.mod_eq_of_lt (by omega)]
  rw [ht] at hb
  unfold Params.width
  generalize bitsCount (BitVec.ofNat 64 (p.maxBlocks - 1)) = b at *
  have hb1 := hb.1
  have key : ∀ w, uintFromNbits b = some w → p.maxBlocks ≤ 2 ^ ((uintFromNbits b).getD 0) ∨ w < b := by
    intro w hw
    by_cases h : w < b
    · exact Or.inr h
    · left
      rw [hw, Option.getD_some]
      have : 2 ^ b ≤ 2 ^ w := Nat.pow_le_pow_right (by decide) (by omega)
      omega
  have hb0 : b ≠ 0 := by
    rintro rfl
    simp at hb1
    omega
  unfold uintFromNbits at *
  have hp2 : ∀ w, b ≤ w → 2 ^ b ≤ 2 ^ w := fun w h => Nat.pow_le_pow_right (by decide) h
  split
  · have := hp2 8 (by omega); simp only [Option.getD_some]; omega
  · split
    · have := hp2 16 (by omega); simp only [Option.getD_some]; omega
    · split
      · have := hp2 32 (by omega); simp only [Option.getD_some]; omega
      · split
        · have := hp2 64 (by omega); simp only [Option.getD_some]; omega
        · omega

theorem Valid.trunc_eq (hv : Valid p) {i : Nat} (hi : i < p.maxBlocks) : p.trunc i = i :=
  Nat.mod_eq_of_lt (Nat.lt_of_lt_of_le hi hv.le_width)

theorem Valid.pos (hv : Valid p) : 0 < p.blockSize := by
  obtain ⟨k, hk⟩ := hv.pow2
  have := Nat.two_pow_pos k
  omega

theorem Valid.max_lt (hv : Valid p) : p.maxBlocks < 2 ^ 64 := by
  have := hv.area
  have := hv.pos
  have : p.maxBlocks * 1 ≤ p.maxBlocks * p.blockSize := Nat.mul_le_mul_left _ (by omega)
  omega

theorem pointerToBlockIndex_ok (hv : Valid p) (hp : Placed p s) {off : Nat}
    (ho : off < p.maxBlocks * p.blockSize) :
    pointerToBlockIndex p s (s.data + off) = .ok (off / p.blockSize) := by
  have h1 := hp.noWrap
  have hm : p.maxResourceSize = p.maxBlocks * p.blockSize := by
    unfold Params.maxResourceSize
    rw [Nat.mul_comm, Nat.mod_eq_of_lt hv.area]
  unfold pointerToBlockIndex
  rw [decide_eq_true (by omega : s.data ≤ s.data + off), hm, Nat.mod_eq_of_lt h1,
    decide_eq_true (by omega), cassert_true, Outcome.ok_bind, Outcome.ok_bind, Outcome.pure_eq]
  have e : (s.data + off + (2 ^ 64 - s.data)) % 2 ^ 64 = off := by omega
  rw [e, hv.trunc_eq]
  exact Nat.div_lt_of_lt_mul (by rwa [Nat.mul_comm] at ho)

theorem inc64_eq {x : Nat} (h : x + 1 < 2 ^ 64) : inc64 x = x + 1 := if_neg (by omega)
theorem dec64_eq {x : Nat} (h0 : 0 < x) : dec64 x = x - 1 := if_neg (by omega)

/-! Field updates as opaque functions, with their projections. -/

def withUse (s : State) (i : Nat) (v : Bool) : State := { s with inUse := upd s.inUse i v }
def withPrev (s : State) (i v : Nat) : State := { s with prev := upd s.prev i v }
def withNext (s : State) (i v : Nat) : State := { s with next := upd s.next i v }
/-- The back link of the region starting at `e`, if there is one. -/
def linkPrev (s : State) (e x : Nat) : State := if e = s.blockCount then s else withPrev s e x

@[simp, sr_proj] theorem withUse_data (s : State) (i : Nat) (v : Bool) : (withUse s i v).data = s.data := rfl
@[simp, sr_proj] theorem withUse_blockCount (s : State) (i : Nat) (v : Bool) : (withUse s i v).blockCount = s.blockCount := rfl
@[simp, sr_proj] theorem withUse_prev (s : State) (i : Nat) (v : Bool) : (withUse s i v).prev = s.prev := rfl
@[simp, sr_proj] theorem withUse_next (s : State) (i : Nat) (v : Bool) : (withUse s i v).next = s.next := rfl
@[simp, sr_proj] theorem withUse_inUse (s : State) (i : Nat) (v : Bool) : (withUse s i v).inUse = upd s.inUse i v := rfl
@[simp, sr_proj] theorem withUse_freeCount (s : State) (i : Nat) (v : Bool) : (withUse s i v).freeCount = s.freeCount := rfl
@[simp, sr_proj] theorem withUse_busyCount (s : State) (i : Nat) (v : Bool) : (withUse s i v).busyCount = s.busyCount := rfl
@[simp, sr_proj] theorem withPrev_data (s : State) (i v : Nat) : (withPrev s i v).data = s.data := rfl
@[simp, sr_proj] theorem withPrev_blockCount (s : State) (i v : Nat) : (withPrev s i v).blockCount = s.blockCount := rfl
@[simp, sr_proj] theorem withPrev_prev (s : State) (i v : Nat) : (withPrev s i v).prev = upd s.prev i v := rfl
@[simp, sr_proj] theorem withPrev_next (s : State) (i v : Nat) : (withPrev s i v).next = s.next := rfl
@[simp, sr_proj] theorem withPrev_inUse (s : State) (i v : Nat) : (withPrev s i v).inUse = s.inUse := rfl
@[simp, sr_proj] theorem withPrev_freeCount (s : State) (i v : Nat) : (withPrev s i v).freeCount = s.freeCount := rfl
@[simp, sr_proj] theorem withPrev_busyCount (s : State) (i v : Nat) : (withPrev s i v).busyCount = s.busyCount := rfl
@[simp, sr_proj] theorem withNext_data (s : State) (i v : Nat) : (withNext s i v).data = s.data := rfl
@[simp, sr_proj] theorem withNext_blockCount (s : State) (i v : Nat) : (withNext s i v).blockCount = s.blockCount := rfl
@[simp, sr_proj] theorem withNext_prev (s : State) (i v : Nat) : (withNext s i v).prev = s.prev := rfl
@[simp, sr_proj] theorem withNext_next (s : State) (i v : Nat) : (withNext s i v).next = upd s.next i v := rfl
@[simp, sr_proj] theorem withNext_inUse (s : State) (i v : Nat) : (withNext s i v).inUse = s.inUse := rfl
@[simp, sr_proj] theorem withNext_freeCount (s : State) (i v : Nat) : (withNext s i v).freeCount = s.freeCount := rfl
@[simp, sr_proj] theorem withNext_busyCount (s : State) (i v : Nat) : (withNext s i v).busyCount = s.busyCount := rfl
@[simp, sr_proj] theorem incFree_data (s : State) : (incFree s).data = s.data := rfl
@[simp, sr_proj] theorem incFree_blockCount (s : State) : (incFree s).blockCount = s.blockCount := rfl
@[simp, sr_proj] theorem incFree_prev (s : State) : (incFree s).prev = s.prev := rfl
@[simp, sr_proj] theorem incFree_next (s : State) : (incFree s).next = s.next := rfl
@[simp, sr_proj] theorem incFree_inUse (s : State) : (incFree s).inUse = s.inUse := rfl
@[simp, sr_proj] theorem incFree_freeCount (s : State) : (incFree s).freeCount = inc64 s.freeCount := rfl
@[simp, sr_proj] theorem incFree_busyCount (s : State) : (incFree s).busyCount = s.busyCount := rfl
@[simp, sr_proj] theorem decFree_data (s : State) : (decFree s).data = s.data := rfl
@[simp, sr_proj] theorem decFree_blockCount (s : State) : (decFree s).blockCount = s.blockCount := rfl
@[simp, sr_proj] theorem decFree_prev (s : State) : (decFree s).prev = s.prev := rfl
@[simp, sr_proj] theorem decFree_next (s : State) : (decFree s).next = s.next := rfl
@[simp, sr_proj] theorem decFree_inUse (s : State) : (decFree s).inUse = s.inUse := rfl
@[simp, sr_proj] theorem decFree_freeCount (s : State) : (decFree s).freeCount = dec64 s.freeCount := rfl
@[simp, sr_proj] theorem decFree_busyCount (s : State) : (decFree s).busyCount = s.busyCount := rfl
@[simp, sr_proj] theorem incBusy_data (s : State) : (incBusy s).data = s.data := rfl
@[simp, sr_proj] theorem incBusy_blockCount (s : State) : (incBusy s).blockCount = s.blockCount := rfl
@[simp, sr_proj] theorem incBusy_prev (s : State) : (incBusy s).prev = s.prev := rfl
@[simp, sr_proj] theorem incBusy_next (s : State) : (incBusy s).next = s.next := rfl
@[simp, sr_proj] theorem incBusy_inUse (s : State) : (incBusy s).inUse = s.inUse := rfl
@[simp, sr_proj] theorem incBusy_freeCount (s : State) : (incBusy s).freeCount = s.freeCount := rfl
@[simp, sr_proj] theorem incBusy_busyCount (s : State) : (incBusy s).busyCount = inc64 s.busyCount := rfl
@[simp, sr_proj] theorem decBusy_data (s : State) : (decBusy s).data = s.data := rfl
@[simp, sr_proj] theorem decBusy_blockCount (s : State) : (decBusy s).blockCount = s.blockCount := rfl
@[simp, sr_proj] theorem decBusy_prev (s : State) : (decBusy s).prev = s.prev := rfl
@[simp, sr_proj] theorem decBusy_next (s : State) : (decBusy s).next = s.next := rfl
@[simp, sr_proj] theorem decBusy_inUse (s : State) : (decBusy s).inUse = s.inUse := rfl
@[simp, sr_proj] theorem decBusy_freeCount (s : State) : (decBusy s).freeCount = s.freeCount := rfl
@[simp, sr_proj] theorem decBusy_busyCount (s : State) : (decBusy s).busyCount = dec64 s.busyCount := rfl
@[simp, sr_proj] theorem linkPrev_data (s : State) (e x : Nat) : (linkPrev s e x).data = s.data := by
  unfold linkPrev; split <;> rfl
@[simp, sr_proj] theorem linkPrev_blockCount (s : State) (e x : Nat) : (linkPrev s e x).blockCount = s.blockCount := by
  unfold linkPrev; split <;> rfl
@[sr_proj] theorem linkPrev_prev (s : State) (e x j : Nat) : (linkPrev s e x).prev j
    = if e ≠ s.blockCount ∧ j = e then x else s.prev j := by
  unfold linkPrev
  by_cases h : e = s.blockCount
  · simp [h]
  · simp only [h, if_false, ne_eq, not_false_eq_true, true_and]; rfl
@[simp, sr_proj] theorem linkPrev_next (s : State) (e x : Nat) : (linkPrev s e x).next = s.next := by
  unfold linkPrev; split <;> rfl
@[simp, sr_proj] theorem linkPrev_inUse (s : State) (e x : Nat) : (linkPrev s e x).inUse = s.inUse := by
  unfold linkPrev; split <;> rfl
@[simp, sr_proj] theorem linkPrev_freeCount (s : State) (e x : Nat) : (linkPrev s e x).freeCount = s.freeCount := by
  unfold linkPrev; split <;> rfl
@[simp, sr_proj] theorem linkPrev_busyCount (s : State) (e x : Nat) : (linkPrev s e x).busyCount = s.busyCount := by
  unfold linkPrev; split <;> rfl

@[simp] theorem upd_same {β : Type} (f : Nat → β) (i : Nat) (v : β) : upd f i v i = v := by
  simp [upd]
theorem upd_ne {β : Type} (f : Nat → β) {i j : Nat} (v : β) (h : j ≠ i) : upd f i v j = f j := by
  simp [upd, h]

theorem setInUse_ok {i : Nat} {v : Bool} (hi : i < s.blockCount) (hle : s.blockCount ≤ p.maxBlocks) :
    setInUse p s i v = .ok (withUse s i v) := by
  unfold setInUse
  rw [checkIdx_ok hi hle]
  rfl

theorem setNext_ok {i nx : Nat} (hi : i < s.blockCount) (hle : s.blockCount ≤ p.maxBlocks)
    (hlt : i < nx ∨ nx = 0) (hn : nx < s.blockCount) :
    setNext p s i nx = .ok (withNext s i nx) := by
  unfold setNext
  rw [decide_eq_true hn, cassert_true, Outcome.ok_bind, if_pos hlt, checkIdx_ok hi hle]
  rfl

theorem setPrev_ok {i pv : Nat} (hi : i < s.blockCount) (hle : s.blockCount ≤ p.maxBlocks)
    (hlt : pv < i) : setPrev p s i pv = .ok (withPrev s i pv) := by
  unfold setPrev
  rw [decide_eq_true hi, cassert_true, Outcome.ok_bind, if_pos (Or.inl hlt), checkIdx_ok hi hle]
  rfl

theorem setPrev_zero_pos {pv : Nat} (hn : 0 < s.blockCount) (hp : 0 < pv) :
    setPrev p s 0 pv = .ok s := by
  unfold setPrev
  rw [decide_eq_true hn, cassert_true, Outcome.ok_bind, if_neg (by omega)]
  rfl

theorem setPrev_zero_zero (hn : 0 < s.blockCount) (hle : s.blockCount ≤ p.maxBlocks)
    (h0 : s.prev 0 = 0) : setPrev p s 0 0 = .ok s := by
  unfold setPrev
  rw [decide_eq_true hn, cassert_true, Outcome.ok_bind, if_pos (Or.inr rfl), checkIdx_ok hn hle,
    Outcome.ok_bind]
  have : upd s.prev 0 0 = s.prev := by
    funext j
    unfold upd
    split
    · rename_i h; rw [h, h0]
    · rfl
  rw [this]
  rfl

theorem setPrevNext_ok {i pv nx : Nat} (hi : i < s.blockCount) (hle : s.blockCount ≤ p.maxBlocks)
    (hpv : pv < i) (hnx : nx < s.blockCount) (hlt : i < nx ∨ nx = 0) :
    setPrevNext p s i pv nx = .ok (withNext (withPrev s i pv) i nx) := by
  unfold setPrevNext
  rw [decide_eq_true hi, decide_eq_true hnx, cassert_true, Outcome.ok_bind, Outcome.ok_bind,
    checkIdx_ok hi hle, Outcome.ok_bind, if_pos (Or.inl hpv)]
  simp only [if_pos hlt, Outcome.pure_eq]
  rfl

/-- The back link of the region after `e`, set through the link of the region before it. -/
theorem setPrev_link {e x nx : Nat} (hle : s.blockCount ≤ p.maxBlocks) (he : e ≤ s.blockCount)
    (hx : 0 < x ∨ s.prev 0 = 0) (hxe : x < e)
    (hnx : nx = if e = s.blockCount then 0 else e) :
    setPrev p s nx x = .ok (linkPrev s e x) := by
  unfold linkPrev
  subst hnx
  by_cases h : e = s.blockCount
  · rw [if_pos h, if_pos h]
    rcases Nat.eq_zero_or_pos x with h0 | h0
    · subst h0
      rw [setPrev_zero_zero (by omega) hle (by omega)]
    · rw [setPrev_zero_pos (by omega) h0]
  · rw [if_neg h, if_neg h, setPrev_ok (by omega) hle hxe]

end Utils.SR
