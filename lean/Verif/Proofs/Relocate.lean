import Verif.Spec.Relocate
import Verif.Proofs.SRDebug
import Verif.Proofs.Resources

/-!
# Proofs about moved resources
-/

namespace Utils.SR

open Utils Utils.Bits

variable {p : Params} {s : State} {size align d : Nat} {σ : Type} {up : Option (Upstream σ)}

section
variable {α α' β β' : Type}

theorem bind_map {m : Outcome α} {f : α → α'} {g' : α' → Outcome β'} {g : α → Outcome β} {h : β → β'}
    (hg : ∀ a, m = .ok a → g' (f a) = (g a).map h) : (m.map f >>= g') = (m >>= g).map h := by
  cases m with
  | ok a => exact hg a rfl
  | _ => rfl

theorem bind_same {m : Outcome α} {g' : α → Outcome β'} {g : α → Outcome β} {h : β → β'}
    (hg : ∀ a, m = .ok a → g' a = (g a).map h) : (m >>= g') = (m >>= g).map h := by
  cases m with
  | ok a => exact hg a rfl
  | _ => rfl

end

theorem checkIdx_moved (i : Nat) : checkIdx p (moved d s) i = checkIdx p s i := rfl
theorem nextAt_moved (i : Nat) : nextAt p (moved d s) i = nextAt p s i := rfl
theorem inUseAt_moved (i : Nat) : inUseAt p (moved d s) i = inUseAt p s i := rfl

theorem setInUse_moved (i : Nat) (v : Bool) :
    setInUse p (moved d s) i v = (setInUse p s i v).map (moved d) := by
  unfold setInUse
  rw [checkIdx_moved]
  exact bind_same fun _ _ => rfl

theorem setPrev_moved (i pv : Nat) : setPrev p (moved d s) i pv = (setPrev p s i pv).map (moved d) := by
  unfold setPrev
  refine bind_same fun _ _ => ?_
  split
  · exact bind_same fun _ _ => rfl
  · rfl

theorem setNext_moved (i nx : Nat) : setNext p (moved d s) i nx = (setNext p s i nx).map (moved d) := by
  unfold setNext
  refine bind_same fun _ _ => ?_
  split
  · exact bind_same fun _ _ => rfl
  · rfl

theorem setPrevNext_moved (i pv nx : Nat) :
    setPrevNext p (moved d s) i pv nx = (setPrevNext p s i pv nx).map (moved d) := by
  unfold setPrevNext
  refine bind_same fun _ _ => bind_same fun _ _ => bind_same fun _ _ => ?_
  by_cases h1 : pv < i ∨ pv = 0 <;> by_cases h2 : i < nx ∨ nx = 0 <;> simp [h1, h2] <;> rfl

theorem allocateNotMatched_moved (a b c e : Nat) :
    allocateNotMatched p (moved d s) a b c e = (allocateNotMatched p s a b c e).map (moved d) := by
  unfold allocateNotMatched
  refine bind_same fun _ _ => bind_same fun _ _ => bind_same fun _ _ => ?_
  rw [setInUse_moved]
  refine bind_map fun s1 _ => ?_
  simp only [checkIdx_moved]
  refine bind_same fun _ _ => ?_
  rw [setPrevNext_moved]
  refine bind_map fun s2 _ => ?_
  rw [setPrevNext_moved]
  refine bind_map fun s3 _ => ?_
  rw [setPrev_moved]
  refine bind_map fun s4 _ => ?_
  rw [setNext_moved]
  exact bind_map fun s5 _ => rfl

theorem allocateBeginMatched_moved (a c e : Nat) :
    allocateBeginMatched p (moved d s) a c e = (allocateBeginMatched p s a c e).map (moved d) := by
  unfold allocateBeginMatched
  refine bind_same fun _ _ => bind_same fun _ _ => ?_
  rw [setInUse_moved]
  refine bind_map fun s1 _ => ?_
  simp only [checkIdx_moved]
  refine bind_same fun _ _ => ?_
  rw [setPrevNext_moved]
  refine bind_map fun s3 _ => ?_
  rw [setPrev_moved]
  refine bind_map fun s4 _ => ?_
  rw [setNext_moved]
  exact bind_map fun s5 _ => rfl

theorem allocateEndMatched_moved (a b e : Nat) :
    allocateEndMatched p (moved d s) a b e = (allocateEndMatched p s a b e).map (moved d) := by
  unfold allocateEndMatched
  refine bind_same fun _ _ => bind_same fun _ _ => ?_
  rw [setInUse_moved]
  refine bind_map fun s1 _ => ?_
  simp only [checkIdx_moved]
  refine bind_same fun _ _ => ?_
  have : (moved d s1).blockCount = s1.blockCount := rfl
  rw [this, setPrevNext_moved]
  refine bind_map fun s3 _ => ?_
  rw [setPrev_moved]
  refine bind_map fun s4 _ => ?_
  rw [setNext_moved]
  exact bind_map fun s5 _ => rfl

theorem allocateMatched_moved (a : Nat) :
    allocateMatched p (moved d s) a = (allocateMatched p s a).map (moved d) := by
  unfold allocateMatched
  refine bind_same fun _ _ => ?_
  rw [setInUse_moved]
  exact bind_map fun s1 _ => rfl

/-! ## Addresses -/

theorem maxResourceSize_eq (hv : Valid p) : p.maxResourceSize = p.maxBlocks * p.blockSize := by
  have := hv.area
  unfold Params.maxResourceSize
  rw [Nat.mul_comm, Nat.mod_eq_of_lt (by omega)]

theorem index_moved (hv : Valid p) (hp : Placed p s) (hp' : Placed p (moved d s)) {x : Nat} (hx : x < 2 ^ 64) :
    pointerToBlockIndex p (moved d s) ((x + d) % 2 ^ 64) = pointerToBlockIndex p s x := by
  have h1 := hp.noWrap
  have h2 : s.data + d + p.maxBlocks * p.blockSize < 2 ^ 64 := hp'.noWrap
  have hm := maxResourceSize_eq hv
  unfold pointerToBlockIndex
  have hd' : (moved d s).data = s.data + d := rfl
  rw [hm, hd', Nat.mod_eq_of_lt h1, Nat.mod_eq_of_lt h2]
  have e : ((x + d) % 2 ^ 64 + (2 ^ 64 - (s.data + d))) % 2 ^ 64 = (x + (2 ^ 64 - s.data)) % 2 ^ 64 := by omega
  rw [e]
  have hiff : (s.data + d ≤ (x + d) % 2 ^ 64 ∧ (x + d) % 2 ^ 64 < s.data + d + p.maxBlocks * p.blockSize) ↔
      (s.data ≤ x ∧ x < s.data + p.maxBlocks * p.blockSize) := by omega
  cases p.debug with
  | false => rfl
  | true =>
    by_cases h : s.data ≤ x ∧ x < s.data + p.maxBlocks * p.blockSize
    · have h' := hiff.2 h
      rw [decide_eq_true h.1, decide_eq_true h.2, decide_eq_true h'.1, decide_eq_true h'.2]
    · have h' := fun q => h (hiff.1 q)
      have go : ∀ {a b : Prop} [Decidable a] [Decidable b] (r : Outcome Nat), ¬ (a ∧ b) →
          (do cassert true (decide a); cassert true (decide b); r) = .assertFailed := by
        intro a b _ _ r hn
        by_cases ha : a
        · have hb : ¬ b := fun hb => hn ⟨ha, hb⟩
          simp [ha, hb]
        · simp [ha]
      exact (go _ h').trans (go _ h).symm

theorem allocateBlocks_moved (hv : Valid p) (hp : Placed p s) (hp' : Placed p (moved d s)) {f x : Nat}
    (hx : x < 2 ^ 64) :
    allocateBlocks p (moved d s) f ((x + d) % 2 ^ 64) size = (allocateBlocks p s f x size).map (moved d) := by
  unfold allocateBlocks
  have e : ((x + d) % 2 ^ 64 + size) % 2 ^ 64 = ((x + size) % 2 ^ 64 + d) % 2 ^ 64 := by omega
  rw [e, index_moved hv hp hp' hx]
  refine bind_same fun first _ => ?_
  rw [index_moved hv hp hp' (Nat.mod_lt _ (by decide))]
  refine bind_same fun last _ => ?_
  rw [nextAt_moved]
  refine bind_same fun nx _ => ?_
  have hb : (moved d s).blockCount = s.blockCount := rfl
  simp only [hb]
  generalize (if nx ≠ 0 then nx - 1 else p.trunc (dec64 s.blockCount)) = lof
  by_cases h1 : f = first <;> by_cases h2 : last ≠ lof
  · rw [if_pos h1, if_pos h1, if_pos h2, if_pos h2]; exact allocateBeginMatched_moved _ _ _
  · rw [if_pos h1, if_pos h1, if_neg h2, if_neg h2]; exact allocateMatched_moved _
  · rw [if_neg h1, if_neg h1, if_pos h2, if_pos h2]; exact allocateNotMatched_moved _ _ _ _
  · rw [if_neg h1, if_neg h1, if_neg h2, if_neg h2]; exact allocateEndMatched_moved _ _ _

theorem padding_moved (h : align ∣ d) (x : Nat) : padding (x + d) align = padding x align := by
  obtain ⟨c, rfl⟩ := h
  unfold padding
  rw [Nat.add_mul_mod_self_left]

theorem LinksForward.moved (hl : LinksForward s) : LinksForward (moved d s) := hl

/-- What a scan gives when the area is moved. -/
def movedResult (d : Nat) (r : State × Nat) : State × Nat := (moved d r.1, if r.2 = 0 then 0 else r.2 + d)

theorem tryRegion_moved {i k : Nat} (hv : Valid p) (hd : p.debug = true) (hp : Placed p s)
    (hp' : Placed p (moved d s)) (hl : LinksForward s) (hi : i < s.blockCount) (hk : k < 64)
    (hak : align = 2 ^ k) (hdv : align ∣ d) :
    tryRegion p size align (moved d s) 0 i =
      (tryRegion p size align s 0 i).map fun r =>
        (moved d r.1, if r.2.1 = 0 then 0 else r.2.1 + d, r.2.2) := by
  rw [tryRegion_raw hv hp' hl.moved hi hk hak, tryRegion_raw hv hp hl hi hk hak]
  have ed : (moved d s).data = s.data + d := rfl
  have er : regionEnd (moved d s) i = regionEnd s i := rfl
  have en : (moved d s).next i = s.next i := rfl
  have e1 : s.data + d + i * p.blockSize = s.data + i * p.blockSize + d := by omega
  rw [ed, er, en, e1, padding_moved hdv]
  split
  · have e2 : (s.data + i * p.blockSize + d + padding (s.data + i * p.blockSize) align) % 2 ^ 64 =
        ((s.data + i * p.blockSize + padding (s.data + i * p.blockSize) align) % 2 ^ 64 + d) % 2 ^ 64 := by omega
    rw [e2, allocateBlocks_moved hv hp hp' (Nat.mod_lt _ (by decide))]
    refine bind_map fun s' hs' => ?_
    obtain ⟨-, h2, h3, -⟩ := (ensures_allocateBlocks hd hp.le _ _ _).2 _ hs'
    rw [maxResourceSize_eq hv, Nat.mod_eq_of_lt hp.noWrap] at h3
    have h4 : s.data + d + p.maxBlocks * p.blockSize < 2 ^ 64 := hp'.noWrap
    have h5 := hp.data
    simp only [Outcome.map, Outcome.bind, Outcome.pure_eq]
    rw [if_neg (by omega), Nat.mod_eq_of_lt (a := _ + d) (by omega)]
  · rfl

theorem scan_moved {k : Nat} (hv : Valid p) (hd : p.debug = true) (hp : Placed p s)
    (hp' : Placed p (moved d s)) (hl : LinksForward s) (hk : k < 64) (hak : align = 2 ^ k) (hdv : align ∣ d)
    (hsz : size < 2 ^ 64) :
    ∀ (fuel i : Nat), i < s.blockCount →
      applyLoop p (isFree p) (tryRegion p size align) fuel (moved d s) 0 i =
        (applyLoop p (isFree p) (tryRegion p size align) fuel s 0 i).map (movedResult d)
  | 0, i, _ => rfl
  | fuel + 1, i, hi => by
    have hli := hl i hi
    unfold applyLoop
    rw [checkIdx_moved]
    refine bind_same fun _ _ => ?_
    have ei : isFree p (moved d s) i = isFree p s i := rfl
    rw [ei]
    refine bind_same fun c _ => ?_
    cases c with
    | true =>
      simp only [if_true]
      rw [tryRegion_moved hv hd hp hp' hl hi hk hak hdv]
      refine bind_map fun r hr => ?_
      rcases (tryRegion_debug hv hd hp hl hi hk hak hsz).2 _ hr with rfl | ⟨h1, h2, h3⟩
      · by_cases hz : s.next i = 0
        · simp [hz, Outcome.map, Outcome.bind, movedResult]
        · simp only [hz, ne_eq, not_false_eq_true, decide_true, if_true, Nat.one_ne_zero]
          exact scan_moved hv hd hp hp' hl hk hak hdv hsz fuel 1 (by omega)
      · simp [h2, Outcome.map, Outcome.bind, movedResult]
    | false =>
      have en : (moved d s).next i = s.next i := rfl
      simp only [Bool.false_eq_true, if_false, en]
      by_cases hz : s.next i = 0
      · simp [hz, Outcome.map, Outcome.bind, movedResult]
      · simp only [hz, ne_eq, not_false_eq_true, if_true]
        exact scan_moved hv hd hp hp' hl hk hak hdv hsz fuel _ (by omega)

/-- The gate at the beginning of `allocate` asks the same of both areas. -/
theorem gate_moved {c c' m m' n k : Nat} (hc : Spec.TrailingZeros s.data c) (hc' : Spec.TrailingZeros (s.data + d) c')
    (hn : 0 < n) (h1 : 2 ^ m ≤ 2 ^ c + n - 1) (h2 : 2 ^ c + n - 1 < 2 ^ (m + 1)) (h1' : 2 ^ m' ≤ 2 ^ c' + n - 1)
    (h2' : 2 ^ c' + n - 1 < 2 ^ (m' + 1)) (hdv : 2 ^ k ∣ d) : 2 ^ k ≤ 2 ^ m ↔ 2 ^ k ≤ 2 ^ m' := by
  have key : ∀ {c m : Nat}, 2 ^ m ≤ 2 ^ c + n - 1 → 2 ^ c + n - 1 < 2 ^ (m + 1) →
      (2 ^ k ≤ 2 ^ m ↔ 2 ^ k ≤ 2 ^ c + n - 1) := by
    intro c m a b
    constructor
    · intro h; omega
    · intro h
      have : k < m + 1 := (Nat.pow_lt_pow_iff_right (by decide : 1 < 2)).1 (Nat.lt_of_le_of_lt h b)
      exact Nat.pow_le_pow_right (by decide) (by omega)
  rw [key h1 h2, key h1' h2']
  by_cases hk : 2 ^ k ∣ s.data
  · have hk' : 2 ^ k ∣ s.data + d := Nat.dvd_add hk hdv
    have a1 : k ≤ c := Nat.le_of_not_lt fun h => hc.2 (Nat.dvd_trans (Nat.pow_dvd_pow 2 (by omega)) hk)
    have a2 : k ≤ c' := Nat.le_of_not_lt fun h => hc'.2 (Nat.dvd_trans (Nat.pow_dvd_pow 2 (by omega)) hk')
    have b1 : 2 ^ k ≤ 2 ^ c := Nat.pow_le_pow_right (by decide) a1
    have b2 : 2 ^ k ≤ 2 ^ c' := Nat.pow_le_pow_right (by decide) a2
    constructor <;> intro <;> omega
  · have a1 : c < k := Nat.lt_of_not_le fun h => hk (Nat.dvd_trans (Nat.pow_dvd_pow 2 h) hc.1)
    have hk' : ¬ 2 ^ k ∣ s.data + d := fun h => hk ((Nat.dvd_add_left hdv).1 h)
    have a2 : c' < k := Nat.lt_of_not_le fun h => hk' (Nat.dvd_trans (Nat.pow_dvd_pow 2 h) hc'.1)
    have : c = c' := by
      rcases Nat.lt_trichotomy c c' with h | h | h
      · exact absurd ((Nat.dvd_add_left (Nat.dvd_trans (Nat.pow_dvd_pow 2 (by omega)) hdv)).1
          (Nat.dvd_trans (Nat.pow_dvd_pow 2 (by omega : c + 1 ≤ c')) hc'.1)) hc.2
      · exact h
      · exact absurd (Nat.dvd_add (Nat.dvd_trans (Nat.pow_dvd_pow 2 (by omega : c' + 1 ≤ c)) hc.1)
          (Nat.dvd_trans (Nat.pow_dvd_pow 2 (by omega)) hdv)) hc'.2
    rw [this]

theorem allocateLocal_moved {k fuel : Nat} (hv : Valid p) (hd : p.debug = true) (hp : Placed p s)
    (hp' : Placed p (moved d s)) (hsm : Small p s) (hsm' : Small p (moved d s)) (hl : LinksForward s) (hk : k < 64)
    (hak : align = 2 ^ k) (hdv : align ∣ d) (hsz : size < 2 ^ 64) :
    allocateLocal p fuel (moved d s) size align = (allocateLocal p fuel s size align).map (movedResult d) := by
  obtain ⟨c, m, hc, -, h1, h2, e⟩ := allocateLocal_eq hv hp hsm
  obtain ⟨c', m', hc', -, h1', h2', e'⟩ := allocateLocal_eq hv hp' hsm'
  have hg := gate_moved hc hc' (Nat.mul_pos hp.some hv.pos) h1 h2 h1' h2' (hak ▸ hdv)
  rw [e, e']
  rw [hak]
  by_cases h : 2 ^ k ≤ 2 ^ m
  · rw [if_pos h, if_pos (hg.1 h), ← hak]
    exact scan_moved hv hd hp hp' hl hk hak hdv hsz fuel 0 hp.some
  · rw [if_neg h, if_neg fun q => h (hg.2 q)]
    rfl

theorem allocateLocal_debug {k fuel : Nat} (hv : Valid p) (hd : p.debug = true) (hp : Placed p s)
    (hsm : Small p s) (hl : LinksForward s) (hk : k < 64) (hak : align = 2 ^ k) (hsz : size < 2 ^ 64) :
    Ensures (allocateLocal p fuel s size align) fun r =>
      r = (s, 0) ∨ (Same inc64 s r.1 ∧ Handed p s size align r.2) := by
  obtain ⟨c, m, -, -, -, -, hloc⟩ := allocateLocal_eq hv hp hsm
  rw [hloc]
  split
  · exact scan_debug hv hd hp hl hk hak hsz 0 (by have := hp.some; omega)
  · exact .ok (Or.inl rfl)

theorem relocated_zero (hp : Placed p s) : relocated p s d 0 = 0 := by
  have h := hp.data
  have : inArea p s 0 = false := by
    cases e : inArea p s 0 with
    | false => rfl
    | true => have := (inArea_iff.1 e).1; omega
  simp [relocated, this]

theorem blockSize_dvd (hp : Placed p s) (hp' : Placed p (moved d s)) : p.blockSize ∣ d := by
  have h : p.blockSize ∣ s.data + d := hp'.aligned
  exact (Nat.dvd_add_right hp.aligned).1 h

theorem allocate_moved {fuel : Nat} {u : σ} (hv : Valid p) (hd : p.debug = true) (hp : Placed p s)
    (hp' : Placed p (moved d s)) (hsm : Small p s) (hsm' : Small p (moved d s)) (hl : LinksForward s)
    (hu : UpstreamApart p s up) (hdv : align ∣ d) (hsz : size < 2 ^ 64) (hal : align < 2 ^ 64) :
    allocate p up fuel (moved d s) u size align =
      (allocate p up fuel s u size align).map fun r => (relocated p s d r.1, moved d r.2.1, r.2.2) := by
  unfold allocate
  by_cases hz : size = 0
  · rw [if_pos hz, if_pos hz]
    simp [Outcome.map, Outcome.bind, relocated_zero hp]
  rw [if_neg hz, if_neg hz]
  refine bind_same fun _ h2 => ?_
  have h2 : isPowerOf2 (BitVec.ofNat 64 align) = true := (Ensures.assert hd _).2 _ h2
  obtain ⟨k, hk, hak⟩ : ∃ k, k < 64 ∧ align = 2 ^ k := by
    obtain ⟨k, hk, e⟩ := (isPowerOf2_iff _).1 h2
    rw [BitVec.toNat_ofNat, Nat.mod_eq_of_lt hal] at e
    exact ⟨k, hk, e⟩
  rw [allocateLocal_moved hv hd hp hp' hsm hsm' hl hk hak hdv hsz]
  refine bind_map fun r hr => ?_
  rcases (allocateLocal_debug hv hd hp hsm hl hk hak hsz).2 _ hr with rfl | ⟨h3, h4⟩
  · simp only [movedResult, if_true]
    cases up with
    | none =>
      refine bind_same fun _ _ => bind_same fun _ _ => ?_
      simp [Outcome.map, Outcome.bind, relocated_zero hp]
    | some U =>
      refine bind_same fun _ _ => bind_same fun _ _ => ?_
      have := hu U rfl u size align
      simp [Outcome.map, Outcome.bind, relocated, this]
  · obtain ⟨s', ptr⟩ := r
    have g1 := h4.low
    have g2 := h4.high
    have g3 := hp.data
    have g4 := hp.noWrap
    have g5 : s.data + d + p.maxBlocks * p.blockSize < 2 ^ 64 := hp'.noWrap
    have g6 : s.blockCount * p.blockSize ≤ p.maxBlocks * p.blockSize := Nat.mul_le_mul_right _ hp.le
    simp only at g1 g2
    have h0 : ptr ≠ 0 := by omega
    have h1 : ptr + d ≠ 0 := by omega
    have hin : inArea p s ptr = true := inArea_iff.2 ⟨g1, by omega⟩
    have hB := blockSize_dvd hp hp'
    have e1 := isAligned_block hv (ptr := ptr) (by omega)
    have e2 := isAligned_block hv (ptr := ptr + d) (by omega)
    rw [decide_eq_true h4.block] at e1
    rw [decide_eq_true (Nat.dvd_add h4.block hB)] at e2
    simp only [movedResult, if_neg h0]
    cases up with
    | none =>
      simp only [e1, e2, Outcome.ok_bind]
      simp [Outcome.map, Outcome.bind, relocated, hin]
    | some U =>
      simp only [if_neg h0, if_neg h1, e1, e2, Outcome.ok_bind]
      simp [Outcome.map, Outcome.bind, relocated, hin]

/-! ## `deallocate` -/

theorem merge_moved (l r : Nat) : mergeIfBothNotInUse p (moved d s) l r =
    (mergeIfBothNotInUse p s l r).map fun x => (moved d x.1, x.2) := by
  unfold mergeIfBothNotInUse
  split
  · rfl
  · simp only [inUseAt_moved]
    refine bind_same fun _ _ => bind_same fun ul _ => ?_
    cases ul with
    | false =>
      simp only [if_true]
      refine bind_same fun ur _ => ?_
      cases ur with
      | false =>
        simp only [if_true]
        refine bind_same fun _ _ => bind_same fun _ _ => ?_
        rw [setPrev_moved]
        refine bind_map fun s1 _ => ?_
        rw [setNext_moved]
        exact bind_map fun s2 _ => rfl
      | true => rfl
    | true =>
      simp only [Bool.true_eq_false, if_false]
      exact bind_same (m := assertNotInUse p s r) fun _ _ => rfl

theorem deallocateBlocks_moved (i : Nat) : deallocateBlocks p (moved d s) i =
    (deallocateBlocks p s i).map fun x => (moved d x.1, x.2) := by
  unfold deallocateBlocks
  simp only [inUseAt_moved]
  refine bind_same fun _ _ => bind_same fun _ _ => bind_same fun _ _ => ?_
  rw [setInUse_moved]
  refine bind_map fun s1 _ => bind_same fun _ _ => bind_same fun _ _ => ?_
  have e : incFree (decBusy (moved d s1)) = moved d (incFree (decBusy s1)) := rfl
  rw [e]
  generalize incFree (decBusy s1) = s2
  unfold mergeAdjacentBlocks
  simp only [inUseAt_moved, checkIdx_moved]
  refine bind_same fun _ _ => bind_same fun _ _ => bind_same fun _ _ => ?_
  have e : (moved d s2).prev = s2.prev := rfl
  rw [e, merge_moved]
  refine bind_map fun x _ => ?_
  exact merge_moved _ _

theorem deallocate_moved {ptr : Nat} {u : σ} (hv : Valid p) (hp : Placed p s) (hp' : Placed p (moved d s))
    (hs : inArea p s ptr = true ∨ inArea p (moved d s) ptr = false) :
    deallocate p up (moved d s) u (relocated p s d ptr) =
      (deallocate p up s u ptr).map fun r => (moved d r.1, r.2) := by
  have g3 := hp.data
  have g4 := hp.noWrap
  have g5 : s.data + d + p.maxBlocks * p.blockSize < 2 ^ 64 := hp'.noWrap
  have g6 : s.blockCount * p.blockSize ≤ p.maxBlocks * p.blockSize := Nat.mul_le_mul_right _ hp.le
  have e1 : (s.data + SR.size p s) % 2 ^ 64 = s.data + s.blockCount * p.blockSize := by
    rw [size_eq hv hp, Nat.mod_eq_of_lt (by omega)]
  have e2 : ((moved d s).data + SR.size p (moved d s)) % 2 ^ 64 = s.data + d + s.blockCount * p.blockSize := by
    rw [size_eq hv hp']
    exact Nat.mod_eq_of_lt (by show s.data + d + s.blockCount * p.blockSize < _; omega)
  have e3 : (moved d s).data = s.data + d := rfl
  unfold deallocate
  cases hin : inArea p s ptr with
  | true =>
    obtain ⟨a1, a2⟩ := inArea_iff.1 hin
    have er : relocated p s d ptr = ptr + d := by simp [relocated, hin]
    have b1 := isAligned_block hv (show ptr < 2 ^ 64 by omega)
    have b2 := isAligned_block hv (show ptr + d < 2 ^ 64 by omega)
    rw [er, if_neg (show ptr + d ≠ 0 by omega), if_neg (show ptr ≠ 0 by omega), b1, b2,
      Outcome.ok_bind, Outcome.ok_bind, e1, e2, e3, if_pos (show _ ∧ _ from ⟨a1, a2⟩),
      if_pos (show s.data + d ≤ ptr + d ∧ ptr + d < s.data + d + s.blockCount * p.blockSize by omega)]
    have hB := blockSize_dvd hp hp'
    have hiff : p.blockSize ∣ ptr + d ↔ p.blockSize ∣ ptr := Nat.dvd_add_left hB
    rw [decide_eq_decide.2 hiff]
    refine bind_same fun _ _ => ?_
    have hi := index_moved hv hp hp' (x := ptr) (by omega)
    rw [Nat.mod_eq_of_lt (by omega)] at hi
    rw [hi]
    refine bind_same fun i _ => ?_
    rw [deallocateBlocks_moved]
    exact bind_map fun x _ => rfl
  | false =>
    have hin' : inArea p (moved d s) ptr = false := by
      rcases hs with h | h
      · rw [h] at hin; cases hin
      · exact h
    have er : relocated p s d ptr = ptr := by simp [relocated, hin]
    have n1 : ¬ (s.data ≤ ptr ∧ ptr < s.data + s.blockCount * p.blockSize) := by
      rw [← inArea_iff, hin]; simp
    have n2 : ¬ (s.data + d ≤ ptr ∧ ptr < s.data + d + s.blockCount * p.blockSize) := by
      intro h
      have : inArea p (moved d s) ptr = true := inArea_iff.2 h
      rw [this] at hin'; cases hin'
    rw [er]
    split
    · rfl
    · refine bind_same fun _ _ => bind_same fun _ _ => ?_
      rw [e1, e2, e3, if_neg n1, if_neg n2]
      cases up with
      | some U => rfl
      | none =>
        have go : ∀ {lo hi : Nat} {r : Outcome (State × σ)}, ¬ (lo ≤ ptr ∧ ptr < hi) →
            (do abortIf (decide (ptr < lo)); abortIf (decide (hi ≤ ptr)); r) = .aborted := by
          intro lo hi r h
          by_cases h1 : ptr < lo
          · simp [abortIf, h1]
          · have h2 : hi ≤ ptr := by omega
            simp [abortIf, h1, h2]
        simp only
        rw [go n1, go n2]
        rfl

/-! ## Histories -/

theorem eraseIdx_map' {α β : Type} (f : α → β) : ∀ (l : List α) (i : Nat),
    (l.map f).eraseIdx i = (l.eraseIdx i).map f
  | [], _ => rfl
  | _ :: _, 0 => rfl
  | _ :: l, i + 1 => by simp [eraseIdx_map' f l i]

theorem movedWorld_congr {w w' : World σ} (h1 : w'.st.data = w.st.data) (h2 : w'.st.blockCount = w.st.blockCount)
    (ptr : Nat) : relocated p w'.st d ptr = relocated p w.st d ptr := by
  unfold relocated
  rw [inArea_congr h1 h2]

theorem step_moved {fuel : Nat} {w : World σ} {op : Op} (hv : Valid p) (hd : p.debug = true)
    (hp : Placed p w.st) (hp' : Placed p (moved d w.st)) (hsm : Small p w.st) (hsm' : Small p (moved d w.st))
    (hl : LinksForward w.st) (hu : UpstreamApart p w.st up) (hs : StaysApart p d w)
    (hop : ∀ size align, op = .alloc size align → align ∣ d ∧ size < 2 ^ 64 ∧ align < 2 ^ 64) :
    step p up fuel (movedWorld p d w) op = (step p up fuel w op).map (movedWorld p d) := by
  cases op with
  | alloc size align =>
    obtain ⟨hdv, hsz, hal⟩ := hop size align rfl
    unfold step doAlloc
    show (allocate p up fuel (moved d w.st) w.up size align >>= _) = _
    rw [allocate_moved hv hd hp hp' hsm hsm' hl hu hdv hsz hal]
    refine bind_map fun r hr => ?_
    have hf := (ensures_allocate hv hd hp hsm fuel w.up size align).2 _ hr
    have hne : relocated p w.st d r.1 = 0 ↔ r.1 = 0 := by
      unfold relocated
      have g := hp.data
      split
      · rename_i h
        have := (inArea_iff.1 h).1
        omega
      · rfl
    have hc : ∀ x, relocated p r.2.1 d x = relocated p w.st d x := fun x => by
      unfold relocated; rw [inArea_congr hf.data hf.count]
    by_cases h0 : r.1 = 0
    · simp [Outcome.map, Outcome.bind, movedWorld, h0, relocated_zero hp, hc]
    · have h1 : relocated p w.st d r.1 ≠ 0 := fun h => h0 (hne.1 h)
      simp [Outcome.map, Outcome.bind, movedWorld, h0, h1, hc]
  | free i =>
    unfold step doFree
    have e : (movedWorld p d w).live[i]? = w.live[i]?.map fun x => (relocated p w.st d x.1, x.2) := by
      simp [movedWorld]
    simp only [e]
    cases hx : w.live[i]? with
    | none => rfl
    | some x =>
      simp only [Option.map]
      show (deallocate p up (moved d w.st) w.up (relocated p w.st d x.1) >>= _) = _
      rw [deallocate_moved hv hp hp' (hs x (List.mem_of_getElem? hx))]
      refine bind_map fun r hr => ?_
      have hf := (ensures_deallocate hd hp.le w.up x.1).2 _ hr
      have hc : ∀ x, relocated p r.1 d x = relocated p w.st d x := fun x => by
        unfold relocated; rw [inArea_congr hf.data hf.count]
      simp [Outcome.map, Outcome.bind, movedWorld, hc, eraseIdx_map']

theorem releaseLoop_moved : ∀ (fuel : Nat) (s : State) (i : Nat),
    applyLoop p (inUseAt p) (releaseRegion p) fuel (moved d s) () i =
      (applyLoop p (inUseAt p) (releaseRegion p) fuel s () i).map fun r => (moved d r.1, ())
  | 0, _, _ => rfl
  | fuel + 1, s, i => by
    unfold applyLoop
    rw [checkIdx_moved, inUseAt_moved]
    refine bind_same fun _ _ => bind_same fun c _ => ?_
    cases c with
    | true =>
      simp only [if_true]
      have e : releaseRegion p (moved d s) () i =
          (releaseRegion p s () i).map fun r => (moved d r.1, (), r.2.2) := by
        unfold releaseRegion
        rw [deallocateBlocks_moved]
        refine bind_map fun x _ => ?_
        obtain ⟨s1, m1⟩ := x
        exact bind_same (m := nextAt p s1 m1) fun _ _ => rfl
      rw [e]
      refine bind_map fun r _ => ?_
      obtain ⟨s', _, b⟩ := r
      cases b with
      | true =>
        simp only [if_true, Nat.one_ne_zero, ne_eq, not_false_eq_true]
        exact releaseLoop_moved fuel s' 1
      | false => rfl
    | false =>
      have en : (moved d s).next i = s.next i := rfl
      simp only [Bool.false_eq_true, if_false, en]
      by_cases hz : s.next i = 0
      · simp only [hz, ne_eq, not_true_eq_false, if_false]; rfl
      · simp only [hz, ne_eq, not_false_eq_true, if_true]
        exact releaseLoop_moved fuel s _

theorem release_moved (fuel : Nat) : release p fuel (moved d s) = (release p fuel s).map (moved d) := by
  unfold release
  rw [releaseLoop_moved]
  exact bind_map fun r _ => rfl

theorem filter_map_congr {α β : Type} {f : α → β} {q : β → Bool} {r : α → Bool} :
    ∀ {l : List α}, (∀ x ∈ l, q (f x) = r x) → (l.map f).filter q = (l.filter r).map f
  | [], _ => rfl
  | a :: l, h => by
    rw [List.map_cons, List.filter_cons, List.filter_cons, h a (by simp)]
    have ih := filter_map_congr (l := l) fun x hx => h x (by simp [hx])
    cases r a <;> simp [ih]

/-- What stays the same in a history, and what `StaysApart` needs. -/
theorem cstep_frame {fuel : Nat} {w : World σ} {op : COp} (hv : Valid p) (hd : p.debug = true)
    (hp : Placed p w.st) (hsm : Small p w.st)
    (hl : LinksForward w.st) (hu' : UpstreamApart p (moved d w.st) up) (hs : StaysApart p d w)
    (hop : ∀ size align, op = .call (.alloc size align) → size < 2 ^ 64 ∧ align < 2 ^ 64) :
    Ensures (cstep p up fuel w op) fun w' => Frame w.st w'.st ∧ StaysApart p d w' := by
  have keep : ∀ {s' : State} {u' : σ} {l : List (Nat × Nat)}, Frame w.st s' →
      (∀ x ∈ l, inArea p w.st x.1 = true ∨ inArea p (moved d w.st) x.1 = false) →
      Frame w.st s' ∧ StaysApart p d (⟨s', u', l⟩ : World σ) := by
    intro s' u' l hf h
    refine ⟨hf, fun x hx => ?_⟩
    have hm : inArea p (moved d s') x.1 = inArea p (moved d w.st) x.1 :=
      inArea_congr (s := moved d w.st) (s' := moved d s') (by show s'.data + d = w.st.data + d; rw [hf.data]) hf.count _
    rw [hm]
    show inArea p s' x.1 = true ∨ _
    rw [inArea_congr hf.data hf.count]
    exact h x hx
  cases op with
  | call op =>
    cases op with
    | alloc size align =>
      obtain ⟨hsz, hal⟩ := hop size align rfl
      unfold cstep step doAlloc
      refine (allocate_debug hv hd hp hsm hl hsz hal).bind fun r hr => .pure ?_
      rcases hr with ⟨h0, rfl⟩ | rfl | ⟨h0, h1, h2, h3⟩
      · exact keep (.refl _) hs
      · refine keep (.refl _) fun x hx => ?_
        by_cases hz : (askUpstream up w.up size align).1 = 0
        · rw [if_pos hz] at hx; exact hs x hx
        · rw [if_neg hz] at hx
          rcases List.mem_cons.1 hx with rfl | hx
          · right
            cases up with
            | none => exact absurd rfl hz
            | some U => exact hu' U rfl w.up size align
          · exact hs x hx
      · have hne : r.1 ≠ 0 := by have := h3.low; have := hp.data; omega
        refine keep ⟨_, h2⟩ fun x hx => ?_
        rw [if_neg hne] at hx
        rcases List.mem_cons.1 hx with rfl | hx
        · exact Or.inl (inArea_iff.2 ⟨h3.low, by have := h3.high; omega⟩)
        · exact hs x hx
    | free i =>
      unfold cstep step doFree
      simp only
      cases hx : w.live[i]? with
      | none => exact .pure ⟨.refl _, hs⟩
      | some x =>
        refine (ensures_deallocate hd hp.le _ _).bind fun r hr => .pure (keep hr fun y hy => hs y ?_)
        exact List.mem_of_mem_eraseIdx hy
  | release =>
    unfold cstep
    refine (ensures_release hd hp.le fuel).bind fun s' hf => .pure (keep hf fun y hy => hs y ?_)
    exact (List.mem_filter.1 hy).1

theorem cstep_moved {fuel : Nat} {w : World σ} {op : COp} (hv : Valid p) (hd : p.debug = true)
    (hp : Placed p w.st) (hp' : Placed p (moved d w.st)) (hsm : Small p w.st) (hsm' : Small p (moved d w.st))
    (hl : LinksForward w.st) (hu : UpstreamApart p w.st up) (hs : StaysApart p d w)
    (hop : ∀ size align, op = .call (.alloc size align) → align ∣ d ∧ size < 2 ^ 64 ∧ align < 2 ^ 64) :
    cstep p up fuel (movedWorld p d w) op = (cstep p up fuel w op).map (movedWorld p d) := by
  cases op with
  | call op =>
    exact step_moved hv hd hp hp' hsm hsm' hl hu hs fun size align e => hop size align (by rw [e])
  | release =>
    unfold cstep
    show (release p fuel (moved d w.st) >>= _) = _
    rw [release_moved]
    refine bind_map fun s' hr => ?_
    have hf : Frame w.st s' := (ensures_release hd hp.le fuel).2 _ hr
    have hm : ∀ x, inArea p (moved d s') x = inArea p (moved d w.st) x :=
      inArea_congr (by show s'.data + d = w.st.data + d; rw [hf.data]) hf.count
    have hm' : ∀ x, inArea p s' x = inArea p w.st x := inArea_congr hf.data hf.count
    have hc : ∀ x, relocated p s' d x = relocated p w.st d x := fun x => by
      unfold relocated; rw [hm']
    simp only [Outcome.map, Outcome.bind, Outcome.pure_eq, movedWorld, hc]
    congr 2
    refine filter_map_congr fun x hx => ?_
    unfold stillHeld
    rw [hm, hm']
    cases hin : inArea p w.st x.1 with
    | true =>
      have er : relocated p w.st d x.1 = x.1 + d := by simp [relocated, hin]
      obtain ⟨a1, a2⟩ := inArea_iff.1 hin
      have h1 : inArea p (moved d w.st) (x.1 + d) = true :=
        inArea_iff.2 ⟨by show w.st.data + d ≤ _; omega,
          by show _ < w.st.data + d + w.st.blockCount * p.blockSize; omega⟩
      simp only [er, h1]
      congr 1
      have e : startBlock p (moved d s') (x.1 + d, x.2) = startBlock p s' x := by
        unfold startBlock
        have : (moved d s').data = s'.data + d := rfl
        rw [this, Nat.add_sub_add_right]
      rw [e]
      rfl
    | false =>
      have er : relocated p w.st d x.1 = x.1 := by simp [relocated, hin]
      have h1 : inArea p (moved d w.st) x.1 = false := by
        rcases hs x hx with h | h
        · rw [h] at hin; cases hin
        · exact h
      simp [er, h1]

theorem crun_moved {fuel : Nat} (hv : Valid p) (hd : p.debug = true) (ops : List COp) :
    ∀ (w : World σ), Placed p w.st → Placed p (moved d w.st) → Small p w.st → Small p (moved d w.st) →
      LinksForward w.st → UpstreamApart p w.st up → UpstreamApart p (moved d w.st) up → StaysApart p d w →
      AlignedOps d ops →
      crun p up fuel (movedWorld p d w) ops = (crun p up fuel w ops).map (movedWorld p d) := by
  induction ops with
  | nil => intro w _ _ _ _ _ _ _ _ _; rfl
  | cons op ops ih =>
    intro w hp hp' hsm hsm' hl hu hu' hs hops
    unfold crun
    have hop := fun size align (e : op = .call (.alloc size align)) => hops size align (by simp [e])
    rw [cstep_moved hv hd hp hp' hsm hsm' hl hu hs hop]
    refine bind_map fun w' hw => ?_
    obtain ⟨hf, hs'⟩ := (cstep_frame hv hd hp hsm hl hu' hs fun a b e => (hop a b e).2).2 _ hw
    have e1 := hf.data
    have e2 := hf.count
    have e3 : (moved d w'.st).data = (moved d w.st).data := by show w'.st.data + d = w.st.data + d; rw [e1]
    have e4 : (moved d w'.st).blockCount = (moved d w.st).blockCount := e2
    exact ih w' (hp.congr e1 e2) (hp'.congr e3 e4) (hsm.congr e1 e2) (hsm'.congr e3 e4) (hf.links hl)
      (fun U h u a b => by rw [inArea_congr e1 e2]; exact hu U h u a b)
      (fun U h u a b => by rw [inArea_congr e3 e4]; exact hu' U h u a b) hs'
      fun a b h => hops a b (by simp [h])

theorem Fresh.moved_eq {buffer bytes : Nat} {s' : State} (hv : Valid p) (hb : p.blockSize ∣ d)
    (h : Fresh p buffer bytes s) (h' : Fresh p (buffer + d) bytes s') : s' = moved d s := by
  obtain ⟨-, -, e⟩ := h.eq hv
  obtain ⟨-, -, e'⟩ := h'.eq hv
  rw [padding_moved hb] at e'
  rw [e, e']
  simp only [construct, moved]
  congr 1
  omega

end Utils.SR

namespace Utils.Res

open Utils Utils.Bits Utils.SR Utils.Spec

variable {σ : Type} {up : Option (Upstream σ)} {d : Nat}

/-- The buffer ends in the lower half of the address space. -/
structure MonoAt (m : Mono) : Prop where
  data : m.data ≠ 0
  low : m.data ≤ m.next
  high : m.next ≤ m.data + m.size
  top : m.data + m.size ≤ 2 ^ 63

theorem monoLocal_eq {debug : Bool} {m : Mono} {size align : Nat} (h : MonoAt m) (h1 : size < 2 ^ 63)
    (h2 : IsPow2 align) (h3 : align < 2 ^ 64) : m.allocateLocal debug size align =
      if m.next + padding m.next align + size ≤ m.data + m.size then
        .ok (⟨m.data, m.size, m.next + padding m.next align + size⟩, m.next + padding m.next align)
      else .ok (m, 0) := by
  obtain ⟨hd, hn, hn2, hend⟩ := h
  obtain ⟨k, hak⟩ := h2
  have hk : k < 64 := (Nat.pow_lt_pow_iff_right (by decide : 1 < 2)).1 (hak ▸ h3)
  have hap : 0 < align := by rw [hak]; exact Nat.two_pow_pos k
  have e1 : (BitVec.ofNat 64 align).toNat = 2 ^ k := by
    rw [BitVec.toNat_ofNat, Nat.mod_eq_of_lt h3, hak]
  have skip : skipToAlign debug (BitVec.ofNat 64 m.next) (BitVec.ofNat 64 align) =
      .ok (BitVec.ofNat 64 (padding m.next align)) := by
    rw [skipToAlign_eq debug hk e1, BitVec.toNat_ofNat, Nat.mod_eq_of_lt (by omega), hak]
    rfl
  have h63 : align ∣ 2 ^ 63 := by rw [hak]; exact Nat.pow_dvd_pow 2 (by omega)
  have b1 : padding m.next align ≤ 2 ^ 63 - m.next := skipNat_least hap (d := 2 ^ 63 - m.next)
    (by rw [Nat.add_sub_cancel' (by omega)]; exact h63)
  unfold Mono.allocateLocal
  rw [if_pos hd, skip, Outcome.ok_bind, BitVec.toNat_ofNat,
    Nat.mod_eq_of_lt (show padding m.next align < 2 ^ 64 by omega)]
  generalize padding m.next align = pad at *
  simp only [Nat.mod_eq_of_lt (show m.next + pad < 2 ^ 64 by omega),
    Nat.mod_eq_of_lt (show m.next + pad + size < 2 ^ 64 by omega),
    Nat.mod_eq_of_lt (show m.data + m.size < 2 ^ 64 by omega), Outcome.pure_eq]

/-- One request, with the outcome of the part that works on the buffer. -/
theorem monoAllocate_eq {debug : Bool} {m : Mono} {u : σ} {size align : Nat} (h : MonoAt m)
    (h1 : size < 2 ^ 63) (h2 : IsPow2 align) (h3 : align < 2 ^ 64) : m.allocate debug up u size align =
      if size = 0 then .ok (0, m, u)
      else if m.next + padding m.next align + size ≤ m.data + m.size then
        .ok (m.next + padding m.next align, ⟨m.data, m.size, m.next + padding m.next align + size⟩, u)
      else .ok ((askUpstream up u size align).1, m, (askUpstream up u size align).2) := by
  unfold Mono.allocate
  by_cases h0 : size = 0
  · rw [if_pos h0, if_pos h0]; rfl
  rw [if_neg h0, if_neg h0]
  have hp2 : isPowerOf2 (BitVec.ofNat 64 align) = true := by
    obtain ⟨k, hak⟩ := h2
    have hk : k < 64 := (Nat.pow_lt_pow_iff_right (by decide : 1 < 2)).1 (hak ▸ h3)
    refine (isPowerOf2_iff _).2 ⟨k, hk, ?_⟩
    rw [BitVec.toNat_ofNat, Nat.mod_eq_of_lt h3, hak]
  rw [hp2, cassert_true, Outcome.ok_bind, monoLocal_eq h h1 h2 h3]
  have hd := h.data
  have hl := h.low
  split
  · have : m.next + padding m.next align ≠ 0 := by omega
    cases up with
    | none => rfl
    | some U => simp only [Outcome.ok_bind, if_neg this, Outcome.pure_eq]
  · cases up with
    | none => rfl
    | some U => rfl

theorem monoStep_moved {debug : Bool} {w : MonoWorld σ} {op : MonoOp} (h : MonoAt w.res)
    (h' : MonoAt (w.res.moved d)) (hu : MonoApart w.res up) (hop : SaneCall op)
    (hdv : ∀ size align, op = .alloc size align → align ∣ d) :
    ∃ w', monoStep debug up w op = .ok w' ∧ monoStep debug up (movedMono d w) op = .ok (movedMono d w') ∧
      MonoAt w'.res ∧ MonoAt (w'.res.moved d) ∧ w'.res.data = w.res.data ∧ w'.res.size = w.res.size := by
  cases op with
  | alloc size align =>
    obtain ⟨h1, h2, h3⟩ := hop
    have hdv := hdv size align rfl
    have a0 := h.data
    have a1 := h.low
    have a2 := h'.top
    have a3 : w.res.data + d + w.res.size ≤ 2 ^ 63 := a2
    have e := monoAllocate_eq (up := up) (u := w.up) (debug := debug) h h1 h2 h3
    have e' := monoAllocate_eq (up := up) (u := w.up) (debug := debug) h' h1 h2 h3
    have g1 : (w.res.moved d).next = w.res.next + d := rfl
    have g2 : (w.res.moved d).data = w.res.data + d := rfl
    have g3 : (w.res.moved d).size = w.res.size := rfl
    rw [g1, g2, g3, padding_moved hdv] at e'
    have fold : monoStep debug up (movedMono d w) (.alloc size align) =
        ((w.res.moved d).allocate debug up w.up size align >>= fun r =>
          pure ⟨r.2.1, r.2.2, if r.1 = 0 then (movedMono d w).given
            else ⟨r.1, size, align⟩ :: (movedMono d w).given⟩) := rfl
    have fold2 : monoStep debug up w (.alloc size align) =
        (w.res.allocate debug up w.up size align >>= fun r =>
          pure ⟨r.2.1, r.2.2, if r.1 = 0 then w.given else ⟨r.1, size, align⟩ :: w.given⟩) := rfl
    rw [fold, fold2, e, e']
    generalize padding w.res.next align = pad
    by_cases h0 : size = 0
    · rw [if_pos h0, if_pos h0]
      exact ⟨w, rfl, rfl, h, h', rfl, rfl⟩
    rw [if_neg h0, if_neg h0]
    by_cases hf : w.res.next + pad + size ≤ w.res.data + w.res.size
    · rw [if_pos hf, if_pos (by omega)]
      have n1 : w.res.next + pad ≠ 0 := by omega
      have n2 : w.res.next + d + pad ≠ 0 := by omega
      refine ⟨_, rfl, ?_, ⟨a0, by simp only; omega, hf, h.top⟩,
        ⟨h'.data, by simp only [Mono.moved]; omega, by simp only [Mono.moved]; omega, h'.top⟩, rfl, rfl⟩
      have hin : (⟨w.res.data, w.res.size, w.res.next + pad + size⟩ : Mono).inBuffer (w.res.next + pad) = true := by
        unfold Mono.inBuffer
        simp only
        rw [decide_eq_true (by omega), decide_eq_true (by omega)]
        rfl
      have hb : ∀ x, (⟨w.res.data, w.res.size, w.res.next + pad + size⟩ : Mono).inBuffer x = w.res.inBuffer x :=
        fun x => rfl
      rw [hb] at hin
      simp only [Outcome.ok_bind, Outcome.pure_eq, if_neg n1, if_neg n2, movedMono, List.map_cons, hin, if_true, hb,
        Mono.moved]
      rw [show w.res.next + d + pad + size = w.res.next + pad + size + d by omega,
        show w.res.next + d + pad = w.res.next + pad + d by omega]
    · rw [if_neg hf, if_neg (by omega)]
      refine ⟨_, rfl, ?_, h, h', rfl, rfl⟩
      by_cases hz : (askUpstream up w.up size align).1 = 0
      · simp [movedMono, hz]
      · have hout : w.res.inBuffer (askUpstream up w.up size align).1 = false := by
          cases up with
          | none => exact absurd rfl hz
          | some U => exact hu U rfl w.up size align
        simp [movedMono, hz, hout]
  | free ptr => exact ⟨w, rfl, rfl, h, h', rfl, rfl⟩
  | release =>
    exact ⟨_, rfl, rfl, ⟨h.data, Nat.le_refl _, by simp [Mono.release], h.top⟩,
      ⟨h'.data, Nat.le_refl _, by simp [Mono.release, Mono.moved], h'.top⟩, rfl, rfl⟩

theorem monoRun_moved {debug : Bool} (ops : List MonoOp) : ∀ (w : MonoWorld σ), MonoAt w.res →
    MonoAt (w.res.moved d) → MonoApart w.res up → (∀ op ∈ ops, SaneCall op) →
    (∀ size align, MonoOp.alloc size align ∈ ops → align ∣ d) →
    ∃ w', monoRun debug up w ops = .ok w' ∧ monoRun debug up (movedMono d w) ops = .ok (movedMono d w') := by
  induction ops with
  | nil => exact fun w _ _ _ _ _ => ⟨w, rfl, rfl⟩
  | cons op ops ih =>
    intro w h h' hu hs hdv
    obtain ⟨w1, e, e', g, g', q1, q2⟩ := monoStep_moved (debug := debug) h h' hu (hs op (by simp))
      fun a b q => hdv a b (by simp [q])
    have hu1 : MonoApart w1.res up := fun U hU u a b => by
      have := hu U hU u a b
      unfold Mono.inBuffer at *
      rw [q1, q2]
      exact this
    obtain ⟨w2, f, f'⟩ := ih w1 g g' hu1 (fun o ho => hs o (by simp [ho])) fun a b q => hdv a b (by simp [q])
    refine ⟨w2, ?_, ?_⟩
    · unfold monoRun; rw [e]; exact f
    · unfold monoRun; rw [e']; exact f'

end Utils.Res
