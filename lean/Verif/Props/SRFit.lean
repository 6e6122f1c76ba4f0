import Verif.Proofs.SROverlong
import Verif.Props.SRChoice

/-!
# Requests that fill a region of `simple_resource` (C51)
-/

namespace Utils.Props

open Utils Utils.Bits Utils.Spec Utils.SR

variable {p : Params} {s : State} {size align : Nat} {σ : Type} {up : Option (Upstream σ)}

/-- With and without assertions, in every state: a request that fills the region it is given to its last
byte never ends with the bookkeeping right. -/
theorem C51_never (hv : Valid p) {w : World σ} {rs : List Region} (h : Tracks p up w rs)
    (hr : Request size align) {i : Nat} (hd : Decides p w.st size align (.take i))
    (hs : need p w.st size align i = (stop w.st i - i) * p.blockSize)
    {fuel : Nat} (hf : 2 * w.st.blockCount ≤ fuel) {w' : World σ}
    (ho : step p up fuel w (.alloc size align) = .ok w') : ∀ rs', ¬ Tracks p up w' rs' := by
  intro rs' h'
  rcases choice_needed hv h hr hf ho h' with hc | ⟨pre, len, post, rfl, hd', hne⟩
  · cases hd.unique hc
  · cases hd.unique hd'
    have hst := (tiled_iff.1 h.tiled).1.stop_real
    simp only at hst
    rw [hst, Nat.add_sub_cancel_left] at hs
    exact hne hs

/-- Without assertions, in every state: such a request is served at the right address, but the region
recorded for it ends one block behind the region it was given (as long as `MaxBlockCount` leaves room for
one more block). -/
theorem C51_overlong (hv : Valid p) (hdb : p.debug = false) {w : World σ} {rs : List Region}
    (h : Tracks p up w rs) (hr : Request size align) {i : Nat}
    (hd : Decides p w.st size align (.take i))
    (hs : need p w.st size align i = (stop w.st i - i) * p.blockSize)
    (hroom : stop w.st i + 1 < p.maxBlocks) {fuel : Nat} (hf : 2 * w.st.blockCount ≤ fuel) :
    ∃ s' first, allocate p up fuel w.st w.up size align = .ok (w.st.data + first * p.blockSize, s', w.up) ∧
      w.st.data + first * p.blockSize + size = w.st.data + stop w.st i * p.blockSize ∧
      s'.inUse first = true ∧ stop s' first = stop w.st i + 1 := by
  obtain ⟨hi, -, hn⟩ := hd.bound h.placed h.links
  obtain ⟨a, ha⟩ := padding_blocks hv h.placed hr.pow2 i
  have hfit := hs
  unfold need at hfit
  rw [ha] at hfit
  obtain ⟨s', hs', hu, hx⟩ := allocateBlocks_overlong hv h.placed h.links hdb hi hr.pos hfit hroom
  have hm := local_exact hv h.placed h.small h.links hr hd (fuel := fuel) (Or.inr hf)
  have e : w.st.data + i * p.blockSize + padding (w.st.data + i * p.blockSize) align
      = w.st.data + (i + a) * p.blockSize := by
    rw [ha, Nat.add_mul, Nat.add_assoc]
  simp only [Means] at hm
  rw [e, hs', Outcome.ok_bind] at hm
  have hB := hv.pos
  have hnw := h.placed.noWrap
  have hd0 := h.placed.data
  have hst : i < stop w.st i := by
    unfold stop
    have := h.links i hi
    split <;> omega
  have hlB : stop w.st i * p.blockSize < p.maxBlocks * p.blockSize :=
    Nat.mul_lt_mul_of_pos_right (by omega) hB
  have e2 : stop w.st i * p.blockSize = i * p.blockSize + (stop w.st i - i) * p.blockSize := by
    rw [← Nat.add_mul]; congr 1; omega
  have e1 : (i + a) * p.blockSize = i * p.blockSize + a * p.blockSize := Nat.add_mul _ _ _
  refine ⟨s', i + a, allocate_served hv hr hm (by omega) (by omega)
    (Nat.dvd_add h.placed.aligned (Nat.dvd_mul_left _ _)), by omega, hu, ?_⟩
  unfold stop at hx ⊢
  rw [hx, if_neg (by omega)]

/-- Without assertions, in every state: if `MaxBlockCount` leaves no such room, the request writes behind the table
of blocks, unless the index behind the end is not even representable in `BIndex`. -/
theorem C51_past_table (hv : Valid p) (hdb : p.debug = false) {w : World σ} {rs : List Region}
    (h : Tracks p up w rs) (hr : Request size align) {i : Nat}
    (hd : Decides p w.st size align (.take i))
    (hs : need p w.st size align i = (stop w.st i - i) * p.blockSize)
    (hfull : p.maxBlocks ≤ stop w.st i + 1) (hwide : stop w.st i + 1 < 2 ^ p.width)
    {fuel : Nat} (hf : 2 * w.st.blockCount ≤ fuel) :
    allocate p up fuel w.st w.up size align = .ub := by
  obtain ⟨hi, -, hn⟩ := hd.bound h.placed h.links
  obtain ⟨a, ha⟩ := padding_blocks hv h.placed hr.pow2 i
  have hfit := hs
  unfold need at hfit
  rw [ha] at hfit
  have hm := local_exact hv h.placed h.small h.links hr hd (fuel := fuel) (Or.inr hf)
  have e : w.st.data + i * p.blockSize + padding (w.st.data + i * p.blockSize) align
      = w.st.data + (i + a) * p.blockSize := by
    rw [ha, Nat.add_mul, Nat.add_assoc]
  simp only [Means] at hm
  rw [e, allocateBlocks_past hv h.placed h.links hdb hi hr.pos hfit hfull hwide] at hm
  unfold allocate
  rw [if_neg (Nat.ne_of_gt hr.pos), hdb, cassert_ndebug, Outcome.ok_bind, hm]
  rfl

/-- Without assertions, if `MaxBlockCount` is the number of values of `BIndex` (256 or 65536): a request for the
whole area, all of it free, does what a request for one byte does. -/
theorem C51_one_block (hv : Valid p) (hdb : p.debug = false) {w : World σ}
    (h : Tracks p up w [⟨p.maxBlocks, false⟩]) (hw : p.maxBlocks = 2 ^ p.width) (hb : 1 < p.blockSize)
    (h2 : ∃ k, align = 2 ^ k) (hal : align ∣ w.st.data) {fuel : Nat} (hf : 2 * p.maxBlocks ≤ fuel) :
    allocate p up fuel w.st w.up (p.maxBlocks * p.blockSize) align = allocate p up fuel w.st w.up 1 align := by
  have hB := hv.pos
  have hM := hv.two
  have hp := h.placed
  have hnw := hp.noWrap
  have hle := hp.le
  have ht := (tiled_iff.1 h.tiled).1
  have hc : w.st.blockCount = p.maxBlocks := by
    have := ht.blocks_eq
    simpa [blocks] using this.symm
  have hst : stop w.st 0 = p.maxBlocks := by
    have := Tiles.stop_real (pre := []) ht
    simpa [blocks] using this
  have hmb : p.maxBlocks * 1 < p.maxBlocks * p.blockSize := Nat.mul_lt_mul_of_pos_left hb (by omega)
  have hle' : align ≤ w.st.data := Nat.le_of_dvd (Nat.pos_of_ne_zero hp.data) hal
  have hpad : padding (w.st.data + 0 * p.blockSize) align = 0 := by
    unfold padding
    rw [Nat.zero_mul, Nat.add_zero, Nat.mod_eq_zero_of_dvd hal, Nat.sub_zero, Nat.mod_self]
  have hfinds : Finds w.st 0 (some 0) := .here (Tiles.at (pre := []) ht).2.2.2.1
  obtain ⟨k, hk⟩ := h2
  have hgate : Gate p w.st align := by
    refine ⟨k, hk ▸ hal, ?_⟩
    rw [hk, hc]
    omega
  have takes : ∀ n, n ≤ p.maxBlocks * p.blockSize → Decides p w.st n align (.take 0) := by
    intro n hn
    refine .first hgate hfinds ?_
    unfold TooSmall need
    rw [hst, hpad, Nat.sub_zero]
    omega
  have r1 : Request (p.maxBlocks * p.blockSize) align := ⟨⟨k, hk⟩, by omega, by omega⟩
  have r2 : Request 1 align := ⟨⟨k, hk⟩, by omega, by omega⟩
  have m1 := local_exact hv hp h.small h.links r1 (takes _ (Nat.le_refl _)) (fuel := fuel) (Or.inr (by omega))
  have m2 := local_exact hv hp h.small h.links r2 (takes 1 (by omega)) (fuel := fuel) (Or.inr (by omega))
  have hlast : pointerToBlockIndex p w.st ((w.st.data + p.maxBlocks * p.blockSize) % 2 ^ 64) =
      pointerToBlockIndex p w.st ((w.st.data + 1) % 2 ^ 64) := by
    unfold pointerToBlockIndex
    rw [hdb, cassert_ndebug, Outcome.ok_bind, cassert_ndebug, Outcome.ok_bind, cassert_ndebug, Outcome.ok_bind,
      cassert_ndebug, Outcome.ok_bind]
    rw [show (w.st.data + p.maxBlocks * p.blockSize) % 2 ^ 64 = w.st.data + p.maxBlocks * p.blockSize by omega,
      show (w.st.data + 1) % 2 ^ 64 = w.st.data + 1 by omega,
      show (w.st.data + p.maxBlocks * p.blockSize + (2 ^ 64 - w.st.data)) % 2 ^ 64 = p.maxBlocks * p.blockSize
        by omega,
      show (w.st.data + 1 + (2 ^ 64 - w.st.data)) % 2 ^ 64 = 1 by omega,
      Nat.mul_div_cancel _ hB, Nat.div_eq_of_lt hb]
    unfold Params.trunc
    rw [← hw, Nat.mod_self, Nat.zero_mod]
  have hblocks : allocateBlocks p w.st 0 w.st.data (p.maxBlocks * p.blockSize) =
      allocateBlocks p w.st 0 w.st.data 1 := by
    unfold allocateBlocks
    rw [hlast]
  simp only [Means, hpad] at m1 m2
  simp only [Nat.zero_mul, Nat.add_zero] at m1 m2
  unfold allocate
  rw [if_neg (Nat.ne_of_gt r1.pos), if_neg (by decide), hdb, cassert_ndebug, Outcome.ok_bind, Outcome.ok_bind,
    m1, m2, hblocks]
  cases allocateBlocks p w.st 0 w.st.data 1 with
  | ok s' =>
    simp only [Outcome.ok_bind, Outcome.pure_eq]
    cases up with
    | none => rfl
    | some U => simp only [if_neg hp.data]
  | _ => rfl

/-- So the next request, unless it is too large, is given memory that is in use: the second block. -/
theorem C51_overlap (hv : Valid p) (hdb : p.debug = false) {w : World σ}
    (h : Tracks p up w [⟨p.maxBlocks, false⟩]) (hw : p.maxBlocks = 2 ^ p.width) (hb : 1 < p.blockSize)
    (hu : UpstreamOK p w.st up) (hs : 0 < size) (hfit : size < (p.maxBlocks - 1) * p.blockSize)
    {fuel : Nat} (hf : 2 * p.maxBlocks ≤ fuel) :
    ∃ w', run p up fuel w [.alloc (p.maxBlocks * p.blockSize) 1, .alloc size 1] = .ok w' ∧
      w'.live = (w.st.data + p.blockSize, size) :: (w.st.data, p.maxBlocks * p.blockSize) :: w.live ∧
      ¬ Apart (w.st.data + p.blockSize, size) (w.st.data, p.maxBlocks * p.blockSize) := by
  have hB := hv.pos
  have hM := hv.two
  have hp := h.placed
  have hnw := hp.noWrap
  have hle := hp.le
  have hd0 := hp.data
  have hpad : ∀ x, padding x 1 = 0 := fun x => by simp [padding, Nat.mod_one]
  have hmB : (p.maxBlocks - 1) * p.blockSize + p.blockSize = p.maxBlocks * p.blockSize := by
    rw [Nat.sub_mul, Nat.one_mul]
    have : 1 * p.blockSize ≤ p.maxBlocks * p.blockSize := Nat.mul_le_mul_right _ (by omega)
    omega
  have e1 := C51_one_block (align := 1) hv hdb h hw hb ⟨0, rfl⟩ (Nat.one_dvd _) hf
  obtain ⟨w1, ho1, r1⟩ := doAlloc_good (size := 1) (align := 1) (fuel := fuel) hv h hu ⟨⟨0, rfl⟩, by omega, by omega⟩
    (.first (pre := []) (by simp) (by unfold need; rw [hpad]; omega)) (by omega)
  cases r1 with
  | refused hnone =>
    exfalso
    have := hnone (Or.inl (Nat.one_dvd _)) [] _ [] rfl
    unfold need at this
    rw [hpad] at this
    omega
  | @served ptr pre len post a hsplit hff hfits hserved htr hlive hloc hup =>
    have hpre : pre = [] ∧ len = p.maxBlocks ∧ post = [] := by
      cases pre with
      | nil => simpa using hsplit.symm
      | cons x l => simp at hsplit
    obtain ⟨rfl, rfl, rfl⟩ := hpre
    have ha : a = 0 := by
      have := hserved.pad
      rw [hpad] at this
      rcases Nat.mul_eq_zero.1 this.symm with e | e
      · exact e
      · omega
    subst ha
    have hptr : ptr = w.st.data := by rw [hserved.at_block]; simp [blocks]
    subst hptr
    have htr' : Tracks p up w1 [⟨1, true⟩, ⟨p.maxBlocks - 1, false⟩] := by
      have : carve 0 (1 / p.blockSize + 1) p.maxBlocks = [⟨1, true⟩, ⟨p.maxBlocks - 1, false⟩] := by
        rw [Nat.div_eq_of_lt hb]
        simp [carve, freeRun]
        omega
      rw [this] at htr
      simpa using htr
    have hu1 : UpstreamOK p w1.st up := by
      intro U e u n al
      have := hu U e u n al
      unfold inArea at this ⊢
      rw [hserved.data, hserved.count]
      exact this
    obtain ⟨w2, ho2, r2⟩ := doAlloc_good (size := size) (align := 1) (fuel := fuel) hv htr' hu1
      ⟨⟨0, rfl⟩, hs, by omega⟩
      (.first (pre := [⟨1, true⟩]) (len := p.maxBlocks - 1) (post := []) (by simp) (by
        unfold need; rw [hpad]; omega))
      (by rw [hserved.count]; omega)
    cases r2 with
    | refused hnone =>
      exfalso
      have := hnone (Or.inl (Nat.one_dvd _)) [⟨1, true⟩] _ [] rfl
      unfold need at this
      rw [hpad] at this
      omega
    | @served ptr2 pre2 len2 post2 a2 hsplit2 hff2 hfits2 hserved2 htr2 hlive2 hloc2 hup2 =>
      have hpre2 : pre2 = [⟨1, true⟩] := by
        match pre2, hsplit2 with
        | [], h => simp at h
        | [x], h =>
          simp at h
          rw [h.1]
        | _ :: _ :: _, h => simp at h
      subst hpre2
      have ha2 : a2 = 0 := by
        have := hserved2.pad
        rw [hpad] at this
        rcases Nat.mul_eq_zero.1 this.symm with e | e
        · exact e
        · omega
      subst ha2
      have hptr2 : ptr2 = w.st.data + p.blockSize := by
        rw [hserved2.at_block, hserved.data]
        simp [blocks]
      subst hptr2
      -- the same requests with the size asked for
      have q1 : ∃ x, allocate p up fuel w.st w.up 1 1 = .ok x ∧ x = (w.st.data, w1.st, w1.up) := by
        unfold doAlloc at ho1
        cases hx : allocate p up fuel w.st w.up 1 1 with
        | ok x =>
          obtain ⟨ptr, st, u⟩ := x
          rw [hx, Outcome.ok_bind] at ho1
          have := Outcome.ok.inj ho1
          subst this
          refine ⟨_, rfl, ?_⟩
          simp only at hlive
          split at hlive
          · exact absurd (congrArg List.length hlive) (by simp)
          · have := (List.cons.inj hlive).1
            rw [(Prod.mk.inj this).1]
        | _ => rw [hx] at ho1; cases ho1
      have q2 : ∃ x, allocate p up fuel w1.st w1.up size 1 = .ok x ∧
          x = (w.st.data + p.blockSize, w2.st, w2.up) := by
        unfold doAlloc at ho2
        cases hx : allocate p up fuel w1.st w1.up size 1 with
        | ok x =>
          obtain ⟨ptr, st, u⟩ := x
          rw [hx, Outcome.ok_bind] at ho2
          have := Outcome.ok.inj ho2
          subst this
          refine ⟨_, rfl, ?_⟩
          simp only at hlive2
          split at hlive2
          · exact absurd (congrArg List.length hlive2) (by simp)
          · have := (List.cons.inj hlive2).1
            rw [(Prod.mk.inj this).1]
        | _ => rw [hx] at ho2; cases ho2
      obtain ⟨_, q1, rfl⟩ := q1
      obtain ⟨_, q2, rfl⟩ := q2
      refine ⟨⟨w2.st, w2.up, (w.st.data + p.blockSize, size) :: (w.st.data, p.maxBlocks * p.blockSize) :: w.live⟩,
        ?_, rfl, ?_⟩
      · simp only [run, step, doAlloc, e1, q1, q2, Outcome.ok_bind, Outcome.pure_eq, if_neg hd0]
        rw [if_neg (by omega)]
      · unfold Apart
        simp only
        omega

/-- With a byte to spare in the last block of the first free region, which starts at a multiple of the
alignment, the request is served and uses exactly that region.  Missing for the full claim: the last
byte, for which it is false (`C51_never`). -/
theorem C51_spare_partial (hv : Valid p) {w : World σ} {pre post : List Region} {len : Nat}
    (h : Tracks p up w (pre ++ ⟨len, false⟩ :: post)) (hb : ∀ r ∈ pre, r.busy = true)
    (hu : UpstreamOK p w.st up) (hr : Request size align)
    (hal : GateOpen p w.st align) (hd : align ∣ w.st.data + blocks pre * p.blockSize)
    (hlo : (len - 1) * p.blockSize ≤ size) (hhi : size < len * p.blockSize)
    {fuel : Nat} (hf : w.st.blockCount ≤ fuel) :
    ∃ w', step p up fuel w (.alloc size align) = .ok w' ∧
      w'.live = (w.st.data + blocks pre * p.blockSize, size) :: w.live ∧
      Tracks p up w' (pre ++ ⟨len, true⟩ :: post) := by
  have hB := hv.pos
  have hpad : padding (w.st.data + blocks pre * p.blockSize) align = 0 := by
    unfold padding
    rw [Nat.mod_eq_zero_of_dvd hd, Nat.sub_zero, Nat.mod_self]
  have hneed : need p w.st size align (blocks pre) = size := by
    unfold need
    rw [hpad, Nat.zero_add]
  obtain ⟨w', ho, hres⟩ := doAlloc_good hv h hu hr (.first hb (by omega)) hf
  refine ⟨w', ho, ?_⟩
  cases hres with
  | @served ptr pre' len' post' a hsplit hff hfits hserved htr hlive hloc hup =>
    have key : pre' = pre ∧ len' = len ∧ post' = post := by
      rcases List.append_eq_append_iff.1 hsplit with ⟨c, e1, e2⟩ | ⟨c, e1, e2⟩
      · cases c with
        | nil =>
          rw [List.append_nil] at e1
          rw [List.nil_append] at e2
          injection e2 with e3 e4
          injection e3 with e5
          exact ⟨e1, e5.symm, e4.symm⟩
        | cons x c =>
          exfalso
          rw [List.cons_append] at e2
          injection e2 with e3 e4
          subst e3
          have := hff pre len c e1
          omega
      · cases c with
        | nil =>
          rw [List.append_nil] at e1
          rw [List.nil_append] at e2
          injection e2 with e3 e4
          injection e3 with e5
          exact ⟨e1.symm, e5, e4⟩
        | cons x c =>
          exfalso
          rw [List.cons_append] at e2
          injection e2 with e3 e4
          have := hb x (by rw [e1]; simp)
          rw [← e3] at this
          cases this
    obtain ⟨rfl, rfl, rfl⟩ := key
    have ha : a = 0 := by
      have := hserved.pad
      rw [hpad] at this
      rcases Nat.mul_eq_zero.1 this.symm with e | e
      · exact e
      · omega
    subst ha
    have hq : size / p.blockSize + 1 = len' := by
      have h1 : size / p.blockSize < len' := (Nat.div_lt_iff_lt_mul hB).2 hhi
      have h2 : len' - 1 ≤ size / p.blockSize := (Nat.le_div_iff_mul_le hB).2 hlo
      omega
    rw [hq] at htr
    have ec : carve 0 len' len' = [⟨len', true⟩] := by simp [carve, freeRun]
    rw [ec, List.append_assoc] at htr
    refine ⟨?_, htr⟩
    rw [hlive, hserved.at_block]
    rfl
  | refused hnone hst htr hlive hloc hup =>
    exfalso
    have := hnone hal pre len post rfl
    omega

/-- All of a fresh resource of eight blocks. -/
example : ∃ s' first, allocate pRelease (none : Option (Upstream Unit)) 100 (fresh pRelease 4096 8) () 64 1
      = .ok (4096 + first * 8, s', ()) ∧ 4096 + first * 8 + 64 = 4096 + 8 * 8 ∧
      s'.inUse first = true ∧ stop s' first = 9 := by
  have hf : Fresh pRelease 4096 64 (fresh pRelease 4096 8) :=
    ⟨by rfl, by decide, by decide, by decide, small_of_le (by decide) (by decide)⟩
  have h := (hf.start (up := (none : Option (Upstream Unit))) pRelease_valid ()).1
  exact C51_overlong (size := 64) (align := 1) (i := 0) pRelease_valid rfl h
    ⟨⟨0, rfl⟩, by decide, by decide⟩
    (.first ⟨0, Nat.one_dvd _, by decide⟩ (.here rfl) (by unfold TooSmall; decide +kernel))
    (by decide +kernel) (by decide +kernel) (by decide +kernel)

/-- All of a fresh resource of thirty-two blocks, the most `pRelease` allows. -/
example : allocate pRelease (none : Option (Upstream Unit)) 100 (fresh pRelease 4096 32) () 256 1 = .ub := by
  have hf : Fresh pRelease 4096 256 (fresh pRelease 4096 32) :=
    ⟨by rfl, by decide, by decide, by decide, small_of_le (by decide) (by decide)⟩
  have h := (hf.start (up := (none : Option (Upstream Unit))) pRelease_valid ()).1
  exact C51_past_table (size := 256) (align := 1) (i := 0) pRelease_valid rfl h
    ⟨⟨0, rfl⟩, by decide, by decide⟩
    (.first ⟨0, Nat.one_dvd _, by decide⟩ (.here rfl) (by unfold TooSmall; decide +kernel))
    (by decide +kernel) (by decide +kernel) (by decide +kernel) (by decide +kernel)

/-- 256 blocks of eight bytes. -/
def pFull : Params := ⟨256, 8, false⟩

/-- All 2048 bytes, then 100 of them once more. -/
example : ∃ w', run pFull (none : Option (Upstream Unit)) 1000 ⟨fresh pFull 4096 256, (), []⟩
      [.alloc 2048 1, .alloc 100 1] = .ok w' ∧ w'.live = [(4104, 100), (4096, 2048)] := by
  have hv : Valid pFull := ⟨⟨3, rfl⟩, by decide, by decide⟩
  have hf : Fresh pFull 4096 2048 (fresh pFull 4096 256) :=
    ⟨by rfl, by decide, by decide, by decide, small_of_le (by decide) (by decide)⟩
  have h := (hf.start (up := (none : Option (Upstream Unit))) hv ()).1
  obtain ⟨w', h1, h2, -⟩ := C51_overlap (size := 100) (fuel := 1000) hv rfl h (by decide +kernel) (by decide)
    (by simp [UpstreamOK]) (by decide) (by decide) (by decide)
  exact ⟨w', h1, h2⟩

/-- No tiling describes what this request leaves; a request of one byte less is right. -/
example (w' : World Unit) (rs' : List Region)
    (ho : step pRelease (none : Option (Upstream Unit)) 100 ⟨fresh pRelease 4096 8, (), []⟩ (.alloc 64 1)
      = .ok w') : ¬ Tracks pRelease none w' rs' := by
  have hf : Fresh pRelease 4096 64 (fresh pRelease 4096 8) :=
    ⟨by rfl, by decide, by decide, by decide, small_of_le (by decide) (by decide)⟩
  have h := (hf.start (up := (none : Option (Upstream Unit))) pRelease_valid ()).1
  exact C51_never (size := 64) (align := 1) (i := 0) pRelease_valid h
    ⟨⟨0, rfl⟩, by decide, by decide⟩
    (.first ⟨0, Nat.one_dvd _, by decide⟩ (.here rfl) (by unfold TooSmall; decide +kernel))
    (by decide +kernel) (by decide +kernel) ho rs'
example : ∃ w', step pRelease (none : Option (Upstream Unit)) 100 ⟨fresh pRelease 4096 8, (), []⟩
      (.alloc 63 1) = .ok w' ∧ w'.live = [(4096, 63)] ∧ Tracks pRelease none w' [⟨8, true⟩] := by
  have hf : Fresh pRelease 4096 64 (fresh pRelease 4096 8) :=
    ⟨by rfl, by decide, by decide, by decide, small_of_le (by decide) (by decide)⟩
  have h := (hf.start (up := (none : Option (Upstream Unit))) pRelease_valid ()).1
  exact C51_spare_partial (pre := []) (post := []) (len := 8) pRelease_valid h (by simp) (by simp [UpstreamOK])
    ⟨⟨0, rfl⟩, by decide, by decide⟩ (Or.inl (Nat.one_dvd _)) (Nat.one_dvd _) (by decide) (by decide)
    (by decide)

end Utils.Props
