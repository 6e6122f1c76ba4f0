import Verif.Proofs.SRChoice
import Verif.Props.SRExact

/-!
# Properties C81 and C82: which requests keep the bookkeeping of `simple_resource` right

C46-C60 give conditions on the request under which all goes well.  C81 gives the exact condition; C82
a simple way of use under which only two things can go wrong, and neither corrupts anything.
-/

namespace Utils.Props

open Utils Utils.Bits Utils.SR

variable {p : Params} {s : State} {size align : Nat} {σ : Type} {up : Option (Upstream σ)}

/-! ## C81 -/

/-- A request returns with the bookkeeping right iff it is refused or given a free region that is
larger than needed; in all other cases it does not return, fails an assertion, or leaves a state in
which no tiling of the area describes the live allocations. -/
theorem C81_iff (hv : Valid p) {w : World σ} {rs : List Region} (h : Tracks p up w rs)
    (hu : UpstreamOK p w.st up) (hr : Request size align) {fuel : Nat}
    (hf : 2 * w.st.blockCount ≤ fuel) :
    (∃ w', step p up fuel w (.alloc size align) = .ok w' ∧ ∃ rs', Tracks p up w' rs') ↔
      GoodChoice p w.st size align rs := by
  constructor
  · rintro ⟨w', ho, rs', h'⟩
    exact choice_needed hv h hr hf ho h'
  · intro hc
    obtain ⟨w', ho, hres⟩ := doAlloc_choice hv h hu hr hc hf
    exact ⟨w', ho, hres.tracked.2.2⟩

/-- Histories: as long as every request is a good choice, every call returns, and live allocations
lie inside the area and do not overlap. -/
theorem C81_history (hv : Valid p) {buffer bytes : Nat} (hf : Fresh p buffer bytes s)
    (hu : UpstreamOK p s up) (u : σ) {fuel : Nat} (hfuel : 2 * s.blockCount ≤ fuel) {ops : List Op}
    (hops : Along p up fuel (GoodOp p) ⟨s, u, []⟩ ops) :
    ∃ w', run p up fuel ⟨s, u, []⟩ ops = .ok w' ∧ Sound p w' ∧ ∃ rs', Tracks p up w' rs' := by
  obtain ⟨w', h1, ⟨rs', h2⟩, -⟩ := good_history hv (hf.start (up := up) hv u).1 hu hfuel hops
  exact ⟨w', h1, h2.sound hv, rs', h2⟩

/-- The safely scanned requests of C46-C60 are among them. -/
theorem C81_wider (hv : Valid p) {w : World σ} {rs : List Region} (h : Tracks p up w rs)
    (hu : UpstreamOK p w.st up) (hr : Request size align) (hs : SafeScan p w.st size align rs) :
    GoodChoice p w.st size align rs := by
  obtain ⟨w', ho, hres⟩ := doAlloc_good (fuel := 2 * w.st.blockCount) hv h hu hr hs (by omega)
  obtain ⟨-, -, rs', h'⟩ := hres.geometry
  exact choice_needed hv h hr (Nat.le_refl _) ho h'

/-- When the first region has one block, whatever is taken is a free region. -/
theorem C81_first_block {w : World σ} {rest : List Region} {b : Bool}
    (h : Tracks p up w (⟨1, b⟩ :: rest)) {i : Nat} (hd : Decides p w.st size align (.take i)) :
    ∃ pre len post, (⟨1, b⟩ :: rest : List Region) = pre ++ ⟨len, false⟩ :: post ∧ i = blocks pre := by
  have t := (tiled_iff.1 h.tiled).1
  have r0 : ∀ {j}, Finds w.st 0 (some j) → ∃ pre len post,
      (⟨1, b⟩ :: rest : List Region) = pre ++ ⟨len, false⟩ :: post ∧ j = blocks pre := by
    intro j hj
    obtain ⟨mid, len, post, e1, e2, -⟩ := Tiles.finds_real (pre := []) (List.cons_ne_nil _ _) t hj
    exact ⟨mid, len, post, e1, e2⟩
  cases hd with
  | first _ h0 _ => exact r0 h0
  | @second i' _ _ h0 _ hn h1 _ =>
    cases rest with
    | nil =>
      exfalso
      have a := Tiles.at (pre := []) t
      simp only [blocks_nil, Nat.zero_add] at a
      have e := a.2.2.2.2.2.1 trivial
      have : i' < w.st.blockCount := h0.bound h.links (by omega)
      have e2 : i' = 0 := by omega
      rw [e2, a.2.2.1, if_pos e] at hn
      exact hn rfl
    | cons q rest =>
      have t1 : Tiles w.st ([⟨1, b⟩] ++ q :: rest) := t
      obtain ⟨mid, len, post, e1, e2, -⟩ := t1.finds_real (List.cons_ne_nil _ _)
        (by simpa using h1)
      exact ⟨⟨1, b⟩ :: mid, len, post, by rw [e1]; rfl, e2⟩

/-- Both kinds of choice occur.  A request of 9 bytes on a fresh resource is given the only region,
which is larger than needed. -/
example : GoodChoice pDebug (fresh pDebug 4096 32) 9 1 [⟨32, false⟩] := by
  have e : (fresh pDebug 4096 32).blockCount = 32 ∧ (fresh pDebug 4096 32).data = 4096 ∧
      (fresh pDebug 4096 32).inUse 0 = false ∧ (fresh pDebug 4096 32).next 0 = 0 := by
    decide
  obtain ⟨e1, e2, e3, e4⟩ := e
  refine Or.inr ⟨[], 32, [], rfl, .first ⟨0, Nat.one_dvd _, by rw [e1]; decide⟩ (.here e3) ?_, ?_⟩
  · simp only [TooSmall, stop, need, padding, e1, e2, e4]
    decide
  · simp only [need, padding, e2]
    decide
/-- With block 0 held in a region of two blocks, a request too large for the first free region is
tried next at block 1, the middle of that region; it is taken although it is in use: this is the
overlap of `C48_counterexample`. -/
example {s : State} {rest : List Region} (h0 : s.inUse 0 = true) (h1 : s.next 0 = 2)
    (h2 : s.inUse 1 = false) (h3 : s.next 1 = 0) (h4 : s.inUse 2 = false) (h5 : s.next 2 = 3)
    (hd : s.data = 4096) (hn : s.blockCount = 32) :
    ¬ GoodChoice pDebug s 9 1 (⟨2, true⟩ :: ⟨1, false⟩ :: rest) := by
  have g : Gate pDebug s 1 := ⟨0, Nat.one_dvd _, by rw [hn]; decide⟩
  have d : Decides pDebug s 9 1 (.take 1) := by
    have f2 : Finds s 2 (some 2) := .here h4
    have f0 : Finds s 0 (some 2) := .next h0 (by rw [h1]; decide) (by rw [h1]; exact f2)
    refine .second g f0 ?_ (by rw [h5]; decide) (.here h2) ?_
    · simp only [TooSmall, stop, need, padding, h5, hd, hn]
      decide
    · simp only [TooSmall, stop, need, padding, h3, hd, hn]
      decide
  rintro (hc | ⟨pre, len, post, e, hc, -⟩)
  · cases hc.unique d
  · have hb : blocks pre = 1 := by
      have := hc.unique d
      injection this
    cases pre with
    | nil => simp at hb
    | cons q pre =>
      obtain ⟨rfl, -⟩ := List.cons.inj e
      rw [blocks_cons] at hb
      simp only at hb
      omega

/-! ## C82 -/

/-- One call of a client that keeps a one-block allocation at the start of the area. -/
theorem pin_step (hv : Valid p) {w : World σ} {rest : List Region}
    (h : Tracks p up w (⟨1, true⟩ :: rest)) (hu : UpstreamOK p w.st up) {fuel : Nat}
    (hf : 2 * w.st.blockCount ≤ fuel) {op : Op} (hop : PinOp p w op) :
    (∃ w' rest', step p up fuel w op = .ok w' ∧ Tracks p up w' (⟨1, true⟩ :: rest') ∧
      w'.st.data = w.st.data ∧ w'.st.blockCount = w.st.blockCount) ∨
    step p up fuel w op = .outOfFuel ∨ (p.debug = true ∧ step p up fuel w op = .assertFailed) := by
  have t := (tiled_iff.1 h.tiled).1
  cases op with
  | alloc size align =>
    obtain ⟨hr, hsz⟩ := hop
    have good : GoodChoice p w.st size align (⟨1, true⟩ :: rest) →
        ∃ w' rest', step p up fuel w (.alloc size align) = .ok w' ∧
          Tracks p up w' (⟨1, true⟩ :: rest') ∧
          w'.st.data = w.st.data ∧ w'.st.blockCount = w.st.blockCount := by
      intro hc
      obtain ⟨w', ho, hres⟩ := doAlloc_choice hv h hu hr hc hf
      obtain ⟨g1, g2, -⟩ := hres.tracked
      cases hres with
      | @served ptr pre len post a h1 h2 h3 =>
        cases pre with
        | nil => simp at h1
        | cons q pre =>
          obtain ⟨rfl, -⟩ := List.cons.inj h1
          exact ⟨w', _, ho, h3, g1, g2⟩
      | refused h1 h2 => exact ⟨w', rest, ho, h2, g1, g2⟩
    obtain ⟨r, hd, -⟩ := C79_decided (size := size) (align := align) h.placed h.links
    cases r with
    | never =>
      right; left
      have := C79_never hv h hr hd fuel
      simp only [step, doAlloc, this]
      rfl
    | refuse => exact Or.inl (good (Or.inl hd))
    | take i =>
      obtain ⟨pre, len, post, e, rfl⟩ := C81_first_block h hd
      by_cases he : need p w.st size align (blocks pre) = len * p.blockSize
      · have hst : stop w.st (blocks pre) = blocks pre + len := (e ▸ t).stop_real
        have he' : need p w.st size align (blocks pre)
            = (stop w.st (blocks pre) - blocks pre) * p.blockSize := by
          rw [hst, Nat.add_sub_cancel_left]; exact he
        rcases hsz with hdb | hsz
        · right; right
          have := C79_take_exact hv hdb h hr hd he' hf
          refine ⟨hdb, ?_⟩
          simp only [step, doAlloc, this]
          rfl
        · exfalso
          obtain ⟨a, ha⟩ := padding_blocks hv h.placed hr.pow2 (blocks pre)
          unfold need at he
          rw [ha] at he
          have : p.blockSize ∣ size := by
            have h1 : p.blockSize ∣ a * p.blockSize + size := by
              rw [he]; exact Nat.dvd_mul_left _ _
            exact (Nat.dvd_add_right (Nat.dvd_mul_left _ _)).1 h1
          exact hsz (Nat.mod_eq_zero_of_dvd this)
      · exact Or.inl (good (Or.inr ⟨pre, len, post, e, hd, he⟩))
  | free i =>
    left
    obtain ⟨w', rs', ho, ht, hres⟩ := doFree_good hv h i
    obtain ⟨g1, g2⟩ := hres.geometry
    have hpin : (0, 1) ∈ busyRuns 0 rs' := by
      cases hres with
      | nothing h1 h2 h3 => rw [h3]; simp
      | @locl x pre post pre' post' l h1 h2 h3 h4 h5 =>
        rw [h5]
        cases pre with
        | nil =>
          rw [blocks_nil] at h4
          exact absurd (by omega) (hop x h1)
        | cons q pre =>
          obtain ⟨rfl, -⟩ := List.cons.inj h3
          simp
      | upstream h1 h2 h3 h4 h5 => rw [h5]; simp
    obtain ⟨pre, post, e1, e2, -⟩ := busyRuns_split hpin
    simp only [Nat.zero_add] at e1 e2
    have : pre = [] := by
      cases pre with
      | nil => rfl
      | cons q pre =>
        have hq : 0 < q.len := by
          have t' := (tiled_iff.1 ht.tiled).1
          rw [e1] at t'
          exact (Tiles.at (pre := []) t').1
        rw [blocks_cons] at e2
        omega
    subst this
    rw [List.nil_append] at e1
    exact ⟨w', post, ho, e1 ▸ ht, g1, g2⟩

/-- A client that holds a one-block allocation at the start of the area and never gives it back:
whatever it does otherwise, no call corrupts anything.  Either the history runs to its end, with live
allocations inside the area and apart; or a request never returns; or (only with assertions) one
fails an assertion. -/
theorem C82_pinned (hv : Valid p) {w : World σ} {rest : List Region}
    (h : Tracks p up w (⟨1, true⟩ :: rest)) (hu : UpstreamOK p w.st up) {fuel : Nat}
    (hf : 2 * w.st.blockCount ≤ fuel) {ops : List Op} (hops : Along p up fuel (PinOp p) w ops) :
    (∃ w', run p up fuel w ops = .ok w' ∧ Sound p w' ∧
      ∃ rest', Tracks p up w' (⟨1, true⟩ :: rest')) ∨
    run p up fuel w ops = .outOfFuel ∨ (p.debug = true ∧ run p up fuel w ops = .assertFailed) := by
  induction ops generalizing w rest with
  | nil => exact Or.inl ⟨w, rfl, h.sound hv, rest, h⟩
  | cons op ops ih =>
    rcases pin_step hv h hu hf hops.1 with ⟨w1, rest1, h1, h2, h3, h4⟩ | h1 | ⟨h1, h2⟩
    · rcases ih h2 (hu.congr h3 h4) (by omega) (hops.2 w1 h1) with h5 | h5 | ⟨h5, h6⟩
      · left; rw [run, h1]; exact h5
      · right; left; rw [run, h1]; exact h5
      · right; right; rw [run, h1]; exact ⟨h5, h6⟩
    · right; left; rw [run, h1]; rfl
    · right; right; rw [run, h2]; exact ⟨h1, rfl⟩

/-- The same from a fresh resource: the first request, of less than a block, is the one kept. -/
theorem C82_fresh (hv : Valid p) {buffer bytes : Nat} (hf : Fresh p buffer bytes s)
    (hu : UpstreamOK p s up) (u : σ) {fuel : Nat} (hfuel : 2 * s.blockCount ≤ fuel)
    (hr : Request size align) (hsize : size < p.blockSize) (hal : align ∣ s.data) :
    ∃ w1, step p up fuel ⟨s, u, []⟩ (.alloc size align) = .ok w1 ∧ w1.live = [(s.data, size)] ∧
      ∀ ops, Along p up fuel (PinOp p) w1 ops →
        (∃ w', run p up fuel w1 ops = .ok w' ∧ Sound p w') ∨
        run p up fuel w1 ops = .outOfFuel ∨
        (p.debug = true ∧ run p up fuel w1 ops = .assertFailed) := by
  have h0 := (hf.start (up := up) hv u).1
  have hsome : 0 < s.blockCount := h0.placed.some
  have hpad : padding s.data align = 0 := by
    unfold padding
    rw [Nat.mod_eq_zero_of_dvd hal]
    simp
  have hfit : need p s size align 0 < s.blockCount * p.blockSize := by
    unfold need
    rw [Nat.zero_mul, Nat.add_zero, hpad]
    have := Nat.mul_le_mul_right p.blockSize hsome
    omega
  obtain ⟨w1, ho, hres⟩ := doAlloc_good (fuel := fuel) hv h0 hu hr
    (.first (pre := []) (post := []) (by simp) (by simpa using hfit)) (by simp only; omega)
  obtain ⟨g1, g2, -⟩ := hres.geometry
  cases hres with
  | @served ptr pre len post a h1 h2 h3 h4 h5 h6 =>
    cases pre with
    | cons q pre => simp at h1
    | nil =>
      obtain ⟨hlen, rfl⟩ : s.blockCount = len ∧ post = [] := by simpa using h1
      have hpad' := h4.pad
      simp only [blocks_nil, Nat.zero_mul, Nat.add_zero, hpad] at hpad'
      have ha : a = 0 := by
        rcases Nat.mul_eq_zero.1 hpad'.symm with h | h
        · exact h
        · have := hv.pos; omega
      subst ha
      have hptr := h4.at_block
      simp only [blocks_nil, Nat.zero_mul, Nat.add_zero] at hptr
      refine ⟨w1, ho, by rw [h6, hptr], fun ops hops => ?_⟩
      rw [Nat.div_eq_of_lt hsize] at h5
      have h5' : Tracks p up w1 (⟨1, true⟩ :: (freeRun (len - 0 - (0 + 1)) ++ [])) := by
        simpa [carve, freeRun] using h5
      rcases C82_pinned hv h5' (hu.congr g1 g2) (by rw [g2]; exact hfuel) hops with ⟨w', k1, k2, -⟩ | k | k
      · exact Or.inl ⟨w', k1, k2⟩
      · exact Or.inr (Or.inl k)
      · exact Or.inr (Or.inr k)
  | refused h1 =>
    exfalso
    have := h1 (Or.inl (by simpa using hal)) [] s.blockCount [] rfl
    simp only [blocks_nil] at this
    omega

/-- The three ends occur after a kept first allocation: requests of mixed sizes go well; the request of
nine bytes of `C49_counterexample` never returns; a request for all 31 remaining blocks fails an
assertion. -/
example : liveAfter pDebug (fresh pDebug 4096 32)
    [.alloc 1 1, .alloc 9 1, .alloc 20 16, .free 1, .alloc 12 8]
    = .ok [(4104, 12), (4128, 20), (4096, 1)] := by decide +kernel
example : liveAfter pDebug (fresh pDebug 4096 32)
    [.alloc 1 1, .alloc 1 1, .alloc 1 1, .free 1, .alloc 9 1] = .outOfFuel := by decide +kernel
example : liveAfter pDebug (fresh pDebug 4096 32) [.alloc 1 1, .alloc 248 1]
    = .assertFailed := by decide +kernel

end Utils.Props
