import Verif.Props.Resources
import Verif.Props.SRCycle
import Verif.Props.Exact
import Verif.Proofs.SRWrap

/-!
# Exact conditions for `simple_resource`: impossible requests (C52), `release` (C55), the destructor
(C59) and the system resource as upstream (C70)
-/

namespace Utils.Props

open Utils Utils.Bits Utils.Spec Utils.SR Utils.Res

variable {p : Params} {s : State} {size align : Nat} {σ : Type} {up : Option (Upstream σ)}

/-! ## C52 -/

/-- In every state, with or without assertions: if at no block padding plus size exceeds `SIZE_MAX`, a
request larger than the area is not served from it. -/
theorem C52_no_wrap (hv : Valid p) {w : World σ} {rs : List Region} (h : Tracks p up w rs)
    (hu : UpstreamOK p w.st up) {k : Nat} (hk : k < 64) (hak : align = 2 ^ k)
    (hbig : w.st.blockCount * p.blockSize < size)
    (hw : ∀ j, j < w.st.blockCount → padding (w.st.data + j * p.blockSize) align + size < 2 ^ 64)
    (fuel : Nat) :
    allocate p up fuel w.st w.up size align = .outOfFuel ∨
    allocate p up fuel w.st w.up size align = .ok
      ((askUpstream up w.up size align).1, w.st, (askUpstream up w.up size align).2) := by
  obtain ⟨u1, u2, -, -⟩ := askUpstream_ok (u := w.up) (size := size) (align := align) hu
  have g := gate_iff (size := size) hv h.placed h.small ⟨k, hak⟩ fuel
  by_cases hg : Gate p w.st align
  · rcases scanFrom_refuses (fuel := fuel) hv h.placed h.links (i := 0)
      (by have := h.placed.some; omega) hk hak hbig hw with e | e
    · right
      exact (allocate_eq hv hk hak (by omega) ((g.1 hg).trans e)).1 rfl u1 (fun _ => u2)
    · left
      have hp2 : isPowerOf2 (BitVec.ofNat 64 align) = true :=
        isPowerOf2_of hk (by
          rw [BitVec.toNat_ofNat, hak, Nat.mod_eq_of_lt (Nat.pow_lt_pow_right (by decide) hk)])
      unfold allocate
      rw [if_neg (by omega), hp2, cassert_true, Outcome.ok_bind, (g.1 hg).trans e]
      rfl
  · right
    exact (allocate_eq hv hk hak (by omega) (g.2 hg)).1 rfl u1 (fun _ => u2)

/-- A size that leaves room for every padding to 64: larger than the area, not served. -/
example : (fresh pDebug 4096 32).blockCount * pDebug.blockSize < 2 ^ 64 - 64 ∧
    (∀ j, j < 32 → padding (4096 + j * 8) 64 + (2 ^ 64 - 64) < 2 ^ 64) :=
  ⟨by decide, by decide⟩

/-- Without assertions, on a fresh resource: a request larger than the area is answered with memory of
the area iff its alignment passes the gate and the padding at the start of the area plus the size
exceeds `SIZE_MAX`; the answer is then the first aligned address of the area. -/
theorem C52_iff (hv : Valid p) (hd : p.debug = false) {buffer bytes : Nat}
    (hf : Fresh p buffer bytes s) (hu : UpstreamOK p s up) (u : σ) {k : Nat} (hk : k < 64)
    (hak : align = 2 ^ k) (hbig : s.blockCount * p.blockSize < size) (hsz : size < 2 ^ 64)
    (fuel : Nat) :
    ((∃ r, allocate p up (fuel + 1) s u size align = .ok r ∧ inArea p s r.1 = true) ↔
      Gate p s align ∧ 2 ^ 64 ≤ padding s.data align + size) ∧
    ∀ r, allocate p up (fuel + 1) s u size align = .ok r → inArea p s r.1 = true →
      r.1 = s.data + padding s.data align := by
  obtain ⟨-, -, h3⟩ := hf.eq hv
  have ht := (hf.start (up := up) hv u).1
  have hp : Placed p s := ht.placed
  have hsm : Small p s := ht.small
  have hnext : ∀ j, s.next j = 0 := by rw [h3]; exact fun _ => rfl
  have huse : ∀ j, s.inUse j = false := by rw [h3]; exact fun _ => rfl
  obtain ⟨u1, u2, -, u3⟩ := askUpstream_ok (u := u) (size := size) (align := align) hu
  have hn0 : 0 < s.blockCount * p.blockSize := Nat.mul_pos hp.some hv.pos
  by_cases hw : Gate p s align ∧ 2 ^ 64 ≤ padding s.data align + size
  · obtain ⟨s', e⟩ := wrapped_local hv hd hp hsm hnext huse hk hak hw.1 hsz hw.2 fuel
    have hlt := hw.1.padding_lt hak hn0
    have hnw := hp.noWrap
    have hnn : s.blockCount * p.blockSize ≤ p.maxBlocks * p.blockSize :=
      Nat.mul_le_mul_right _ hp.le
    have hd0 := hp.data
    obtain ⟨a, ha⟩ := padding_blocks hv hp ⟨k, hak⟩ 0
    rw [Nat.zero_mul, Nat.add_zero] at ha
    have e' := (allocate_eq (up := up) (u := u) hv hk hak (by omega) e).2 (by omega) (by omega)
      (Nat.dvd_add hp.aligned (by rw [ha]; exact Nat.dvd_mul_left _ _))
    refine ⟨⟨fun _ => hw, fun _ => ⟨_, e', ?_⟩⟩, ?_⟩
    · rw [inArea_iff]
      simp only
      omega
    · intro r hr _
      rw [e'] at hr
      cases hr
      rfl
  · have e := unwrapped_local hv hp hsm hnext huse hk hak hbig hw fuel
    have e' := (allocate_eq (up := up) (u := u) hv hk hak (by omega) e).1 rfl u1 (fun _ => u2)
    have hno : ∀ r, allocate p up (fuel + 1) s u size align = .ok r → inArea p s r.1 = false := by
      intro r hr
      rw [e'] at hr
      cases hr
      by_cases h0 : (askUpstream up u size align).1 = 0
      · simp only [h0]
        cases h : inArea p s 0 with
        | false => rfl
        | true =>
          have := (inArea_iff.1 h).1
          have := hp.data
          omega
      · exact u3 h0
    refine ⟨⟨fun ⟨r, h1, h2⟩ => ?_, fun h => absurd h hw⟩, fun r h1 h2 => ?_⟩
    · rw [hno r h1] at h2; cases h2
    · rw [hno r h1] at h2; cases h2

/-- Both sides occur on an area of 256 bytes at address 8. -/
example : Gate pRelease (fresh pRelease 8 32) 64 ∧
    2 ^ 64 ≤ padding (fresh pRelease 8 32).data 64 + (2 ^ 64 - 56) ∧
    padding (fresh pRelease 8 32).data 64 + (2 ^ 64 - 57) < 2 ^ 64 :=
  ⟨⟨0, by decide, by decide⟩, by decide, by decide⟩

/-! ## C55 -/

/-- `release()` empties the area iff every allocation of the area is the first busy one or is reached
from block 1 along the recorded links. -/
theorem C55_iff (hv : Valid p) {w : World σ} {rs : List Region} (h : Tracks p up w rs) {fuel : Nat}
    (hfuel : (w.st.blockCount + 1) * (w.st.blockCount + 2) ≤ fuel) :
    (∃ w', cstep p up fuel w .release = .ok w' ∧ localLive p w' = []) ↔
      ∀ x ∈ localLive p w,
        FirstBusy w.st (startBlock p w.st x) ∨ Path w.st 1 (startBlock p w.st x) := by
  obtain ⟨s', rs', e, ht, g1, g2, -⟩ := h.release (fuel := fuel) hv hfuel
  obtain ⟨w', h1, h2, h3, h4⟩ := C91_taken_back hv h hfuel
  have e' : cstep p up fuel w .release = .ok ⟨s', w.up, w.live.filter (stillHeld p s')⟩ := by
    show (SR.release p fuel w.st >>= _) = _
    rw [e]
    rfl
  rw [h1] at e'
  obtain rfl := Outcome.ok.inj e'
  constructor
  · rintro ⟨w'', k1, k2⟩ x hx
    rw [h1] at k1
    cases k1
    by_contra hc
    obtain ⟨hx1, hx2⟩ := List.mem_filter.1 hx
    have : x ∈ localLive p (⟨s', w.up, w.live.filter (stillHeld p s')⟩ : World σ) :=
      List.mem_filter.2 ⟨(h4 x).2 ⟨hx1, fun _ => not_or.1 hc⟩, by
        rw [inArea_congr g1 g2]; exact hx2⟩
    rw [k2] at this
    cases this
  · intro hall
    refine ⟨_, h1, ?_⟩
    rw [List.eq_nil_iff_forall_not_mem]
    intro x hx
    obtain ⟨k1, k2⟩ := List.mem_filter.1 hx
    rw [inArea_congr g1 g2] at k2
    obtain ⟨m1, m2⟩ := (h4 x).1 k1
    obtain ⟨m3, m4⟩ := m2 k2
    exact (hall x (List.mem_filter.2 ⟨m1, k2⟩)).elim m3 m4

/-- Both sides occur: two one-block allocations, and two of two and one blocks. -/
example : (crun pDebug none 5000 (⟨fresh pDebug 4096 32, (), []⟩ : World Unit)
      [.call (.alloc 3 1), .call (.alloc 3 1), .release]).map (·.live) = .ok [] ∧
    (crun pDebug none 5000 (⟨fresh pDebug 4096 32, (), []⟩ : World Unit)
      [.call (.alloc 9 1), .call (.alloc 3 1), .release]).map (·.live) = .ok [(4112, 3)] := by
  constructor <;> decide +kernel

/-! ## C59 -/

/-- Also after histories with releases, and for all good choices: destroying the resource aborts iff
some allocation of the area is still held. -/
theorem C59_cycle (hv : Valid p) {buffer bytes : Nat} (hf : Fresh p buffer bytes s)
    (hu : UpstreamOK p s up) (u : σ) {fuel : Nat}
    (hfuel : (s.blockCount + 1) * (s.blockCount + 2) ≤ fuel) {ops : List COp}
    (hs : CAlong p up fuel (GoodOp p) ⟨s, u, []⟩ ops) :
    ∃ w', crun p up fuel ⟨s, u, []⟩ ops = .ok w' ∧
      (destroy w'.st = .aborted ↔ localLive p w' ≠ []) ∧
      (destroy w'.st = .ok () ↔ localLive p w' = []) := by
  obtain ⟨w', h1, ⟨rs, h2⟩, -⟩ := C91_sound_partial hv hf hu u hfuel hs
  have hlen : (localLive p w').length = w'.st.busyCount := by
    have := h2.live.length_eq
    rw [List.length_map, List.length_map] at this
    rw [this, h2.tiled.busy]
    clear this h2
    generalize 0 = k
    induction rs generalizing k with
    | nil => rfl
    | cons r rs ih =>
      obtain ⟨l, b⟩ := r
      cases b with
      | true => rw [busyRuns_busy, List.length_cons, ih]; simp
      | false => rw [busyRuns_free, ih]; simp
  refine ⟨w', h1, ?_⟩
  unfold destroy
  by_cases h : localLive p w' = []
  · rw [← hlen, h]
    exact ⟨⟨nofun, fun h => absurd rfl h⟩, ⟨fun _ => rfl, fun _ => rfl⟩⟩
  · rw [decide_eq_true, abortIf_true]
    · exact ⟨⟨fun _ => h, fun _ => rfl⟩, ⟨nofun, fun hc => absurd hc h⟩⟩
    · rw [← hlen]
      intro h3
      exact h (List.eq_nil_of_length_eq_zero h3)

example : ((crun pDebug none 5000 (⟨fresh pDebug 4096 32, (), []⟩ : World Unit)
      [.call (.alloc 9 1), .call (.alloc 3 1), .release]).bind fun w => destroy w.st) = .aborted ∧
    ((crun pDebug none 5000 (⟨fresh pDebug 4096 32, (), []⟩ : World Unit)
      [.call (.alloc 9 1), .release, .call (.alloc 3 1), .release]).bind fun w => destroy w.st) =
        .ok () := by
  constructor <;> decide +kernel

/-! ## C70 -/

/-- A heap with a single address: 8. -/
def heapAtEight : Heap Nat where
  posixMemalign := fun s align _ => (if align = 8 then some 8 else none, s)
  free := fun s _ => s

theorem heapAtEight_ok : HeapOK heapAtEight := by
  constructor
  · intro s align size h
    show (if align = 8 then some 8 else none) = none
    refine if_neg ?_
    rintro rfl
    exact h ⟨⟨3, rfl⟩, by decide⟩
  · intro s align size q h
    have h : (if align = 8 then some 8 else none) = some q := h
    split at h
    · next e =>
      cases h
      rw [e]
    · cases h

/-- Exactly the block sizes up to `sizeof(void*)` are safe: only with these can everything that is
obtained be given back, whatever the heap and the history. -/
theorem C70_iff (hv : Valid p) {buffer bytes : Nat} (hf : Fresh p buffer bytes s) :
    (∀ (h : Heap Nat), HeapOK h →
      (∀ t align size q, (h.posixMemalign t align size).1 = some q →
        q < 2 ^ 64 ∧ inArea p s q = false) →
      ∀ (u : Nat) (fuel : Nat), s.blockCount ≤ fuel → ∀ ops : List Op,
        Along p (some (systemResource h)) fuel (SafeOp p) ⟨s, u, []⟩ ops →
        ∃ w', run p (some (systemResource h)) fuel ⟨s, u, []⟩ ops = .ok w' ∧
          ∀ x ∈ w'.live, ∃ r, deallocate p (some (systemResource h)) w'.st w'.up x.1 = .ok r) ↔
      p.blockSize ∣ 8 := by
  constructor
  · intro hall
    by_contra hnd
    have ht := (hf.start (up := some (systemResource heapAtEight)) hv 0).1
    have hp : Placed p s := ht.placed
    have hB := hv.pos
    have h16 : 16 ≤ p.blockSize := by
      obtain ⟨k, hk⟩ := hv.pow2
      have : ¬ k ≤ 3 := fun hle => hnd (by rw [hk]; exact Nat.pow_dvd_pow 2 hle)
      have : 2 ^ 4 ≤ 2 ^ k := Nat.pow_le_pow_right (by decide) (by omega)
      omega
    have hd16 : 16 ≤ s.data :=
      Nat.le_trans h16 (Nat.le_of_dvd (Nat.pos_of_ne_zero hp.data) hp.aligned)
    have hout : inArea p s 8 = false := by
      cases h : inArea p s 8 with
      | false => rfl
      | true => have := (inArea_iff.1 h).1; omega
    have hsm := ht.small 0 (by simp)
    simp only at hsm
    have hr : Request (s.blockCount * p.blockSize + 1) 8 := ⟨⟨3, rfl⟩, by omega, by omega⟩
    have hscan : SafeScan p s (s.blockCount * p.blockSize + 1) 8 [⟨s.blockCount, false⟩] :=
      .last (pre := []) (by simp) (by unfold need; omega)
    obtain ⟨w', hrun, hback⟩ := hall heapAtEight heapAtEight_ok (by
        intro t align size q h
        have h : (if align = 8 then some 8 else none) = some q := h
        split at h
        · cases h; exact ⟨by decide, hout⟩
        · cases h) 0 s.blockCount (Nat.le_refl _) [.alloc (s.blockCount * p.blockSize + 1) 8]
      ⟨⟨hr, fun rs hrs => by
        rw [(tiled_iff.1 hrs).1.eq hp.some (tiled_iff.1 ht.tiled).1]; exact hscan⟩,
        fun _ _ => trivial⟩
    -- the area refuses it
    have hloc : allocateLocal p s.blockCount s (s.blockCount * p.blockSize + 1) 8 = .ok (s, 0) := by
      obtain ⟨n, hn⟩ : ∃ n, s.blockCount = n + 1 := ⟨s.blockCount - 1, by have := hp.some; omega⟩
      obtain ⟨-, -, h3⟩ := hf.eq hv
      have := unwrapped_local (size := s.blockCount * p.blockSize + 1) (align := 8) (k := 3) hv hp
        ht.small (by rw [h3]; exact fun _ => rfl) (by rw [h3]; exact fun _ => rfl) (by decide) rfl
        (by omega) (by
          rintro ⟨-, h⟩
          have := SR.padding_lt s.data (a := 8) (by decide)
          omega) n
      rw [← hn] at this
      exact this
    have hal : (systemResource heapAtEight).alloc 0 (s.blockCount * p.blockSize + 1) 8 = (8, 0) := rfl
    have key := C58_iff (U := systemResource heapAtEight) (u := 0) hv hp hr hloc (by rw [hal]; decide)
      (by rw [hal]; decide) (by rw [hal]; exact hout)
    rw [hal] at key
    obtain ⟨k1, k2, k3, -⟩ := key
    obtain ⟨w1, e1, e2⟩ := Outcome.bind_eq_ok.1 hrun
    cases e2
    obtain ⟨r, e3, e4⟩ := Outcome.bind_eq_ok.1 e1
    cases hdb : p.debug with
    | true => rw [(k2 hdb).2 hnd] at e3; cases e3
    | false =>
      rw [k1 hdb] at e3
      cases e3
      cases e4
      obtain ⟨r, hr⟩ := hback (8, s.blockCount * p.blockSize + 1) (by simp)
      have := k3.2 hnd
      simp only at hr
      rw [this] at hr
      cases hr
  · intro hb h hh hheap u fuel hfuel ops hops
    exact C70_returnable_partial hv hf hb hh hheap u hfuel hops

/-- With blocks of 8 bytes everything can be given back, with blocks of 16 bytes it cannot. -/
example : Valid ⟨32, 16, true⟩ ∧
    Fresh ⟨32, 16, true⟩ 4096 512 (fresh ⟨32, 16, true⟩ 4096 32) ∧ ¬ (16 ∣ 8) ∧ pDebug.blockSize ∣ 8 :=
  ⟨⟨⟨4, rfl⟩, by decide, by decide⟩,
    ⟨rfl, by decide, by decide, by decide, small_of_le (by decide) (by decide)⟩, by decide, by decide⟩

end Utils.Props
