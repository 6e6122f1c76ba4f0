import Verif.Proofs.Compose
import Verif.Proofs.SRPool
import Verif.Proofs.SRFresh
import Verif.Proofs.SRChoice

/-! # A `simple_resource` on top of other resources: proofs -/

namespace Utils.Res

open Utils.SR Utils.Spec Utils.Bits

variable {ι σ : Type} {p : Params}

/-- What is held from the `simple_resource` on top. -/
def own (live : List (Held (Option ι))) : List (Nat × Nat) :=
  live.filterMap fun g => match g.face with | none => some (g.ptr, g.size) | some _ => none

/-- What of it is not in its area: it was passed on from resource `i`. -/
def passed (area : Nat → Bool) (i : ι) (live : List (Held (Option ι))) : List (Held ι) :=
  live.filterMap fun g =>
    match g.face with
    | none => if area g.ptr then none else some ⟨i, g.ptr, g.size, g.align⟩
    | some _ => none

@[simp] theorem own_nil : own ([] : List (Held (Option ι))) = [] := rfl

@[simp] theorem own_none {q n a : Nat} {live : List (Held (Option ι))} :
    own (⟨none, q, n, a⟩ :: live) = (q, n) :: own live := rfl

@[simp] theorem own_some {j : ι} {q n a : Nat} {live : List (Held (Option ι))} :
    own (⟨some j, q, n, a⟩ :: live) = own live := rfl

theorem own_lift (live : List (Held ι)) : own (live.map Held.lift) = [] := by
  induction live with
  | nil => rfl
  | cons g live ih => rw [List.map_cons, Held.lift, own_some, ih]

theorem mem_own {g : Held (Option ι)} {live : List (Held (Option ι))} (hg : g ∈ live)
    (hf : g.face = none) : (g.ptr, g.size) ∈ own live :=
  List.mem_filterMap.2 ⟨g, hg, by rw [hf]⟩

@[simp] theorem passed_some {area : Nat → Bool} {i j : ι} {q n a : Nat}
    {live : List (Held (Option ι))} :
    passed area i (⟨some j, q, n, a⟩ :: live) = passed area i live := rfl

theorem passed_in {area : Nat → Bool} {i : ι} {q n a : Nat} {live : List (Held (Option ι))}
    (h : area q = true) : passed area i (⟨none, q, n, a⟩ :: live) = passed area i live := by
  unfold passed
  rw [List.filterMap_cons_none]
  simp [h]

theorem passed_out {area : Nat → Bool} {i : ι} {q n a : Nat} {live : List (Held (Option ι))}
    (h : area q = false) :
    passed area i (⟨none, q, n, a⟩ :: live) = ⟨i, q, n, a⟩ :: passed area i live := by
  unfold passed
  rw [List.filterMap_cons_some]
  simp [h]

theorem passed_lift (area : Nat → Bool) (i : ι) (live : List (Held ι)) :
    passed area i (live.map Held.lift) = [] := by
  induction live with
  | nil => rfl
  | cons g live ih => rw [List.map_cons, Held.lift, passed_some, ih]

theorem mem_passed {area : Nat → Bool} {i : ι} {g : Held (Option ι)}
    {live : List (Held (Option ι))} (hg : g ∈ live) (hf : g.face = none) (ha : area g.ptr = false) :
    (⟨i, g.ptr, g.size, g.align⟩ : Held ι) ∈ passed area i live :=
  List.mem_filterMap.2 ⟨g, hg, by rw [hf]; simp [ha]⟩

/-- An upstream made to satisfy `UpstreamOK`. -/
def guarded (p : Params) (s : State) (U : Upstream σ) : Upstream σ where
  alloc := fun u size align =>
    if (U.alloc u size align).1 < 2 ^ 64 ∧ p.blockSize ∣ (U.alloc u size align).1 ∧
      inArea p s (U.alloc u size align).1 = false then U.alloc u size align else (0, u)
  dealloc := U.dealloc

theorem guarded_ok {s : State} (U : Upstream σ) (h0 : s.data ≠ 0) :
    UpstreamOK p s (some (guarded p s U)) := by
  rintro V hV u size align
  cases hV
  show (if _ then _ else _ : Nat × σ).1 < 2 ^ 64 ∧ _ ∣ (if _ then _ else _ : Nat × σ).1 ∧
    inArea p s (if _ then _ else _ : Nat × σ).1 = false
  split
  · next h => exact h
  · refine ⟨by show 0 < 2 ^ 64; decide, Nat.dvd_zero _, ?_⟩
    unfold inArea
    rw [decide_eq_false (p := s.data ≤ 0) (by omega), Bool.false_and]

/-- `allocate` asks its upstream only for this request. -/
theorem allocate_congr {U V : Upstream σ} {fuel : Nat} {s : State} {u : σ} {size align : Nat}
    (h : U.alloc u size align = V.alloc u size align) :
    allocate p (some U) fuel s u size align = allocate p (some V) fuel s u size align := by
  unfold allocate
  simp only [h]

/-- An upstream that has nothing. -/
def nothing : Upstream σ := ⟨fun u _ _ => (0, u), fun u _ => u⟩

theorem nothing_ok {s : State} (h0 : s.data ≠ 0) : UpstreamOK p s (some (nothing (σ := σ))) := by
  rintro V hV u size align
  cases hV
  refine ⟨by show 0 < 2 ^ 64; decide, Nat.dvd_zero _, ?_⟩
  unfold inArea
  rw [decide_eq_false (p := s.data ≤ _) (by simp only [nothing]; omega), Bool.false_and]

/-- `allocate` does not ask its upstream when it has the memory itself. -/
theorem allocate_unasked {V : Upstream σ} {fuel : Nat} {s : State} {u : σ} {size align : Nat}
    {x : Nat × State × σ} (h : allocate p (some nothing) fuel s u size align = .ok x) (h0 : x.1 ≠ 0) :
    allocate p (some V) fuel s u size align = .ok x := by
  unfold allocate at h ⊢
  split at h
  · cases h; exact absurd rfl h0
  · next hs =>
    rw [if_neg hs]
    obtain ⟨a, h1, h⟩ := Outcome.bind_eq_ok.1 h
    obtain ⟨⟨s', q⟩, h2, h⟩ := Outcome.bind_eq_ok.1 h
    rw [h1]
    show (allocateLocal p fuel s size align >>= _) = _
    rw [h2]
    by_cases hq : q = 0
    · exfalso
      subst hq
      obtain ⟨b, -, h⟩ := Outcome.bind_eq_ok.1 h
      obtain ⟨c, -, h⟩ := Outcome.bind_eq_ok.1 h
      cases h
      exact h0 rfl
    · simp only [if_neg hq] at h
      simp only [Outcome.ok_bind, if_neg hq]
      exact h

theorem _root_.Utils.SR.Tracks.retarget {U V : Upstream σ} {st : State} {u u' : σ} {l l' : List (Nat × Nat)}
    {rs : List Region} (h : Tracks p (some U) ⟨st, u, l⟩ rs) (hp : l.Perm l') :
    Tracks p (some V) ⟨st, u', l'⟩ rs where
  placed := h.placed
  small := h.small
  tiled := h.tiled
  links := h.links
  live := ((hp.filter _).map _).symm.trans h.live
  ptrs := fun x hx => h.ptrs x (hp.mem_iff.2 hx)
  routed := fun e => by cases e

theorem inArea_of {s t : State} (h1 : s.data = t.data) (h2 : s.blockCount = t.blockCount) :
    inArea p s = inArea p t := by
  funext q
  unfold inArea
  rw [h1, h2]

/-- A way to use a `simple_resource` whose area is that of `s0`: which requests are made in which states,
and an invariant of its regions that every call keeps. -/
structure Usage (p : Params) (s0 : State) (Req : State → Nat → Nat → Prop)
    (Shape : List Region → Prop) : Prop where
  pos : ∀ {st size align}, Req st size align → 0 < size
  fresh : ∀ {rs}, busyRuns 0 rs = [] → Shape rs
  step : ∀ {τ : Type} {up : Option (Upstream τ)} {fuel : Nat} {w : World τ} {rs : List Region},
    Tracks p up w rs → Shape rs → UpstreamOK p w.st up → 2 * w.st.blockCount ≤ fuel →
    w.st.data = s0.data → w.st.blockCount = s0.blockCount → ∀ {op : Op},
    (∀ size align, op = .alloc size align → Req w.st size align) →
    ∃ w' rs', SR.step p up fuel w op = .ok w' ∧ Tracks p up w' rs' ∧ Shape rs' ∧
      w'.st.data = w.st.data ∧ w'.st.blockCount = w.st.blockCount ∧
      (∀ size align, op = .alloc size align → ChoiceResult p up w rs size align w') ∧
      (∀ i, op = .free i → FreeResult p up w rs i w' rs')

/-- A pool. -/
theorem usage_pool (hv : Valid p) {s0 : State} {b : Nat} :
    Usage p s0 (fun _ size align => PoolOp p s0 b (.alloc size align)) (PoolRuns b) where
  pos := fun h => h.1.pos
  fresh := by
    intro rs h r hr
    rw [h] at hr
    cases hr
  step := by
    intro τ up fuel w rs h hs hu hf h4 h5 op hop
    have hop' : PoolOp p w.st b op := by
      cases op with
      | free i => trivial
      | alloc size align =>
        obtain ⟨k1, k2, k3, k4, k5⟩ := hop size align rfl
        exact ⟨k1, k2, by rw [h4]; exact k3, k4, by rw [h5]; exact k5⟩
    have hf' : w.st.blockCount ≤ fuel := by omega
    obtain ⟨w', rs', g1, g2, g3, g4, g5, -, g6, g7⟩ := pool_step hv h hs hu hf' hop'
    refine ⟨w', rs', g1, g2, g3, g4, g5, ?_, g7⟩
    rintro size align rfl
    obtain ⟨w2, e, hres⟩ := doAlloc_choice hv h hu (hop size align rfl).1
      (choice_needed hv h (hop size align rfl).1 hf g1 g2) hf
    have g1' : doAlloc p up fuel w size align = .ok w' := g1
    rw [g1'] at e
    cases e
    exact hres

/-- Any requests that leave the bookkeeping right. -/
theorem usage_good (hv : Valid p) {s0 : State} :
    Usage p s0 (fun st size align =>
      Request size align ∧ ∀ rs, Tiled st rs → GoodChoice p st size align rs) (fun _ => True) where
  pos := fun h => h.1.pos
  fresh := fun _ => trivial
  step := by
    intro τ up fuel w rs h _ hu hf h4 h5 op hop
    cases op with
    | free i =>
      obtain ⟨w2, rs2, e, ht, hres⟩ := doFree_good hv h i
      obtain ⟨g1, g2⟩ := hres.geometry
      exact ⟨w2, rs2, e, ht, trivial, g1, g2, fun _ _ h => Op.noConfusion h,
        fun j hj => by cases hj; exact hres⟩
    | alloc size align =>
      obtain ⟨hr, hs⟩ := hop size align rfl
      obtain ⟨w2, e, hres⟩ := doAlloc_choice hv h hu hr (hs _ h.tiled) hf
      obtain ⟨g1, g2, rs2, g3⟩ := hres.tracked
      exact ⟨w2, rs2, e, g3, trivial, g1, g2,
        fun _ _ h => (by cases h; exact hres), fun _ h => Op.noConfusion h⟩

/-- The invariant with a `simple_resource` on top; `s0` gives the place and the number of blocks of its area. -/
def PoolInv (Inv : σ → List (Held ι) → Prop) (R : Service ι σ) (i : ι) (p : Params)
    (Shape : List Region → Prop) (s0 : State) (buf : Held ι) (s : State × σ) (live : List (Held (Option ι))) : Prop :=
  ∃ rs : List Region,
    Inv s.2 (buf :: (passed (inArea p s0) i live ++ below live)) ∧
    buf.ptr ≤ s0.data ∧ s0.data + s0.blockCount * p.blockSize ≤ buf.ptr + buf.size ∧
    s.1.data = s0.data ∧ s.1.blockCount = s0.blockCount ∧
    Tracks p (some (R.face i)) ⟨s.1, .ok s.2, own live⟩ rs ∧ Shape rs ∧
    (∀ g ∈ live, g.face = none → inArea p s0 g.ptr = true → g.align ∣ g.ptr ∧ 0 < g.size) ∧
    live.Pairwise fun g h => g.Apart h

section pool

variable {R : Service ι σ} {Ask : ι → σ → Nat → Nat → Prop} {grain : ι → Nat} {can : ι → Prop}
  {Inv : σ → List (Held ι) → Prop} {i : ι} {buf : Held ι} {s0 : State}
  {Req : State → Nat → Nat → Prop} {Shape : List Region → Prop}

theorem inArea_true {q : Nat} :
    inArea p s0 q = true ↔ s0.data ≤ q ∧ q < s0.data + s0.blockCount * p.blockSize := by
  simp [inArea]

theorem inArea_false {q : Nat} :
    inArea p s0 q = false ↔ q < s0.data ∨ s0.data + s0.blockCount * p.blockSize ≤ q := by
  rw [← Bool.not_eq_true, inArea_true]
  omega

theorem PoolInv.sound (hk : Keeps R Ask grain can Inv) (hv : Valid p) {s : State × σ}
    {live : List (Held (Option ι))} (h : PoolInv Inv R i p Shape s0 buf s live) : HeldSound live := by
  obtain ⟨rs, h1, h2, h3, h4, h5, h6, h7, h8, h9⟩ := h
  have hs := hk.sound h1
  have hbuf := hs.placed buf List.mem_cons_self
  have hso := h6.sound hv
  refine ⟨h9, fun g hg => ?_, fun g hg => ?_⟩
  · cases hf : g.face with
    | some j =>
      exact hs.aligned _ (List.mem_cons_of_mem _ (List.mem_append_right _ (mem_below hg hf)))
    | none =>
      cases ha : inArea p s0 g.ptr with
      | true => exact (h8 g hg hf ha).1
      | false =>
        exact hs.aligned _ (List.mem_cons_of_mem _ (List.mem_append_left _ (mem_passed hg hf ha)))
  · cases hf : g.face with
    | some j =>
      exact hs.placed _ (List.mem_cons_of_mem _ (List.mem_append_right _ (mem_below hg hf)))
    | none =>
      cases ha : inArea p s0 g.ptr with
      | true =>
        have hin := hso.inside (g.ptr, g.size) (List.mem_filter.2 ⟨mem_own hg hf, by
          simp only; rw [inArea_of h4 h5]; exact ha⟩)
        simp only [h4, h5] at hin
        have := inArea_true.1 ha
        exact ⟨by omega, (h8 g hg hf ha).2, by omega⟩
      | false =>
        exact hs.placed _ (List.mem_cons_of_mem _ (List.mem_append_left _ (mem_passed hg hf ha)))

/-- Whatever is apart from all that is held below and from what is held of the area is apart from all
that is held. -/
theorem apart_all {κ : Type} {live : List (Held (Option ι))} {x : Held κ} {area : Nat → Bool}
    (h1 : ∀ g ∈ passed area i live ++ below live, x.Apart g)
    (h2 : ∀ g ∈ live, g.face = none → area g.ptr = true → x.Apart g) :
    ∀ g ∈ live, x.Apart g := by
  intro g hg
  cases hf : g.face with
  | some j => exact h1 _ (List.mem_append_right _ (mem_below hg hf))
  | none =>
    cases ha : area g.ptr with
    | true => exact h2 g hg hf ha
    | false => exact h1 _ (List.mem_append_left _ (mem_passed hg hf ha))

theorem le_of_square {n fuel : Nat} (h : (n + 1) * (n + 2) ≤ fuel) : 2 * n ≤ fuel := by
  have := Nat.mul_le_mul_left (n + 1) (show 2 ≤ n + 2 by omega)
  omega

theorem own_empty {live : List (Held (Option ι))} (h : ∀ g ∈ live, g.face ≠ none) : own live = [] := by
  rw [List.eq_nil_iff_forall_not_mem]
  intro x hx
  obtain ⟨g, hg, he⟩ := List.mem_filterMap.1 hx
  have := h g hg
  cases hf : g.face with
  | none => exact this hf
  | some j => rw [hf] at he; cases he

theorem passed_face (area : Nat → Bool) (i : ι) (live : List (Held (Option ι))) :
    ∀ g ∈ passed area i live, g.face = i := by
  intro x hx
  obtain ⟨g, hg, he⟩ := List.mem_filterMap.1 hx
  cases hf : g.face with
  | some j => rw [hf] at he; cases he
  | none =>
    rw [hf] at he
    simp only at he
    split at he
    · cases he
    · cases he; rfl

theorem _root_.Utils.SR.Tracks.no_busy {U : Option (Upstream σ)} {st : State} {u : σ}
    {l : List (Nat × Nat)} {rs : List Region} (h : Tracks p U ⟨st, u, l⟩ rs) (hl : l = []) :
    busyRuns 0 rs = [] := by
  subst hl
  have := h.live
  simp only [localLive, List.filter_nil, List.map_nil] at this
  exact List.map_eq_nil_iff.1 (List.nil_perm.1 this)

theorem countP_of_no_busy {rs : List Region} {k : Nat} (h : busyRuns k rs = []) :
    rs.countP (fun r => r.busy) = 0 := by
  induction rs generalizing k with
  | nil => rfl
  | cons r rs ih =>
    obtain ⟨l, u⟩ := r
    cases u with
    | true => rw [busyRuns_busy] at h; cases h
    | false =>
      rw [busyRuns_free] at h
      simpa using ih h

/-- The requests of a `simple_resource`, when the resource below takes `P`. -/
def UseAsk (p : Params) (Req : State → Nat → Nat → Prop) (P : σ → Nat → Nat → Prop) (st : State)
    (s : σ) (size align : Nat) : Prop := Req st size align ∧ ElseBelow p P st s size align

theorem PoolInv.release (hk : Keeps R Ask grain can Inv) (hv : Valid p) (hU : Usage p s0 Req Shape)
    {fuel : Nat}
    (hfuel : (s0.blockCount + 1) * (s0.blockCount + 2) ≤ fuel) :
    ∀ {s : State × σ} {live j}, PoolInv Inv R i p Shape s0 buf s live → canAlso can i buf j →
      (∀ g ∈ live, g.face ≠ j) →
      ∃ s', (simpleOn p fuel R i).release j s = .ok s' ∧ PoolInv Inv R i p Shape s0 buf s' live := by
  rintro ⟨st, u⟩ live j ⟨rs, h1, h2, h3, h4, h5, h6, h7, h8, h9⟩ hc hn
  cases j with
  | none =>
    simp only at h4 h5
    obtain ⟨st', rs', e, k1, k2, k3, k4, k5⟩ := release_exact (fuel := fuel) hv h6.placed h6.tiled
      h6.links (by simp only [h5]; exact hfuel)
    have hb := h6.no_busy (own_empty hn)
    have hb' : busyRuns 0 rs' = [] := by
      rw [List.eq_nil_iff_forall_not_mem]
      intro x hx
      have := ((k5 x).1 hx).1
      rw [hb] at this
      cases this
    refine ⟨(st', u), by show (SR.release p fuel st).map _ = _; rw [e]; rfl, rs', h1, h2, h3,
      k1.trans h4, k2.trans h5, ?_, ?_, h8, h9⟩
    · have hp := h6.placed
      have hsm := h6.small
      simp only at hp hsm k1 k2
      refine ⟨⟨k1 ▸ hp.data, ?_, ?_, ?_, ?_⟩, ?_, k3, k4, ?_, ?_, nofun⟩
      · show p.blockSize ∣ st'.data
        rw [k1]; exact hp.aligned
      · show st'.data + _ < _
        rw [k1]; exact hp.noWrap
      · show 1 ≤ st'.blockCount
        rw [k2]; exact hp.some
      · show st'.blockCount ≤ _
        rw [k2]; exact hp.le
      · intro k
        show 2 ^ k ∣ st'.data → 2 ^ k + st'.blockCount * _ ≤ _
        rw [k1, k2]; exact hsm k
      · rw [hb']; simp [localLive, own_empty hn]
      · simp [own_empty hn]
    · exact hU.fresh hb'
  | some j =>
    obtain ⟨u', e, h⟩ := hk.release h1 hc.1 (none_below (passed_face _ _ _) hc.2.1 hc.2.2 hn)
    exact ⟨(st, u'), by show (R.release j u).map _ = _; rw [e]; rfl, rs, h, h2, h3, h4, h5,
      h6.retarget (List.Perm.refl _), h7, h8, h9⟩

theorem PoolInv.alloc (hk : Keeps R Ask grain can Inv) (hv : Valid p) (hU : Usage p s0 Req Shape)
    {fuel : Nat}
    (hfuel : (s0.blockCount + 1) * (s0.blockCount + 2) ≤ fuel)
    (hg : p.blockSize ∣ grain i ∨
      ∀ st u size align, UseAsk p Req (Ask i) st u size align → p.blockSize ∣ align) :
    ∀ {s : State × σ} {live f size align}, PoolInv Inv R i p Shape s0 buf s live →
      askAlso Ask (UseAsk p Req (Ask i)) f s size align →
      ∃ ptr s', (simpleOn p fuel R i).alloc f s size align = .ok (ptr, s') ∧
        if ptr = 0 then PoolInv Inv R i p Shape s0 buf s' live
        else PoolInv Inv R i p Shape s0 buf s' (⟨f, ptr, size, align⟩ :: live) := by
  have hle : 2 * s0.blockCount ≤ fuel := le_of_square hfuel
  rintro ⟨st, u⟩ live f size align ⟨rs, h1, h2, h3, h4, h5, h6, h7, h8, h9⟩ ha
  have hs := hk.sound h1
  obtain ⟨hap, -⟩ := List.pairwise_cons.1 hs.apart
  have hbuf := hs.placed buf List.mem_cons_self
  have hso := h6.sound hv
  simp only at h1 h4 h5
  have hin : ∀ g ∈ live, g.face = none → inArea p s0 g.ptr = true →
      buf.ptr ≤ g.ptr ∧ g.ptr + g.size ≤ buf.ptr + buf.size := by
    intro g hg hf hga
    have := hso.inside (g.ptr, g.size) (List.mem_filter.2 ⟨mem_own hg hf, by
        simp only; rw [inArea_of h4 h5]; exact hga⟩)
    simp only [h4, h5] at this
    have := inArea_true.1 hga
    omega
  cases f with
  | some j =>
    obtain ⟨ptr, u', e, h⟩ := hk.alloc h1 ha
    refine ⟨ptr, (st, u'), by show (R.alloc j u size align).map _ = _; rw [e]; rfl, ?_⟩
    split at h
    · next h0 =>
      rw [if_pos h0]
      exact ⟨rs, h, h2, h3, h4, h5, h6.retarget (List.Perm.refl _), h7, h8, h9⟩
    · next h0 =>
      rw [if_neg h0]
      obtain ⟨hn, -⟩ := List.pairwise_cons.1 (hk.sound h).apart
      refine ⟨rs, ?_, h2, h3, h4, h5, h6.retarget (List.Perm.refl _), h7, ?_, ?_⟩
      · refine hk.perm h ((List.Perm.swap _ _ _).trans (List.Perm.cons _ ?_))
        rw [below_some, passed_some]
        exact List.perm_middle.symm
      · intro g hg hf
        rcases List.mem_cons.1 hg with rfl | hg
        · cases hf
        · exact h8 g hg hf
      · refine List.pairwise_cons.2 ⟨?_, h9⟩
        have hx := hn buf List.mem_cons_self
        exact apart_all (i := i) (area := inArea p s0) (fun g hg => hn g (List.mem_cons_of_mem _ hg))
          (fun g hg hf hga => (hx.symm.inside (g := g) (hin g hg hf hga).1 (hin g hg hf hga).2).symm)
  | none =>
    obtain ⟨hop, hask⟩ := ha
    have hpos : 0 < size := hU.pos hop
    have hd : s0.data ≠ 0 := by rw [← h4]; exact h6.placed.data
    -- the upstream is either one that does what `simple_resource` wants, or it is not asked
    obtain ⟨G, hG, hconv, hask'⟩ : ∃ G : Upstream (Outcome σ), UpstreamOK p st (some G) ∧
        (∀ x, allocate p (some G) fuel st (.ok u) size align = .ok x →
          (x.1 ≠ 0 ∨ Decides p st size align .refuse) →
          allocate p (some (R.face i)) fuel st (.ok u) size align = .ok x) ∧
        (Decides p st size align .refuse → ∃ q v,
          G.alloc (.ok u) size align = (q, .ok v) ∧ inArea p st q = false ∧
          if q = 0 then Inv v (buf :: (passed (inArea p s0) i live ++ below live))
          else Inv v (⟨i, q, size, align⟩ :: buf :: (passed (inArea p s0) i live ++ below live))) := by
      by_cases href : Decides p st size align .refuse
      · obtain ⟨q, v, hfa, hface⟩ := face_alloc hk h1 (hask href)
        have hgood : q < 2 ^ 64 ∧ p.blockSize ∣ q ∧ inArea p st q = false := by
          rw [inArea_of h4 h5]
          split at hface
          · next h0 =>
            subst h0
            exact ⟨by decide, Nat.dvd_zero _, inArea_false.2 (Or.inl (by omega))⟩
          · next h0 =>
            have hso' := hk.sound hface
            have hpl := hso'.placed _ List.mem_cons_self
            obtain ⟨hn, -⟩ := List.pairwise_cons.1 hso'.apart
            have hx := hn buf List.mem_cons_self
            simp only [Held.Apart] at hpl hx
            refine ⟨by omega, ?_, inArea_false.2 ?_⟩
            · rcases hg with hg | hg
              · exact Nat.dvd_trans hg (hk.grained hface _ List.mem_cons_self)
              · exact Nat.dvd_trans (hg _ _ _ _ ⟨hop, hask⟩) (hso'.aligned _ List.mem_cons_self)
            omega
        have hgu : (guarded p st (R.face i)).alloc (.ok u) size align = (q, .ok v) := by
          show (if _ then _ else _) = _
          rw [hfa, if_pos hgood]
        refine ⟨guarded p st (R.face i), guarded_ok _ (by rw [h4]; exact hd), fun x hx _ => ?_,
          fun _ => ⟨q, v, hgu, hgood.2.2, hface⟩⟩
        rw [← hx]
        exact (allocate_congr (V := R.face i) (hgu.trans hfa.symm)).symm
      · exact ⟨nothing, nothing_ok (by rw [h4]; exact hd),
          fun x hx h => allocate_unasked hx (h.resolve_right href), fun h => absurd h href⟩
    obtain ⟨w', rs', hstep, htr, hruns, hdat, hcnt, hres, -⟩ := hU.step
      (up := some G) (w := ⟨st, .ok u, own live⟩) (fuel := fuel)
      (h6.retarget (List.Perm.refl _)) h7 hG (by simp only [h5]; exact hle)
      h4 h5 (op := .alloc size align) (fun _ _ e => by cases e; exact hop)
    simp only at hdat hcnt
    obtain ⟨⟨ptr, st', uo⟩, ho, hw⟩ := Outcome.bind_eq_ok.1
      (show (allocate p (some G) fuel st (.ok u) size align >>= _) = .ok w' from hstep)
    replace hw := (Outcome.ok.inj hw).symm
    have hmain : (ptr ≠ 0 ∨ Decides p st size align .refuse) ∧
        ∃ u', uo = .ok u' ∧ if ptr = 0 then PoolInv Inv R i p Shape s0 buf (st', u') live
        else PoolInv Inv R i p Shape s0 buf (st', u') (⟨Option.none, ptr, size, align⟩ :: live) := by
      have hr := hres size align rfl
      subst hw
      simp only at hdat hcnt
      rw [h4] at hdat
      rw [h5] at hcnt
      cases hr with
      | @served ptr' pre len post a split served tracks live' up_eq locl =>
        simp only at live' up_eq
        have hp0 : ptr ≠ 0 := by
          intro h0
          rw [if_pos h0] at live'
          have := congrArg List.length live'
          simp at this
        rw [if_neg hp0] at live' htr locl
        have e : ptr = ptr' := by injection live' with h; injection h
        subst e
        subst up_eq
        refine ⟨Or.inl hp0, u, rfl, ?_⟩
        rw [if_neg hp0]
        have hm : (ptr, size) ∈ localLive p
            (⟨st', .ok u, (ptr, size) :: own live⟩ : World (Outcome σ)) := by
          rw [locl]; exact List.mem_cons_self
        have hso' := htr.sound hv
        have harea : inArea p s0 ptr = true := by
          have := (List.mem_filter.1 hm).2
          simp only at this
          rwa [inArea_of hdat hcnt] at this
        have hb := hso'.inside _ hm
        simp only [hdat, hcnt] at hb
        have hb' := inArea_true.1 harea
        refine ⟨rs', ?_, h2, h3, hdat, hcnt, ?_, hruns, ?_, ?_⟩
        · rw [passed_in harea, below_none]; exact h1
        · rw [own_none]; exact htr.retarget (List.Perm.refl _)
        · intro g hg hf hga
          rcases List.mem_cons.1 hg with rfl | hg
          · exact ⟨served.aligned, hpos⟩
          · exact h8 g hg hf hga
        · refine List.pairwise_cons.2 ⟨?_, h9⟩
          refine apart_all (i := i) (area := inArea p s0) (fun g hg => ?_) (fun g hg hf hga => ?_)
          · exact (hap g hg).inside (by simp only; omega) (by simp only; omega)
          · have hpw := hso'.apart
            rw [locl] at hpw
            exact (List.pairwise_cons.1 hpw).1 (g.ptr, g.size) (List.mem_filter.2 ⟨mem_own hg hf, by
              simp only; rw [inArea_of h4 h5]; exact hga⟩)
      | refused st_eq tracks none live' locl up_eq =>
        obtain ⟨q, v, hgu, hout, hface⟩ := hask' none
        simp only [askUpstream, hgu] at st_eq live' up_eq
        subst st_eq
        subst up_eq
        refine ⟨Or.inr none, v, rfl, ?_⟩
        have e : ptr = q := by
          by_cases h0 : ptr = 0
          · by_cases h0' : q = 0
            · omega
            · rw [if_pos h0, if_neg h0'] at live'
              have := congrArg List.length live'
              simp at this
          · by_cases h0' : q = 0
            · rw [if_neg h0, if_pos h0'] at live'
              have := congrArg List.length live'
              simp at this
            · rw [if_neg h0, if_neg h0'] at live'
              injection live' with h; injection h
        subst e
        have harea : inArea p s0 ptr = false := by rw [← inArea_of h4 h5]; exact hout
        by_cases h0 : ptr = 0
        · rw [if_pos h0] at hface htr ⊢
          exact ⟨rs', hface, h2, h3, h4, h5, htr.retarget (List.Perm.refl _), hruns, h8, h9⟩
        · rw [if_neg h0] at hface htr ⊢
          obtain ⟨hn, -⟩ := List.pairwise_cons.1 (hk.sound hface).apart
          have hx := hn buf List.mem_cons_self
          refine ⟨rs', ?_, h2, h3, h4, h5, ?_, hruns, ?_, ?_⟩
          · rw [passed_out harea, below_none]
            exact hk.perm hface (List.Perm.swap _ _ _)
          · rw [own_none]; exact htr.retarget (List.Perm.refl _)
          · intro g hg hf hga
            rcases List.mem_cons.1 hg with rfl | hg
            · rw [harea] at hga; cases hga
            · exact h8 g hg hf hga
          · refine List.pairwise_cons.2 ⟨?_, h9⟩
            refine apart_all (x := ⟨Option.none, ptr, size, align⟩) (i := i) (area := inArea p s0)
              (fun g hg => hn g (List.mem_cons_of_mem _ hg)) (fun g hg hf hga => ?_)
            exact (hx.symm.inside (g := g) (hin g hg hf hga).1 (hin g hg hf hga).2).symm
    obtain ⟨hwhy, u', hu', hinv⟩ := hmain
    subst hu'
    replace ho := hconv _ ho hwhy
    refine ⟨ptr, (st', u'), ?_, hinv⟩
    show (SR.allocate p (some (R.face i)) fuel st (.ok u) size align >>= fun r => r.2.2 >>= fun u => pure (r.1, r.2.1, u)) = _
    rw [ho]; rfl

theorem PoolInv.free (hk : Keeps R Ask grain can Inv) (hv : Valid p) (hU : Usage p s0 Req Shape)
    {fuel : Nat}
    (hfuel : (s0.blockCount + 1) * (s0.blockCount + 2) ≤ fuel) :
    ∀ {s : State × σ} {g live}, PoolInv Inv R i p Shape s0 buf s (g :: live) →
      ∃ s', (simpleOn p fuel R i).free g.face s g.ptr = .ok s' ∧ PoolInv Inv R i p Shape s0 buf s' live := by
  have hle : 2 * s0.blockCount ≤ fuel := le_of_square hfuel
  rintro ⟨st, u⟩ ⟨f, q, n, a⟩ live ⟨rs, h1, h2, h3, h4, h5, h6, h7, h8, h9⟩
  have h8' := fun g hg => h8 g (List.mem_cons_of_mem _ hg)
  have h9' := (List.pairwise_cons.1 h9).2
  simp only at h1 h4 h5
  cases f with
  | some j =>
    rw [below_some, passed_some] at h1
    have : Inv u (⟨j, q, n, a⟩ :: buf :: (passed (inArea p s0) i live ++ below live)) :=
      hk.perm h1 ((List.Perm.cons _ List.perm_middle).trans (List.Perm.swap _ _ _))
    obtain ⟨u', e, h⟩ := hk.free this
    refine ⟨(st, u'), ?_, rs, h, h2, h3, h4, h5, h6.retarget (List.Perm.refl _), h7, h8', h9'⟩
    show (R.free j u q).map _ = _
    rw [e]
    rfl
  | none =>
    rw [own_none] at h6
    obtain ⟨w', rs', hstep, htr, hruns, hdat, hcnt, -, hres⟩ := hU.step
      (up := some (guarded p st (R.face i))) (w := ⟨st, .ok u, (q, n) :: own live⟩) (fuel := fuel)
      (op := .free 0)
      (h6.retarget (List.Perm.refl _)) h7 (guarded_ok _ h6.placed.data) (by simp only [h5]; exact hle)
      h4 h5 (fun _ _ e => Op.noConfusion e)
    simp only at hdat hcnt
    rw [h4] at hdat
    rw [h5] at hcnt
    obtain ⟨⟨st', uo⟩, ho, hw⟩ := Outcome.bind_eq_ok.1
      (show (deallocate p (some (guarded p st (R.face i))) st (.ok u) q >>= _) = .ok w' from hstep)
    replace hw := (Outcome.ok.inj hw).symm
    subst hw
    have ho' : deallocate p (some (R.face i)) st (.ok u) q = .ok (st', uo) := by
      rw [← ho]; rfl
    have hr := hres 0 rfl
    have htr' : ∀ v, Tracks p (some (R.face i)) ⟨st', .ok v, own live⟩ rs' :=
      fun v => htr.retarget (List.Perm.refl _)
    have hmain : ∃ u', uo = .ok u' ∧ PoolInv Inv R i p Shape s0 buf (st', u') live := by
      cases hr with
      | nothing none => simp at none
      | @locl x pre post pre' post' l at_i area split start runs shape links live' data count up_eq =>
        simp only [List.getElem?_cons_zero, Option.some.injEq] at at_i
        subst at_i
        simp only at up_eq area
        rw [inArea_of h4 h5] at area
        rw [passed_in area, below_none] at h1
        exact ⟨u, up_eq, rs', h1, h2, h3, hdat, hcnt, htr' u, hruns, h8', h9'⟩
      | @upstream x U at_i area has st_eq regions live' locl up_eq =>
        simp only [List.getElem?_cons_zero, Option.some.injEq] at at_i
        subst at_i
        cases has
        simp only at up_eq area
        rw [inArea_of h4 h5] at area
        rw [passed_out area, below_none] at h1
        obtain ⟨v, e, h⟩ := hk.free (hk.perm h1 (List.Perm.swap _ _ _))
        exact ⟨v, up_eq.trans e, rs', h, h2, h3, hdat, hcnt, htr' v, hruns, h8', h9'⟩
    obtain ⟨u', hu', hinv⟩ := hmain
    subst hu'
    refine ⟨(st', u'), ?_, hinv⟩
    show (deallocate p (some (R.face i)) st (.ok u) q >>= _) = _
    rw [ho']; rfl

theorem pool_keeps (hk : Keeps R Ask grain can Inv) (hv : Valid p) (hU : Usage p s0 Req Shape)
    {fuel : Nat}
    (hfuel : (s0.blockCount + 1) * (s0.blockCount + 2) ≤ fuel)
    (hg : p.blockSize ∣ grain i ∨
      ∀ st u size align, UseAsk p Req (Ask i) st u size align → p.blockSize ∣ align) :
    Keeps (simpleOn p fuel R i) (askAlso Ask (UseAsk p Req (Ask i))) (grainAlso grain p.blockSize)
      (canAlso can i buf) (PoolInv Inv R i p Shape s0 buf) where
  sound := PoolInv.sound hk hv
  grained := by
    rintro s live ⟨rs, h1, -, -, -, -, h6, -⟩ g hg
    cases hf : g.face with
    | none => exact (h6.ptrs _ (mem_own hg hf)).2.2
    | some j =>
      exact hk.grained h1 _ (List.mem_cons_of_mem _ (List.mem_append_right _ (mem_below hg hf)))
  perm := by
    rintro s live live' ⟨rs, h1, h2, h3, h4, h5, h6, h7, h8, h9⟩ hp
    exact ⟨rs, hk.perm h1 (((hp.filterMap _).append (below_perm hp)).cons buf), h2, h3, h4, h5,
      h6.retarget (hp.filterMap _), h7, fun g hg => h8 g (hp.mem_iff.2 hg),
      (hp.pairwise_iff fun h => h.symm).1 h9⟩
  alloc := PoolInv.alloc hk hv hU hfuel hg
  free := PoolInv.free hk hv hU hfuel
  release := PoolInv.release hk hv hU hfuel
  destroy := by
    rintro ⟨st, u⟩ live j ⟨rs, h1, -, -, -, -, h6, -⟩ hc hn
    cases j with
    | none =>
      have hb := h6.no_busy (own_empty hn)
      have hc := h6.tiled.busy
      show abortIf (decide (st.busyCount ≠ 0)) = _
      simp only at hc
      rw [hc, countP_of_no_busy hb]
      rfl
    | some j => exact hk.destroy h1 hc.1 (none_below (passed_face _ _ _) hc.2.1 hc.2.2 hn)

/-- A new `simple_resource` on a buffer that is held below. -/
theorem pool_starts (hk : Keeps R Ask grain can Inv) (hv : Valid p) (hU : Usage p s0 Req Shape)
    {u : σ} {live : List (Held ι)}
    (h : Inv u (buf :: live)) (hf : Fresh p buf.ptr buf.size s0) :
    PoolInv Inv R i p Shape s0 buf (s0, u) (live.map Held.lift) := by
  have hs := hk.sound h
  obtain ⟨g1, g2, g3⟩ := hf.eq hv
  refine ⟨[⟨s0.blockCount, false⟩], ?_, ?_, ?_, rfl, rfl, ?_, ?_, ?_, ?_⟩
  · simp only [passed_lift, List.nil_append, below_lift]; exact h
  · rw [g3]; exact Nat.le_add_right _ _
  · have h1 : s0.data = buf.ptr + padding buf.ptr p.blockSize := by rw [g3]; rfl
    have h2 : s0.blockCount * p.blockSize ≤ buf.size - padding buf.ptr p.blockSize := by
      refine Nat.le_trans (Nat.mul_le_mul_right _ ?_) (Nat.div_mul_le_self _ p.blockSize)
      rw [g3]; exact Nat.min_le_left _ _
    omega
  · rw [own_lift]; exact (hf.start hv _).1
  · exact hU.fresh (by simp [busyRuns])
  · intro g hg hf
    obtain ⟨x, -, rfl⟩ := List.mem_map.1 hg
    cases hf
  · rw [List.pairwise_map]
    exact (List.pairwise_cons.1 hs.apart).2

end pool

/-- Everything that is set up with these resources is correct. -/
theorem Tower.keeps {τ : Type} {h : Heap τ} {I : τ → List (Nat × Nat) → Prop} (hh : HeapKeeps h I)
    {R : Service ι σ} {Ask : ι → σ → Nat → Nat → Prop} {grain : ι → Nat} {can : ι → Prop} {s : σ}
    {live : List (Held ι)} (t : Tower h I R Ask grain can s live) :
    ∃ Inv, Keeps R Ask grain can Inv ∧ Inv s live := by
  induction t with
  | start hI hs =>
    refine ⟨BaseInv I, base_keeps hh, ⟨[], hI⟩, fun g hg => ⟨(hs g hg).2, ?_⟩⟩
    rw [(hs g hg).1]
    exact Nat.one_dvd _
  | call t ha hc ih =>
    obtain ⟨Inv, hk, hi⟩ := ih
    obtain ⟨w', e, h'⟩ := keeps_step (w := (_, _)) hk hi ha
    rw [hc] at e
    cases e
    exact ⟨Inv, hk, h'⟩
  | mono debug i t hb ih =>
    obtain ⟨Inv, hk, hinv⟩ := ih
    exact ⟨_, mono_keeps hk, mono_starts hk (hk.perm hinv (eraseIdx_perm hb))⟩
  | pool i t hb hv hf hfuel hg ih =>
    obtain ⟨Inv, hk, hinv⟩ := ih
    exact ⟨_, pool_keeps hk hv (usage_pool hv) hfuel hg,
      pool_starts hk hv (usage_pool hv) (hk.perm hinv (eraseIdx_perm hb)) hf⟩
  | simple i t hb hv hf hfuel hg ih =>
    obtain ⟨Inv, hk, hinv⟩ := ih
    exact ⟨_, pool_keeps hk hv (usage_good hv) hfuel hg,
      pool_starts hk hv (usage_good hv) (hk.perm hinv (eraseIdx_perm hb)) hf⟩

end Utils.Res
