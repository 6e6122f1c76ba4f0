import Verif.Spec.Compose
import Verif.Proofs.Resources

/-! # Resources on top of each other: proofs -/

namespace Utils.Res

open Utils.SR Utils.Spec Utils.Bits

variable {ι σ : Type}

/-- The group serves requests `Ask` correctly: there is an invariant of its state and of what is held
that implies `HeldSound`; every such request returns null or something new that keeps the invariant;
whatever is held can be given back. -/
structure Keeps (R : Service ι σ) (Ask : ι → σ → Nat → Nat → Prop) (grain : ι → Nat) (can : ι → Prop)
    (Inv : σ → List (Held ι) → Prop) : Prop where
  sound : ∀ {s live}, Inv s live → HeldSound live
  grained : ∀ {s live}, Inv s live → ∀ g ∈ live, grain g.face ∣ g.ptr
  perm : ∀ {s live live'}, Inv s live → live.Perm live' → Inv s live'
  alloc : ∀ {s live i size align}, Inv s live → Ask i s size align →
    ∃ ptr s', R.alloc i s size align = .ok (ptr, s') ∧
      if ptr = 0 then Inv s' live else Inv s' (⟨i, ptr, size, align⟩ :: live)
  free : ∀ {s g live}, Inv s (g :: live) → ∃ s', R.free g.face s g.ptr = .ok s' ∧ Inv s' live
  release : ∀ {s live i}, Inv s live → can i → (∀ g ∈ live, g.face ≠ i) →
    ∃ s', R.release i s = .ok s' ∧ Inv s' live
  destroy : ∀ {s live i}, Inv s live → can i → (∀ g ∈ live, g.face ≠ i) → R.destroy i s = .ok ()

theorem eraseIdx_perm {α : Type} {l : List α} {k : Nat} {x : α} (h : l[k]? = some x) :
    l.Perm (x :: l.eraseIdx k) := by
  induction l generalizing k with
  | nil => simp at h
  | cons a l ih =>
    cases k with
    | zero => simp at h; subst h; exact List.Perm.refl _
    | succ k =>
      simp only [List.getElem?_cons_succ] at h
      exact ((ih h).cons a).trans (List.Perm.swap _ _ _)

theorem Held.Apart.symm {κ : Type} {g : Held ι} {h : Held κ} (a : g.Apart h) : h.Apart g :=
  Or.symm a

theorem HeldSound.perm {live live' : List (Held ι)} (h : HeldSound live) (hp : live.Perm live') :
    HeldSound live' :=
  ⟨(hp.pairwise_iff fun h => h.symm).1 h.apart, fun g hg => h.aligned g (hp.mem_iff.2 hg),
    fun g hg => h.placed g (hp.mem_iff.2 hg)⟩

theorem HeldSound.tail {g : Held ι} {live : List (Held ι)} (h : HeldSound (g :: live)) :
    HeldSound live :=
  ⟨(List.pairwise_cons.1 h.apart).2, fun x hx => h.aligned x (List.mem_cons_of_mem _ hx),
    fun x hx => h.placed x (List.mem_cons_of_mem _ hx)⟩

theorem keeps_step {R : Service ι σ} {Ask : ι → σ → Nat → Nat → Prop} {grain : ι → Nat} {can : ι → Prop}
    {Inv : σ → List (Held ι) → Prop} (hk : Keeps R Ask grain can Inv) {w : σ × List (Held ι)}
    (h : Inv w.1 w.2) {op : FaceOp ι} (hop : Allowed Ask can w op) :
    ∃ w', R.step w op = .ok w' ∧ Inv w'.1 w'.2 := by
  cases op with
  | alloc i size align =>
    obtain ⟨ptr, s', h1, h2⟩ := hk.alloc h hop
    refine ⟨(s', if ptr = 0 then w.2 else ⟨i, ptr, size, align⟩ :: w.2), ?_, ?_⟩
    · show (R.alloc i w.1 size align >>= _) = _
      rw [h1]; rfl
    · simp only
      split at h2
      · next e => rw [if_pos e]; exact h2
      · next e => rw [if_neg e]; exact h2
  | free k =>
    unfold Service.step
    cases e : w.2[k]? with
    | none => exact ⟨w, by simp only [e]; rfl, h⟩
    | some g =>
      obtain ⟨s', h1, h2⟩ := hk.free (hk.perm h (eraseIdx_perm e))
      exact ⟨(s', w.2.eraseIdx k), by simp only [e, h1]; rfl, h2⟩
  | release i =>
    obtain ⟨s', h1, h2⟩ := hk.release h hop.1 hop.2
    exact ⟨(s', w.2), by show (R.release i w.1 >>= _) = _; rw [h1]; rfl, h2⟩

/-! ## The system resource -/

/-- The invariant of the base resources. -/
def BaseInv (Inv : σ → List (Nat × Nat) → Prop) (s : σ) (live : List (Held Base)) : Prop :=
  (∃ extra, Inv s (extra ++ live.map fun g => (g.ptr, g.size))) ∧
    ∀ g ∈ live, g.align ∣ g.ptr ∧ baseGrain g.face ∣ g.ptr

theorem base_keeps {h : Heap σ} {Inv : σ → List (Nat × Nat) → Prop} (hh : HeapKeeps h Inv) :
    Keeps (baseService h) baseAsk baseGrain (fun _ => False) (BaseInv Inv) where
  sound := by
    rintro s live ⟨⟨extra, h1⟩, h2⟩
    refine ⟨?_, fun g hg => (h2 g hg).1, fun g hg => hh.placed h1 (g.ptr, g.size)
      (List.mem_append_right _ (List.mem_map.2 ⟨g, hg, rfl⟩))⟩
    have := (List.pairwise_append.1 (hh.apart h1)).2.1
    rw [List.pairwise_map] at this
    exact this
  grained := fun h g hg => (h.2 g hg).2
  perm := by
    rintro s live live' ⟨⟨extra, h1⟩, h2⟩ hp
    exact ⟨⟨extra, hh.perm h1 ((hp.map _).append_left extra)⟩, fun g hg => h2 g (hp.mem_iff.2 hg)⟩
  alloc := by
    rintro s live i size align ⟨⟨extra, h1⟩, h2⟩ hask
    cases i with
    | static => exact hask.elim
    | null => exact ⟨0, s, rfl, by rw [if_pos rfl]; exact ⟨⟨extra, h1⟩, h2⟩⟩
    | system =>
    obtain ⟨hs, -, hp, -⟩ := hask
    refine ⟨(alignedMalloc h s size align).1, (alignedMalloc h s size align).2, rfl, ?_⟩
    unfold alignedMalloc
    simp only
    have key : IsPow2 (if align ≥ 8 then align else 8) ∧ 8 ∣ (if align ≥ 8 then align else 8) ∧
        align ∣ (if align ≥ 8 then align else 8) := by
      obtain ⟨k, rfl⟩ := hp
      split
      · next hge =>
        have hk : 3 ≤ k := by
          rcases Nat.lt_or_ge k 3 with hk | hk
          · have : 2 ^ k < 2 ^ 3 := Nat.pow_lt_pow_right (by decide) hk
            omega
          · exact hk
        exact ⟨⟨k, rfl⟩, Nat.pow_dvd_pow 2 hk, Nat.dvd_refl _⟩
      · next hge =>
        have hk : k ≤ 3 := by
          rcases Nat.lt_or_ge 3 k with hk | hk
          · have : 2 ^ 3 < 2 ^ k := Nat.pow_lt_pow_right (by decide) hk
            omega
          · exact hk
        exact ⟨⟨3, rfl⟩, Nat.dvd_refl _, Nat.pow_dvd_pow 2 hk⟩
    generalize (if align ≥ 8 then align else 8) = a at key
    obtain ⟨k1, k2, k3⟩ := key
    have ha := hh.alloc (s := s) h1 k1 k2 hs
    rcases e : h.posixMemalign s a size with ⟨_ | ptr, s'⟩
    · rw [e] at ha
      exact ⟨⟨extra, ha⟩, h2⟩
    · rw [e] at ha
      have h0 : ptr ≠ 0 := by
        have := (hh.placed ha.2 (ptr, size) List.mem_cons_self).1
        simp only at this
        omega
      simp only [if_neg h0]
      refine ⟨⟨extra, hh.perm ha.2 List.perm_middle.symm⟩, fun g hg => ?_⟩
      rcases List.mem_cons.1 hg with rfl | hg
      · exact ⟨Nat.dvd_trans k3 ha.1, Nat.dvd_trans k2 ha.1⟩
      · exact h2 g hg
  free := by
    rintro s ⟨f, q, n, a⟩ live ⟨⟨extra, h1⟩, h2⟩
    have h2' := fun x hx => h2 x (List.mem_cons_of_mem _ hx)
    have h3 := hh.perm h1 List.perm_middle
    cases f with
    | static => exact ⟨s, rfl, ⟨(q, n) :: extra, h3⟩, h2'⟩
    | null => exact ⟨s, rfl, ⟨(q, n) :: extra, h3⟩, h2'⟩
    | system => exact ⟨_, rfl, ⟨extra, hh.free h3⟩, h2'⟩
  release := fun _ hc => hc.elim
  destroy := fun _ hc => hc.elim

/-! ## Lists of things held in a larger group -/

@[simp] theorem below_nil : below ([] : List (Held (Option ι))) = [] := rfl

@[simp] theorem below_none {p n a : Nat} {live : List (Held (Option ι))} :
    below (⟨none, p, n, a⟩ :: live) = below live := rfl

@[simp] theorem below_some {j : ι} {p n a : Nat} {live : List (Held (Option ι))} :
    below (⟨some j, p, n, a⟩ :: live) = ⟨j, p, n, a⟩ :: below live := rfl

theorem below_lift (live : List (Held ι)) : below (live.map Held.lift) = live := by
  induction live with
  | nil => rfl
  | cons g live ih => rw [List.map_cons, Held.lift, below_some, ih]

theorem below_perm {live live' : List (Held (Option ι))} (h : live.Perm live') :
    (below live).Perm (below live') := h.filterMap _

theorem mem_below {g : Held (Option ι)} {j : ι} {live : List (Held (Option ι))} (hg : g ∈ live)
    (hj : g.face = some j) : (⟨j, g.ptr, g.size, g.align⟩ : Held ι) ∈ below live :=
  List.mem_filterMap.2 ⟨g, hg, by rw [hj]; rfl⟩

/-! ## The monotonic resource -/

/-- The invariant with a `monotonic_buffer_resource` on top: its buffer `buf` and what it got from its
upstream (`got`) are held below; what is held from it is in the used part of the buffer or among
`got`. -/
def MonoOnInv (Inv : σ → List (Held ι) → Prop) (i : ι) (buf : Held ι) (s : Mono × σ)
    (live : List (Held (Option ι))) : Prop :=
  ∃ got : List (Held ι),
    Inv s.2 (buf :: (got ++ below live)) ∧ (∀ g ∈ got, g.face = i) ∧
    s.1.data = buf.ptr ∧ s.1.size = buf.size ∧ s.1.data ≤ s.1.next ∧ s.1.next ≤ s.1.data + s.1.size ∧
    (∀ g ∈ live, g.face = none →
      (s.1.data ≤ g.ptr ∧ g.ptr + g.size ≤ s.1.next ∧ 0 < g.size ∧ g.align ∣ g.ptr) ∨
      (⟨i, g.ptr, g.size, g.align⟩ : Held ι) ∈ got) ∧
    live.Pairwise fun g h => g.Apart h

theorem Held.Apart.inside {κ μ : Type} {b : Held ι} {h : Held κ} (a : b.Apart h) {g : Held μ}
    (h1 : b.ptr ≤ g.ptr) (h2 : g.ptr + g.size ≤ b.ptr + b.size) : g.Apart h := by
  unfold Held.Apart at a ⊢
  omega

/-- The service below, at a request it takes. -/
theorem face_alloc {R : Service ι σ} {Ask : ι → σ → Nat → Nat → Prop} {grain : ι → Nat} {can : ι → Prop}
    {Inv : σ → List (Held ι) → Prop} (hk : Keeps R Ask grain can Inv) {s : σ} {live : List (Held ι)}
    {i : ι} {size align : Nat} (h : Inv s live) (ha : Ask i s size align) :
    ∃ ptr s', (R.face i).alloc (.ok s) size align = (ptr, .ok s') ∧
      if ptr = 0 then Inv s' live else Inv s' (⟨i, ptr, size, align⟩ :: live) := by
  obtain ⟨ptr, s', e, h'⟩ := hk.alloc h ha
  refine ⟨ptr, s', ?_, h'⟩
  have : (Outcome.ok s).bind (fun s => R.alloc i s size align) = .ok (ptr, s') := e
  show (match (Outcome.ok s).bind (fun s => R.alloc i s size align) with
    | .ok r => (r.1, Outcome.ok r.2)
    | .assertFailed => (0, .assertFailed)
    | .aborted => (0, .aborted)
    | .ub => (0, .ub)
    | .outOfFuel => (0, .outOfFuel)) = _
  rw [this]

/-- Nothing of `j` is held below, if nothing of it is held above and the layer above neither has its
buffer from `j` nor uses `j` as upstream. -/
theorem none_below {i j : ι} {buf : Held ι} {got : List (Held ι)} {live : List (Held (Option ι))}
    (h2 : ∀ g ∈ got, g.face = i) (hi : j ≠ i) (hb : j ≠ buf.face)
    (hn : ∀ g ∈ live, g.face ≠ some j) : ∀ g ∈ buf :: (got ++ below live), g.face ≠ j := by
  intro g hg
  rcases List.mem_cons.1 hg with rfl | hg
  · exact hb.symm
  · rcases List.mem_append.1 hg with hg | hg
    · rw [h2 g hg]; exact hi.symm
    · obtain ⟨x, hx, he⟩ := List.mem_filterMap.1 hg
      have := hn x hx
      intro hj
      cases hf : x.face with
      | none => rw [hf] at he; cases he
      | some l =>
        rw [hf] at he this
        simp only [Option.map_some, Option.some.injEq] at he
        subst he
        exact this (congrArg some hj)

section mono

variable {R : Service ι σ} {Ask : ι → σ → Nat → Nat → Prop} {grain : ι → Nat} {can : ι → Prop}
  {Inv : σ → List (Held ι) → Prop} {i : ι} {buf : Held ι} {debug : Bool}

theorem MonoOnInv.sound (hk : Keeps R Ask grain can Inv) {s : Mono × σ} {live : List (Held (Option ι))}
    (h : MonoOnInv Inv i buf s live) : HeldSound live := by
  obtain ⟨got, h1, -, h3, h4, h5, h6, h7, h8⟩ := h
  have hs := hk.sound h1
  have hbuf := hs.placed buf List.mem_cons_self
  refine ⟨h8, fun g hg => ?_, fun g hg => ?_⟩
  · cases hf : g.face with
    | some j =>
      exact hs.aligned _ (List.mem_cons_of_mem _ (List.mem_append_right _ (mem_below hg hf)))
    | none =>
      rcases h7 g hg hf with h | h
      · exact h.2.2.2
      · exact hs.aligned _ (List.mem_cons_of_mem _ (List.mem_append_left _ h))
  · cases hf : g.face with
    | some j =>
      exact hs.placed _ (List.mem_cons_of_mem _ (List.mem_append_right _ (mem_below hg hf)))
    | none =>
      rcases h7 g hg hf with h | h
      · refine ⟨?_, h.2.2.1, ?_⟩ <;> omega
      · exact hs.placed _ (List.mem_cons_of_mem _ (List.mem_append_left _ h))

/-- Whatever is apart from all that is held below and behind the used part of the buffer is apart from
all that is held. -/
theorem MonoOnInv.apart_new {κ : Type} {m : Mono} {got : List (Held ι)}
    {live : List (Held (Option ι))} {x : Held κ}
    (h7 : ∀ g ∈ live, g.face = none →
      (m.data ≤ g.ptr ∧ g.ptr + g.size ≤ m.next ∧ 0 < g.size ∧ g.align ∣ g.ptr) ∨
      (⟨i, g.ptr, g.size, g.align⟩ : Held ι) ∈ got)
    (h1 : ∀ g ∈ got ++ below live, x.Apart g)
    (h2 : ∀ g : Held (Option ι), m.data ≤ g.ptr → g.ptr + g.size ≤ m.next → x.Apart g) :
    ∀ g ∈ live, x.Apart g := by
  intro g hg
  cases hf : g.face with
  | some j => exact h1 _ (List.mem_append_right _ (mem_below hg hf))
  | none =>
    rcases h7 g hg hf with h | h
    · exact h2 g h.1 h.2.1
    · exact h1 _ (List.mem_append_left _ h)

theorem mono_keeps (hk : Keeps R Ask grain can Inv) :
    Keeps (monoOn debug R i) (askAlso Ask (MonoAsk (Ask i))) (grainAlso grain 1) (canAlso can i buf)
      (MonoOnInv Inv i buf) where
  sound := MonoOnInv.sound hk
  grained := by
    rintro s live ⟨got, h1, -⟩ g hg
    cases hf : g.face with
    | none => exact Nat.one_dvd _
    | some j =>
      exact hk.grained h1 _ (List.mem_cons_of_mem _ (List.mem_append_right _ (mem_below hg hf)))
  release := by
    rintro ⟨m, u⟩ live j ⟨got, h1, h2, h3, h4, h5, h6, h7, h8⟩ hc hn
    cases j with
    | none =>
      exact ⟨_, rfl, got, h1, h2, h3, h4, Nat.le_refl _, Nat.le_add_right _ _,
        fun g hg hf => absurd hf (hn g hg), h8⟩
    | some j =>
      obtain ⟨u', e, h⟩ := hk.release h1 hc.1 (none_below h2 hc.2.1 hc.2.2 hn)
      exact ⟨(m, u'), by show (R.release j u).map _ = _; rw [e]; rfl, got, h, h2, h3, h4, h5, h6, h7, h8⟩
  destroy := by
    rintro ⟨m, u⟩ live j ⟨got, h1, h2, -⟩ hc hn
    cases j with
    | none => rfl
    | some j => exact hk.destroy h1 hc.1 (none_below h2 hc.2.1 hc.2.2 hn)
  perm := by
    rintro s live live' ⟨got, h1, h2, h3, h4, h5, h6, h7, h8⟩ hp
    exact ⟨got, hk.perm h1 (((below_perm hp).append_left got).cons buf), h2, h3, h4, h5, h6,
      fun g hg => h7 g (hp.mem_iff.2 hg), (hp.pairwise_iff fun h => h.symm).1 h8⟩
  alloc := by
    rintro ⟨m, u⟩ live f size align ⟨got, h1, h2, h3, h4, h5, h6, h7, h8⟩ ha
    have hs := hk.sound h1
    obtain ⟨hap, -⟩ := List.pairwise_cons.1 hs.apart
    have hbuf := hs.placed buf List.mem_cons_self
    simp only at h1 h3 h4 h5 h6 h7
    cases f with
    | some j =>
      obtain ⟨ptr, u', e, h⟩ := hk.alloc h1 ha
      refine ⟨ptr, (m, u'), by show (R.alloc j u size align).map _ = _; rw [e]; rfl, ?_⟩
      split at h
      · next h0 => rw [if_pos h0]; exact ⟨got, h, h2, h3, h4, h5, h6, h7, h8⟩
      · next h0 =>
        rw [if_neg h0]
        obtain ⟨hn, -⟩ := List.pairwise_cons.1 (hk.sound h).apart
        refine ⟨got, ?_, h2, h3, h4, h5, h6, ?_, ?_⟩
        · refine hk.perm h ((List.Perm.swap _ _ _).trans (List.Perm.cons _ ?_))
          rw [below_some]
          exact List.perm_middle.symm
        · intro g hg hf
          rcases List.mem_cons.1 hg with rfl | hg
          · cases hf
          · exact h7 g hg hf
        · refine List.pairwise_cons.2 ⟨?_, h8⟩
          have hx := hn buf List.mem_cons_self
          exact MonoOnInv.apart_new h7 (fun g hg => hn g (List.mem_cons_of_mem _ hg))
            (fun g k1 k2 => (hx.symm.inside (g := g) (by omega) (by omega)).symm)
    | none =>
      obtain ⟨⟨k1, k2, k3, k4⟩, ha⟩ := ha
      obtain ⟨r, hr⟩ := round_exists k3 m.next
      have hr2 := round_le k3 k4 (by omega) hr
      have hloc := allocateLocal_eq (debug := debug) (size := size) (by omega) k3 k4 (by omega)
        (by omega) hr (by omega)
      rw [Nat.mod_eq_of_lt (by omega)] at hloc
      by_cases hfit : r + size ≤ m.data + m.size
      · rw [if_pos hfit] at hloc
        have hr1 := hr.2.1
        refine ⟨r, ({ m with next := r + size }, u), ?_, ?_⟩
        · show (m.allocate debug (some (R.face i)) (.ok u) size align >>= _) = _
          rw [mono_allocate (by omega) k3 k4 hloc, if_neg (by omega)]
          rfl
        · rw [if_neg (by omega)]
          refine ⟨got, h1, h2, h3, h4, by simp only; omega, by simp only; omega, ?_, ?_⟩
          · intro g hg hf
            rcases List.mem_cons.1 hg with rfl | hg
            · exact Or.inl ⟨by simp only; omega, Nat.le_refl _, k1, hr.1⟩
            · rcases h7 g hg hf with h | h
              · exact Or.inl ⟨h.1, by simp only; omega, h.2.2⟩
              · exact Or.inr h
          · refine List.pairwise_cons.2 ⟨?_, h8⟩
            refine MonoOnInv.apart_new h7 (fun g hg => ?_) (fun g q1 q2 => ?_)
            · exact (hap g hg).inside (by simp only; omega) (by simp only; omega)
            · right; simp only; omega
      · rw [if_neg hfit] at hloc
        obtain ⟨ptr, u', e, h⟩ := face_alloc hk h1 (ha fun r' hr' => by
          rw [leastMultiple_unique hr' hr]; simp only; omega)
        refine ⟨ptr, (m, u'), ?_, ?_⟩
        · show (m.allocate debug (some (R.face i)) (.ok u) size align >>= _) = _
          rw [mono_allocate (by omega) k3 k4 hloc, if_pos rfl]
          simp only [e]
          rfl
        · split at h
          · next h0 => rw [if_pos h0]; exact ⟨got, h, h2, h3, h4, h5, h6, h7, h8⟩
          · next h0 =>
            rw [if_neg h0]
            obtain ⟨hn, -⟩ := List.pairwise_cons.1 (hk.sound h).apart
            refine ⟨⟨i, ptr, size, align⟩ :: got, ?_, ?_, h3, h4, h5, h6, ?_, ?_⟩
            · exact hk.perm h (List.Perm.swap _ _ _)
            · intro g hg
              rcases List.mem_cons.1 hg with rfl | hg
              · rfl
              · exact h2 g hg
            · intro g hg hf
              rcases List.mem_cons.1 hg with rfl | hg
              · exact Or.inr List.mem_cons_self
              · rcases h7 g hg hf with h | h
                · exact Or.inl h
                · exact Or.inr (List.mem_cons_of_mem _ h)
            · refine List.pairwise_cons.2 ⟨?_, h8⟩
              have hx := hn buf List.mem_cons_self
              exact MonoOnInv.apart_new (x := ⟨none, ptr, size, align⟩) h7
                (fun g hg => hn g (List.mem_cons_of_mem _ hg))
                (fun g k1 k2 => (hx.symm.inside (g := g) (by omega) (by omega)).symm)
  free := by
    rintro ⟨m, u⟩ ⟨f, p, n, a⟩ live ⟨got, h1, h2, h3, h4, h5, h6, h7, h8⟩
    have h7' := fun g hg => h7 g (List.mem_cons_of_mem _ hg)
    have h8' := (List.pairwise_cons.1 h8).2
    cases f with
    | none => exact ⟨(m, u), rfl, got, h1, h2, h3, h4, h5, h6, h7', h8'⟩
    | some j =>
      rw [below_some] at h1
      have : Inv u (⟨j, p, n, a⟩ :: buf :: (got ++ below live)) :=
        hk.perm h1 ((List.Perm.cons _ List.perm_middle).trans (List.Perm.swap _ _ _))
      obtain ⟨u', e, h⟩ := hk.free this
      refine ⟨(m, u'), ?_, got, h, h2, h3, h4, h5, h6, h7', h8'⟩
      show (R.free j u p).map _ = _
      rw [e]
      rfl

/-- A new `monotonic_buffer_resource` on a buffer that is held below. -/
theorem mono_starts (hk : Keeps R Ask grain can Inv) {u : σ} {live : List (Held ι)}
    (h : Inv u (buf :: live)) :
    MonoOnInv Inv i buf (Mono.make buf.ptr buf.size, u) (live.map Held.lift) := by
  have hs := hk.sound h
  have hbuf := hs.placed buf List.mem_cons_self
  have e : Mono.make buf.ptr buf.size = ⟨buf.ptr, buf.size, buf.ptr⟩ := by
    unfold Mono.make
    rw [if_pos (by omega), if_pos (by omega)]
  rw [e]
  refine ⟨[], ?_, by simp, rfl, rfl, Nat.le_refl _, Nat.le_add_right _ _, ?_, ?_⟩
  · simp only [List.nil_append, below_lift]; exact h
  · intro g hg hf
    obtain ⟨x, -, rfl⟩ := List.mem_map.1 hg
    cases hf
  · rw [List.pairwise_map]
    exact (List.pairwise_cons.1 hs.apart).2

end mono

end Utils.Res
