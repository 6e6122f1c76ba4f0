import Verif.Spec.Assign
import Verif.Proofs.Resources
import Verif.Proofs.SRCycle

/-! # Lemmas about assigned resources -/

namespace Utils.Assign

open Utils.Res Utils.SR

variable {O σ op : Type}

/-- Every resource in use, and every overwritten one that held something, has a buffer of its own. -/
def Owned (K : Kind O σ op) (Inv : Nat → O → Prop) (spent : Nat → Bool) (w : Store O σ) : Prop :=
  ∃ (owner : Nat → Nat) (ps : List (Option Nat × O)),
    (∀ i, spent i = false → Inv (owner i) (w.objs i)) ∧
    (∀ i, spent i = true → ∃ y, w.objs i = K.empty y) ∧
    (∀ i j, spent i = false → spent j = false → owner i = owner j → i = j) ∧
    ps.map (·.2) = w.lost ∧
    (∀ x ∈ ps, (∀ k, x.1 = some k → Inv k x.2) ∧ (x.1 = none → ∃ y, x.2 = K.empty y)) ∧
    ps.Pairwise (fun a b => ∀ k, a.1 = some k → b.1 ≠ some k) ∧
    (∀ i, spent i = false → ∀ x ∈ ps, x.1 ≠ some (owner i))

theorem put_same {β : Type} (f : Nat → β) (i : Nat) (v : β) : put f i v i = v := by simp [put]

theorem put_other {β : Type} (f : Nat → β) {i k : Nat} (v : β) (h : k ≠ i) : put f i v k = f k := by
  simp [put, h]

theorem Owned.step {K : Kind O σ op} {A : O → σ → op → Prop} {Inv : Nat → O → Prop}
    (hcall : ∀ k x u c, Inv k x → A x u c → ∃ x' u', K.call x u c = .ok (x', u') ∧ Inv k x')
    (hassign : ∀ k x y, Inv k y → Inv k (K.assign x y)) {spent : Nat → Bool} {w : Store O σ}
    (h : Owned K Inv spent w) {o : AOp op} (hm : Moves spent [o])
    (hA : ∀ i c, o = .on i c → A (w.objs i) w.up c) :
    ∃ w', aStep K w o = .ok w' ∧ Owned K Inv (spentAfter spent o) w' := by
  obtain ⟨owner, ps, h1, h2, h3, h4, h5, h6, h7⟩ := h
  cases o with
  | on i c =>
    have hi : spent i = false := hm.1
    obtain ⟨x', u', e, hx⟩ := hcall _ _ w.up c (h1 i hi) (hA i c rfl)
    refine ⟨⟨put w.objs i x', u', w.lost⟩, ?_, owner, ps, ?_, ?_, h3, h4, h5, h6, h7⟩
    · unfold aStep
      simp only [e, Outcome.ok_bind, Outcome.pure_eq]
    · intro k hk
      by_cases hki : k = i
      · subst hki; show Inv _ (put _ _ _ _); rw [put_same]; exact hx
      · show Inv _ (put _ _ _ _); rw [put_other _ _ hki]; exact h1 k hk
    · intro k hk
      have hki : k ≠ i := by
        rintro rfl
        rw [show spentAfter spent (.on k c) k = spent k from rfl, hi] at hk
        cases hk
      simp only [put_other _ _ hki]
      exact h2 k hk
  | assign i j =>
    have hj : spent j = false := hm.1
    by_cases hij : i = j
    · refine ⟨w, ?_, ?_⟩
      · simp only [aStep, if_pos hij, Outcome.pure_eq]
      · simp only [spentAfter, if_pos hij]
        exact ⟨owner, ps, h1, h2, h3, h4, h5, h6, h7⟩
    · have hsp : ∀ k, spentAfter spent (.assign i j : AOp op) k = false ↔
          k ≠ j ∧ (k = i ∨ spent k = false) := by
        intro k
        simp only [spentAfter, if_neg hij]
        by_cases hkj : k = j
        · subst hkj; rw [put_same]; simp
        · rw [put_other _ _ hkj]
          by_cases hki : k = i
          · subst hki; rw [put_same]; simp [hkj]
          · rw [put_other _ _ hki]; simp [hkj, hki]
      refine ⟨⟨put (put w.objs i (K.assign (w.objs i) (w.objs j))) j (K.empty (w.objs j)), w.up,
        w.objs i :: w.lost⟩, ?_, put owner i (owner j),
        (if spent i then none else some (owner i), w.objs i) :: ps, ?_, ?_, ?_, ?_, ?_, ?_, ?_⟩
      · simp only [aStep, if_neg hij, Outcome.pure_eq]
      · intro k hk
        obtain ⟨hkj, hk⟩ := (hsp k).1 hk
        simp only [put_other _ _ hkj]
        by_cases hki : k = i
        · subst hki; rw [put_same, put_same]; exact hassign _ _ _ (h1 j hj)
        · rw [put_other _ _ hki, put_other _ _ hki]; exact h1 k (hk.resolve_left hki)
      · intro k hk
        by_cases hkj : k = j
        · subst hkj; exact ⟨w.objs k, by simp only [put_same]⟩
        · have hki : k ≠ i := by
            rintro rfl
            rw [(hsp k).2 ⟨hkj, Or.inl rfl⟩] at hk; cases hk
          have hks : spent k = true := by
            cases hs : spent k with
            | true => rfl
            | false => rw [(hsp k).2 ⟨hkj, Or.inr hs⟩] at hk; cases hk
          simp only [put_other _ _ hkj, put_other _ _ hki]
          exact h2 k hks
      · intro a b ha hb hab
        obtain ⟨haj, ha⟩ := (hsp a).1 ha
        obtain ⟨hbj, hb⟩ := (hsp b).1 hb
        by_cases hai : a = i
        · subst hai
          by_cases hbi : b = a
          · exact hbi.symm
          · rw [put_same, put_other _ _ hbi] at hab
            exact absurd (h3 j b hj (hb.resolve_left hbi) hab).symm hbj
        · rw [put_other _ _ hai] at hab
          by_cases hbi : b = i
          · subst hbi
            rw [put_same] at hab
            exact absurd (h3 a j (ha.resolve_left hai) hj hab) haj
          · rw [put_other _ _ hbi] at hab
            exact h3 a b (ha.resolve_left hai) (hb.resolve_left hbi) hab
      · simp [h4]
      · intro x hx
        rcases List.mem_cons.1 hx with rfl | hx
        · cases hs : spent i with
          | true => exact ⟨by simp, fun _ => h2 i hs⟩
          | false => exact ⟨by rintro k ⟨⟩; exact h1 i hs, by simp⟩
        · exact h5 x hx
      · refine List.pairwise_cons.2 ⟨fun x hx k hk => ?_, h6⟩
        cases hs : spent i with
        | true => simp [hs] at hk
        | false =>
          simp only [hs] at hk
          cases hk
          exact h7 i hs x hx
      · intro k hk x hx
        obtain ⟨hkj, hk⟩ := (hsp k).1 hk
        by_cases hki : k = i
        · subst hki
          rw [put_same]
          rcases List.mem_cons.1 hx with rfl | hx
          · cases hs : spent k with
            | true => simp
            | false =>
              simp only [Bool.false_eq_true, if_false, ne_eq, Option.some.injEq]
              exact fun e => hkj (h3 k j hs hj e)
          · exact h7 j hj x hx
        · rw [put_other _ _ hki]
          have hks := hk.resolve_left hki
          rcases List.mem_cons.1 hx with rfl | hx
          · cases hs : spent i with
            | true => simp
            | false =>
              simp only [Bool.false_eq_true, if_false, ne_eq, Option.some.injEq]
              exact fun e => hki (h3 i k hs hks e).symm
          · exact h7 k hks x hx

/-- A resource that no step involves stays as it is. -/
theorem aRun_untouched {K : Kind O σ op} {j : Nat} {ops : List (AOp op)} :
    ∀ {w w' : Store O σ}, (∀ o ∈ ops, ¬ o.involves j) → aRun K w ops = .ok w' →
    w'.objs j = w.objs j := by
  induction ops with
  | nil => intro w w' _ h; cases h; rfl
  | cons o ops ih =>
    intro w w' hn h
    unfold aRun at h
    obtain ⟨w1, e1, e2⟩ := Outcome.bind_eq_ok.1 h
    rw [ih (fun o ho => hn o (List.mem_cons_of_mem _ ho)) e2]
    have ho := hn o (List.mem_cons_self ..)
    cases o with
    | on i c =>
      unfold aStep at e1
      obtain ⟨⟨x, u⟩, -, e1⟩ := Outcome.bind_eq_ok.1 e1
      cases e1
      exact put_other _ _ (fun e => ho e.symm)
    | assign i k =>
      simp only [aStep] at e1
      split at e1
      · cases e1; rfl
      · cases e1
        show put _ _ _ _ = _
        rw [put_other _ _ (fun e => ho (Or.inr e.symm)), put_other _ _ (fun e => ho (Or.inl e.symm))]

/-- An assignment, then the same call on both. -/
theorem aRun_both {K : Kind O σ op} {w : Store O σ} {i j : Nat} {c : op} {x y : O} {u1 u2 : σ}
    (hij : i ≠ j) (h1 : K.call (K.assign (w.objs i) (w.objs j)) w.up c = .ok (x, u1))
    (h2 : K.call (K.empty (w.objs j)) u1 c = .ok (y, u2)) :
    ∃ w', aRun K w [.assign i j, .on i c, .on j c] = .ok w' ∧ w'.objs i = x ∧ w'.objs j = y := by
  refine ⟨⟨put (put (put (put w.objs i (K.assign (w.objs i) (w.objs j))) j (K.empty (w.objs j))) i x)
    j y, u2, w.objs i :: w.lost⟩, ?_, ?_, put_same ..⟩
  · simp only [aRun, aStep, if_neg hij, Outcome.pure_eq, Outcome.ok_bind, put_other _ _ hij, put_same,
      h1, put_other _ _ (Ne.symm hij), h2]
  · show put _ _ _ _ = _
    rw [put_other _ _ hij, put_same]

theorem Moves.head {spent : Nat → Bool} {o : AOp op} {ops : List (AOp op)}
    (h : Moves spent (o :: ops)) : Moves spent [o] ∧ Moves (spentAfter spent o) ops := by
  cases o with
  | on i c => exact ⟨⟨h.1, trivial⟩, h.2⟩
  | assign i j => exact ⟨⟨h.1, trivial⟩, h.2⟩

theorem Owned.run {K : Kind O σ op} {A : O → σ → op → Prop} {Inv : Nat → O → Prop}
    (hcall : ∀ k x u c, Inv k x → A x u c → ∃ x' u', K.call x u c = .ok (x', u') ∧ Inv k x')
    (hassign : ∀ k x y, Inv k y → Inv k (K.assign x y)) {ops : List (AOp op)} :
    ∀ {spent : Nat → Bool} {w : Store O σ}, Owned K Inv spent w → Moves spent ops →
    AAlong K A w ops →
    ∃ w', aRun K w ops = .ok w' ∧ Owned K Inv (spentAll spent ops) w' := by
  induction ops with
  | nil => intro spent w h _ _; exact ⟨w, rfl, h⟩
  | cons o ops ih =>
    intro spent w h hm hA
    obtain ⟨w1, e1, h1⟩ := h.step hcall hassign hm.head.1 hA.1
    obtain ⟨w2, e2, h2⟩ := ih h1 hm.head.2 (hA.2 w1 e1)
    refine ⟨w2, ?_, h2⟩
    unfold aRun
    rw [e1, Outcome.ok_bind, e2]

/-- A condition on calls that is enough for `A` whenever the invariant holds. -/
theorem Owned.along {K : Kind O σ op} {A : O → σ → op → Prop} {S : op → Prop} {Inv : Nat → O → Prop}
    (hcall : ∀ k x u c, Inv k x → A x u c → ∃ x' u', K.call x u c = .ok (x', u') ∧ Inv k x')
    (hassign : ∀ k x y, Inv k y → Inv k (K.assign x y))
    (hS : ∀ k x u c, Inv k x → S c → A x u c) {ops : List (AOp op)} :
    ∀ {spent : Nat → Bool} {w : Store O σ}, Owned K Inv spent w → Moves spent ops →
    (∀ i c, AOp.on i c ∈ ops → S c) → AAlong K A w ops := by
  induction ops with
  | nil => intro spent w _ _ _; exact trivial
  | cons o ops ih =>
    intro spent w h hm hs
    have hA : ∀ i c, o = .on i c → A (w.objs i) w.up c := by
      rintro i c rfl
      obtain ⟨owner, ps, h1, -⟩ := h
      exact hS _ _ _ _ (h1 i hm.1) (hs i c (List.mem_cons_self ..))
    refine ⟨hA, fun w' e => ?_⟩
    obtain ⟨w1, e1, h1⟩ := h.step hcall hassign hm.head.1 hA
    rw [e] at e1
    cases Outcome.ok.inj e1
    exact ih h1 hm.head.2 fun i c hc => hs i c (List.mem_cons_of_mem _ hc)

/-- What the bookkeeping says about two holders. -/
theorem Owned.holders {K : Kind O σ op} {Inv : Nat → O → Prop} {spent : Nat → Bool} {w : Store O σ}
    (h : Owned K Inv spent w) {a : Holder} {x : O} (ha : w.holds spent a = some x) :
    ((∃ y, x = K.empty y) ∨ ∃ k, Inv k x) ∧
    ∀ b y, w.holds spent b = some y → a ≠ b →
      (∃ z, x = K.empty z) ∨ (∃ z, y = K.empty z) ∨ ∃ k l, k ≠ l ∧ Inv k x ∧ Inv l y := by
  obtain ⟨owner, ps, h1, h2, h3, h4, h5, h6, h7⟩ := h
  -- a holder and the buffer it has
  have key : ∀ (a : Holder) (x : O), w.holds spent a = some x →
      (∃ y, x = K.empty y) ∨ ∃ k, Inv k x ∧
        match a with
        | .resource i => spent i = false ∧ k = owner i
        | .overwritten n => ∃ z, ps[n]? = some z ∧ z.1 = some k := by
    intro a x ha
    cases a with
    | resource i =>
      simp only [Store.holds] at ha
      split at ha
      · cases ha
      · next hs =>
        cases ha
        have hs : spent i = false := by simpa using hs
        exact Or.inr ⟨owner i, h1 i hs, hs, rfl⟩
    | overwritten n =>
      simp only [Store.holds, ← h4, List.getElem?_map] at ha
      obtain ⟨z, hz, rfl⟩ := Option.map_eq_some_iff.1 ha
      obtain ⟨g1, g2⟩ := h5 z (List.mem_of_getElem? hz)
      cases hz1 : z.1 with
      | none => exact Or.inl (g2 hz1)
      | some k => exact Or.inr ⟨k, g1 k hz1, z, hz, hz1⟩
  have pw : ∀ {m n : Nat} {y z : Option Nat × O}, ps[m]? = some y → ps[n]? = some z → m ≠ n →
      ∀ k, y.1 = some k → z.1 ≠ some k := by
    intro m n y z hy hz hne k hk
    obtain ⟨hm, rfl⟩ := List.getElem?_eq_some_iff.1 hy
    obtain ⟨hn, rfl⟩ := List.getElem?_eq_some_iff.1 hz
    rcases Nat.lt_or_gt_of_ne hne with hlt | hlt
    · exact List.pairwise_iff_getElem.1 h6 m n hm hn hlt k hk
    · exact fun hc => List.pairwise_iff_getElem.1 h6 n m hn hm hlt k hc hk
  refine ⟨(key a x ha).imp id fun ⟨k, hk, _⟩ => ⟨k, hk⟩, fun b y hb hab => ?_⟩
  rcases key a x ha with e | ⟨k, hk, ka⟩
  · exact Or.inl e
  rcases key b y hb with e | ⟨l, hl, lb⟩
  · exact Or.inr (Or.inl e)
  refine Or.inr (Or.inr ⟨k, l, ?_, hk, hl⟩)
  rintro rfl
  cases a with
  | resource i =>
    cases b with
    | resource j =>
      exact hab (by rw [h3 i j ka.1 lb.1 (ka.2.symm.trans lb.2)])
    | overwritten n =>
      obtain ⟨z, hz, hz1⟩ := lb
      exact h7 i ka.1 z (List.mem_of_getElem? hz) (by rw [hz1, ka.2])
  | overwritten m =>
    obtain ⟨z, hz, hz1⟩ := ka
    cases b with
    | resource j => exact h7 j lb.1 z (List.mem_of_getElem? hz) (by rw [hz1, lb.2])
    | overwritten n =>
      obtain ⟨z', hz', hz1'⟩ := lb
      exact pw hz hz' (fun e => hab (by rw [e])) k hz1 hz1'

/-- At the beginning resource `k` has buffer `k`. -/
theorem Owned.start {K : Kind O σ op} {Inv : Nat → O → Prop} {w : Store O σ}
    (h : ∀ k, Inv k (w.objs k)) (hl : w.lost = []) : Owned K Inv (fun _ => false) w := by
  refine ⟨id, [], fun i _ => h i, ?_, fun _ _ _ _ h => h, hl.symm, ?_, List.Pairwise.nil, ?_⟩
  · intro i h; cases h
  · intro x hx; cases hx
  · intro i _ x hx; cases hx

/-! ## monotonic_buffer_resource -/

theorem monoInv_congr {m : Mono} {u u' : σ} {g : List Grant} (h : MonoInv ⟨m, u, g⟩) :
    MonoInv (⟨m, u', g⟩ : MonoWorld σ) :=
  ⟨h.low, h.null, h.next1, h.next2, ⟨h.sound.aligned, h.sound.inside, h.sound.ordered⟩, h.behind⟩

/-- The resource works on buffer `k` and passes on to one of the upstreams. -/
def MonoOn (bufs : Nat → Nat × Nat) (ups : Nat → Option (Upstream σ)) (k : Nat) (x : MonoHeld σ) : Prop :=
  (∃ l, x.obj.upstream = ups l) ∧
  x.obj.res.data = (Mono.make (bufs k).1 (bufs k).2).data ∧
  x.obj.res.size = (Mono.make (bufs k).1 (bufs k).2).size ∧ ∀ u, MonoInv (x.world u)

theorem monoOn_call {debug : Bool} {bufs : Nat → Nat × Nat} {ups : Nat → Option (Upstream σ)}
    (hap : ∀ k l, ApartFrom (Mono.make (bufs k).1 (bufs k).2) (ups l)) (k : Nat) (x : MonoHeld σ)
    (u : σ) (c : MonoOp) (h : MonoOn bufs ups k x) (hc : Unwrapped x.obj.res c) :
    ∃ x' u', (monoKind σ debug).call x u c = .ok (x', u') ∧ MonoOn bufs ups k x' := by
  obtain ⟨⟨l, hl⟩, hd, hs, hi⟩ := h
  have hu : ApartFrom (x.world u).res x.obj.upstream := by
    rw [hl]
    intro U hU u size align
    have := hap k l U hU u size align
    unfold Mono.inBuffer at this ⊢
    simp only [MonoHeld.world, hd, hs]
    exact this
  obtain ⟨w, e, h1, h2, h3⟩ := monoStep_ok (debug := debug) (hi u) hu hc
  refine ⟨⟨⟨w.res, x.obj.upstream⟩, w.given⟩, w.up, ?_, ⟨l, hl⟩, h2.trans hd, h3.trans hs, fun u' => ?_⟩
  · simp only [monoKind, e, Outcome.ok_bind, Outcome.pure_eq]
  · exact monoInv_congr h1

/-- In the lower half of the address space, sizes up to `PTRDIFF_MAX` never wrap around. -/
theorem monoOn_sane {bufs : Nat → Nat × Nat} {ups : Nat → Option (Upstream σ)}
    (hbuf : ∀ k, (bufs k).1 + (bufs k).2 ≤ 2 ^ 63) (k : Nat) (x : MonoHeld σ) (u : σ) (c : MonoOp)
    (h : MonoOn bufs ups k x) (hc : SaneCall c) : Unwrapped x.obj.res c := by
  obtain ⟨-, hd, hs, hi⟩ := h
  have hb : x.obj.res.data + x.obj.res.size ≤ 2 ^ 63 := by
    rw [hd, hs]
    have := hbuf k
    simp only [Mono.make]
    split <;> split <;> omega
  cases c with
  | alloc size align =>
    obtain ⟨h1, h2, h3⟩ := hc
    have h4 := (hi u).next2
    simp only [MonoHeld.world] at h4
    refine ⟨by omega, h2, h3, fun r hr => Or.inl ?_⟩
    have := round_le h2 h3 (by omega) hr
    omega
  | free ptr => trivial
  | release => trivial

/-! ## simple_resource -/

theorem tracks_congr {p : Params} {up : Option (Upstream σ)} {s : State} {u u' : σ}
    {l : List (Nat × Nat)} {rs : List Region} (h : Tracks p up ⟨s, u, l⟩ rs) :
    Tracks p up (⟨s, u', l⟩ : World σ) rs :=
  ⟨h.placed, h.small, h.tiled, h.links, h.live, h.ptrs, h.routed⟩

theorem tracks_busy {p : Params} {up : Option (Upstream σ)} {w : World σ} {rs : List Region}
    (h : Tracks p up w rs) : (localLive p w).length = w.st.busyCount := by
  have := h.live.length_eq
  rw [List.length_map, List.length_map] at this
  rw [this, h.tiled.busy]
  clear this h
  generalize 0 = k
  induction rs generalizing k with
  | nil => rfl
  | cons r rs ih =>
    obtain ⟨l, b⟩ := r
    cases b with
    | true => rw [busyRuns_busy, List.length_cons, ih]; simp
    | false => rw [busyRuns_free, ih]; simp

/-- The resource works on the area of `sts k` and passes on to one of the upstreams. -/
def SimpleOn (p : Params) (sts : Nat → State) (ups : Nat → Option (Upstream σ)) (k : Nat)
    (x : SimpleHeld σ) : Prop :=
  (∃ l, x.obj.upstream = ups l) ∧ x.obj.st.data = (sts k).data ∧
  x.obj.st.blockCount = (sts k).blockCount ∧ ∀ u, ∃ rs, Tracks p x.obj.upstream (x.world u) rs

theorem simpleOn_call {p : Params} {fuel : Nat} {sts : Nat → State}
    {ups : Nat → Option (Upstream σ)} (hv : Valid p)
    (hup : ∀ k l, UpstreamOK p (sts k) (ups l))
    (hfuel : ∀ k, ((sts k).blockCount + 1) * ((sts k).blockCount + 2) ≤ fuel) (k : Nat)
    (x : SimpleHeld σ) (u : σ) (c : COp) (h : SimpleOn p sts ups k x)
    (hc : ∀ o, c = .call o → GoodOp p (x.world u) o) :
    ∃ x' u', (simpleKind σ p fuel).call x u c = .ok (x', u') ∧ SimpleOn p sts ups k x' := by
  obtain ⟨⟨l, hl⟩, hd, hb, hi⟩ := h
  obtain ⟨rs, hi⟩ := hi u
  have hu : UpstreamOK p (x.world u).st x.obj.upstream := by
    rw [hl]; exact (hup k l).congr hd hb
  obtain ⟨w, e, ⟨rs', h1⟩, h2, h3⟩ := cycle_history (ops := [c]) (fuel := fuel) hv hi hu
    (by rw [show (x.world u).st.blockCount = _ from hb]; exact hfuel k) ⟨hc, fun _ _ => trivial⟩
  refine ⟨⟨⟨w.st, x.obj.upstream⟩, w.live⟩, w.up, ?_, ⟨l, hl⟩, h2.trans hd, h3.trans hb, fun u' => ?_⟩
  · have e' : cstep p x.obj.upstream fuel (x.world u) c = .ok w := by
      unfold crun at e
      obtain ⟨w1, e1, e2⟩ := Outcome.bind_eq_ok.1 e
      rw [e1]
      exact e2
    simp only [simpleKind, e', Outcome.ok_bind, Outcome.pure_eq]
  · exact ⟨rs', tracks_congr h1⟩

end Utils.Assign
