import Verif.Proofs.ComposePool
import Verif.Props.SimpleResource

/-! # Resources on top of each other (C83, C84) -/

namespace Utils.Res

open Utils.SR Utils.Spec Utils.Props

variable {ι σ τ : Type}

/-! ## C83 -/

/-- However `monotonic_buffer_resource`s and `simple_resource`s are stacked on the system
resource, on static storage and on each other, and whatever calls have been made to any of them: what
is held from all of them together is aligned, not null and pairwise disjoint. -/
theorem C83_sound {h : Heap τ} {I : τ → List (Nat × Nat) → Prop} (hh : HeapKeeps h I)
    {R : Service ι σ} {Ask : ι → σ → Nat → Nat → Prop} {grain : ι → Nat} {can : ι → Prop} {s : σ}
    {live : List (Held ι)} (t : Tower h I R Ask grain can s live) : HeldSound live := by
  obtain ⟨Inv, hk, hi⟩ := t.keeps hh
  exact hk.sound hi

/-- In every such state every allowed call of any of the resources returns: no assertion fails, nothing
aborts, there is no undefined behaviour. -/
theorem C83_returns {h : Heap τ} {I : τ → List (Nat × Nat) → Prop} (hh : HeapKeeps h I)
    {R : Service ι σ} {Ask : ι → σ → Nat → Nat → Prop} {grain : ι → Nat} {can : ι → Prop} {s : σ}
    {live : List (Held ι)} (t : Tower h I R Ask grain can s live) {op : FaceOp ι}
    (ha : Allowed Ask can (s, live) op) :
    ∃ s' live', R.step (s, live) op = .ok (s', live') ∧ Tower h I R Ask grain can s' live' := by
  obtain ⟨Inv, hk, hi⟩ := t.keeps hh
  obtain ⟨⟨s', live'⟩, e, -⟩ := keeps_step (w := (s, live)) hk hi ha
  exact ⟨s', live', e, .call t ha e⟩

/-- Everything from the system resource is aligned to 8 and everything from a `simple_resource` to its
`BlockSize`, whatever was asked for. -/
theorem C83_grain {h : Heap τ} {I : τ → List (Nat × Nat) → Prop} (hh : HeapKeeps h I)
    {R : Service ι σ} {Ask : ι → σ → Nat → Nat → Prop} {grain : ι → Nat} {can : ι → Prop} {s : σ}
    {live : List (Held ι)} (t : Tower h I R Ask grain can s live) :
    ∀ g ∈ live, grain g.face ∣ g.ptr := by
  obtain ⟨Inv, hk, hi⟩ := t.keeps hh
  exact hk.grained hi

/-! ## C84 -/

/-- In every such state, a resource of which nothing is held and on which no other resource is built
can be destroyed: the destructor of a `simple_resource` does not abort. -/
theorem C84_destroy {h : Heap τ} {I : τ → List (Nat × Nat) → Prop} (hh : HeapKeeps h I)
    {R : Service ι σ} {Ask : ι → σ → Nat → Nat → Prop} {grain : ι → Nat} {can : ι → Prop} {s : σ}
    {live : List (Held ι)} (t : Tower h I R Ask grain can s live) {i : ι} (hc : can i)
    (hn : ∀ g ∈ live, g.face ≠ i) : R.destroy i s = .ok () := by
  obtain ⟨Inv, hk, hi⟩ := t.keeps hh
  exact hk.destroy hi hc hn

/-! ## A concrete tower -/

/-- A heap that hands out increasing addresses up to 2^63. -/
def bumpHeap : Heap Nat where
  posixMemalign := fun s align size =>
    let r := (s + align - 1) / align * align
    if r + size ≤ 2 ^ 63 then (some r, r + size) else (none, s)
  free := fun s _ => s

/-- What it guarantees. -/
def BumpInv (s : Nat) (used : List (Nat × Nat)) : Prop :=
  s ≤ 2 ^ 63 ∧ 0 < s ∧ (used.Pairwise fun x y => x.1 + x.2 ≤ y.1 ∨ y.1 + y.2 ≤ x.1) ∧
    ∀ x ∈ used, 0 < x.1 ∧ 0 < x.2 ∧ x.1 + x.2 ≤ s

theorem bumpHeap_keeps : HeapKeeps bumpHeap BumpInv where
  apart := fun h => h.2.2.1
  placed := by
    intro s used h x hx
    obtain ⟨h1, h2, h3⟩ := h.2.2.2 x hx
    exact ⟨h1, h2, Nat.le_trans h3 h.1⟩
  perm := by
    intro s used used' h hp
    exact ⟨h.1, h.2.1, (hp.pairwise_iff fun h => h.symm).1 h.2.2.1,
      fun x hx => h.2.2.2 x (hp.mem_iff.2 hx)⟩
  alloc := by
    intro s used align size h hp h8 hs
    have hal : 0 < align := by
      obtain ⟨k, rfl⟩ := hp
      exact Nat.two_pow_pos k
    have hr : s ≤ (s + align - 1) / align * align := by
      have := Nat.lt_div_mul_add (a := s + align - 1) hal
      omega
    have hd : align ∣ (s + align - 1) / align * align := Nat.dvd_mul_left _ _
    simp only [bumpHeap]
    generalize (s + align - 1) / align * align = r at hr hd
    split
    · next s' e =>
      split at e
      · cases e
      · cases e; exact h
    · next ptr s' e =>
      split at e
      · next hle =>
        cases e
        refine ⟨hd, hle, by omega, List.pairwise_cons.2 ⟨fun x hx => ?_, h.2.2.1⟩, fun x hx => ?_⟩
        · have := (h.2.2.2 x hx).2.2
          right
          simp only
          omega
        · rcases List.mem_cons.1 hx with rfl | hx
          · have := h.2.1
            exact ⟨by simp only; omega, hs, Nat.le_refl _⟩
          · have := h.2.2.2 x hx
            exact ⟨this.1, this.2.1, by omega⟩
      · cases e
  free := by
    intro s x used h
    exact ⟨h.1, h.2.1, (List.pairwise_cons.1 h.2.2.1).2,
      fun y hy => h.2.2.2 y (List.mem_cons_of_mem _ hy)⟩

/-- Histories of allowed calls return and stay inside the tower. -/
theorem C83_history {h : Heap τ} {I : τ → List (Nat × Nat) → Prop} (hh : HeapKeeps h I)
    {R : Service ι σ} {Ask : ι → σ → Nat → Nat → Prop} {grain : ι → Nat} {can : ι → Prop} {s : σ}
    {live : List (Held ι)} (t : Tower h I R Ask grain can s live) {ops : List (FaceOp ι)}
    (ha : AllowedAll R Ask can (s, live) ops) :
    ∃ s' live', R.run (s, live) ops = .ok (s', live') ∧ Tower h I R Ask grain can s' live' := by
  induction ops generalizing s live with
  | nil => exact ⟨s, live, rfl, t⟩
  | cons op ops ih =>
    obtain ⟨s1, live1, e1, t1⟩ := C83_returns hh t ha.1
    obtain ⟨s2, live2, e2, t2⟩ := ih t1 (ha.2 _ e1)
    exact ⟨s2, live2, by show (R.step (s, live) op >>= _) = _; rw [e1]; exact e2, t2⟩

/-- 300 bytes from the system resource, a `monotonic_buffer_resource` on them, 200 bytes from it, a
pool of 8-byte blocks on those with the system resource as upstream; something from each of the
three. -/
example : ∃ (s : State × Mono × Nat),
    Tower bumpHeap BumpInv
      (simpleOn pDebug 1000 (monoOn true (baseService bumpHeap) .system) (some .system))
      (askAlso (askAlso baseAsk (MonoAsk fun _ => Sane))
        (PoolAsk pDebug (fresh pDebug 1008 25) 1 fun _ => Sane))
      (grainAlso (grainAlso baseGrain 1) 8)
      (canAlso (canAlso (fun _ => False) .system ⟨.system, 1008, 300, 16⟩) (some .system)
        ⟨none, 1008, 200, 16⟩)
      s [⟨some (some .system), 1312, 10, 1⟩, ⟨some none, 1208, 50, 4⟩, ⟨none, 1008, 7, 1⟩] := by
  have sane : ∀ n k, 0 < n → n < 1000 → k < 10 → Sane n (2 ^ k) := fun n k h1 h2 h3 =>
    ⟨h1, by omega, ⟨k, rfl⟩, Nat.pow_lt_pow_right (by decide) (by omega)⟩
  have t0 : Tower bumpHeap BumpInv (baseService bumpHeap) baseAsk baseGrain (fun _ => False) 1000 [] :=
    .start ⟨by decide, by decide, by simp, by simp⟩ (by simp)
  have t1 := Tower.call (op := .alloc Base.system 300 16) t0
    (sane 300 4 (by decide) (by decide) (by decide))
    (show _ = Outcome.ok (1308, [⟨.system, 1008, 300, 16⟩]) from by decide)
  have t2 := Tower.mono (k := 0) true Base.system t1 rfl
  have t3 := Tower.call (op := .alloc none 200 16) t2
    ⟨sane 200 4 (by decide) (by decide) (by decide), fun _ => sane 200 4 (by decide) (by decide) (by decide)⟩
    (show _ = Outcome.ok ((⟨1008, 300, 1208⟩, 1308), [⟨none, 1008, 200, 16⟩]) from by rfl)
  have t4 := Tower.pool (k := 0) (p := pDebug) (s0 := fresh pDebug 1008 25) (b := 1) (fuel := 1000)
    (some Base.system) t3 rfl pDebug_valid
    ⟨rfl, by decide, by decide, by decide, small_of_le (by decide) (by decide)⟩ (by decide)
    (Or.inl (by decide))
  obtain ⟨s5, l5, e, t5⟩ := C83_history bumpHeap_keeps t4
    (ops := [.alloc none 7 1, .alloc (some none) 50 4, .alloc (some (some .system)) 10 1])
    ⟨⟨⟨⟨⟨0, rfl⟩, by decide, by decide⟩, by decide, by decide, by decide, Or.inl (by decide)⟩,
        fun _ => sane 7 0 (by decide) (by decide) (by decide)⟩,
      fun _ _ => ⟨⟨sane 50 2 (by decide) (by decide) (by decide),
          fun _ => sane 50 2 (by decide) (by decide) (by decide)⟩,
        fun _ _ => ⟨sane 10 0 (by decide) (by decide) (by decide), fun _ _ => trivial⟩⟩⟩
  have hl : (Outcome.ok (s5, l5)).map Prod.snd = Outcome.ok
      [⟨some (some .system), 1312, 10, 1⟩, ⟨some none, 1208, 50, 4⟩, ⟨none, 1008, 7, 1⟩] := by
    rw [← e]
    decide +kernel
  cases hl
  exact ⟨s5, t5⟩

/-- A request that fits an area of which nothing is in use is one a `simple_resource` takes. -/
theorem GoodAsk.first {p : Params} {P : σ → Nat → Nat → Prop} {st : State} {s : σ} {size align : Nat}
    (hr : Request size align) (h1 : 1 ≤ st.blockCount) (h0 : st.next 0 = 0)
    (h2 : ∀ j, j < st.blockCount → st.inUse j = false) (hg : align ≤ st.blockCount * p.blockSize)
    (hn : need p st size align 0 < st.blockCount * p.blockSize) : GoodAsk p P st s size align := by
  have hgate : Gate p st align := ⟨0, Nat.one_dvd _, by omega⟩
  have hf : Finds st 0 (some 0) := .here (h2 0 h1)
  have hs : ¬ TooSmall p st size align 0 := by
    unfold TooSmall stop
    rw [if_pos h0]
    simp only [Nat.sub_zero]
    omega
  have hd : Decides p st size align (.take 0) := .first hgate hf hs
  refine ⟨⟨hr, fun rs ht => Or.inr ⟨[], st.blockCount, [], ht.all_free h1 h2, hd, ?_⟩⟩, fun hd' => ?_⟩
  · exact Nat.ne_of_lt hn
  · cases Decides.unique hd hd'

/-- A `simple_resource` on static storage, another one on 120 bytes of it with the first as upstream,
and requests of different sizes. -/
example : ∃ Ask grain can, ∃ s : State × State × Nat,
    Tower bumpHeap BumpInv
      (simpleOn pDebug 1000 (simpleOn pDebug 2000 (baseService bumpHeap) .null) none) Ask grain can
      s [⟨none, 4096, 20, 16⟩] := by
  have t0 : Tower bumpHeap BumpInv (baseService bumpHeap) baseAsk baseGrain (fun _ => False) 9000
      [⟨.static, 4096, 256, 8⟩] :=
    .start ⟨by decide, by decide, by simp, by simp⟩ (by simp)
  have t1 := Tower.simple (k := 0) (p := pDebug) (s0 := fresh pDebug 4096 32) (fuel := 2000)
    Base.null t0 rfl pDebug_valid fresh_debug (by decide) (Or.inl ⟨0, rfl⟩)
  obtain ⟨s2, l2, e2, t2⟩ := C83_returns bumpHeap_keeps t1 (op := .alloc none 120 8)
    (GoodAsk.first ⟨⟨3, rfl⟩, by decide, by decide⟩ (by decide) rfl (fun j _ => rfl) (by decide)
      (by decide))
  have hl : (Outcome.ok (s2, l2)).map Prod.snd = Outcome.ok [⟨none, 4096, 120, 8⟩] := by
    rw [← e2]
    decide +kernel
  cases hl
  have t3 := Tower.simple (k := 0) (p := pDebug) (s0 := fresh pDebug 4096 15) (fuel := 1000)
    none t2 rfl pDebug_valid
    ⟨rfl, by decide, by decide, by decide, small_of_le (by decide) (by decide)⟩ (by decide)
    (Or.inl (by decide))
  obtain ⟨s4, l4, e4, t4⟩ := C83_returns bumpHeap_keeps t3 (op := .alloc none 20 16)
    (GoodAsk.first ⟨⟨4, rfl⟩, by decide, by decide⟩
      (show 1 ≤ (fresh pDebug 4096 15).blockCount by decide) rfl (fun j _ => rfl)
      (show 16 ≤ (fresh pDebug 4096 15).blockCount * 8 by decide)
      (show need pDebug (fresh pDebug 4096 15) 20 16 0 < (fresh pDebug 4096 15).blockCount * 8 by decide))
  have hl : ((simpleOn pDebug 2000 (baseService bumpHeap) .null).step
        ((fresh pDebug 4096 32, 9000), []) (.alloc none 120 8)).bind (fun w =>
      ((simpleOn pDebug 1000 (simpleOn pDebug 2000 (baseService bumpHeap) .null) none).step
        ((fresh pDebug 4096 15, w.1), []) (.alloc none 20 16)).map Prod.snd) =
      Outcome.ok [⟨none, 4096, 20, 16⟩] := by
    decide +kernel
  have e2' : (simpleOn pDebug 2000 (baseService bumpHeap) .null).step
      ((fresh pDebug 4096 32, 9000), []) (.alloc none 120 8) = .ok (s2, [⟨none, 4096, 120, 8⟩]) := e2
  have e4' : (simpleOn pDebug 1000 (simpleOn pDebug 2000 (baseService bumpHeap) .null) none).step
      ((fresh pDebug 4096 15, s2), []) (.alloc none 20 16) = .ok (s4, l4) := e4
  have hl' : (Outcome.ok (s4, l4)).map Prod.snd = Outcome.ok [⟨none, 4096, 20, 16⟩] := by
    rw [e2'] at hl
    rw [← e4']
    exact hl
  cases hl'
  exact ⟨_, _, _, _, t4⟩

/-- A `monotonic_buffer_resource` on one byte, with a pool as upstream. -/
def monoOnPool : Service (Option (Option Base)) (Mono × State × Nat) :=
  monoOn true (simpleOn pDebug 2000 (baseService bumpHeap) .null) none

/-- "No other resource is built on it" cannot be dropped: a `monotonic_buffer_resource` never gives
back what it got from its upstream.  When everything was returned to it and nothing is held any more,
the destructor of the pool below still aborts. -/
theorem C84_counterexample :
    ((monoOnPool.run ((Mono.make 8000 1, fresh pDebug 4096 32, 9000), [])
        [.alloc none 10 1, .free 0]).bind fun w =>
      if w.2 = [] then monoOnPool.destroy (some none) w.1 else .ok ()) = .aborted := by
  decide +kernel

/-- With the pool used directly, the same calls leave it in a state in which it can be destroyed. -/
example :
    ((simpleOn pDebug 2000 (baseService bumpHeap) .null).run ((fresh pDebug 4096 32, 9000), [])
        [.alloc none 10 1, .free 0]).bind (fun w =>
      (simpleOn pDebug 2000 (baseService bumpHeap) .null).destroy none w.1) = .ok () := by
  decide +kernel

end Utils.Res
