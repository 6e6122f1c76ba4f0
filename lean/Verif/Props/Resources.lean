import Verif.Proofs.Resources
import Verif.Props.SimpleResource
import Verif.Spec.Resources

/-! # Properties C38-C44, C69, C70: the monotonic resource, the allocator, the default resource -/

namespace Utils.Props

open Utils Utils.Bits Utils.SR Utils.Res Utils.Spec

variable {σ : Type}

/-! ## C38 -/

/-- The buffer, the position in it and everything handed out, for the examples. -/
def monoView (r : Outcome (MonoWorld Unit)) : Outcome (Mono × List Grant) :=
  r.map fun w => (w.res, w.given)

/-- Every history of calls with power-of-two alignments, of which none wraps around (`Unwrapped`), runs
without undefined behaviour or failed assertion; what is served from the buffer is aligned, inside the
buffer, and every later piece lies behind all the earlier ones.  Missing from C38: calls that wrap
around; `C38_wrapped` says what they do. -/
theorem C38_unwrapped_partial {debug : Bool} {up : Option (Upstream σ)} {buffer bytes : Nat} (u : σ)
    (hbuf : buffer + bytes < 2 ^ 64) (hup : ApartFrom (Mono.make buffer bytes) up)
    (ops : List MonoOp)
    (hops : MonoAlong debug up Unwrapped ⟨Mono.make buffer bytes, u, []⟩ ops) :
    ∃ w, monoRun debug up ⟨Mono.make buffer bytes, u, []⟩ ops = .ok w ∧ MonoSound w := by
  obtain ⟨w, h1, h2, -, -⟩ := monoRun_ok (debug := debug) (make_inv u hbuf) hup hops
  exact ⟨w, h1, h2.sound⟩

/-- In particular: every history with sizes up to `PTRDIFF_MAX`, on a buffer in the lower half of the
address space. -/
theorem C38_safe_partial {debug : Bool} {up : Option (Upstream σ)} {buffer bytes : Nat} (u : σ)
    (hbuf : buffer + bytes ≤ 2 ^ 63) (hup : ApartFrom (Mono.make buffer bytes) up)
    (ops : List MonoOp) (hops : ∀ op ∈ ops, SaneCall op) :
    ∃ w, monoRun debug up ⟨Mono.make buffer bytes, u, []⟩ ops = .ok w ∧ MonoSound w := by
  have hinv := make_inv (σ := σ) u (show buffer + bytes < 2 ^ 64 by omega)
  refine C38_unwrapped_partial u (by omega) hup ops (sane_along hinv hup ?_ hops)
  simp only [Mono.make]
  split <;> split <;> omega

/-- Every other call is a violation: it is served although its end lies behind the end of the buffer,
and the position moves to an address before the one handed out. -/
theorem C38_wrapped {debug : Bool} {m : Mono} {size align r : Nat} (hd : m.data ≠ 0)
    (hn1 : m.data ≤ m.next) (hn2 : m.next ≤ m.data + m.size) (hend : m.data + m.size < 2 ^ 64)
    (hsz : size < 2 ^ 64) (hp : IsPow2 align) (hlt : align < 2 ^ 64)
    (hr : LeastMultiple align m.next r) (h : ¬ Unwrapped m (.alloc size align)) :
    ∃ next', m.allocateLocal debug size align = .ok ({ m with next := next' }, r % 2 ^ 64) ∧
      m.data + m.size < r + size ∧ next' < r := by
  have hw : ¬ (r + size < 2 ^ 64 ∨ m.data + m.size < (r + size) % 2 ^ 64) := by
    refine fun hc => h ⟨hsz, hp, hlt, fun r' hr' => ?_⟩
    rw [leastMultiple_unique hr' hr]
    exact hc
  have hr64 := round_le64 hp hlt (by omega) hr
  refine ⟨(r + size) % 2 ^ 64, ?_, by omega, by omega⟩
  rw [allocateLocal_all hd hp hlt (by omega) hend hr, if_pos (by omega)]

/-- A call of the first kind with a size above `PTRDIFF_MAX`, which is refused, and one of the
second. -/
example : Unwrapped (Mono.mk 4096 64 4144) (.alloc (2 ^ 63 + 5) 8) ∧
    ¬ Unwrapped (Mono.mk 4096 64 4144) (.alloc (2 ^ 64 - 16) 1) := by
  constructor
  · refine ⟨by decide, ⟨3, rfl⟩, by decide, fun r hr => ?_⟩
    rw [leastMultiple_unique hr (s := 4144) ⟨by decide, by decide, fun s _ h => h⟩]
    decide
  · intro h
    have := h.2.2.2 4144 ⟨by decide, by decide, fun s _ h => h⟩
    revert this
    decide

example : (∀ op ∈ [MonoOp.alloc 3 1, .alloc 8 8, .free 4096, .alloc 100 1, .alloc 4 4], SaneCall op) ∧
    monoView (monoRun true none ⟨Mono.make 4096 64, (), []⟩
      [.alloc 3 1, .alloc 8 8, .free 4096, .alloc 100 1, .alloc 4 4]) =
    .ok (⟨4096, 64, 4116⟩, [⟨4112, 4, 4⟩, ⟨4104, 8, 8⟩, ⟨4096, 3, 1⟩]) := by
  refine ⟨?_, by decide +kernel⟩
  intro op hop
  simp only [List.mem_cons, List.not_mem_nil, or_false] at hop
  rcases hop with rfl | rfl | rfl | rfl | rfl
  · exact ⟨by decide, ⟨0, rfl⟩, by decide⟩
  · exact ⟨by decide, ⟨3, rfl⟩, by decide⟩
  · exact True.intro
  · exact ⟨by decide, ⟨0, rfl⟩, by decide⟩
  · exact ⟨by decide, ⟨2, rfl⟩, by decide⟩

/-- Exactly which histories stay inside the buffer: without upstream, on a buffer in the lower half of the
address space, everything handed out lies in the buffer at all times iff no call wraps around. -/
theorem C38_iff {debug : Bool} {buffer bytes : Nat} (u : σ) (hbuf : buffer + bytes ≤ 2 ^ 63)
    (ops : List MonoOp)
    (hops : ∀ size align, MonoOp.alloc size align ∈ ops → size < 2 ^ 64 ∧ IsPow2 align ∧ align < 2 ^ 64) :
    (∀ n w, monoRun debug none ⟨Mono.make buffer bytes, u, []⟩ (ops.take n) = .ok w →
      ∀ g ∈ w.given, w.res.data ≤ g.ptr ∧ g.ptr + g.size ≤ w.res.data + w.res.size) ↔
    MonoAlong debug none Unwrapped ⟨Mono.make buffer bytes, u, []⟩ ops := by
  have hinv := make_inv (σ := σ) u (show buffer + bytes < 2 ^ 64 by omega)
  have hlow : (Mono.make buffer bytes).data + (Mono.make buffer bytes).size ≤ 2 ^ 63 := by
    simp only [Mono.make]
    split <;> split <;> omega
  exact monoInside_iff hinv hlow nofun hops

example : ¬ MonoAlong true none Unwrapped (⟨Mono.make 4096 64, (), []⟩ : MonoWorld Unit)
    [.alloc 32 1, .alloc (2 ^ 64 - 16) 1] := by
  rw [← C38_iff () (by decide)]
  · intro h
    have := h 2 ⟨⟨4096, 64, 4112⟩, (), [⟨4128, 2 ^ 64 - 16, 1⟩, ⟨4096, 32, 1⟩]⟩ rfl _ List.mem_cons_self
    revert this
    decide
  · intro size align h
    simp only [List.mem_cons, MonoOp.alloc.injEq, List.not_mem_nil, or_false] at h
    rcases h with ⟨rfl, rfl⟩ | ⟨rfl, rfl⟩ <;> exact ⟨by decide, ⟨0, rfl⟩, by decide⟩

/-- Without the size limit C38 is false: after 32 bytes, a request of `2^64 - 16` bytes is served and
moves the position back, and the next 16 bytes are handed out a second time. -/
theorem C38_counterexample :
    monoView (monoRun true none ⟨Mono.make 4096 64, (), []⟩
      [.alloc 32 1, .alloc (2 ^ 64 - 16) 1, .alloc 16 1]) =
    .ok (⟨4096, 64, 4128⟩, [⟨4112, 16, 1⟩, ⟨4128, 2 ^ 64 - 16, 1⟩, ⟨4096, 32, 1⟩]) := by
  decide +kernel

/-! ## C39 -/

/-- What the buffer part does, for every size: with `r` the next aligned address at or behind the
current position, the request is served at `r` exactly if `r + size`, computed modulo `2^64`, is not
behind the end. -/
theorem C39_exact {debug : Bool} {up : Option (Upstream σ)} {m : Mono} (u : σ) {size align r : Nat}
    (hd : m.data ≠ 0) (hs : size ≠ 0) (hp : IsPow2 align) (hlt : align < 2 ^ 64)
    (hn1 : m.data ≤ m.next) (hn2 : m.next ≤ m.data + m.size) (hend : m.data + m.size < 2 ^ 64)
    (hr : LeastMultiple align m.next r) (hr64 : r < 2 ^ 64) :
    m.allocate debug up u size align = .ok (
      if (r + size) % 2 ^ 64 ≤ m.data + m.size then (r, { m with next := (r + size) % 2 ^ 64 }, u)
      else match up with
        | some U => ((U.alloc u size align).1, m, (U.alloc u size align).2)
        | none => (0, m, u)) := by
  have h := allocateLocal_eq (debug := debug) (size := size) hd hp hlt (by omega) hend hr hr64
  have hr0 : r ≠ 0 := by have := hr.2.1; omega
  split at h
  · next hc => rw [mono_allocate hs hp hlt h, if_neg hr0, if_pos hc]
  · next hc => rw [mono_allocate hs hp hlt h, if_pos rfl, if_neg hc]; cases up <;> rfl

/-- For a request that does not wrap around: served from the buffer iff it fits in what is left;
otherwise it goes to upstream, or the result is null, and the buffer is unchanged. Missing from C39:
requests with `r + size ≥ 2^64`. -/
theorem C39_refuses_partial {debug : Bool} {up : Option (Upstream σ)} {m : Mono} (u : σ)
    {size align r : Nat} (hd : m.data ≠ 0) (hs : size ≠ 0) (hp : IsPow2 align) (hlt : align < 2 ^ 64)
    (hn1 : m.data ≤ m.next) (hn2 : m.next ≤ m.data + m.size) (hend : m.data + m.size < 2 ^ 64)
    (hr : LeastMultiple align m.next r) (hwrap : r + size < 2 ^ 64) :
    (r + size ≤ m.data + m.size →
      m.allocate debug up u size align = .ok (r, { m with next := r + size }, u)) ∧
    (m.data + m.size < r + size →
      m.allocate debug up u size align = .ok (
        match up with
        | some U => ((U.alloc u size align).1, m, (U.alloc u size align).2)
        | none => (0, m, u))) := by
  have h := C39_exact (debug := debug) (up := up) u hd hs hp hlt hn1 hn2 hend hr (by omega)
  rw [Nat.mod_eq_of_lt hwrap] at h
  refine ⟨fun hc => ?_, fun hc => ?_⟩
  · rw [h, if_pos hc]
  · rw [h, if_neg (by omega)]

example : LeastMultiple 8 4099 4104 ∧
    (Mono.mk 4096 64 4099).allocate true (none : Option (Upstream Unit)) () 56 8 =
      .ok (4104, ⟨4096, 64, 4160⟩, ()) ∧
    (Mono.mk 4096 64 4099).allocate true (none : Option (Upstream Unit)) () 57 8 =
      .ok (0, ⟨4096, 64, 4099⟩, ()) := by
  refine ⟨⟨by decide, by decide, fun x ⟨c, hc⟩ h => by omega⟩, by decide +kernel, by decide +kernel⟩

/-- A resource made without a buffer, or with a buffer of no bytes, serves nothing itself: every
request, however large, goes to upstream, and without one the result is null. -/
theorem C39_no_buffer {debug : Bool} {up : Option (Upstream σ)} {buffer bytes : Nat}
    (h0 : buffer = 0 ∨ bytes = 0) (u : σ) {size align : Nat} (hs : size ≠ 0) (hp : IsPow2 align)
    (hlt : align < 2 ^ 64) :
    (Mono.make buffer bytes).allocate debug up u size align = .ok (
      match up with
      | some U => ((U.alloc u size align).1, Mono.make buffer bytes, (U.alloc u size align).2)
      | none => (0, Mono.make buffer bytes, u)) := by
  have hd : (Mono.make buffer bytes).data = 0 := by
    show (if bytes ≠ 0 then buffer else 0) = 0
    split <;> omega
  have h : (Mono.make buffer bytes).allocateLocal debug size align =
      .ok (Mono.make buffer bytes, 0) := by
    unfold Mono.allocateLocal
    rw [if_neg (by rw [hd]; simp)]
    rfl
  rw [mono_allocate hs hp hlt h, if_pos rfl]
  cases up <;> rfl

example : (Mono.make 4096 0).allocate true (none : Option (Upstream Unit)) () (2 ^ 64 - 4096) 1 =
    .ok (0, Mono.make 4096 0, ()) := by decide +kernel

/-- A request of no bytes gets null, and nothing happens. -/
theorem C39_empty {debug : Bool} {up : Option (Upstream σ)} (m : Mono) (u : σ) (align : Nat) :
    m.allocate debug up u 0 align = .ok (0, m, u) := by
  unfold Mono.allocate
  rw [if_pos rfl]
  rfl

/-- C39 is false for requests that wrap around: 16 bytes are left, `2^64 - 16` are asked for. -/
theorem C39_counterexample :
    (Mono.mk 4096 64 4144).allocate true (none : Option (Upstream Unit)) () (2 ^ 64 - 16) 1 =
      .ok (4144, ⟨4096, 64, 4128⟩, ()) := by
  decide +kernel

/-! ## C40 -/

/-- After any history, `release` brings the resource back to the state after construction. -/
theorem C40_release {debug : Bool} {up : Option (Upstream σ)} {buffer bytes : Nat} {u : σ}
    {ops : List MonoOp} {w : MonoWorld σ}
    (h : monoRun debug up ⟨Mono.make buffer bytes, u, []⟩ ops = .ok w) :
    w.res.release = Mono.make buffer bytes := by
  obtain ⟨h1, h2⟩ := monoRun_fixed h
  obtain ⟨⟨d, s, n⟩, wu, g⟩ := w
  simp only at h1 h2
  subst h1 h2
  rfl

example : (Mono.mk 4096 64 4116).release = Mono.make 4096 64 := rfl

/-- `deallocate` has no effect: a history gives the same with all calls of it left out. -/
theorem C40_free {debug : Bool} {up : Option (Upstream σ)} (w : MonoWorld σ) (ops : List MonoOp) :
    monoRun debug up w (ops.filter fun op => match op with | .free _ => false | _ => true) =
      monoRun debug up w ops :=
  monoRun_filter w

example : [MonoOp.alloc 3 1, .free 4096, .alloc 3 1].filter
    (fun op => match op with | .free _ => false | _ => true) = [.alloc 3 1, .alloc 3 1] := rfl

/-- Nothing is ever given back to upstream: every history is the same for an upstream with any other
`deallocate`. -/
theorem C40_upstream {debug : Bool} (alloc : σ → Nat → Nat → Nat × σ) (d d' : σ → Nat → σ)
    (ops : List MonoOp) (w : MonoWorld σ) :
    monoRun debug (some ⟨alloc, d⟩) w ops = monoRun debug (some ⟨alloc, d'⟩) w ops := by
  induction ops generalizing w with
  | nil => rfl
  | cons op ops ih =>
    have hstep : monoStep debug (some ⟨alloc, d⟩) w op = monoStep debug (some ⟨alloc, d'⟩) w op := by
      cases op <;> rfl
    show (monoStep debug (some ⟨alloc, d⟩) w op >>= fun w => monoRun debug (some ⟨alloc, d⟩) w ops) =
      (monoStep debug (some ⟨alloc, d'⟩) w op >>= fun w => monoRun debug (some ⟨alloc, d'⟩) w ops)
    rw [hstep]
    congr 1
    funext w'
    exact ih w'

/-- An upstream that counts its calls. -/
def countingUp : Upstream (Nat × Nat) where
  alloc := fun s _ _ => (65536, s.1 + 1, s.2)
  dealloc := fun s _ => (s.1, s.2 + 1)

example : (monoRun true (some countingUp) ⟨Mono.make 4096 8, (0, 0), []⟩
    [.alloc 16 1, .free 65536, .release, .alloc 16 1]).map (·.up) = .ok (2, 0) := by
  decide +kernel

/-- All that upstream sees of a history are some of its `allocate` calls, in their order, with their
own sizes and alignments. -/
theorem C40_asks {debug : Bool} {U : Upstream σ} {ops : List MonoOp} : ∀ {w w' : MonoWorld σ},
    monoRun debug (some U) w ops = .ok w' →
    ∃ asked, asked.Sublist (requests ops) ∧ w'.up = afterAsking U w.up asked := by
  induction ops with
  | nil => intro w w' h; cases h; exact ⟨[], List.Sublist.slnil, rfl⟩
  | cons op ops ih =>
    intro w w' h
    obtain ⟨w1, h1, h2⟩ := Outcome.bind_eq_ok.1 h
    obtain ⟨asked, ha, he⟩ := ih h2
    cases op with
    | free ptr => cases h1; exact ⟨asked, ha, he⟩
    | release => cases h1; exact ⟨asked, ha, he⟩
    | alloc size align =>
      obtain ⟨⟨ptr, m, u⟩, h3, h4⟩ := Outcome.bind_eq_ok.1 h1
      cases h4
      have hu : u = w.up ∨ u = (U.alloc w.up size align).2 := by
        unfold Mono.allocate at h3
        split at h3
        · cases h3; exact .inl rfl
        · obtain ⟨-, -, h3⟩ := Outcome.bind_eq_ok.1 h3
          obtain ⟨⟨m1, p1⟩, -, h3⟩ := Outcome.bind_eq_ok.1 h3
          simp only at h3
          split at h3
          · cases h3; exact .inr rfl
          · cases h3; exact .inl rfl
      rcases hu with rfl | rfl
      · exact ⟨asked, ha.cons _, he⟩
      · exact ⟨(size, align) :: asked, ha.cons_cons _, he⟩

example : requests [.alloc 16 1, .free 65536, .release, .alloc 4 2] = [(16, 1), (4, 2)] ∧
    (monoRun true (some countingUp) ⟨Mono.make 4096 8, (0, 0), []⟩
      [.alloc 16 1, .free 65536, .release, .alloc 4 2]).map (·.up) =
      .ok (afterAsking countingUp (0, 0) [(16, 1)]) := by
  constructor
  · rfl
  · decide +kernel

/-! ## C41 -/

/-- `aligned_malloc` gives null or an address with the alignment asked for (and at least that of a
pointer), for every power of two. -/
theorem C41_aligned {h : Heap σ} (hh : HeapOK h) (s : σ) (size : Nat) {align : Nat}
    (hp : IsPow2 align) :
    align ∣ (alignedMalloc h s size align).1 ∧ 8 ∣ (alignedMalloc h s size align).1 := by
  have key : (if align ≥ 8 then align else 8) ∣ (alignedMalloc h s size align).1 := by
    unfold alignedMalloc
    simp only
    generalize (if align ≥ 8 then align else 8) = a
    have ha := hh.aligned s a size
    split
    · next r s' e => exact ha r (by rw [e])
    · exact Nat.dvd_zero _
  obtain ⟨k, rfl⟩ := hp
  split at key
  · next hge =>
    have hk : 3 ≤ k := by
      rcases Nat.lt_or_ge k 3 with hk | hk
      · have : 2 ^ k < 2 ^ 3 := Nat.pow_lt_pow_right (by decide) hk
        omega
      · exact hk
    exact ⟨key, Nat.dvd_trans (Nat.pow_dvd_pow 2 hk) key⟩
  · next hge =>
    have hk : k ≤ 3 := by
      rcases Nat.lt_or_ge 3 k with hk | hk
      · have : 2 ^ 3 < 2 ^ k := Nat.pow_lt_pow_right (by decide) hk
        omega
      · exact hk
    exact ⟨Nat.dvd_trans (Nat.pow_dvd_pow 2 hk) key, key⟩

/-- A heap for the examples: the state is the next free address, alignments are rounded up to. -/
def bumpHeap : Heap Nat where
  posixMemalign := fun s align size =>
    if 2 ^ align.log2 = align ∧ 8 ∣ align then
      (some ((s + align - 1) / align * align), (s + align - 1) / align * align + size)
    else (none, s)
  free := fun s _ => s

example : HeapOK bumpHeap := by
  refine ⟨fun s align size h => ?_, fun s align size p h => ?_⟩
  · unfold bumpHeap
    simp only
    rw [if_neg]
    rintro ⟨h1, h2⟩
    exact h ⟨⟨_, h1.symm⟩, h2⟩
  · unfold bumpHeap at h
    simp only at h
    split at h
    · cases h; exact Nat.dvd_mul_left _ _
    · cases h

example : (alignedMalloc bumpHeap 100 10 1).1 = 104 ∧ (alignedMalloc bumpHeap 100 10 64).1 = 128 := by
  decide

/-- `aligned_malloc` never asks for an alignment below that of a pointer: two heaps that agree on
the larger alignments cannot be told apart. -/
theorem C41_forwards {h h' : Heap σ}
    (hh : ∀ s align size, 8 ≤ align → h.posixMemalign s align size = h'.posixMemalign s align size)
    (s : σ) (size align : Nat) : alignedMalloc h s size align = alignedMalloc h' s size align := by
  unfold alignedMalloc
  simp only
  rw [hh]
  split <;> omega

/-- A request with an alignment from 8 on that is no power of two gets null. -/
theorem C41_rejects {h : Heap σ} (hh : HeapOK h) (s : σ) (size : Nat) {align : Nat}
    (hge : 8 ≤ align) (hp : ¬ IsPow2 align) : (alignedMalloc h s size align).1 = 0 := by
  unfold alignedMalloc
  simp only
  rw [if_pos hge]
  have := hh.einval s align size (fun hc => hp hc.1)
  split
  · next e => rw [e] at this; cases this
  · rfl

example : (alignedMalloc bumpHeap 100 10 24).1 = 0 := by decide

/-- Nothing leaks and nothing is freed twice: for every history of the system resource's calls, with
every heap, what is allocated on the heap is what the client holds. -/
theorem C41_no_leak {h : Heap σ} {live : σ → List Nat} (hb : HeapBook h live) (ops : List RawOp) :
    ∀ (s : σ), live (rawRun (systemResource h) (s, live s) ops).1 =
      (rawRun (systemResource h) (s, live s) ops).2 := by
  suffices H : ∀ (w : σ × List Nat), live w.1 = w.2 →
      live (rawRun (systemResource h) w ops).1 = (rawRun (systemResource h) w ops).2 from
    fun s => H (s, live s) rfl
  induction ops with
  | nil => exact fun w hw => hw
  | cons op ops ih =>
    intro w hw
    refine ih (rawStep (systemResource h) w op) ?_
    obtain ⟨s, l⟩ := w
    simp only at hw
    subst hw
    cases op with
    | alloc size align =>
      show live (alignedMalloc h s size align).2 =
        if (alignedMalloc h s size align).1 = 0 then live s else (alignedMalloc h s size align).1 :: live s
      unfold alignedMalloc
      simp only
      generalize (if align ≥ 8 then align else 8) = a
      have ha := hb.alloc s a size
      rcases e : h.posixMemalign s a size with ⟨_ | p, s'⟩
      · rw [e] at ha; exact ha
      · rw [e] at ha; exact ha
    | free i =>
      unfold rawStep
      simp only
      split
      · rfl
      · exact hb.free s _

/-- A heap for the example: the state is the list of live blocks; blocks of 64 bytes behind the first
one. -/
def bookHeap : Heap (List Nat) where
  posixMemalign := fun s align _ =>
    if align ∣ 64 then (some (4096 + 64 * s.length), (4096 + 64 * s.length) :: s) else (none, s)
  free := fun s p => s.erase p

example : HeapBook bookHeap id ∧
    rawRun (systemResource bookHeap) ([], []) [.alloc 8 8, .alloc 1 1, .alloc 4 128, .free 1] =
      ([4160], [4160]) := by
  refine ⟨⟨fun s align size => ?_, fun s p => rfl⟩, by decide⟩
  unfold bookHeap
  simp only [id]
  by_cases h : align ∣ 64
  · simp only [if_pos h]
    rw [if_neg (by omega)]
  · simp only [if_neg h]

/-- The null resource has no memory, and takes nothing. -/
theorem C41_null (size align ptr : Nat) :
    (nullResource.alloc () size align).1 = 0 ∧ nullResource.dealloc () ptr = () := ⟨rfl, rfl⟩

/-! ## C42 -/

/-- For every schedule of any number of threads: every call returns the value that was set last before
it (or the initial one). -/
theorem C42_register (init : Nat) (ts : List Thread) (sched : List Nat) {k i ret : Nat} {op : RegOp}
    (h : (callLog init ts sched)[k]? = some (i, op, ret)) :
    ret = lastSet init ((callLog init ts sched).take k) :=
  callLog_returns sched init ts k i op ret h

/-- The value in the end is the one set last, and the calls and results of each thread are those of
the log. -/
theorem C42_log (init : Nat) (ts : List Thread) (sched : List Nat) :
    (runThreads init ts sched).1 = lastSet init (callLog init ts sched) ∧
    ∀ j t, ts[j]? = some t → ∃ t', (runThreads init ts sched).2[j]? = some t' ∧
      t'.done = t.done ++ ((callLog init ts sched).filter (·.1 == j)).map (·.2) :=
  ⟨runThreads_lastSet sched init ts, runThreads_done sched init ts⟩

/-- Each thread makes its calls in its own order. -/
theorem C42_program_order (init : Nat) (ts : List Thread) (sched : List Nat) :
    (runThreads init ts sched).2.map (fun t => t.done.map Prod.fst ++ t.todo) =
      ts.map fun t => t.done.map Prod.fst ++ t.todo :=
  runThreads_program sched init ts

/-- No resource is lost or duplicated: when all threads are through, the values returned by the sets
together with the final value are the values set together with the initial one. -/
theorem C42_conserved (init : Nat) (progs : List (List RegOp)) (sched : List Nat)
    (hdone : ∀ t ∈ (runThreads init (progs.map fun p => ⟨p, []⟩) sched).2, t.todo = []) :
    (((runThreads init (progs.map fun p => ⟨p, []⟩) sched).2.map fun t => setReturns t.done).flatten ++
      [(runThreads init (progs.map fun p => ⟨p, []⟩) sched).1]).Perm
      (init :: (progs.map setValues).flatten) := by
  have h := runThreads_perm sched init (progs.map fun p => (⟨p, []⟩ : Thread))
  generalize runThreads init (progs.map fun p => (⟨p, []⟩ : Thread)) sched = r at h hdone
  have h1 : pending r.2 = [] := by
    unfold pending
    rw [List.flatten_eq_nil_iff]
    intro l hl
    obtain ⟨t, ht, rfl⟩ := List.mem_map.1 hl
    rw [hdone t ht]
    rfl
  have h2 : returned (progs.map fun p => (⟨p, []⟩ : Thread)) = [] := by
    unfold returned
    rw [List.flatten_eq_nil_iff]
    intro l hl
    obtain ⟨t, ht, rfl⟩ := List.mem_map.1 hl
    obtain ⟨p, -, rfl⟩ := List.mem_map.1 ht
    rfl
  have h3 : pending (progs.map fun p => (⟨p, []⟩ : Thread)) = (progs.map setValues).flatten := by
    unfold pending
    rw [List.map_map]
    rfl
  rw [h1, h2, h3] at h
  exact h

example : runThreads 7 ([[.set 1, .get], [.set 2]].map fun p => ⟨p, []⟩) [0, 1, 0] =
      (2, [⟨[], [(.set 1, 7), (.get, 2)]⟩, ⟨[], [(.set 2, 1)]⟩]) ∧
    callLog 7 ([[.set 1, .get], [.set 2]].map fun p => ⟨p, []⟩) [0, 1, 0] =
      [(0, .set 1, 7), (1, .set 2, 1), (0, .get, 2)] := by
  decide

/-! ## C43 -/

/-- On a resource that keeps its word, a non-null result of `allocate(count)` is aligned and has room
for `count` objects, as long as their total size is below `2^64`. Missing from C43: larger counts. -/
theorem C43_room_partial {R : Upstream σ} {room : σ → Nat → Nat} (hR : Delivers R room) (s : σ)
    {sizeOf alignOf count : Nat} (hsize : count * sizeOf < 2 ^ 64)
    (h : (allocateObjects R s sizeOf alignOf count).1 ≠ 0) :
    alignOf ∣ (allocateObjects R s sizeOf alignOf count).1 ∧
    count * sizeOf ≤ room (allocateObjects R s sizeOf alignOf count).2
      (allocateObjects R s sizeOf alignOf count).1 := by
  unfold allocateObjects at h ⊢
  rw [Nat.mod_eq_of_lt hsize] at h ⊢
  exact hR s _ alignOf h

/-- A resource for the examples: it always hands out address 4096, with just as much room as asked
for. -/
def exactRes : Upstream Nat where
  alloc := fun _ bytes align => if align ∣ 4096 then (4096, bytes) else (0, 0)
  dealloc := fun s _ => s

theorem exactRes_delivers : Delivers exactRes fun s _ => s := by
  intro s bytes align h
  unfold exactRes at h ⊢
  simp only at h ⊢
  split at h
  · next hd => rw [if_pos hd]; exact ⟨hd, Nat.le_refl _⟩
  · exact absurd rfl h

example : Delivers exactRes (fun s _ => s) ∧ (allocateObjects exactRes 0 24 8 10) = (4096, 240) :=
  ⟨exactRes_delivers, by decide⟩

/-- Without the limit C43 is false: the product wraps around and `2^60 + 1` objects of 16 bytes get
16 bytes. -/
theorem C43_counterexample : Delivers exactRes (fun s _ => s) ∧
    allocateObjects exactRes 0 16 16 (2 ^ 60 + 1) = (4096, 16) :=
  ⟨exactRes_delivers, by decide⟩

/-- `allocator` on the system resource: what is not null is aligned for the type. -/
theorem C43_system {h : Heap σ} (hh : HeapOK h) (s : σ) (sizeOf count : Nat) {alignOf : Nat}
    (hp : IsPow2 alignOf) :
    alignOf ∣ (allocateObjects (systemResource h) s sizeOf alignOf count).1 :=
  (C41_aligned hh s _ hp).1

/-! ## C44 -/

/-- For every history of `new_object` and `delete_object` on any resource: what happens is a sequence
of failed allocations, allocations each followed at once by one construction at that address, and
destructions each followed at once by the deallocation; and the objects constructed are those
destroyed together with the live ones. -/
theorem C44_pairing (R : Upstream σ) (s : σ) (ops : List ObjOp) :
    (∃ bs : List (List Event), (objRun R ⟨s, [], []⟩ ops).log = bs.flatten ∧ ∀ b ∈ bs, Block b) ∧
    (constructed (objRun R ⟨s, [], []⟩ ops).log).Perm
      (destroyed (objRun R ⟨s, [], []⟩ ops).log ++ (objRun R ⟨s, [], []⟩ ops).live) := by
  obtain ⟨⟨bs, h1, h2⟩, h3⟩ := objRun_blocks (R := R) ops ⟨s, [], []⟩ (by simp)
    (List.Perm.refl _)
  exact ⟨⟨bs, by rw [h1]; rfl, h2⟩, h3⟩

/-- A resource for the examples: consecutive addresses below 4112. -/
def bumpRes : Upstream Nat where
  alloc := fun s bytes _ => if s + bytes ≤ 4112 then (s, s + bytes) else (0, s)
  dealloc := fun s _ => s

example : (objRun bumpRes ⟨4096, [], []⟩ [.new 8 8, .new 8 8, .new 8 8, .delete 1, .deleteNull]).log =
    [.allocate 8 8 4096, .construct 4096, .allocate 8 8 4104, .construct 4104, .allocate 8 8 0,
      .destroy 4096, .deallocate 4096] ∧
    (objRun bumpRes ⟨4096, [], []⟩ [.new 8 8, .new 8 8, .new 8 8, .delete 1, .deleteNull]).live =
      [4104] := by
  decide

/-- The resource sees exactly the calls in the log, in that order, and every address in the log is the
one it gave. -/
theorem C44_resource (R : Upstream σ) (s : σ) (ops : List ObjOp) :
    replay R s (objRun R ⟨s, [], []⟩ ops).log = some (objRun R ⟨s, [], []⟩ ops).res :=
  objRun_replay ops ⟨s, [], []⟩ rfl

/-- Exactly one allocation of the object's own size and alignment per `new_object`, and one
construction iff it succeeded. -/
theorem C44_new (R : Upstream σ) (s : σ) {sizeOf : Nat} (alignOf : Nat) (h : sizeOf < 2 ^ 64) :
    newObject R s sizeOf alignOf =
      ((R.alloc s sizeOf alignOf).1, (R.alloc s sizeOf alignOf).2,
        .allocate sizeOf alignOf (R.alloc s sizeOf alignOf).1 ::
          if (R.alloc s sizeOf alignOf).1 = 0 then [] else [.construct (R.alloc s sizeOf alignOf).1]) := by
  unfold newObject allocateObjects
  simp only [Nat.one_mul, Nat.mod_eq_of_lt h]
  by_cases h0 : (R.alloc s sizeOf alignOf).1 = 0
  · rw [if_neg (by simpa using h0), if_pos h0]
  · rw [if_pos h0, if_neg h0]; rfl

/-- Allocators are equal iff they use the same resource. -/
theorem C44_equal {lhs rhs : Nat} (h1 : lhs ≠ 0) (h2 : rhs ≠ 0) :
    ∃ b, allocatorEq lhs rhs = .ok b ∧ (b = true ↔ lhs = rhs) := by
  unfold allocatorEq
  rw [if_neg (by simp [h1, h2])]
  exact ⟨_, rfl, by simp⟩

example : allocatorEq 4096 4096 = .ok true ∧ allocatorEq 4096 8192 = .ok false := by decide

/-! ## C69 -/

/-- `new_object<U>(arg)` on an `allocator<T>` passes the value of an integer argument on unchanged
exactly if `T` is its type or can represent it. Missing from C69: the arguments for which it does
not. -/
theorem C69_value_partial (T : CTy) (arg : CVal) :
    (forwardedArg T arg).val = arg.val ↔ arg.ty = T ∨ T.InRange arg.val := by
  unfold forwardedArg
  by_cases h : arg.ty = T
  · simp [h]
  · simp only [h, if_false, false_or]
    refine ⟨fun e => ?_, fun hr => Utils.CTy.conv_eq_self hr⟩
    rw [← e]
    exact Utils.CTy.conv_inRange T arg.val

example : CTy.uchar.InRange 200 ∧ (forwardedArg .uchar ⟨.int, 200⟩).val = 200 := by decide

/-- C69 is false: `allocator<unsigned char>().new_object<int>(300)` makes an `int` 44. -/
theorem C69_counterexample_value : (forwardedArg .uchar ⟨.int, 300⟩).val = 44 := by decide

/-- A type like `std::string` or `std::vector`: moving leaves the source empty. -/
def stringLike : Arrays.Elem (List Char) where
  copy := id
  move := fun v => (v, [])

/-- And an lvalue argument of type `T` is moved from. -/
theorem C69_counterexample_lvalue :
    constructFromLvalue stringLike ['a', 'b'] = (['a', 'b'], []) := rfl

/-! ## C70 -/

/-- The system resource hands out only multiples of 8, whatever alignment is asked for. -/
theorem C70_system_alignment {h : Heap σ} (hh : HeapOK h) (s : σ) (size align : Nat) :
    8 ∣ ((systemResource h).alloc s size align).1 := by
  by_cases hp : IsPow2 align
  · exact (C41_aligned hh s size hp).2
  · show 8 ∣ (alignedMalloc h s size align).1
    by_cases hge : 8 ≤ align
    · rw [C41_rejects hh s size hge hp]; exact Nat.dvd_zero 8
    · have : alignedMalloc h s size align = alignedMalloc h s size 8 := by
        unfold alignedMalloc
        simp only [hge, ge_iff_le, if_false, Nat.le_refl, if_true]
      rw [this]
      exact (C41_aligned hh s size ⟨3, rfl⟩).2

/-- A `simple_resource` with blocks of at most `sizeof(void*)` on top of the system resource: after
every history of safely scanned calls everything the client holds can be given back. Missing from
C70: larger blocks, for which it is false, and unsafe scans. -/
theorem C70_returnable_partial {p : Params} {st : State} (hv : Valid p) {buffer bytes : Nat}
    (hf : Fresh p buffer bytes st) (hb : p.blockSize ∣ 8) {h : Heap σ} (hh : HeapOK h)
    (hheap : ∀ s align size q, (h.posixMemalign s align size).1 = some q →
      q < 2 ^ 64 ∧ inArea p st q = false)
    (u : σ) {fuel : Nat} (hfuel : st.blockCount ≤ fuel) {ops : List Op}
    (hops : Along p (some (systemResource h)) fuel (SafeOp p) ⟨st, u, []⟩ ops) :
    ∃ w', run p (some (systemResource h)) fuel ⟨st, u, []⟩ ops = .ok w' ∧
      ∀ x ∈ w'.live, ∃ r, deallocate p (some (systemResource h)) w'.st w'.up x.1 = .ok r := by
  refine C58_returnable_partial hv hf ?_ u hfuel hops
  rintro U hU u size align
  cases hU
  have h8 := C70_system_alignment hh u size align
  have : ((systemResource h).alloc u size align).1 < 2 ^ 64 ∧
      inArea p st ((systemResource h).alloc u size align).1 = false := by
    show (alignedMalloc h u size align).1 < 2 ^ 64 ∧ inArea p st (alignedMalloc h u size align).1 = false
    unfold alignedMalloc
    simp only
    generalize (if align ≥ 8 then align else 8) = a
    have ha := hheap u a size
    split
    · next r s' e => exact ha r (by rw [e])
    · refine ⟨by show 0 < 2 ^ 64; decide, ?_⟩
      unfold inArea
      rw [decide_eq_false (p := st.data ≤ 0) (by have := hf.area; omega), Bool.false_and]
  exact ⟨this.1, Nat.dvd_trans hb h8, this.2⟩

/-- With blocks of 64 bytes it is false: the system resource answers a request for alignment 8 with a
multiple of 8 only, and giving that pointer back aborts. -/
theorem C70_counterexample :
    (run ⟨32, 64, false⟩ (some (systemResource bumpHeap)) 1000
      (⟨fresh ⟨32, 64, false⟩ 4096 4, 100000, []⟩ : World Nat) [.alloc 300 8]).map World.live =
      .ok [(100000, 300)] ∧
    (run ⟨32, 64, false⟩ (some (systemResource bumpHeap)) 1000
      (⟨fresh ⟨32, 64, false⟩ 4096 4, 100000, []⟩ : World Nat) [.alloc 300 8, .free 0]).map
        World.live = .aborted := by
  constructor <;> decide +kernel

end Utils.Props
