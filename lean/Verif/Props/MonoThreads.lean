import Verif.Proofs.MonoThreads
import Verif.Props.Resources

/-! # Property C136: threads that share a monotonic_buffer_resource -/

namespace Utils.Props

open Utils Utils.Bits Utils.Res Utils.Spec

variable {debug : Bool} {buffer bytes : Nat} {programs : List (List (Nat × Nat))}

/-- Two threads, each with two requests. -/
def exPrograms : List (List (Nat × Nat)) := [[(4, 4), (1, 1)], [(16, 8), (8, 8)]]

theorem exPrograms_sane : ∀ p ∈ exPrograms, ∀ r ∈ p, SaneRequest r := by
  intro p hp r hr
  simp only [exPrograms, List.mem_cons, List.not_mem_nil, or_false] at hp
  rcases hp with rfl | rfl <;> simp only [List.mem_cons, List.not_mem_nil, or_false] at hr <;>
    rcases hr with rfl | rfl
  · exact ⟨by decide, ⟨2, rfl⟩, by decide⟩
  · exact ⟨by decide, ⟨0, rfl⟩, by decide⟩
  · exact ⟨by decide, ⟨3, rfl⟩, by decide⟩
  · exact ⟨by decide, ⟨3, rfl⟩, by decide⟩

/-! ## Whatever the schedule -/

/-- For any number of threads, any programs of sane requests and any schedule, however the calls overlap: no
assertion fails, and all that is handed out lies inside the buffer. -/
theorem C136_inside (hbuf : buffer + bytes ≤ 2 ^ 62) (hp : ∀ p ∈ programs, ∀ r ∈ p, SaneRequest r)
    (sched : List Nat) :
    ∃ w, sharedRun debug (sharedStart buffer bytes programs) sched = .ok w ∧
      ∀ g ∈ w.pieces, buffer ≤ g.ptr ∧ g.ptr + g.size ≤ buffer + bytes := by
  obtain ⟨w, h1, h2, h3, h4⟩ := sharedRun_within (debug := debug) (is := sched)
    (sharedStart_within hbuf hp)
  refine ⟨w, h1, fun g hg => ?_⟩
  have h5 := h2.pieces g hg
  have hne : g.ptr ≠ 0 := by
    have := (List.mem_filter.1 hg).2
    simpa using this
  rw [h3, h4] at h5
  simp only [sharedStart, Mono.make] at h5
  split at h5 <;> split at h5 <;> omega

example : ∃ w, sharedRun true (sharedStart 4096 64 exPrograms) [0, 1, 0, 1, 1, 0, 1, 1, 0, 1, 0, 0] = .ok w ∧
    ∀ g ∈ w.pieces, 4096 ≤ g.ptr ∧ g.ptr + g.size ≤ 4096 + 64 :=
  C136_inside (by decide) exPrograms_sane _

/-! ## With a mutex -/

/-- With a mutex around every call, every schedule does what the same calls do one after another, in the order
in which they return. -/
theorem C136_mutex_serial {sched : List Nat} {w : SharedMono}
    (h : lockedRun debug (sharedStart buffer bytes programs) sched = .ok w) :
    monoRun debug none ⟨Mono.make buffer bytes, (), []⟩ w.calls = .ok ⟨w.res, (), w.pieces⟩ :=
  lockedRun_serial (by simp [sharedStart, SharedMono.calls, SharedMono.pieces, monoRun]) sharedStart_current h

/-- The same without a mutex, for the schedules in which `next_` does not change while another thread is inside
the call. -/
theorem C136_serial_partial {sched : List Nat} {w : SharedMono}
    (h : sharedRun debug (sharedStart buffer bytes programs) sched = .ok w)
    (hq : Undisturbed debug (sharedStart buffer bytes programs) sched) :
    monoRun debug none ⟨Mono.make buffer bytes, (), []⟩ w.calls = .ok ⟨w.res, (), w.pieces⟩ :=
  sharedRun_serial (by simp [sharedStart, SharedMono.calls, SharedMono.pieces, monoRun]) sharedStart_current h hq

/-- What one call after another gives is sound. -/
theorem sound_of_serial {w : SharedMono} (hbuf : buffer + bytes ≤ 2 ^ 62) (hw : Within w)
    (hs : monoRun debug none ⟨Mono.make buffer bytes, (), []⟩ w.calls = .ok ⟨w.res, (), w.pieces⟩)
    (hl : ∀ x ∈ w.log, SaneRequest (x.2.size, x.2.align)) : SharedSound w := by
  obtain ⟨w', h1, h2⟩ := C38_safe_partial (debug := debug) (up := (none : Option (SR.Upstream Unit)))
    (buffer := buffer) (bytes := bytes) () (by omega) (by intro U hU; cases hU) w.calls (by
      intro op hop
      simp only [SharedMono.calls, List.mem_map, List.mem_reverse] at hop
      obtain ⟨x, hx, rfl⟩ := hop
      obtain ⟨a, b, c⟩ := hl x hx
      simp only at a b c
      exact ⟨a, b, by omega⟩)
  rw [hs] at h1
  cases h1
  have hin : ∀ g ∈ w.pieces, w.res.inBuffer g.ptr = true := by
    intro g hg
    have hb := hw.pieces g hg
    have := monoRun_positive hs nofun g hg
    rw [inBuffer_iff]
    omega
  have hall : fromBuffer (⟨w.res, (), w.pieces⟩ : MonoWorld Unit) = w.pieces := List.filter_eq_self.2 hin
  refine ⟨fun g hg => h2.aligned g (by rw [hall]; exact hg), hw.pieces, ?_⟩
  have := h2.ordered
  rw [hall] at this
  exact this.imp fun h => Or.inr h

/-- **C136 with a mutex** around every call: for any number of threads, any programs of sane requests and any
schedule, everything that any thread was given is aligned, inside the buffer, and apart from what all threads
were given. -/
theorem C136_mutex (hbuf : buffer + bytes ≤ 2 ^ 62) (hp : ∀ p ∈ programs, ∀ r ∈ p, SaneRequest r)
    (sched : List Nat) :
    ∃ w, lockedRun debug (sharedStart buffer bytes programs) sched = .ok w ∧ SharedSound w := by
  obtain ⟨w, h1, h2, h3, h4⟩ := lockedRun_within (debug := debug) (is := sched)
    (sharedStart_within hbuf hp)
  exact ⟨w, h1, sound_of_serial hbuf h2 (C136_mutex_serial h1)
    (lockedRun_calls h1 (sharedStart_within hbuf hp).todo (by simp [sharedStart]))⟩

example : ∃ w, lockedRun true (sharedStart 4096 64 exPrograms) [0, 1, 0, 1, 0, 1, 1, 1, 0, 1, 0, 0] = .ok w ∧
    SharedSound w :=
  C136_mutex (by decide) exPrograms_sane _

/-- In that run both threads get memory. -/
example : (lockedRun true (sharedStart 4096 64 exPrograms) [0, 1, 0, 1, 0, 1, 1, 1, 0, 1, 0, 0]).map (·.log) =
    .ok [(0, ⟨4120, 1, 1⟩), (1, ⟨4104, 16, 8⟩), (0, ⟨4096, 4, 4⟩)] := by
  decide +kernel

/-- **C136**, what holds without a mutex: the same for the schedules in which `next_` does not change while
another thread is inside the call.  Missing: all other schedules, for which it is false. -/
theorem C136_undisturbed_partial (hbuf : buffer + bytes ≤ 2 ^ 62)
    (hp : ∀ p ∈ programs, ∀ r ∈ p, SaneRequest r) {sched : List Nat}
    (hq : Undisturbed debug (sharedStart buffer bytes programs) sched) :
    ∃ w, sharedRun debug (sharedStart buffer bytes programs) sched = .ok w ∧ SharedSound w := by
  obtain ⟨w, h1, h2, h3, h4⟩ := sharedRun_within (debug := debug) (is := sched)
    (sharedStart_within hbuf hp)
  exact ⟨w, h1, sound_of_serial hbuf h2 (C136_serial_partial h1 hq)
    (sharedRun_calls h1 (sharedStart_within hbuf hp).todo (by simp [sharedStart]))⟩

/-- A schedule in which a refused call of thread 1 overlaps calls of thread 0 that are refused or not yet begun. -/
example : ∃ w, sharedRun true (sharedStart 4096 64 [[(4, 4), (99, 1)], [(100, 8), (8, 8)]])
    [0, 0, 0, 1, 0, 1, 0, 1, 0, 1, 1, 1] = .ok w ∧ SharedSound w :=
  C136_undisturbed_partial (by decide) (by
    intro p hp r hr
    simp only [List.mem_cons, List.not_mem_nil, or_false] at hp
    rcases hp with rfl | rfl <;> simp only [List.mem_cons, List.not_mem_nil, or_false] at hr <;>
      rcases hr with rfl | rfl
    · exact ⟨by decide, ⟨2, rfl⟩, by decide⟩
    · exact ⟨by decide, ⟨0, rfl⟩, by decide⟩
    · exact ⟨by decide, ⟨3, rfl⟩, by decide⟩
    · exact ⟨by decide, ⟨3, rfl⟩, by decide⟩) (undisturbed_of_quiet (by decide +kernel))

/-! ## The race -/

/-- For every two requests of the same alignment that each fit into the buffer there is a schedule in which both
are given the same address: both threads read `next_` before either writes it. -/
theorem C136_race {s1 s2 align r : Nat} (hb : buffer ≠ 0) (hbuf : buffer + bytes ≤ 2 ^ 62)
    (hp : IsPow2 align) (hlt : align < 2 ^ 64) (hs1 : 0 < s1) (hs2 : 0 < s2)
    (hr : LeastMultiple align buffer r) (f1 : r + s1 ≤ buffer + bytes) (f2 : r + s2 ≤ buffer + bytes) :
    ∃ w, sharedRun debug (sharedStart buffer bytes [[(s1, align)], [(s2, align)]]) [0, 1, 0, 1, 0, 1] = .ok w ∧
      w.log = [(1, ⟨r, s2, align⟩), (0, ⟨r, s1, align⟩)] := by
  have hle := hr.2.1
  have hbytes : bytes ≠ 0 := by omega
  have hm : Mono.make buffer bytes = ⟨buffer, bytes, buffer⟩ := by simp [Mono.make, hb, hbytes]
  have e : ∀ s, s ≠ 0 → callStep debug ⟨buffer, bytes, buffer⟩ s align .start =
      .ok (⟨buffer, bytes, buffer⟩, .inl (.skipped (r - buffer))) :=
    fun s hs => callStep_first hs hb hp hlt (by simp only; omega) hr (by omega)
  have hsup : (buffer + (r - buffer)) % 2 ^ 64 = r := by omega
  have g1 : (r + s1) % 2 ^ 64 ≤ (buffer + bytes) % 2 ^ 64 := by omega
  have g2 : (r + s2) % 2 ^ 64 ≤ (buffer + bytes) % 2 ^ 64 := by omega
  refine ⟨⟨⟨buffer, bytes, (r + s2) % 2 ^ 64⟩, [⟨[], .start⟩, ⟨[], .start⟩], _⟩, ?_, rfl⟩
  simp only [sharedRun, sharedStep, sharedStart, hm, List.map_cons, List.map_nil, List.getElem?_cons_zero,
    List.getElem?_cons_succ, List.set_cons_zero, List.set_cons_succ, Outcome.pure_eq, Outcome.ok_bind,
    e s1 (by omega), e s2 (by omega)]
  simp only [callStep, Outcome.pure_eq, Outcome.ok_bind, hsup, List.getElem?_cons_zero,
    List.getElem?_cons_succ, List.set_cons_zero, List.set_cons_succ]
  simp only [if_pos g1, if_pos g2, Outcome.ok_bind, List.getElem?_cons_zero,
    List.getElem?_cons_succ, List.set_cons_zero, List.set_cons_succ]

example : ∃ w, sharedRun true (sharedStart 4100 64 [[(16, 8)], [(24, 8)]]) [0, 1, 0, 1, 0, 1] = .ok w ∧
    w.log = [(1, ⟨4104, 24, 8⟩), (0, ⟨4104, 16, 8⟩)] :=
  C136_race (by decide) (by decide) ⟨3, rfl⟩ (by decide) (by decide) (by decide)
    ⟨by decide, by decide, fun s h1 h2 => by omega⟩ (by decide) (by decide)

/-- C136 is false without a mutex in two more ways.  An address can be misaligned, since `next_` is read twice:
thread 1 moves it by one byte between the two reads of thread 0, which asks for an alignment of 8.  And the damage
lasts: thread 0 sets `next_` back, and a later call of thread 1, which no other call overlaps, hands out bytes 4100 to
4107 although thread 1 itself holds 4096 to 4111. -/
theorem C136_counterexample :
    (sharedRun true (sharedStart 4096 64 [[(8, 8)], [(1, 1)]]) [0, 1, 1, 1, 0, 0]).map (·.log) =
      .ok [(0, ⟨4097, 8, 8⟩), (1, ⟨4096, 1, 1⟩)] ∧
    (sharedRun true (sharedStart 4096 64 [[(4, 1)], [(16, 1), (8, 1)]]) [0, 0, 1, 1, 1, 0, 1, 1, 1]).map (·.log) =
      .ok [(1, ⟨4100, 8, 1⟩), (0, ⟨4096, 4, 1⟩), (1, ⟨4096, 16, 1⟩)] := by
  constructor <;> decide +kernel

end Utils.Props
