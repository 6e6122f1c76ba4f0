import Verif.Spec.Program
import Verif.Props.Compose

/-! # Programs that use allocators (C85) -/

namespace Utils.Res

open Utils.SR Utils.Spec Utils.Props

variable {ι σ τ : Type}

/-- Two allocators compare equal only if they use the same resource. -/
theorem same_resource {addr : ι → Nat} (hinj : Function.Injective addr) {i j : ι}
    (h : allocatorEq (addr i) (addr j) = .ok true) : i = j := by
  unfold allocatorEq at h
  split at h
  · cases h
  · exact hinj (by simpa using Outcome.ok.inj h)

theorem map_eraseIdx {α β : Type} (f : α → β) (l : List α) (k : Nat) :
    (l.map f).eraseIdx k = (l.eraseIdx k).map f := by
  induction l generalizing k with
  | nil => rfl
  | cons a l ih =>
    cases k with
    | zero => rfl
    | succ k => simp only [List.map_cons, List.eraseIdx_cons_succ, ih]

/-- What a program relies on, in every state. -/
structure ProgramSound (w : Program ι σ) : Prop where
  held : HeldSound (w.live.map Prod.fst)
  owner : ∀ x ∈ w.live, w.allocs[x.2]? = some x.1.face

section
variable {h : Heap τ} {I : τ → List (Nat × Nat) → Prop} {R : Service ι σ}
  {Ask : ι → σ → Nat → Nat → Prop} {grain : ι → Nat} {can : ι → Prop} {addr : ι → Nat}

theorem program_step (hh : HeapKeeps h I) (hinj : Function.Injective addr) {w : Program ι σ}
    (t : Tower h I R Ask grain can w.st (w.live.map Prod.fst))
    (ho : ∀ x ∈ w.live, w.allocs[x.2]? = some x.1.face) {op : AllocOp ι}
    (hr : Respects addr Ask w op) :
    ∃ w', Program.step R w op = .ok w' ∧
      Tower h I R Ask grain can w'.st (w'.live.map Prod.fst) ∧
      (∀ x ∈ w'.live, w'.allocs[x.2]? = some x.1.face) ∧
      ∃ new, w'.allocs = w.allocs ++ new := by
  have grow : ∀ (i : ι), ∀ x ∈ w.live, (w.allocs ++ [i])[x.2]? = some x.1.face := by
    intro i x hx
    have := ho x hx
    rw [List.getElem?_append_left]
    · exact this
    · exact (List.getElem?_eq_some_iff.1 this).1
  cases op with
  | setDefault i => exact ⟨_, rfl, t, ho, [], by simp⟩
  | make => exact ⟨_, rfl, t, grow _, _, rfl⟩
  | makeOn i => exact ⟨_, rfl, t, grow _, _, rfl⟩
  | copy a =>
    have e := List.getElem?_eq_getElem hr
    unfold Program.step
    simp only [e]
    exact ⟨_, rfl, t, grow _, _, rfl⟩
  | allocate a sizeOf alignOf count =>
    obtain ⟨i, e, hlt, hask⟩ := hr
    unfold Program.step
    simp only [e, Nat.mod_eq_of_lt hlt]
    obtain ⟨s', live', hs, t'⟩ := C83_returns hh t (op := .alloc i (count * sizeOf) alignOf) hask
    obtain ⟨⟨ptr, s1⟩, h1, h2⟩ := Outcome.bind_eq_ok.1
      (show (R.alloc i w.st (count * sizeOf) alignOf >>= _) = .ok (s', live') from hs)
    cases Outcome.ok.inj h2
    rw [h1]
    refine ⟨_, rfl, ?_, ?_, [], by simp⟩
    · simp only
      by_cases h0 : ptr = 0
      · rw [if_pos h0] at t' ⊢; exact t'
      · rw [if_neg h0] at t' ⊢; exact t'
    · simp only
      intro x hx
      split at hx
      · exact ho x hx
      · rcases List.mem_cons.1 hx with rfl | hx
        · exact e
        · exact ho x hx
  | deallocate a k =>
    obtain ⟨i, g, b, j, e1, e2, e3, e4⟩ := hr
    have hij := same_resource hinj e4
    have hg := ho _ (List.mem_of_getElem? e2)
    simp only at hg
    rw [e3] at hg
    cases hg
    unfold Program.step
    simp only [e1, e2]
    have e5 : (w.live.map Prod.fst)[k]? = some g := by rw [List.getElem?_map, e2]; rfl
    obtain ⟨s', live', hs, t'⟩ := C83_returns hh t (op := .free k) trivial
    unfold Service.step at hs
    simp only [e5] at hs
    obtain ⟨s1, h1, h2⟩ := Outcome.bind_eq_ok.1 hs
    cases Outcome.ok.inj h2
    rw [hij, h1]
    refine ⟨_, rfl, ?_, fun x hx => ho x (List.mem_of_mem_eraseIdx hx), [], by simp⟩
    simp only
    rw [← map_eraseIdx]
    exact t'

/-! ## C85 -/

/-- A program that uses allocators on the resources of any tower, and gives back what it got through
equal allocators, never goes wrong: all calls return, what it holds stays aligned, disjoint and owned
by the resource of the allocator it came from, whatever happens to the default resource meanwhile. -/
theorem C85_program (hh : HeapKeeps h I) (hinj : Function.Injective addr) {w : Program ι σ}
    (t : Tower h I R Ask grain can w.st (w.live.map Prod.fst))
    (ho : ∀ x ∈ w.live, w.allocs[x.2]? = some x.1.face) {ops : List (AllocOp ι)}
    (hr : RespectsAll R addr Ask w ops) :
    ∃ w', Program.run R w ops = .ok w' ∧ ProgramSound w' ∧
      Tower h I R Ask grain can w'.st (w'.live.map Prod.fst) := by
  induction ops generalizing w with
  | nil => exact ⟨w, rfl, ⟨C83_sound hh t, ho⟩, t⟩
  | cons op ops ih =>
    obtain ⟨w1, e1, t1, o1, -⟩ := program_step hh hinj t ho hr.1
    obtain ⟨w2, e2, s2, t2⟩ := ih t1 o1 (hr.2 w1 e1)
    exact ⟨w2, by show (Program.step R w op >>= _) = _; rw [e1]; exact e2, s2, t2⟩

/-- An allocator keeps the resource it was made with, for ever and whatever the program does. -/
theorem C85_allocators_fixed {w w' : Program ι σ} {ops : List (AllocOp ι)}
    (hrun : Program.run R w ops = .ok w') {a : Nat} {i : ι} (ha : w.allocs[a]? = some i) :
    w'.allocs[a]? = some i := by
  induction ops generalizing w with
  | nil => cases hrun; exact ha
  | cons op ops ih =>
    obtain ⟨w1, e1, e2⟩ := Outcome.bind_eq_ok.1 (show (Program.step R w op >>= _) = _ from hrun)
    refine ih e2 ?_
    have hlt := (List.getElem?_eq_some_iff.1 ha).1
    cases op with
    | setDefault i => cases e1; exact ha
    | make => cases e1; simp only; rw [List.getElem?_append_left hlt]; exact ha
    | makeOn i => cases e1; simp only; rw [List.getElem?_append_left hlt]; exact ha
    | copy b =>
      simp only [Program.step] at e1
      split at e1
      · cases e1
      · cases e1; simp only; rw [List.getElem?_append_left hlt]; exact ha
    | allocate b x y z =>
      simp only [Program.step] at e1
      split at e1
      · cases e1
      · obtain ⟨r, -, h2⟩ := Outcome.bind_eq_ok.1 e1
        cases Outcome.ok.inj h2
        exact ha
    | deallocate b k =>
      simp only [Program.step] at e1
      split at e1
      · obtain ⟨r, -, h2⟩ := Outcome.bind_eq_ok.1 e1
        cases Outcome.ok.inj h2
        exact ha
      · cases e1

/-- The default resource after a history is the one set last, and an allocator made without argument
uses it. -/
theorem C85_default {w w' : Program ι σ} {ops : List (AllocOp ι)}
    (hrun : Program.run R w ops = .ok w') :
    w'.dflt = lastDefault w.dflt ops ∧
    Program.step R w' .make = .ok { w' with allocs := w'.allocs ++ [lastDefault w.dflt ops] } := by
  have key : w'.dflt = lastDefault w.dflt ops := by
    induction ops generalizing w with
    | nil => cases hrun; rfl
    | cons op ops ih =>
      obtain ⟨w1, e1, e2⟩ := Outcome.bind_eq_ok.1 (show (Program.step R w op >>= _) = _ from hrun)
      rw [ih e2]
      cases op with
      | setDefault i => cases e1; rfl
      | make => cases e1; rfl
      | makeOn i => cases e1; rfl
      | copy b =>
        simp only [Program.step] at e1
        split at e1
        · cases e1
        · cases e1; rfl
      | allocate b x y z =>
        simp only [Program.step] at e1
        split at e1
        · cases e1
        · obtain ⟨r, -, h2⟩ := Outcome.bind_eq_ok.1 e1
          cases Outcome.ok.inj h2
          rfl
      | deallocate b k =>
        simp only [Program.step] at e1
        split at e1
        · obtain ⟨r, -, h2⟩ := Outcome.bind_eq_ok.1 e1
          cases Outcome.ok.inj h2
          rfl
        · cases e1
  refine ⟨key, ?_⟩
  rw [← key]
  rfl

theorem run_append {w w' : Program ι σ} {pre post : List (AllocOp ι)}
    (hrun : Program.run R w (pre ++ post) = .ok w') :
    ∃ w1, Program.run R w pre = .ok w1 ∧ Program.run R w1 post = .ok w' := by
  induction pre generalizing w with
  | nil => exact ⟨w, rfl, hrun⟩
  | cons op pre ih =>
    obtain ⟨w1, e1, e2⟩ := Outcome.bind_eq_ok.1
      (show (Program.step R w op >>= fun w => Program.run R w (pre ++ post)) = _ from hrun)
    obtain ⟨w2, e3, e4⟩ := ih e2
    refine ⟨w2, ?_, e4⟩
    show (Program.step R w op >>= fun w => Program.run R w pre) = _
    rw [e1]
    exact e3

/-- The allocators are numbered in the order in which they are made. -/
theorem made_count {w w' : Program ι σ} {ops : List (AllocOp ι)}
    (hrun : Program.run R w ops = .ok w') :
    w'.allocs.length = w.allocs.length + ops.countP AllocOp.makes := by
  induction ops generalizing w with
  | nil => cases hrun; rfl
  | cons op ops ih =>
    obtain ⟨w1, e1, e2⟩ := Outcome.bind_eq_ok.1 (show (Program.step R w op >>= _) = _ from hrun)
    rw [ih e2]
    cases op with
    | setDefault i => cases e1; rfl
    | make => cases e1; simp [List.countP_cons, AllocOp.makes]; omega
    | makeOn i => cases e1; simp [List.countP_cons, AllocOp.makes]; omega
    | copy b =>
      simp only [Program.step] at e1
      split at e1
      · cases e1
      · cases e1; simp [List.countP_cons, AllocOp.makes]; omega
    | allocate b x y z =>
      simp only [Program.step] at e1
      split at e1
      · cases e1
      · obtain ⟨r, -, h2⟩ := Outcome.bind_eq_ok.1 e1
        cases Outcome.ok.inj h2
        rfl
    | deallocate b k =>
      simp only [Program.step] at e1
      split at e1
      · obtain ⟨r, -, h2⟩ := Outcome.bind_eq_ok.1 e1
        cases Outcome.ok.inj h2
        rfl
      · cases e1

/-- The resource of every allocator, read off the history: one made without argument has the resource
that was the default when it was made, one made from a resource has that resource, a copy has the
resource of its original; and it still does when the program ends. -/
theorem C85_resources {w w' : Program ι σ} {pre post : List (AllocOp ι)} {op : AllocOp ι}
    (hrun : Program.run R w (pre ++ op :: post) = .ok w') :
    let n := w.allocs.length + pre.countP AllocOp.makes
    (op = .make → w'.allocs[n]? = some (lastDefault w.dflt pre)) ∧
    (∀ i, op = .makeOn i → w'.allocs[n]? = some i) ∧
    (∀ a, op = .copy a → a < n ∧ w'.allocs[n]? = w'.allocs[a]?) := by
  intro n
  obtain ⟨w1, e1, e2⟩ := run_append hrun
  obtain ⟨w2, e3, e4⟩ := Outcome.bind_eq_ok.1 (show (Program.step R w1 op >>= _) = _ from e2)
  have hn : w1.allocs.length = n := made_count e1
  refine ⟨?_, ?_, ?_⟩
  · rintro rfl
    have := (C85_default e1).2.symm.trans e3
    cases this
    exact C85_allocators_fixed e4 (by simp [← hn])
  · rintro i rfl
    cases e3
    exact C85_allocators_fixed e4 (by simp [← hn])
  · rintro a rfl
    simp only [Program.step] at e3
    split at e3
    · cases e3
    · rename_i i hi
      cases e3
      have ha := (List.getElem?_eq_some_iff.1 hi).1
      refine ⟨by omega, ?_⟩
      rw [C85_allocators_fixed (a := n) (i := i) e4 (by simp [← hn]),
        C85_allocators_fixed (a := a) (i := i) e4
          (by simp only; rw [List.getElem?_append_left ha]; exact hi)]

end

/-! ## Examples -/

/-- A pool at 4096, a `monotonic_buffer_resource` at 8000, a heap. -/
def demo : Service (Option (Option Base)) (State × Mono × Nat) :=
  simpleOn pDebug 2000 (monoOn true (baseService bumpHeap) .null) (some .null)

/-- Its start. -/
def demoStart : Program (Option (Option Base)) (State × Mono × Nat) :=
  ⟨(fresh pDebug 4096 32, Mono.make 8000 100, 9000), some none, [], []⟩

/-- The addresses of its resources. -/
def demoAddr : Option (Option Base) → Nat
  | none => 100
  | some none => 200
  | some (some .static) => 300
  | some (some .null) => 400
  | some (some .system) => 500

/-- It is a tower, and a program that respects the rules. -/
example : Function.Injective demoAddr ∧
    (∃ Ask grain can, Tower bumpHeap BumpInv demo Ask grain can demoStart.st
      (demoStart.live.map Prod.fst) ∧
      RespectsAll demo demoAddr Ask demoStart
        [.make, .setDefault none, .allocate 0 4 4 3, .copy 0, .deallocate 1 0]) := by
  refine ⟨?_, ?_⟩
  · intro i j h
    rcases i with _ | _ | _ | _ | _ <;> rcases j with _ | _ | _ | _ | _ <;> first | rfl | cases h
  have t0 : Tower bumpHeap BumpInv (baseService bumpHeap) baseAsk baseGrain (fun _ => False) 9000
      [⟨.static, 8000, 100, 8⟩, ⟨.static, 4096, 256, 8⟩] :=
    .start ⟨by decide, by decide, by simp, by simp⟩ (by simp)
  have t1 := Tower.mono (k := 0) true Base.null t0 rfl
  refine ⟨_, _, _, Tower.pool (k := 0) (p := pDebug) (s0 := fresh pDebug 4096 32) (b := 1)
    (fuel := 2000) (some Base.null) t1 rfl pDebug_valid fresh_debug (by decide) ?_, ?_⟩
  · exact Or.inl ⟨0, rfl⟩
  · refine ⟨trivial, fun w' e => ?_⟩
    cases e
    refine ⟨trivial, fun w' e => ?_⟩
    cases e
    refine ⟨⟨_, rfl, by decide, ⟨by decide, by decide, ⟨2, rfl⟩, by decide⟩, fun _ => trivial⟩, fun w' e => ?_⟩
    have e' : Program.step demo ⟨demoStart.st, none, [some none], []⟩ (.allocate 0 4 4 3) = .ok
      ⟨(demoStart.st.1, ⟨8000, 100, 8012⟩, 9000), none, [some none], [(⟨some none, 8000, 12, 4⟩, 0)]⟩ := rfl
    cases e'.symm.trans e
    refine ⟨Nat.zero_lt_one, fun w' e => ?_⟩
    cases e
    exact ⟨⟨_, _, _, _, rfl, rfl, rfl, rfl⟩, fun _ _ => trivial⟩

/-- What is held after a history. -/
def demoLive (ops : List (AllocOp (Option (Option Base)))) :
    Outcome (List (Held (Option (Option Base)) × Nat)) :=
  (Program.run demo demoStart ops).map Program.live

/-- Three allocators with three resources; the first two were made without argument, before and after
a change of the default resource. -/
example : demoLive [.make, .setDefault none, .make, .makeOn (some (some .system)),
      .allocate 0 4 4 3, .allocate 1 4 4 3, .allocate 2 4 4 3, .copy 0, .deallocate 3 2] =
    .ok [(⟨some (some .system), 9000, 12, 4⟩, 2), (⟨none, 4096, 12, 4⟩, 1)] := by
  decide +kernel

/-- Four allocators: made before and after a change of the default resource, from a resource, and as a
copy of the first. -/
example : (Program.run demo demoStart [.make, .setDefault none, .make, .makeOn (some (some .system)),
      .copy 0]).map Program.allocs = .ok [some none, none, some (some .system), some none] := by
  decide +kernel

/-- Comparing equal cannot be dropped: two bytes taken through `allocator<T>()` and one of them given
back through another `allocator<T>()` after the default resource was changed; the pool aborts. -/
theorem C85_counterexample :
    demoLive [.make, .allocate 0 1 1 1, .allocate 0 1 1 1, .setDefault none, .make,
      .deallocate 1 0] = .aborted := by
  decide +kernel

end Utils.Res
