import Verif.Proofs.Chain

/-!
# C125: chains of upstream resources

Resources point to each other through `upstream_`, and the implicit copy assignment copies that pointer too.
-/

namespace Utils.Props

open Utils Utils.Bits Utils.SR Utils.Res Utils.Spec

variable {τ : Type} {B : Chain.Base τ} {debug : Bool} {loop size align : Nat}

/-- C125: a request goes upstream through all resources that refuse it to the first one that answers; that
one changes, the others stay as they are. -/
theorem C125_answer {net : List (Chain.Node τ)} {i j ptr : Nat} {n' : Chain.Node τ} (hv : ValidNet net)
    (hs : size ≠ 0)
    (h : PassedOn (fun k => RefusesItself B debug loop size align net k ∧ PassesCheck net k ptr) net i j)
    (ha : AnswersItself B debug loop size align net j ptr n') (hc : PassesCheck net j ptr) :
    ∃ d, ∀ depth, d ≤ depth →
      Chain.allocate B debug loop depth net i size align = .ok (ptr, net.set j n') :=
  ChainProofs.served hv hs (fun _ hk => hk) h ha hc

/-- An upstream for the examples: it counts its calls and gives address 4096. -/
def chainBase : Chain.Base Nat where
  alloc t _ _ := (4096, t + 1)
  dealloc t _ := t

/-- A full resource on a second one on the counting one. -/
def chainNet : List (Chain.Node Nat) :=
  [.base 0, .mono ⟨1024, 64, 1024⟩ (some 0), .mono ⟨2048, 16, 2064⟩ (some 1)]

example : Chain.allocate chainBase true 0 3 chainNet 2 32 8 =
    .ok (1024, [.base 0, .mono ⟨1024, 64, 1056⟩ (some 0), .mono ⟨2048, 16, 2064⟩ (some 1)]) := by
  obtain ⟨d, hd⟩ := C125_answer (B := chainBase) (debug := true) (loop := 0) (size := 32) (align := 8)
    (net := chainNet) (i := 2) (j := 1) (ptr := 1024) (n' := .mono ⟨1024, 64, 1056⟩ (some 0))
    (by intro p s up h; simp [chainNet] at h) (by decide)
    (.up ⟨⟨_, rfl, rfl⟩, by intro p s up h; simp [chainNet] at h⟩ ⟨_, rfl, rfl⟩ (.here 1))
    ⟨_, rfl, rfl, .inl (by decide)⟩ (by intro p s up h; simp [chainNet] at h)
  rfl

/-- C125: if every resource above `i` either refuses the request and has an upstream, or answers, then the
call comes back, unless all of them refuse. -/
theorem C125_returns_iff {net : List (Chain.Node τ)} {i : Nat} (hv : ValidNet net) (hs : size ≠ 0)
    (hreg : Regular B debug loop size align net i) :
    (∃ depth r, Chain.allocate B debug loop depth net i size align = .ok r) ↔
      ¬ ∀ k, Upwards net i k → RefusesItself B debug loop size align net k ∧ ∃ j, UpstreamOf net k j :=
  ChainProofs.returns_iff hv hs hreg

/-- The chain of `chainNet` has an end. -/
example : ∃ depth r, Chain.allocate chainBase true 0 depth chainNet 2 128 8 = .ok r := by
  refine (C125_returns_iff (by intro p s up h; simp [chainNet] at h) (by decide)
    (ChainProofs.mono_regular ?_ (by decide) ?_ (by decide) ⟨3, rfl⟩ (by decide))).2 fun h => ?_
  · intro n hn
    simp only [chainNet, List.mem_cons, List.not_mem_nil, or_false] at hn
    rcases hn with rfl | rfl | rfl
    · trivial
    · exact ⟨by decide, fun _ => ⟨by decide, by decide⟩⟩
    · exact ⟨by decide, fun _ => ⟨by decide, by decide⟩⟩
  · rintro i j ⟨n, hn, hu⟩
    match i with
    | 0 => cases hn; cases hu
    | 1 => cases hn; cases hu; decide
    | 2 => cases hn; cases hu; decide
    | i + 3 => simp [chainNet] at hn
  · obtain ⟨_, j, n, hn, hu⟩ := h 0 (.up (j := 1) trivial ⟨_, rfl, rfl⟩ (.up (j := 0) trivial ⟨_, rfl, rfl⟩
      (.here 0)))
    cases hn; cases hu

/-- C125: exactly which requests to monotonic resources never come back: those for which going upstream
never ends and never meets a buffer with room. -/
theorem C125_mono_never_iff {net : List (Chain.Node τ)} {i : Nat} (hm : ∀ n ∈ net, Monotonic n)
    (hi : i < net.length) (hw : ∀ i j, UpstreamOf net i j → j < net.length) (hs : size ≠ 0)
    (hsz : size < 2 ^ 63) (hp : IsPow2 align) (hlt : align < 2 ^ 64) :
    (∀ depth, Chain.allocate B debug loop depth net i size align = .outOfFuel) ↔
      ∀ k, Upwards net i k → ∃ m j, net[k]? = some (.mono m (some j)) ∧ ¬ HasRoom m size align :=
  ChainProofs.mono_never hm hi hw hs hsz hp hlt

/-- Resource 0 is its own upstream. -/
def chainLoop : List (Chain.Node Nat) := [.mono ⟨1024, 64, 1024⟩ (some 0)]

theorem chainLoop_up {i j : Nat} (h : UpstreamOf chainLoop i j) : i = 0 ∧ j = 0 := by
  obtain ⟨n, hn, hu⟩ := h
  match i with
  | 0 => cases hn; cases hu; exact ⟨rfl, rfl⟩
  | i + 1 => simp [chainLoop] at hn

theorem chainLoop_upwards {i k : Nat} (h : Upwards chainLoop i k) (hi : i = 0) : k = 0 := by
  induction h with
  | here i => exact hi
  | up _ hu _ ih => exact ih (chainLoop_up hu).2

theorem chainLoop_mono : ∀ n ∈ chainLoop, Monotonic n := by
  intro n hn
  cases List.mem_singleton.1 hn
  exact ⟨by decide, fun _ => ⟨by decide, by decide⟩⟩

/-- 65 bytes never come back, 64 do. -/
example : (∀ depth, Chain.allocate chainBase true 0 depth chainLoop 0 65 1 = .outOfFuel) ∧
    ¬ ∀ depth, Chain.allocate chainBase true 0 depth chainLoop 0 64 1 = .outOfFuel := by
  constructor
  · refine (C125_mono_never_iff chainLoop_mono (by decide) (fun i j h => by rw [(chainLoop_up h).2]; decide)
      (by decide) (by decide) ⟨0, rfl⟩ (by decide)).2 fun k hk => ?_
    cases chainLoop_upwards hk rfl
    refine ⟨_, 0, rfl, ?_⟩
    rintro ⟨_, r, ⟨_, hr, _⟩, h⟩
    simp at hr h
    omega
  · rw [C125_mono_never_iff chainLoop_mono (by decide) (fun i j h => by rw [(chainLoop_up h).2]; decide)
      (by decide) (by decide) ⟨0, rfl⟩ (by decide)]
    intro h
    obtain ⟨m, j, hn, h⟩ := h 0 (.here 0)
    cases hn
    exact h ⟨by decide, 1024, ⟨⟨1024, rfl⟩, by decide, fun s _ hs => hs⟩, by decide⟩

/-- C125: exactly which pointers a `deallocate` passes on for ever. -/
theorem C125_dealloc_never_iff {net : List (Chain.Node τ)} {i ptr : Nat} (hv : ValidNet net)
    (hlt : ptr < 2 ^ 64) (hp : ptr ≠ 0) :
    (∀ depth, Chain.deallocate B depth net i ptr = .outOfFuel) ↔
      ∀ k, Upwards net i k → Forwards net ptr k ∧ ∃ j, UpstreamOf net k j :=
  ChainProofs.dealloc_never hv hlt hp

/-- A `simple_resource` that is its own upstream. -/
def chainSimple : List (Chain.Node Nat) :=
  [.simple ⟨4, 8, true⟩ (construct ⟨4, 8, true⟩ (1024, 4)) (some 0)]

theorem chainSimple_upwards {i k : Nat} (h : Upwards chainSimple i k) (hi : i = 0) : k = 0 := by
  induction h with
  | here i => exact hi
  | up _ hu _ ih =>
    subst hi
    obtain ⟨n, hn, hu⟩ := hu
    cases hn; cases hu
    exact ih rfl

theorem chainSimple_valid : ValidNet chainSimple := by
  intro p s up h
  cases List.mem_singleton.1 h
  exact ⟨⟨3, rfl⟩, by decide, by decide⟩

/-- A foreign pointer is passed on for ever, a misaligned one is not. -/
example : (∀ depth, Chain.deallocate chainBase depth chainSimple 0 2048 = .outOfFuel) ∧
    ¬ ∀ depth, Chain.deallocate chainBase depth chainSimple 0 2049 = .outOfFuel := by
  constructor
  · refine (C125_dealloc_never_iff chainSimple_valid (by decide) (by decide)).2 fun k hk => ?_
    cases chainSimple_upwards hk rfl
    exact ⟨⟨_, _, _, rfl, by decide, by decide⟩, 0, _, rfl, rfl⟩
  · rw [C125_dealloc_never_iff chainSimple_valid (by decide) (by decide)]
    intro h
    obtain ⟨⟨p, s, up, hn, hd, _⟩, _⟩ := h 0 (.here 0)
    cases hn
    revert hd
    decide

/-- C125: after `i = j`, for resources of one class, all chains still end exactly if resource `i` is not above
resource `j`. -/
theorem C125_assign_iff {net : List (Chain.Node τ)} {i j depth : Nat} {a b : Chain.Node τ}
    (hi : net[i]? = some a) (hj : net[j]? = some b) (hc : SameClass a b) (he : AllChainsEnd net) :
    ∃ net', Chain.step B debug loop depth net (.assign i j) = .ok net' ∧
      (AllChainsEnd net' ↔ ¬ AboveOf net j i) := by
  refine ⟨net.set i (a.assign b), by simp only [Chain.step, hi, hj], ?_⟩
  exact ChainProofs.assign_iff hi hj hc he

/-- Two resources, the second on the first. -/
def chainTwo : List (Chain.Node Nat) :=
  [.mono ⟨1024, 64, 1024⟩ none, .mono ⟨2048, 64, 2048⟩ (some 0)]

theorem chainTwo_ends : AllChainsEnd chainTwo := by
  intro i hi
  match i with
  | 0 => exact .last (n := .mono ⟨1024, 64, 1024⟩ none) rfl rfl
  | 1 => exact .up (j := 0) ⟨_, rfl, rfl⟩ (.last (n := .mono ⟨1024, 64, 1024⟩ none) rfl rfl)
  | i + 2 => simp [chainTwo] at hi

/-- The second becomes a copy of the first: harmless.  The other way round: a cycle. -/
example : (∃ net', Chain.step chainBase true 0 0 chainTwo (.assign 1 0) = .ok net' ∧ AllChainsEnd net') ∧
    ∃ net', Chain.step chainBase true 0 0 chainTwo (.assign 0 1) = .ok net' ∧ ¬ AllChainsEnd net' := by
  constructor
  · obtain ⟨net', h, hiff⟩ := C125_assign_iff (B := chainBase) (debug := true) (loop := 0) (depth := 0)
      (net := chainTwo) (i := 1) (j := 0) rfl rfl trivial chainTwo_ends
    refine ⟨net', h, hiff.2 ?_⟩
    rintro ⟨k, ⟨n, hn, hu⟩, _⟩
    cases hn; cases hu
  · obtain ⟨net', h, hiff⟩ := C125_assign_iff (B := chainBase) (debug := true) (loop := 0) (depth := 0)
      (net := chainTwo) (i := 0) (j := 1) rfl rfl trivial chainTwo_ends
    exact ⟨net', h, fun hall => hiff.1 hall ⟨0, ⟨_, rfl, rfl⟩, .here 0⟩⟩

/-- A second resource on a first one; then `i = j` and a request to `i`. -/
def chainProgram (i j : Nat) : List (Chain.Op Nat) :=
  [.make (.mono (Mono.make 1024 64) none), .make (.mono (Mono.make 2048 64) (some 0)), .assign i j,
    .allocate i 65 1]

theorem chainProgram_ordinary : StepsMeet chainBase true 0 4 Ordinary [] (chainProgram 1 0) := by
  refine ⟨fun j hj => (by cases hj), fun n1 h1 => ?_⟩
  cases h1
  refine ⟨fun j hj => (by cases hj; decide), fun n2 h2 => ?_⟩
  cases h2
  refine ⟨⟨_, _, rfl, rfl, trivial⟩, fun n3 h3 => ?_⟩
  cases h3
  exact ⟨show 1 < 2 by decide, fun _ _ => trivial⟩

theorem chainProgram_notBelow : StepsMeet chainBase true 0 4 NotBelow [] (chainProgram 1 0) := by
  refine ⟨trivial, fun n1 h1 => ?_⟩
  cases h1
  refine ⟨trivial, fun n2 h2 => ?_⟩
  cases h2
  refine ⟨?_, fun n3 h3 => ?_⟩
  · rintro ⟨k, ⟨n, hn, hu⟩, _⟩
    cases hn; cases hu
  · cases h3
    exact ⟨trivial, fun _ _ => trivial⟩

/-- C125, not in full: after any program that builds resources on existing ones, uses them, and assigns none
to one above itself, all chains end. -/
theorem C125_history_partial {net : List (Chain.Node τ)} {depth : Nat} {ops : List (Chain.Op τ)}
    (ho : StepsMeet B debug loop depth Ordinary [] ops) (hb : StepsMeet B debug loop depth NotBelow [] ops)
    (h : Chain.run B debug loop depth [] ops = .ok net) : AllChainsEnd net :=
  ChainProofs.run_ends (fun i hi => by simp at hi) ho hb h

example : AllChainsEnd (τ := Nat)
    [.mono ⟨1024, 64, 1024⟩ none, .mono ⟨1024, 64, 1024⟩ none] :=
  C125_history_partial chainProgram_ordinary chainProgram_notBelow rfl

/-- C125, not in full: where all chains end, an `allocate` comes back after at most as many calls as there are
resources, if each resource can decide about its own memory. -/
theorem C125_allocate_partial {net : List (Chain.Node τ)} {i depth : Nat} (he : AllChainsEnd net)
    (hi : i < net.length) (hd : net.length ≤ depth)
    (ht : ∀ n ∈ net, n.tryHere B debug loop size align ≠ .outOfFuel) :
    Chain.allocate B debug loop depth net i size align ≠ .outOfFuel := by
  obtain ⟨l, hnd, hp, hl⟩ := ChainProofs.path_of (he i hi)
  have := ChainProofs.path_length (net := net) hnd fun x hx => (hl x hx).2
  exact ChainProofs.allocate_path hp hnd (fun k _ n hn => ht n (List.mem_of_getElem? hn)) (by omega)

example : Chain.allocate chainBase true 0 2 chainTwo 1 128 1 ≠ .outOfFuel :=
  C125_allocate_partial chainTwo_ends (by decide) (by decide) (by
    intro n hn
    simp only [chainTwo, List.mem_cons, List.not_mem_nil, or_false] at hn
    rcases hn with rfl | rfl <;> nofun)

/-- C125, not in full: and so does every `deallocate`. -/
theorem C125_deallocate_partial {net : List (Chain.Node τ)} {i ptr depth : Nat} (hv : ValidNet net)
    (he : AllChainsEnd net) (hi : i < net.length) (hd : net.length ≤ depth) (hlt : ptr < 2 ^ 64) :
    Chain.deallocate B depth net i ptr ≠ .outOfFuel := by
  obtain ⟨l, hnd, hp, hl⟩ := ChainProofs.path_of (he i hi)
  have := ChainProofs.path_length (net := net) hnd fun x hx => (hl x hx).2
  exact ChainProofs.dealloc_path hv hlt hp (by omega)

example : Chain.deallocate chainBase 2 chainTwo 1 128 ≠ .outOfFuel :=
  C125_deallocate_partial (fun p s up h => by simp [chainTwo] at h) chainTwo_ends (by decide) (by decide)
    (by decide)

/-- C125, not in full: a program of monotonic resources that assigns none to one above itself runs to its end;
no call goes deeper than the program is long. -/
theorem C125_program_partial {depth : Nat} {ops : List (Chain.Op τ)}
    (ho : StepsMeet B debug loop depth Ordinary [] ops) (hb : StepsMeet B debug loop depth NotBelow [] ops)
    (hop : ∀ op ∈ ops, MonotonicOp op) (hd : ops.length ≤ depth) :
    ∃ net, Chain.run B debug loop depth [] ops = .ok net :=
  ChainProofs.mono_run (fun n hn => by simp at hn) (fun i hi => by simp at hi) ho hb hop (by simpa using hd)

example : ∃ net, Chain.run chainBase true 0 4 [] (chainProgram 1 0) = .ok net := by
  refine C125_program_partial chainProgram_ordinary chainProgram_notBelow ?_ (by decide)
  intro op hop
  simp only [chainProgram, List.mem_cons, List.not_mem_nil, or_false] at hop
  rcases hop with rfl | rfl | rfl | rfl
  · exact .inl ⟨1024, 64, none, by decide, rfl⟩
  · exact .inl ⟨2048, 64, some 0, by decide, rfl⟩
  · trivial
  · exact ⟨by decide, ⟨0, rfl⟩, by decide⟩

/-- C125 fails in general: `a` and `b` on `a`; after `a = b` resource `a` is its own upstream, and a request
that is too large for it never comes back. -/
theorem C125_counterexample :
    ∀ depth, Chain.run chainBase true 0 depth [] (chainProgram 0 1) = .outOfFuel := by
  intro depth
  have h : Chain.allocate chainBase true 0 depth
      [.mono ⟨2048, 64, 2048⟩ (some 0), .mono ⟨2048, 64, 2048⟩ (some 0)] 0 65 1 = .outOfFuel := by
    refine ChainProofs.never (by decide) (fun k hk => ?_) depth
    have hk0 : k = 0 := by
      have : ∀ i, Upwards (τ := Nat)
          [.mono ⟨2048, 64, 2048⟩ (some 0), .mono ⟨2048, 64, 2048⟩ (some 0)] i k → i = 0 → k = 0 := by
        intro i h hi
        induction h with
        | here i => exact hi
        | up _ hu _ ih =>
          subst hi
          obtain ⟨n, hn, hu⟩ := hu
          cases hn; cases hu
          exact ih hk rfl
      exact this 0 hk rfl
    subst hk0
    exact ⟨⟨_, rfl, rfl⟩, 0, _, rfl, rfl⟩
  show (Chain.allocate chainBase true 0 depth
      [.mono ⟨2048, 64, 2048⟩ (some 0), .mono ⟨2048, 64, 2048⟩ (some 0)] 0 65 1 |>.map Prod.snd) >>= _ = _
  rw [h]
  rfl

end Utils.Props
