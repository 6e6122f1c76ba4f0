import Verif.Proofs.Units

/-! # Programs of several translation units (C104, C105) -/

namespace Utils.Units

/-! ## C104: which resource is the default -/

/-- Until `set_default_resource` is called, the default resource is the system resource of the
translation unit whose definition of `default_resource` was used; in every other translation unit it does
not compare equal to what `system_memory_resource()` gives there. -/
theorem C104_iff {d u : Nat} {es : List Event} {s : State} (ho : Ordered false [] es) (hn : NoSets es)
    (h : start .init (.initDefault d :: es) = .ok s) :
    ∃ s' p q, body s [] [.get, .system u] = .ok (s', [some p, some q]) ∧ (p = q ↔ u = d) := by
  obtain ⟨s0, e0, h0, h1, h2⟩ := up_init d
  have h' : start s0 es = .ok s := by
    have : (event .init (.initDefault d) >>= fun s => start s es) = .ok s := h
    rw [e0] at this
    exact this
  obtain ⟨a1, -⟩ := start_above hn ho h' ⟨h2, [], h1⟩
  obtain ⟨s1, b1, e1, hs⟩ := start_up h0 ho
  cases e1.symm.trans h'
  obtain ⟨s2, e2, -, -, -⟩ := pass_up (f := []) (o := .sys u) hs (fun p hp => by cases hp)
    (fun n hn => Obj.noConfusion hn)
  refine ⟨s2, .sys d, .sys u, ?_, ⟨fun e => by cases e; rfl, fun e => by rw [e]⟩⟩
  show (call s ([] ++ [s.dflt]) (.system u) >>= _) = _
  simp only [call, e2, a1]
  rfl

/-- In one translation unit the default resource is the system resource. -/
theorem C104_default_partial {d : Nat} {es : List Event} {s : State} (ho : Ordered false [] es)
    (hn : NoSets es) (h : start .init (.initDefault d :: es) = .ok s) :
    ∃ s' p, body s [] [.get, .system d] = .ok (s', [some p, some p]) := by
  obtain ⟨s', p, q, e, hpq⟩ := C104_iff (u := d) ho hn h
  exact ⟨s', p, by rw [e, hpq.2 rfl]⟩

/-- Two translation units: in the second, the default resource is not the system resource. -/
theorem C104_counterexample :
    (body ⟨[.sys 0], [], some (.sys 0), fun _ => []⟩ [] [.get, .system 1]).map Prod.snd =
      .ok [some (.sys 0), some (.sys 1)] ∧
    (start .init [.initDefault 0]).map State.dflt = .ok (some (.sys 0)) := by
  decide +kernel

/-- What was set before `default_resource` was initialised is lost. -/
theorem C104_lost {d : Nat} {es : List Event} {s s' : State} (h : start s (es ++ [.initDefault d]) = .ok s') :
    s'.dflt = some (.sys d) := by
  induction es generalizing s with
  | nil =>
    obtain ⟨s1, e1, e2⟩ := Outcome.bind_eq_ok.1 (show (event s _ >>= _) = _ from h)
    obtain ⟨s2, e3, e4⟩ := Outcome.bind_eq_ok.1 (show (pass s _ >>= _) = _ from e1)
    cases e2
    cases e4
    rfl
  | cons e es ih =>
    obtain ⟨s1, e1, e2⟩ := Outcome.bind_eq_ok.1 (show (event s e >>= _) = _ from h)
    exact ih e2

/-- A static object that is constructed before `default_resource` is initialised gets a null pointer from
`get_default_resource()`. -/
theorem C104_early {n : Nat} {cs : List Call} :
    start .init [.ctor n (.get :: .use 0 :: cs)] = .ub := by
  rfl

/-- A program with two units; the hypotheses are met. -/
example : Ordered false [] [.ctor 7 [.system 1, .get, .use 0], .code [.addr 7, .use 0]] ∧
    NoSets [.ctor 7 [.system 1, .get, .use 0], .code [.addr 7, .use 0]] ∧
    (start .init [.initDefault 0, .ctor 7 [.system 1, .get, .use 0], .code [.addr 7, .use 0]]).map State.up =
      .ok [.static 7, .sys 1, .sys 0] := by
  refine ⟨⟨by simp, by simp [Takes], by simp [Takes], trivial⟩, ?_, by decide +kernel⟩
  intro e he
  simp only [List.mem_cons, List.not_mem_nil, or_false] at he
  rcases he with rfl | rfl <;> simp [NoSet]

/-! ## C105: what static objects may do in their destructors -/

/-- If `default_resource` is initialised first, nothing goes wrong until `main` returns: every pointer
got is to a resource that is there. -/
theorem C105_start {d : Nat} {es : List Event} (ho : Ordered false [] es) :
    ∃ s, start .init (.initDefault d :: es) = .ok s := by
  obtain ⟨s0, e0, h0, -⟩ := up_init d
  obtain ⟨s, b, e, -⟩ := start_up h0 ho
  exact ⟨s, by show (event .init (.initDefault d) >>= _) = _; rw [e0]; exact e⟩

/-- Static objects whose destructors keep to what their constructors got are destroyed without undefined
behaviour, whatever the program set as default resource meanwhile: after any number of steps, what the
object that is next to be destroyed has kept is still there. -/
theorem C105_outlives_partial {d k : Nat} {es : List Event} {dtor : Nat → List Call} {s : State}
    (ho : Ordered false [] es) (h : start .init (.initDefault d :: es) = .ok s)
    (hk : ∀ n, .static n ∈ s.up → KeepsTo (s.kept n) (dtor n)) :
    ∃ s', exit dtor k s = .ok s' ∧ s'.up = s.up.drop k ∧
      ∀ n rest, s'.up = .static n :: rest → ∀ p ∈ s.kept n, ∃ o, p = some o ∧ o ∈ rest := by
  obtain ⟨s0, e0, h0, -⟩ := up_init d
  obtain ⟨s1, b, e, hu⟩ := start_up h0 ho
  have : start .init (.initDefault d :: es) = .ok s1 := by
    show (event .init (.initDefault d) >>= _) = _
    rw [e0]
    exact e
  cases this.symm.trans h
  obtain ⟨s', e', hd, hkept, hup⟩ := exit_down (k := k) hu.down hk
  refine ⟨s', e', hup, fun n rest hr p hp => ?_⟩
  have := hd.deep
  rw [hr, hkept] at this
  exact this.1 n rfl p hp

/-- If the default resource is never changed, it is there when a destructor runs. -/
theorem C105_default {d k : Nat} {es : List Event} {dtor : Nat → List Call} {s s' : State}
    (ho : Ordered false [] es) (hn : NoSets es) (hd : ∀ n, NoSet (dtor n))
    (h : start .init (.initDefault d :: es) = .ok s) (he : exit dtor k s = .ok s') {n : Nat}
    {rest : List Obj} (hr : s'.up = .static n :: rest) :
    s'.dflt = some (.sys d) ∧ .sys d ∈ rest := by
  obtain ⟨s0, e0, h0, h1, h2⟩ := up_init d
  have h' : start s0 es = .ok s := by
    have : (event .init (.initDefault d) >>= fun s => start s es) = .ok s := h
    rw [e0] at this
    exact this
  obtain ⟨a1, a2⟩ := start_above hn ho h' ⟨h2, [], h1⟩
  obtain ⟨g1, g2⟩ := exit_above hd he ⟨a1, Or.inl a2⟩
  refine ⟨g1, ?_⟩
  rcases g2 with ⟨l, hl⟩ | hl
  · rw [hr] at hl
    cases l with
    | nil => cases hl
    | cons x l => cases hl; simp
  · exact absurd (by rw [hr]; exact List.mem_cons_self) (hl n)

/-- A static object whose constructor got the system resource of unit 1 gives memory back to it in its
destructor, and asks for the resource again; all four objects are destroyed. -/
example : (start .init [.initDefault 0, .ctor 7 [.system 1, .get], .code [.nullRes 1, .set 0]] >>=
      exit (fun _ => [.use 0, .use 1, .system 1, .get]) 4).map (fun s => (s.up, s.dead)) =
    .ok ([], [.sys 0, .sys 1, .static 7, .null 1]) := by
  decide +kernel

/-- A destructor that asks for the default resource: `main` made the system resource of another unit the
default, which was made later than the static object and is destroyed earlier. -/
theorem C105_counterexample :
    (start .init [.initDefault 0, .ctor 7 [], .code [.system 1, .set 0]] >>=
      exit (fun _ => [.get, .use 0]) 2).map State.up = .ub := by
  decide +kernel

/-- A destructor that calls `system_memory_resource()`, which was called for the first time in `main`:
control passes through the definition of an object that was destroyed. -/
theorem C105_passed :
    (start .init [.initDefault 0, .ctor 7 [], .code [.system 1]] >>=
      exit (fun _ => [.system 1]) 2).map State.up = .ub := by
  decide +kernel

end Utils.Units
