import Verif.Spec.Units

/-! # Programs of several translation units: lemmas -/

namespace Utils.Units

/-- What every static object kept lies below it, that is, it was complete before. -/
def Deep (kept : Nat → Frame) : List Obj → Prop
  | [] => True
  | o :: rest => (∀ n, o = .static n → ∀ p ∈ kept n, ∃ x, p = some x ∧ x ∈ rest) ∧ Deep kept rest

theorem Deep.congr {k k' : Nat → Frame} {l : List Obj} (h : Deep k l)
    (he : ∀ n, .static n ∈ l → k' n = k n) : Deep k' l := by
  induction l with
  | nil => trivial
  | cons o l ih =>
    refine ⟨fun n hn p hp => ?_, ih h.2 fun n hn => he n (List.mem_cons_of_mem _ hn)⟩
    rw [he n (by rw [hn]; exact List.mem_cons_self)] at hp
    exact h.1 n hn p hp

/-- During start-up. -/
structure Up (built : List Nat) (s : State) : Prop where
  dead : s.dead = []
  dflt : ∃ o, s.dflt = some o ∧ o ∈ s.up
  built : ∀ n, n ∈ built ↔ .static n ∈ s.up
  nodup : s.up.Nodup
  deep : Deep s.kept s.up

/-- Everything in the frame is there. -/
def Ready (s : State) (f : Frame) : Prop := ∀ p ∈ f, ∃ o, p = some o ∧ o ∈ s.up

theorem Ready.snoc {s : State} {f : Frame} {o : Obj} (h : Ready s f) (ho : o ∈ s.up) :
    Ready s (f ++ [some o]) := by
  intro p hp
  rcases List.mem_append.1 hp with hp | hp
  · exact h p hp
  · rw [List.mem_singleton.1 hp]; exact ⟨o, rfl, ho⟩

theorem pass_up {built : List Nat} {s : State} {f : Frame} {o : Obj} (h : Up built s) (hf : Ready s f)
    (ho : ∀ n, o ≠ .static n) :
    ∃ s', pass s o = .ok s' ∧ Up built s' ∧ Ready s' f ∧ o ∈ s'.up := by
  unfold pass
  rw [if_neg (by rw [h.dead]; simp)]
  by_cases hm : o ∈ s.up
  · rw [if_pos hm]; exact ⟨s, rfl, h, hf, hm⟩
  · rw [if_neg hm]
    refine ⟨_, rfl, ⟨h.dead, ?_, ?_, List.nodup_cons.2 ⟨hm, h.nodup⟩, ⟨fun n hn => absurd hn (ho n), h.deep⟩⟩,
      ?_, List.mem_cons_self⟩
    · obtain ⟨x, e, hx⟩ := h.dflt; exact ⟨x, e, List.mem_cons_of_mem _ hx⟩
    · intro n
      rw [h.built n]
      exact ⟨List.mem_cons_of_mem _, fun hn => by
        rcases List.mem_cons.1 hn with e | hn
        · exact absurd e.symm (ho n)
        · exact hn⟩
    · intro p hp; obtain ⟨x, e, hx⟩ := hf p hp; exact ⟨x, e, List.mem_cons_of_mem _ hx⟩

theorem call_up {built : List Nat} {s : State} {f : Frame} {c : Call} (h : Up built s) (hf : Ready s f)
    (hc : ∀ n, c = .addr n → n ∈ built) :
    ∃ s' f', call s f c = .ok (s', f') ∧ Up built s' ∧ Ready s' f' := by
  cases c with
  | system u =>
    obtain ⟨s', e, h', hf', ho⟩ := pass_up (o := .sys u) h hf (fun n hn => Obj.noConfusion hn)
    exact ⟨s', _, by show (pass s _ >>= _) = _; rw [e]; rfl, h', hf'.snoc ho⟩
  | nullRes u =>
    obtain ⟨s', e, h', hf', ho⟩ := pass_up (o := .null u) h hf (fun n hn => Obj.noConfusion hn)
    exact ⟨s', _, by show (pass s _ >>= _) = _; rw [e]; rfl, h', hf'.snoc ho⟩
  | get =>
    obtain ⟨o, e, ho⟩ := h.dflt
    exact ⟨s, _, rfl, h, by rw [e]; exact hf.snoc ho⟩
  | set k =>
    cases hk : f[k]? with
    | none => exact ⟨s, f, by simp only [call, hk], h, hf⟩
    | some p =>
      obtain ⟨x, rfl, hx⟩ := hf p (List.mem_of_getElem? hk)
      obtain ⟨o, e, ho⟩ := h.dflt
      refine ⟨{ s with dflt := some x }, f ++ [s.dflt], by simp only [call, hk], ⟨h.dead, ⟨x, rfl, hx⟩, h.built, h.nodup, h.deep⟩, ?_⟩
      rw [e]
      exact Ready.snoc (s := { s with dflt := some x }) hf ho
  | addr n => exact ⟨s, _, rfl, h, hf.snoc ((h.built n).1 (hc n rfl))⟩
  | use k =>
    cases hk : f[k]? with
    | none => exact ⟨s, f, by simp only [call, hk], h, hf⟩
    | some p =>
      obtain ⟨x, rfl, hx⟩ := hf p (List.mem_of_getElem? hk)
      exact ⟨s, f, by simp only [call, hk, if_pos hx], h, hf⟩

theorem body_up {built : List Nat} {s : State} {f : Frame} {cs : List Call} (h : Up built s)
    (hf : Ready s f) (hc : Takes built cs) :
    ∃ s' f', body s f cs = .ok (s', f') ∧ Up built s' ∧ Ready s' f' := by
  induction cs generalizing s f with
  | nil => exact ⟨s, f, rfl, h, hf⟩
  | cons c cs ih =>
    obtain ⟨s1, f1, e1, h1, g1⟩ := call_up (c := c) h hf fun n hn => hc n (by rw [hn]; exact List.mem_cons_self)
    obtain ⟨s2, f2, e2, h2, g2⟩ := ih h1 g1 fun n hn => hc n (List.mem_cons_of_mem _ hn)
    exact ⟨s2, f2, by show (call s f c >>= _) = _; rw [e1]; exact e2, h2, g2⟩

theorem start_up {built : List Nat} {s : State} {es : List Event} (h : Up built s)
    (ho : Ordered false built es) : ∃ s' built', start s es = .ok s' ∧ Up built' s' := by
  induction es generalizing s built with
  | nil => exact ⟨s, built, rfl, h⟩
  | cons e es ih =>
    have hnil : Ready s [] := fun p hp => by cases hp
    cases e with
    | initDefault d => cases ho.1
    | code cs =>
      obtain ⟨s1, f1, e1, h1, -⟩ := body_up h hnil ho.1
      obtain ⟨s2, b2, e2, h2⟩ := ih h1 ho.2
      exact ⟨s2, b2, by show ((body s [] cs >>= _) >>= _) = _; rw [e1]; exact e2, h2⟩
    | ctor n cs =>
      obtain ⟨hn, ht, ho⟩ := ho
      obtain ⟨s1, f1, e1, h1, g1⟩ := body_up h hnil ht
      have hn1 : .static n ∉ s1.up := fun hm => hn ((h1.built n).2 hm)
      have h1' : Up (n :: built) { s1 with up := .static n :: s1.up, kept := fun m => if m = n then f1 else s1.kept m } := by
        refine ⟨h1.dead, ?_, ?_, List.nodup_cons.2 ⟨hn1, h1.nodup⟩, ⟨?_, ?_⟩⟩
        · obtain ⟨x, e, hx⟩ := h1.dflt; exact ⟨x, e, List.mem_cons_of_mem _ hx⟩
        · intro m
          simp only [List.mem_cons, Obj.static.injEq, h1.built m]
        · intro m hm p hp
          cases hm
          simp only [if_true] at hp
          exact g1 p hp
        · refine h1.deep.congr fun m hm => ?_
          have : m ≠ n := fun e => hn1 (e ▸ hm)
          simp only [if_neg this]
      obtain ⟨s2, b2, e2, h2⟩ := ih h1' ho
      exact ⟨s2, b2, by show ((body s [] cs >>= _) >>= _) = _; rw [e1]; exact e2, h2⟩

theorem up_init (d : Nat) : ∃ s, event .init (.initDefault d) = .ok s ∧ Up [] s ∧
    s.up = [.sys d] ∧ s.dflt = some (.sys d) := by
  refine ⟨⟨[.sys d], [], some (.sys d), fun _ => []⟩, by simp [event, pass, State.init],
    ⟨rfl, ⟨_, rfl, List.mem_cons_self⟩, by simp, by simp, ?_⟩, rfl, rfl⟩
  exact ⟨fun n hn => Obj.noConfusion hn, trivial⟩

/-! ## The end -/

/-- During the end of the program. -/
structure Down (s : State) : Prop where
  apart : ∀ o ∈ s.up, o ∉ s.dead
  nodup : s.up.Nodup
  deep : Deep s.kept s.up

theorem Up.down {built : List Nat} {s : State} (h : Up built s) : Down s :=
  ⟨fun o _ => by rw [h.dead]; simp, h.nodup, h.deep⟩

theorem body_down {s : State} {f extra : Frame} {cs : List Call} (hs : ∀ o ∈ s.up, o ∉ s.dead)
    (hf : ∀ p ∈ f, ∃ x, p = some x ∧ x ∈ s.up) (hk : KeepsTo f cs) :
    ∃ d' f', body s (f ++ extra) cs = .ok ({ s with dflt := d' }, f') := by
  induction cs generalizing s extra with
  | nil => exact ⟨s.dflt, _, rfl⟩
  | cons c cs ih =>
    have hk' : KeepsTo f cs := fun c hc => hk c (List.mem_cons_of_mem _ hc)
    have hc := hk c List.mem_cons_self
    have pas : ∀ o, some o ∈ f → pass s o = .ok s := by
      intro o ho
      obtain ⟨x, e, hx⟩ := hf _ ho
      cases e
      unfold pass
      rw [if_neg (hs o hx), if_pos hx]
    cases c with
    | system u =>
      obtain ⟨d', f', e⟩ := ih (extra := extra ++ [some (.sys u)]) hs hf hk'
      rw [← List.append_assoc] at e
      refine ⟨d', f', ?_⟩
      show ((pass s _ >>= _) >>= _) = _
      rw [pas _ hc]
      exact e
    | nullRes u =>
      obtain ⟨d', f', e⟩ := ih (extra := extra ++ [some (.null u)]) hs hf hk'
      rw [← List.append_assoc] at e
      refine ⟨d', f', ?_⟩
      show ((pass s _ >>= _) >>= _) = _
      rw [pas _ hc]
      exact e
    | get =>
      obtain ⟨d', f', e⟩ := ih (extra := extra ++ [s.dflt]) hs hf hk'
      rw [← List.append_assoc] at e
      exact ⟨d', f', e⟩
    | addr n =>
      obtain ⟨d', f', e⟩ := ih (extra := extra ++ [some (.static n)]) hs hf hk'
      rw [← List.append_assoc] at e
      exact ⟨d', f', e⟩
    | set k =>
      cases hg : (f ++ extra)[k]? with
      | none =>
        obtain ⟨d', f', e⟩ := ih (extra := extra) hs hf hk'
        refine ⟨d', f', ?_⟩
        show (call s (f ++ extra) (.set k) >>= _) = _
        simp only [call, hg]
        exact e
      | some p =>
        obtain ⟨d', f', e⟩ := ih (s := { s with dflt := p }) (extra := extra ++ [s.dflt]) hs hf hk'
        rw [← List.append_assoc] at e
        refine ⟨d', f', ?_⟩
        show (call s (f ++ extra) (.set k) >>= _) = _
        simp only [call, hg]
        exact e
    | use k =>
      have hlt : k < f.length := hc
      obtain ⟨x, ex, hx⟩ := hf f[k] (List.getElem_mem hlt)
      have hg : (f ++ extra)[k]? = some (some x) := by
        rw [List.getElem?_append_left hlt, List.getElem?_eq_getElem hlt, ex]
      obtain ⟨d', f', e⟩ := ih (extra := extra) hs hf hk'
      refine ⟨d', f', ?_⟩
      show (call s (f ++ extra) (.use k) >>= _) = _
      simp only [call, hg, if_pos hx]
      exact e

theorem destroy_down {dtor : Nat → List Call} {s : State} (h : Down s)
    (hk : ∀ n, .static n ∈ s.up → KeepsTo (s.kept n) (dtor n)) :
    ∃ s', destroy dtor s = .ok s' ∧ Down s' ∧ s'.kept = s.kept ∧ s'.up = s.up.tail := by
  obtain ⟨up, dead, dflt, kept⟩ := s
  obtain ⟨ha, hn, hd⟩ := h
  simp only at ha hn hd hk
  cases up with
  | nil => exact ⟨_, rfl, ⟨ha, hn, hd⟩, rfl, rfl⟩
  | cons o rest =>
    obtain ⟨hn1, hn2⟩ := List.nodup_cons.1 hn
    have ha' : ∀ x ∈ rest, x ∉ dead := fun x hx => ha x (List.mem_cons_of_mem _ hx)
    have ha'' : ∀ x ∈ rest, x ∉ o :: dead := fun x hx hm => by
      rcases List.mem_cons.1 hm with rfl | hm
      · exact hn1 hx
      · exact ha' x hx hm
    cases o with
    | static n =>
      obtain ⟨d', f', e⟩ := body_down (s := ⟨rest, dead, dflt, kept⟩) (extra := []) ha'
        (fun p hp => hd.1 n rfl p hp) (hk n List.mem_cons_self)
      rw [List.append_nil] at e
      refine ⟨⟨rest, .static n :: dead, d', kept⟩, ?_, ⟨ha'', hn2, hd.2⟩, rfl, rfl⟩
      show (body ⟨rest, dead, dflt, kept⟩ (kept n) (dtor n) >>= _) = _
      rw [e]
      rfl
    | sys u => exact ⟨_, rfl, ⟨ha'', hn2, hd.2⟩, rfl, rfl⟩
    | null u => exact ⟨_, rfl, ⟨ha'', hn2, hd.2⟩, rfl, rfl⟩

theorem exit_down {dtor : Nat → List Call} {k : Nat} {s : State} (h : Down s)
    (hk : ∀ n, .static n ∈ s.up → KeepsTo (s.kept n) (dtor n)) :
    ∃ s', exit dtor k s = .ok s' ∧ Down s' ∧ s'.kept = s.kept ∧ s'.up = s.up.drop k := by
  induction k generalizing s with
  | zero => exact ⟨s, rfl, h, rfl, rfl⟩
  | succ k ih =>
    obtain ⟨s1, e1, h1, k1, u1⟩ := destroy_down h hk
    obtain ⟨s2, e2, h2, k2, u2⟩ := ih h1 (by
      intro n hn
      rw [u1] at hn
      rw [k1]
      exact hk n (List.mem_of_mem_tail hn))
    refine ⟨s2, ?_, h2, k2.trans k1, ?_⟩
    · show (destroy dtor s >>= _) = _
      rw [e1]
      exact e2
    · rw [u2, u1, List.drop_tail]

/-! ## Without `set_default_resource` -/

theorem pass_grow {s s' : State} {o : Obj} (h : pass s o = .ok s') :
    s'.dflt = s.dflt ∧ s'.kept = s.kept ∧ (s'.up = s.up ∨ s'.up = o :: s.up) := by
  unfold pass at h
  split at h
  · cases h
  · split at h
    · cases h; exact ⟨rfl, rfl, Or.inl rfl⟩
    · cases h; exact ⟨rfl, rfl, Or.inr rfl⟩

theorem body_grow {s s' : State} {f f' : Frame} {cs : List Call} (hset : NoSet cs)
    (h : body s f cs = .ok (s', f')) :
    s'.dflt = s.dflt ∧ s'.kept = s.kept ∧ ∃ new, s'.up = new ++ s.up ∧ ∀ n, .static n ∉ new := by
  induction cs generalizing s f with
  | nil => cases h; exact ⟨rfl, rfl, [], rfl, by simp⟩
  | cons c cs ih =>
    obtain ⟨⟨s1, f1⟩, e1, e2⟩ := Outcome.bind_eq_ok.1 (show (call s f c >>= _) = _ from h)
    obtain ⟨g1, g2, new, g3, g4⟩ := ih (fun k hk => hset k (List.mem_cons_of_mem _ hk)) e2
    have key : s1.dflt = s.dflt ∧ s1.kept = s.kept ∧
        (s1.up = s.up ∨ ∃ o, (∀ n, o ≠ .static n) ∧ s1.up = o :: s.up) := by
      cases c with
      | system u =>
        obtain ⟨s2, e3, e4⟩ := Outcome.bind_eq_ok.1 (show (pass s _ >>= _) = _ from e1)
        cases e4
        obtain ⟨k1, k2, k3⟩ := pass_grow e3
        exact ⟨k1, k2, k3.imp_right fun k => ⟨_, fun n hn => Obj.noConfusion hn, k⟩⟩
      | nullRes u =>
        obtain ⟨s2, e3, e4⟩ := Outcome.bind_eq_ok.1 (show (pass s _ >>= _) = _ from e1)
        cases e4
        obtain ⟨k1, k2, k3⟩ := pass_grow e3
        exact ⟨k1, k2, k3.imp_right fun k => ⟨_, fun n hn => Obj.noConfusion hn, k⟩⟩
      | get => cases e1; exact ⟨rfl, rfl, Or.inl rfl⟩
      | addr n => cases e1; exact ⟨rfl, rfl, Or.inl rfl⟩
      | set k => exact absurd List.mem_cons_self (hset k)
      | use k =>
        simp only [call] at e1
        split at e1
        · cases e1; exact ⟨rfl, rfl, Or.inl rfl⟩
        · cases e1
        · split at e1
          · cases e1; exact ⟨rfl, rfl, Or.inl rfl⟩
          · cases e1
    obtain ⟨k1, k2, k3⟩ := key
    refine ⟨g1.trans k1, g2.trans k2, ?_⟩
    rcases k3 with k3 | ⟨o, ho, k3⟩
    · exact ⟨new, by rw [g3, k3], g4⟩
    · refine ⟨new ++ [o], by rw [g3, k3]; simp, fun n hn => ?_⟩
      rcases List.mem_append.1 hn with hn | hn
      · exact g4 n hn
      · exact ho n (List.mem_singleton.1 hn).symm

/-- The default resource is the one of unit `d`, and everything was made after it. -/
def Above (d : Nat) (s : State) : Prop := s.dflt = some (.sys d) ∧ ∃ l, s.up = l ++ [.sys d]

theorem start_above {d : Nat} {s s' : State} {es : List Event} (hset : NoSets es) {built : List Nat}
    (ho : Ordered false built es) (h : start s es = .ok s') (ha : Above d s) : Above d s' := by
  induction es generalizing s built with
  | nil => cases h; exact ha
  | cons e es ih =>
    obtain ⟨s1, e1, e2⟩ := Outcome.bind_eq_ok.1 (show (event s e >>= _) = _ from h)
    have hs' : NoSets es := fun e he => hset e (List.mem_cons_of_mem _ he)
    have h0 := hset e List.mem_cons_self
    obtain ⟨a1, l, a2⟩ := ha
    cases e with
    | initDefault d => cases ho.1
    | code cs =>
      obtain ⟨⟨s2, f2⟩, e3, e4⟩ := Outcome.bind_eq_ok.1 (show (body s [] cs >>= _) = _ from e1)
      cases e4
      obtain ⟨g1, -, new, g3, -⟩ := body_grow h0 e3
      exact ih hs' ho.2 e2 ⟨g1.trans a1, new ++ l, by rw [g3, a2, List.append_assoc]⟩
    | ctor n cs =>
      obtain ⟨⟨s2, f2⟩, e3, e4⟩ := Outcome.bind_eq_ok.1 (show (body s [] cs >>= _) = _ from e1)
      cases e4
      obtain ⟨g1, -, new, g3, -⟩ := body_grow h0 e3
      exact ih hs' ho.2.2 e2 ⟨g1.trans a1, .static n :: (new ++ l), by
        simp only [g3, a2, List.append_assoc, List.cons_append]⟩

theorem exit_above {d : Nat} {dtor : Nat → List Call} {k : Nat} {s s' : State}
    (hset : ∀ n, NoSet (dtor n)) (h : exit dtor k s = .ok s')
    (ha : s.dflt = some (.sys d) ∧ ((∃ l, s.up = l ++ [.sys d]) ∨ ∀ n, .static n ∉ s.up)) :
    s'.dflt = some (.sys d) ∧ ((∃ l, s'.up = l ++ [.sys d]) ∨ ∀ n, .static n ∉ s'.up) := by
  induction k generalizing s with
  | zero => cases h; exact ha
  | succ k ih =>
    obtain ⟨s1, e1, e2⟩ := Outcome.bind_eq_ok.1 (show (destroy dtor s >>= _) = _ from h)
    refine ih e2 ?_
    obtain ⟨up, dead, dflt, kept⟩ := s
    obtain ⟨a1, a2⟩ := ha
    simp only at a1 a2
    have tail : ∀ o rest, up = o :: rest → (∃ l, rest = l ++ [.sys d]) ∨ ∀ n, .static n ∉ rest := by
      rintro o rest rfl
      rcases a2 with ⟨l, hl⟩ | hl
      · cases l with
        | nil => cases hl; exact Or.inr (by simp)
        | cons x l => cases hl; exact Or.inl ⟨l, rfl⟩
      · exact Or.inr fun n hn => hl n (List.mem_cons_of_mem _ hn)
    cases up with
    | nil => cases e1; exact ⟨a1, a2⟩
    | cons o rest =>
      have ht := tail o rest rfl
      cases o with
      | static n =>
        obtain ⟨⟨s2, f2⟩, e3, e4⟩ := Outcome.bind_eq_ok.1
          (show (body ⟨rest, dead, dflt, kept⟩ (kept n) (dtor n) >>= _) = _ from e1)
        cases e4
        obtain ⟨g1, -, new, g3, g4⟩ := body_grow (hset n) e3
        refine ⟨g1.trans a1, ?_⟩
        simp only [g3]
        rcases ht with ⟨l, rfl⟩ | ht
        · exact Or.inl ⟨new ++ l, by simp⟩
        · exact Or.inr fun m hm => (List.mem_append.1 hm).elim (g4 m) (ht m)
      | sys u => cases e1; exact ⟨a1, ht⟩
      | null u => cases e1; exact ⟨a1, ht⟩

end Utils.Units
