import Verif.Spec.TimerOverload
import Verif.Props.TimerCtor

/-! # Property C133: callables of `timer` with several call operators -/

namespace Utils.Props

open Utils.Traits Utils.TimerCtor Utils.Spec

theorem filter_unique {α : Type} {l : List α} {p : α → Bool} {f : α} (hn : l.Nodup) (hf : f ∈ l) (hp : p f = true)
    (hu : ∀ g ∈ l, p g = true → g = f) : l.filter p = [f] := by
  induction l with
  | nil => cases hf
  | cons a l ih =>
    rw [List.nodup_cons] at hn
    rcases List.mem_cons.1 hf with rfl | hf'
    · rw [List.filter_cons_of_pos hp]
      congr
      rw [List.filter_eq_nil_iff]
      intro g hg hpg
      exact hn.1 (hu g (List.mem_cons_of_mem _ hg) hpg ▸ hg)
    · rw [List.filter_cons_of_neg]
      · exact ih hn.2 hf' fun g hg => hu g (List.mem_cons_of_mem _ hg)
      · intro hpa
        exact hn.1 (hu a List.mem_cons_self hpa ▸ hf')

/-- If `f` is better than `g`, `g` is not better than `f`. -/
theorem betterOp_asymm {given : Given} {f g : CallOp} (h : betterOp given f g = true) : betterOp given g f = false := by
  unfold betterOp at *
  cases h1 : betterObject f.q g.q <;> cases h2 : betterObject g.q f.q <;> cases h3 : closer given f.param g.param <;>
    cases h4 : closer given g.param f.param <;> simp_all

theorem resolve_eq_some {ops : List CallOp} (hn : ops.Nodup) (given : Given) (o : Object) (f : CallOp) :
    resolve ops given o = some f ↔ (f ∈ ops ∧ accepts f.q o = true ∧ f.param.candidate given = true) ∧
      ∀ g ∈ ops, accepts g.q o = true → g.param.candidate given = true → g ≠ f → betterOp given f g = true := by
  let viable := ops.filter fun f => accepts f.q o && f.param.candidate given
  have hv : ∀ f, f ∈ viable ↔ f ∈ ops ∧ accepts f.q o = true ∧ f.param.candidate given = true := by
    intro f
    simp [viable, List.mem_filter]
  have hnv : viable.Nodup := hn.filter _
  let best : CallOp → Bool := fun f => viable.all fun g => g = f || betterOp given f g
  have hb : ∀ f, best f = true ↔ ∀ g ∈ viable, g ≠ f → betterOp given f g = true := by
    intro f
    simp only [best, List.all_eq_true, Bool.or_eq_true, decide_eq_true_eq]
    constructor
    · intro h g hg hne
      exact (h g hg).resolve_left hne
    · intro h g hg
      by_cases e : g = f
      · exact Or.inl e
      · exact Or.inr (h g hg e)
  have hr : resolve ops given o = match viable.filter best with | [f] => some f | _ => none := rfl
  rw [hr]
  constructor
  · intro h
    have hl : viable.filter best = [f] := by
      match hm : viable.filter best with
      | [] => rw [hm] at h; cases h
      | [x] => rw [hm] at h; cases h; rfl
      | x :: y :: l => rw [hm] at h; cases h
    have hf : f ∈ viable.filter best := by rw [hl]; exact List.mem_singleton.2 rfl
    rw [List.mem_filter] at hf
    refine ⟨(hv f).1 hf.1, fun g hg ha hc hne => (hb f).1 hf.2 g ((hv g).2 ⟨hg, ha, hc⟩) hne⟩
  · rintro ⟨hf, hall⟩
    have hfv := (hv f).2 hf
    have hbf : best f = true := (hb f).2 fun g hg hne => hall g ((hv g).1 hg).1 ((hv g).1 hg).2.1 ((hv g).1 hg).2.2 hne
    rw [filter_unique hnv hfv hbf]
    intro g hg hbg
    refine Classical.byContradiction fun hne => ?_
    have h1 := (hb f).1 hbf g hg hne
    have h2 := (hb g).1 hbg f hfv (Ne.symm hne)
    rw [betterOp_asymm h1] at h2
    cases h2

theorem accepts_usableOn (q : Quals) (o : Object) : accepts q o = true ↔ UsableOn q o := by
  obtain ⟨c, v, r, n⟩ := q
  obtain ⟨oc, ov, ol⟩ := o
  unfold accepts UsableOn
  cases c <;> cases v <;> cases r <;> cases oc <;> cases ov <;> cases ol <;> simp

theorem betterObject_nearer (q q' : Quals) : betterObject q q' = true ↔ NearerObject q q' := by
  obtain ⟨c, v, r, n⟩ := q
  obtain ⟨c', v', r', n'⟩ := q'
  unfold betterObject NearerObject FewerCv
  cases c <;> cases v <;> cases r <;> cases c' <;> cases v' <;> cases r' <;> simp

theorem closer_nearer (p p' : Param) : closer .duration p p' = true ↔ NearerDuration p p' := by
  unfold NearerDuration Direct
  cases p <;> cases p' <;> simp [closer]

theorem closer_timer (p p' : Param) : closer .constTimer p p' = false := by
  cases p <;> cases p' <;> rfl

theorem candidate_duration (p : Param) : p.candidate .duration = true ↔ p ≠ .timerRef ∧ p ≠ .other := by
  cases p <;> simp [Param.candidate, Param.fromDuration]

theorem candidate_timer (p : Param) : p.candidate .constTimer = true ↔ TakesTimer p ∨ p = .timer := by
  cases p <;> simp [Param.candidate, Param.fromConstTimer, TakesTimer]

theorem fromConstTimer_iff (p : Param) : p.fromConstTimer = true ↔ TakesTimer p := by
  cases p <;> simp [Param.fromConstTimer, TakesTimer]

theorem accepts_stored (q : Quals) : accepts q { lvalue := true } = true ↔ q.ref ≠ .rvalue := by
  rw [accepts_usableOn]
  simp [UsableOn]

theorem betterOp_timer {f g : CallOp} (hf : f.q.ref ≠ .rvalue) (hg : g.q.ref ≠ .rvalue) :
    betterOp .constTimer f g = true ↔ FewerCv f.q g.q ∨
      (¬ FewerCv g.q f.q ∧ f.param ≠ .anything ∧ g.param = .anything) := by
  obtain ⟨⟨c, v, r, n⟩, p⟩ := f
  obtain ⟨⟨c', v', r', n'⟩, p'⟩ := g
  simp only [betterOp, closer_timer, betterObject, FewerCv]
  revert hf hg
  cases c <;> cases v <;> cases r <;> cases c' <;> cases v' <;> cases r' <;> simp

/-- Which call operator runs: the one that the language calls for the timer. -/
theorem C133_runs {ops : List CallOp} (hn : ops.Nodup) (f : CallOp) : runs ops = some f ↔ Runs ops f := by
  rw [runs, Option.filter_eq_some_iff, resolve_eq_some hn, fromConstTimer_iff]
  simp only [accepts_stored, candidate_timer, Runs]
  constructor
  · rintro ⟨⟨⟨h1, h2, h3⟩, h4⟩, h5⟩
    exact ⟨⟨h1, h5, h2⟩, fun g hg hc hr hne => (betterOp_timer h2 hr).1 (h4 g hg hr hc hne)⟩
  · rintro ⟨⟨h1, h2, h3⟩, h4⟩
    exact ⟨⟨⟨h1, h3, Or.inl h2⟩, fun g hg hr hc hne => (betterOp_timer h3 hr).2 (h4 g hg hc hr hne)⟩, h2⟩

/-- A call operator for a constant timer, one for a `duration`, and a template. -/
def threeOps : List CallOp := [⟨{}, .duration⟩, ⟨{}, .anything⟩, ⟨{}, .constTimer⟩]

example : Runs threeOps ⟨{}, .constTimer⟩ := (C133_runs (by decide) _).1 (by decide)

theorem resolve_probed {ops : List CallOp} (hn : ops.Nodup) (o : Object) (f : CallOp) :
    resolve ops .duration o = some f ↔ Probed ops o f := by
  rw [resolve_eq_some hn]
  simp only [accepts_usableOn, candidate_duration, Probed, betterOp, Bool.and_eq_true, Bool.or_eq_true,
    Bool.not_eq_true', ← Bool.not_eq_true, betterObject_nearer, closer_nearer, bne_iff_ne, decide_eq_true_eq,
    and_imp, and_assoc, or_assoc, ne_eq]

/-- The exact condition: the operator for the timer is not all that is asked for, but also that there is one for
a `duration`, which is never called. -/
theorem C133_exact {maxAlign maxSize : Nat} {c : Overloaded} {o : Object} (hn : c.ops.Nodup) :
    acceptedOverloaded maxAlign maxSize c o = true ↔
      Fits maxAlign maxSize c o ∧ (∃ f, Runs c.ops f) ∧ ∃ f, Probed c.ops o f := by
  simp only [acceptedOverloaded, Bool.and_eq_true, Option.isSome_iff_exists, resolve_probed hn, C133_runs hn, Fits,
    decide_eq_true_eq]
  constructor
  · rintro ⟨⟨⟨⟨h1, h2⟩, h3⟩, h4⟩, h5⟩
    exact ⟨⟨h3, h4, h5⟩, h2, h1⟩
  · rintro ⟨⟨h3, h4, h5⟩, h2, h1⟩
    exact ⟨⟨⟨⟨h1, h2⟩, h3⟩, h4⟩, h5⟩

example : (∃ f, Runs threeOps f) ∧ ∃ f, Probed threeOps {} f :=
  ((C133_exact (c := ⟨threeOps, 8, 8, fun _ => true⟩) (maxAlign := 8) (maxSize := 8) (by decide)).1
    (by decide)).2

/-- Whatever is accepted can be stored and called with the timer. -/
theorem C133_sound {maxAlign maxSize : Nat} {c : Overloaded} {o : Object} (hn : c.ops.Nodup)
    (h : acceptedOverloaded maxAlign maxSize c o = true) : Fits maxAlign maxSize c o ∧ ∃ f, Runs c.ops f :=
  ⟨((C133_exact hn).1 h).1, ((C133_exact hn).1 h).2.1⟩

example : ∃ f, Runs threeOps f := (C133_sound (c := ⟨threeOps, 8, 8, fun _ => true⟩) (maxAlign := 8) (maxSize := 8)
  (o := {}) (by decide) (by decide)).2

theorem fewerCv_irrefl (q : Quals) : ¬ FewerCv q q := fun h => h.2.2 ⟨rfl, rfl⟩

theorem nearerObject_irrefl (q : Quals) : ¬ NearerObject q q := by
  rintro (h | h)
  · rw [h.1] at h; exact absurd h.2 (by decide)
  · exact fewerCv_irrefl q h.2

/-- If all operators are qualified alike, which operator runs depends on the parameters alone. -/
theorem C133_alike {ops : List CallOp} {q : Quals} (hq : ∀ f ∈ ops, f.q = q) (hr : q.ref ≠ .rvalue) (f : CallOp) :
    Runs ops f ↔ f ∈ ops ∧ (∀ g ∈ ops, g.param ≠ .timer) ∧
      (f.param = .constTimer ∨ (f.param = .anything ∧ ∀ g ∈ ops, g.param ≠ .constTimer)) := by
  constructor
  · rintro ⟨⟨h1, h2, h3⟩, h4⟩
    have no : ∀ g ∈ ops, TakesTimer g.param ∨ g.param = .timer → g ≠ f → f.param ≠ .anything ∧ g.param = .anything := by
      intro g hg hc hne
      rcases h4 g hg hc (by rw [hq g hg]; exact hr) hne with h | h
      · rw [hq f h1, hq g hg] at h
        exact absurd h (fewerCv_irrefl q)
      · exact h.2
    refine ⟨h1, ?_, ?_⟩
    · intro g hg e
      have hne : g ≠ f := by
        rintro rfl
        rcases h2 with h | h <;> rw [e] at h <;> cases h
      have := (no g hg (Or.inr e) hne).2
      rw [e] at this
      cases this
    · rcases h2 with h | h
      · exact Or.inl h
      · refine Or.inr ⟨h, fun g hg e => ?_⟩
        have hne : g ≠ f := by
          rintro rfl
          rw [e] at h
          cases h
        exact (no g hg (Or.inl (Or.inl e)) hne).1 h
  · rintro ⟨h1, h2, h3⟩
    refine ⟨⟨h1, h3.imp id And.left, by rw [hq f h1]; exact hr⟩, fun g hg hc hr' hne => ?_⟩
    have ext : g.param = f.param → g = f := by
      intro e
      have e1 := hq f h1
      have e2 := hq g hg
      cases f; cases g
      simp_all
    refine Or.inr ⟨by rw [hq f h1, hq g hg]; exact fewerCv_irrefl q, ?_⟩
    rcases hc with (hc | hc) | hc
    · rcases h3 with h3 | h3
      · exact absurd (ext (hc.trans h3.symm)) hne
      · exact absurd hc (h3.2 g hg)
    · rcases h3 with h3 | h3
      · exact ⟨by rw [h3]; decide, hc⟩
      · exact absurd (ext (hc.trans h3.1.symm)) hne
    · exact absurd hc (h2 g hg)

example : Runs threeOps ⟨{}, .constTimer⟩ ∧ ¬ Runs (⟨{}, .timer⟩ :: threeOps) ⟨{}, .constTimer⟩ := by
  refine ⟨(C133_alike (q := {}) (by decide) (by decide) _).2 ⟨by decide, by decide, Or.inl rfl⟩, fun h => ?_⟩
  exact ((C133_alike (q := {}) (by decide) (by decide) _).1 h).2.1 ⟨{}, .timer⟩ (by decide) rfl

/-- The converse of `C133_sound`, which is false in general, for operators that are qualified alike: then one for
a `duration` is found whenever one for the timer is, provided the object is passed in a form on which the
operators can be called.  Missing: operators with different qualifiers, where `C133_exact` decides. -/
theorem C133_complete_partial {maxAlign maxSize : Nat} {c : Overloaded} {o : Object} {q : Quals} (hn : c.ops.Nodup)
    (hq : ∀ f ∈ c.ops, f.q = q) (ho : UsableOn q o) (hf : Fits maxAlign maxSize c o) (hr : ∃ f, Runs c.ops f) :
    acceptedOverloaded maxAlign maxSize c o = true := by
  refine (C133_exact hn).2 ⟨hf, hr, ?_⟩
  obtain ⟨f, hf⟩ := hr
  have hfq : q.ref ≠ .rvalue := hq f hf.1.1 ▸ hf.1.2.2
  obtain ⟨h1, h2, h3⟩ := (C133_alike hq hfq f).1 hf
  have ext : ∀ x ∈ c.ops, ∀ y ∈ c.ops, x.param = y.param → x = y := by
    intro x hx y hy e
    have e1 := hq x hx
    have e2 := hq y hy
    cases x; cases y
    simp_all
  have pick : ∀ x ∈ c.ops, x.param ≠ .timerRef → x.param ≠ .other →
      (∀ g ∈ c.ops, g.param ≠ .timerRef → g.param ≠ .other → g ≠ x → ¬ NearerDuration g.param x.param ∧
        (NearerDuration x.param g.param ∨ (x.param ≠ .anything ∧ g.param = .anything))) → Probed c.ops o x := by
    intro x hx hx1 hx2 hall
    refine ⟨⟨hx, by rw [hq x hx]; exact ho, hx1, hx2⟩, fun g hg _ hg1 hg2 hne => ?_⟩
    obtain ⟨a1, a2⟩ := hall g hg hg1 hg2 hne
    exact ⟨by rw [hq x hx, hq g hg]; exact nearerObject_irrefl q, a1, Or.inr a2⟩
  by_cases hd : ∃ x ∈ c.ops, x.param = .duration
  · obtain ⟨x, hx, e⟩ := hd
    refine ⟨x, pick x hx (by rw [e]; decide) (by rw [e]; decide) fun g hg hg1 hg2 hne => ?_⟩
    have hgne : g.param ≠ .duration := fun e' => hne (ext g hg x hx (e'.trans e.symm))
    rw [e]
    simp only [NearerDuration, Direct]
    cases hp : g.param <;> simp_all
  · have hd' : ∀ x ∈ c.ops, x.param ≠ .duration := fun x hx e => hd ⟨x, hx, e⟩
    by_cases ha : ∃ x ∈ c.ops, x.param = .anything
    · obtain ⟨x, hx, e⟩ := ha
      refine ⟨x, pick x hx (by rw [e]; decide) (by rw [e]; decide) fun g hg hg1 hg2 hne => ?_⟩
      have hgne : g.param ≠ .anything := fun e' => hne (ext g hg x hx (e'.trans e.symm))
      have := hd' g hg
      have := h2 g hg
      rw [e]
      simp only [NearerDuration, Direct]
      cases hp : g.param <;> simp_all
    · have ha' : ∀ x ∈ c.ops, x.param ≠ .anything := fun x hx e => ha ⟨x, hx, e⟩
      have hfc : f.param = .constTimer := h3.resolve_right fun h => ha' f h1 h.1
      by_cases hrr : ∃ x ∈ c.ops, x.param = .timerRRef
      · obtain ⟨x, hx, e⟩ := hrr
        refine ⟨x, pick x hx (by rw [e]; decide) (by rw [e]; decide) fun g hg hg1 hg2 hne => ?_⟩
        have hgne : g.param ≠ .timerRRef := fun e' => hne (ext g hg x hx (e'.trans e.symm))
        have := hd' g hg
        have := ha' g hg
        have := h2 g hg
        rw [e]
        simp only [NearerDuration, Direct]
        cases hp : g.param <;> simp_all
      · have hrr' : ∀ x ∈ c.ops, x.param ≠ .timerRRef := fun x hx e => hrr ⟨x, hx, e⟩
        refine ⟨f, pick f h1 (by rw [hfc]; decide) (by rw [hfc]; decide) fun g hg hg1 hg2 hne => ?_⟩
        have hgne : g.param ≠ .constTimer := fun e' => hne (ext g hg f h1 (e'.trans hfc.symm))
        have := hd' g hg
        have := ha' g hg
        have := hrr' g hg
        have := h2 g hg
        exfalso
        cases hp : g.param <;> simp_all

example : acceptedOverloaded 8 8 ⟨threeOps, 8, 4, fun _ => true⟩ {} = true :=
  C133_complete_partial (q := {}) (by decide) (by decide) ⟨by decide, by decide, by decide, by decide⟩
    ⟨by decide, by decide, rfl⟩ ⟨⟨{}, .constTimer⟩, (C133_runs (by decide) _).1 (by decide)⟩

/-- The full claim, `Fits` and `Runs` suffice for acceptance, is false: a class with an operator for the timer
and a `const` one for a `duration` is rejected, since for an object that is not constant it is ambiguous which of
them a `duration` goes to.  Without the second operator, or if both are `const`, the class is accepted. -/
theorem C133_counterexample :
    Fits 8 8 ⟨[⟨{}, .constTimer⟩, ⟨{ isConst := true }, .duration⟩], 8, 8, fun _ => true⟩ {} ∧
    Runs [⟨{}, .constTimer⟩, ⟨{ isConst := true }, .duration⟩] ⟨{}, .constTimer⟩ ∧
    acceptedOverloaded 8 8 ⟨[⟨{}, .constTimer⟩, ⟨{ isConst := true }, .duration⟩], 8, 8, fun _ => true⟩ {} = false ∧
    acceptedOverloaded 8 8 ⟨[⟨{}, .constTimer⟩], 8, 8, fun _ => true⟩ {} = true ∧
    acceptedOverloaded 8 8 ⟨[⟨{ isConst := true }, .constTimer⟩, ⟨{ isConst := true }, .duration⟩], 8, 8,
      fun _ => true⟩ {} = true :=
  ⟨⟨by decide, by decide, rfl⟩, (C133_runs (by decide) _).1 (by decide), by decide, by decide, by decide⟩

/-- Operators that take no timer have no influence on which one runs. -/
theorem C133_ignored {ops more : List CallOp} (hn : (ops ++ more).Nodup)
    (hm : ∀ g ∈ more, ¬ TakesTimer g.param ∧ g.param ≠ .timer) : runs (ops ++ more) = runs ops := by
  have hno : ops.Nodup := (List.nodup_append.1 hn).1
  have key : ∀ f, runs (ops ++ more) = some f ↔ runs ops = some f := by
    intro f
    rw [C133_runs hn, C133_runs hno]
    constructor
    · rintro ⟨⟨h1, h2, h3⟩, h4⟩
      refine ⟨⟨?_, h2, h3⟩, fun g hg => h4 g (List.mem_append_left _ hg)⟩
      rcases List.mem_append.1 h1 with h | h
      · exact h
      · exact absurd h2 (hm f h).1
    · rintro ⟨⟨h1, h2, h3⟩, h4⟩
      refine ⟨⟨List.mem_append_left _ h1, h2, h3⟩, fun g hg hc => ?_⟩
      rcases List.mem_append.1 hg with h | h
      · exact h4 g h hc
      · rcases hc with hc | hc
        · exact absurd hc (hm g h).1
        · exact absurd hc (hm g h).2
  cases h : runs ops with
  | some f => exact (key f).2 h
  | none =>
    cases h' : runs (ops ++ more) with
    | none => rfl
    | some f => rw [(key f).1 h'] at h; cases h

example : runs ([⟨{ isConst := true }, .anything⟩] ++ [⟨{}, .duration⟩]) = some ⟨{ isConst := true }, .anything⟩ :=
  C133_ignored (by decide) (by simp [TakesTimer])

/-- With one call operator this is the condition of C97. -/
theorem C133_single (maxAlign maxSize : Nat) (c : Functor) (o : Object) :
    acceptedOverloaded maxAlign maxSize ⟨[⟨c.q, c.param⟩], c.size, c.align, c.constructible⟩ o =
      accepted maxAlign maxSize (.object c o) := by
  have one : ∀ given o', resolve [⟨c.q, c.param⟩] given o' =
      if accepts c.q o' && c.param.candidate given then some ⟨c.q, c.param⟩ else none := by
    intro given o'
    cases h : accepts c.q o' && c.param.candidate given <;> simp [resolve, h]
  obtain ⟨q, p, size, align, con⟩ := c
  cases h1 : accepts q o <;> cases h2 : accepts q { lvalue := true } <;> cases p <;>
    simp [acceptedOverloaded, runs, one, accepted, storable, checked, removeCvref, isCallbackRef, layout, finishes,
      placed, h1, h2, Param.candidate, Param.fromDuration, Param.fromConstTimer, Option.filter]

example : acceptedOverloaded 8 8 ⟨[⟨{ isConst := true }, .constTimer⟩], 8, 8, fun _ => true⟩ {} = true :=
  (C133_single 8 8 (lambdaLike { isConst := true } .constTimer) {}).trans (by decide)

end Utils.Props
