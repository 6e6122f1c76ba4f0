import Verif.Spec.Using
import Verif.Props.Traits
import Verif.Props.TimerOverload

/-! # Property C137: method checkers and using-declarations -/

namespace Utils.Props

open Utils.Traits
open Utils.Spec (UsableOn NearerObject SameSignature Offers Distinct Viable Selected)

variable {τ : Type}

theorem sameSignature_iff [DecidableEq τ] (f g : Fn τ) : sameSignature f g = true ↔ SameSignature f g := by
  obtain ⟨r, p, e, ⟨c, v, rf, n⟩⟩ := f
  obtain ⟨r', p', e', ⟨c', v', rf', n'⟩⟩ := g
  simp [sameSignature, SameSignature]

theorem sameSignature_of_fits {f g t : Fn τ} (hf : Fits f t) (hg : Fits g t) : SameSignature f g := by
  obtain ⟨r, p, e, ⟨c, v, rf, n⟩⟩ := f
  obtain ⟨r', p', e', ⟨c', v', rf', n'⟩⟩ := g
  obtain ⟨-, a2, a3, a4, a5, a6, -⟩ := hf
  obtain ⟨-, b2, b3, b4, b5, b6, -⟩ := hg
  simp only at a2 a3 a4 a5 a6 b2 b3 b4 b5 b6
  simp [SameSignature, a2, a3, a4, a5, a6, b2, b3, b4, b5, b6]

/-- What the model collects is what the class offers. -/
theorem mem_candidates [DecidableEq τ] (c : UsingClass τ) (x : Candidate τ) : x ∈ candidates c ↔ Offers c x := by
  unfold candidates
  simp only [List.mem_append, List.mem_map, List.mem_flatMap, List.mem_filter, Bool.not_eq_true',
    List.any_eq_false, sameSignature_iff]
  constructor
  · rintro (⟨⟨a, b, f⟩, h, rfl⟩ | ⟨u, hu, ⟨st, f⟩, ⟨hf, hh⟩, rfl⟩)
    · exact .own h
    · exact .used hu hf fun pub st' g hg => hh _ hg
  · rintro (h | ⟨h, hf, hh⟩)
    · exact Or.inl ⟨_, h, rfl⟩
    · exact Or.inr ⟨_, h, _, ⟨hf, fun y hy => hh _ _ _ hy⟩, rfl⟩

/-- No two candidates have the same signature. -/
theorem candidates_distinct [DecidableEq τ] {c : UsingClass τ} (h : Distinct c) :
    (candidates c).Pairwise fun x y => ¬ SameSignature x.fn y.fn := by
  unfold candidates
  rw [List.pairwise_append]
  refine ⟨List.pairwise_map.2 h.own, ?_, ?_⟩
  · have h2 := h.used
    rw [List.flatMap_def, List.pairwise_flatten] at h2 ⊢
    obtain ⟨h3, h4⟩ := h2
    refine ⟨fun l hl => ?_, ?_⟩
    · obtain ⟨u, hu, rfl⟩ := List.mem_map.1 hl
      exact List.pairwise_map.2 ((h3 _ (List.mem_map.2 ⟨u, hu, rfl⟩)).filter _)
    · rw [List.pairwise_map] at h4 ⊢
      refine h4.imp fun {u v} huv x hx y hy => ?_
      obtain ⟨a, ha, rfl⟩ := List.mem_map.1 hx
      obtain ⟨b, hb, rfl⟩ := List.mem_map.1 hy
      exact huv a (List.mem_filter.1 ha).1 b (List.mem_filter.1 hb).1
  · intro x hx y hy
    obtain ⟨a, ha, rfl⟩ := List.mem_map.1 hx
    simp only [List.mem_flatMap, List.mem_map, List.mem_filter, Bool.not_eq_true', List.any_eq_false,
      sameSignature_iff] at hy
    obtain ⟨u, -, b, ⟨-, hb⟩, rfl⟩ := hy
    exact hb a ha

/-- A filter that leaves functions of one signature leaves at most one. -/
theorem one_of_filter [DecidableEq τ] {c : UsingClass τ} (h : Distinct c) (p : Candidate τ → Bool)
    (hp : ∀ x y, p x = true → p y = true → SameSignature x.fn y.fn) (Q : Candidate τ → Bool) :
    (match (candidates c).filter p with | [x] => Q x | _ => false) = true ↔
      ∃ x, Offers c x ∧ p x = true ∧ Q x = true := by
  have hpw := (candidates_distinct h).filter p
  have hmem : ∀ x, x ∈ (candidates c).filter p ↔ Offers c x ∧ p x = true := by
    intro x
    rw [List.mem_filter, mem_candidates]
  generalize (candidates c).filter p = l at hpw hmem
  match l, hpw, hmem with
  | [], _, hmem =>
    refine ⟨nofun, ?_⟩
    rintro ⟨x, h1, h2, -⟩
    cases (hmem x).2 ⟨h1, h2⟩
  | [x], _, hmem =>
    have hx := (hmem x).1 (by simp)
    constructor
    · exact fun hq => ⟨x, hx.1, hx.2, hq⟩
    · rintro ⟨y, h1, h2, hq⟩
      obtain rfl : y = x := by simpa using (hmem y).2 ⟨h1, h2⟩
      exact hq
  | x :: y :: l, hpw, hmem =>
    exfalso
    rw [List.pairwise_cons] at hpw
    exact hpw.1 y (by simp) (hp x y ((hmem x).1 (by simp)).2 ((hmem y).1 (by simp)).2)

/-- `has_invocable_r_NAME...<R, T, Args...>` and using-declarations: the function has to be offered by `T` and
public in `T`, and its class a base of `T` that is public, not virtual and occurs once. -/
theorem C137_method [DecidableEq τ] {c : UsingClass τ} (h : Distinct c) (target : Fn τ) :
    hasInvocableRUsing c target = true ↔
      ∃ x, Offers c x ∧ x.isPublic = true ∧ x.isStatic = false ∧ Fits x.fn target ∧
        ∀ b, x.base = some b → b.isPublic = true ∧ b.once = true ∧ b.isVirtual = false := by
  unfold hasInvocableRUsing
  refine (one_of_filter h (fun x => !x.isStatic && pointerConvertible x.fn target)
    (fun x y hx hy => by
      simp only [Bool.and_eq_true, pointerConvertible_iff] at hx hy
      exact sameSignature_of_fits hx.2 hy.2)
    (fun x => x.isPublic && x.base.all (·.pointerConverts))).trans ?_
  refine exists_congr fun x => and_congr_right fun _ => ?_
  simp only [Bool.and_eq_true, Bool.not_eq_true', pointerConvertible_iff, BaseOf.pointerConverts,
    Option.all_eq_true]
  constructor
  · rintro ⟨⟨a, b⟩, d, e⟩
    exact ⟨d, a, b, fun y hy => ⟨(e y hy).1.1, (e y hy).1.2, (e y hy).2⟩⟩
  · rintro ⟨d, a, b, e⟩
    exact ⟨⟨a, b⟩, d, fun y hy => ⟨⟨(e y hy).1, (e y hy).2.1⟩, (e y hy).2.2⟩⟩

/-- **C137** for `has_invocable_r_NAME...`, if the using-declarations name public base classes that are not virtual
and occur once.  Missing: the other base classes, for which it is false. -/
theorem C137_method_partial [DecidableEq τ] {c : UsingClass τ} (h : Distinct c)
    (hb : ∀ u ∈ c.usings, u.base.isPublic = true ∧ u.base.once = true ∧ u.base.isVirtual = false) (target : Fn τ) :
    hasInvocableRUsing c target = true ↔
      ∃ x, Offers c x ∧ x.isPublic = true ∧ x.isStatic = false ∧ Fits x.fn target := by
  rw [C137_method h]
  refine exists_congr fun x => ⟨fun ⟨a, b, d, e, _⟩ => ⟨a, b, d, e⟩, fun ⟨a, b, d, e⟩ => ⟨a, b, d, e, ?_⟩⟩
  intro y hy
  cases a with
  | own _ => cases hy
  | used hu _ _ => cases hy; exact hb _ hu

/-- **C137** for `has_static_invocable_r_NAME[_noexcept]<R, T, Args...>`: how the base is inherited does not
matter. -/
theorem C137_static [DecidableEq τ] {c : UsingClass τ} (h : Distinct c) (target : Fn τ) :
    hasStaticInvocableRUsing c target = true ↔
      ∃ x, Offers c x ∧ x.isPublic = true ∧ x.isStatic = true ∧ Fits x.fn target := by
  unfold hasStaticInvocableRUsing
  refine (one_of_filter h (fun x => x.isStatic && pointerConvertible x.fn target)
    (fun x y hx hy => by
      simp only [Bool.and_eq_true, pointerConvertible_iff] at hx hy
      exact sameSignature_of_fits hx.2 hy.2) (·.isPublic)).trans ?_
  refine exists_congr fun x => and_congr_right fun _ => ?_
  simp only [Bool.and_eq_true, pointerConvertible_iff]
  exact ⟨fun ⟨⟨a, b⟩, d⟩ => ⟨d, a, b⟩, fun ⟨d, a, b⟩ => ⟨⟨a, b⟩, d⟩⟩

theorem nearer_asymm {q q' : Quals} (h : NearerObject q q') : ¬ NearerObject q' q := by
  rw [← betterObject_nearer] at h ⊢
  obtain ⟨c, v, r, n⟩ := q
  obtain ⟨c', v', r', n'⟩ := q'
  unfold betterObject at h ⊢
  revert h
  cases c <;> cases v <;> cases r <;> cases c' <;> cases v' <;> cases r' <;> simp

theorem viable_iff [DecidableEq τ] (c : UsingClass τ) (o : Object) (args : List τ) (x : Candidate τ) :
    x ∈ ((candidates c).filter fun x => x.fn.params = args && (x.isStatic || accepts x.fn.q o)) ↔
      Offers c x ∧ Viable o args x := by
  simp only [List.mem_filter, mem_candidates, Viable, Bool.and_eq_true, Bool.or_eq_true, decide_eq_true_eq,
    accepts_usableOn]

/-- The call that `has_invocable_NAME[_noexcept]` looks at: the function that the language selects among those that
`T` offers has to be public in `T`, and its class, unless it is static, a base that occurs once.  Private and
virtual bases do not matter. -/
theorem C137_call [DecidableEq τ] {c : UsingClass τ} (h : Distinct c) (o : Object) (args : List τ) (r : τ) (n : Bool) :
    callUsing c o args = some (r, n) ↔
      ∃ x, Selected c o args x ∧ x.isPublic = true ∧
        (x.isStatic = true ∨ ∀ b, x.base = some b → b.once = true) ∧ r = x.fn.ret ∧ n = x.fn.q.isNoexcept := by
  have hv := viable_iff c o args
  have hnd : ((candidates c).filter fun x => x.fn.params = args && (x.isStatic || accepts x.fn.q o)).Nodup := by
    refine ((candidates_distinct h).filter _).imp fun {x y} hxy he => ?_
    subst he
    exact hxy ⟨rfl, rfl, rfl⟩
  unfold callUsing
  simp only
  generalize ((candidates c).filter fun x => x.fn.params = args && (x.isStatic || accepts x.fn.q o)) = viable
    at hv hnd
  have hb : ∀ x, x ∈ (viable.filter fun x => viable.all fun y =>
      decide (y = x) || (!x.isStatic && !y.isStatic && betterObject x.fn.q y.fn.q)) ↔ Selected c o args x := by
    intro x
    rw [List.mem_filter, hv, List.all_eq_true, and_assoc]
    unfold Selected
    refine and_congr_right fun _ => and_congr_right fun _ => ?_
    constructor
    · intro ha y h1 h2 hne
      have := ha y ((hv y).2 ⟨h1, h2⟩)
      simp only [Bool.or_eq_true, decide_eq_true_eq, hne, false_or, Bool.and_eq_true, Bool.not_eq_true',
        betterObject_nearer] at this
      exact ⟨this.1.1, this.1.2, this.2⟩
    · intro ha y hy
      obtain ⟨h1, h2⟩ := (hv y).1 hy
      simp only [Bool.or_eq_true, decide_eq_true_eq, Bool.and_eq_true, Bool.not_eq_true', betterObject_nearer]
      by_cases hne : y = x
      · exact Or.inl hne
      · obtain ⟨a, b, d⟩ := ha y h1 h2 hne
        exact Or.inr ⟨⟨a, b⟩, d⟩
  have hone : ∀ x y, Selected c o args x → Selected c o args y → x = y := by
    intro x y hx hy
    refine Classical.byContradiction fun hne => ?_
    exact nearer_asymm (hx.2.2 y hy.1 hy.2.1 (fun e => hne e.symm)).2.2 (hy.2.2 x hx.1 hx.2.1 hne).2.2
  have hnd2 := List.Pairwise.filter (fun x => viable.all fun y =>
      decide (y = x) || (!x.isStatic && !y.isStatic && betterObject x.fn.q y.fn.q)) hnd
  generalize (viable.filter fun x => viable.all fun y =>
      decide (y = x) || (!x.isStatic && !y.isStatic && betterObject x.fn.q y.fn.q)) = best at hb hnd2
  match best, hb, hnd2 with
  | [], hb, _ =>
    refine ⟨nofun, ?_⟩
    rintro ⟨x, hx, -⟩
    cases (hb x).2 hx
  | [x], hb, _ =>
    have hx := (hb x).1 (by simp)
    simp only
    constructor
    · intro e
      split at e
      · rename_i hc
        cases e
        simp only [Bool.and_eq_true, Bool.or_eq_true, Option.all_eq_true] at hc
        exact ⟨x, hx, hc.1, hc.2, rfl, rfl⟩
      · cases e
    · rintro ⟨y, hy, h1, h2, rfl, rfl⟩
      obtain rfl := hone y x hy hx
      rw [if_pos]
      simp only [Bool.and_eq_true, Bool.or_eq_true, Option.all_eq_true]
      exact ⟨h1, h2⟩
  | x :: y :: l, hb, hnd2 =>
    exfalso
    have := hone x y ((hb x).1 (by simp)) ((hb y).1 (by simp))
    subst this
    simp at hnd2

/-- **C137** for `has_invocable_NAME[_noexcept]_v<T, Args...>`, if no base class occurs more than once.  Missing: the
others, where the object does not convert. -/
theorem C137_call_partial [DecidableEq τ] (nonesuch : τ) {boolConstant : Bool → τ} {c : UsingClass τ}
    (h : Distinct c) (hb : ∀ u ∈ c.usings, u.base.once = true) (o : Object) (args : List τ)
    (h1 : boolConstant true ≠ boolConstant false) (h2 : boolConstant true ≠ nonesuch) :
    (hasInvocable nonesuch (callUsing c o) args = true ↔ ∃ x, Selected c o args x ∧ x.isPublic = true) ∧
    (hasInvocableNoexcept nonesuch boolConstant (callUsing c o) args = true ↔
      ∃ x, Selected c o args x ∧ x.isPublic = true ∧ x.fn.q.isNoexcept = true) := by
  have hbase : ∀ x, Selected c o args x → x.isStatic = true ∨ ∀ b, x.base = some b → b.once = true := by
    intro x hx
    refine Or.inr fun b hb' => ?_
    cases hx.1 with
    | own _ => cases hb'
    | used hu _ _ => cases hb'; exact hb _ hu
  rw [(C78_call nonesuch _ args h1 h2).1, (C78_call nonesuch _ args h1 h2).2]
  simp only [C137_call h]
  constructor
  · exact ⟨fun ⟨_, _, x, hx, hp, _⟩ => ⟨x, hx, hp⟩, fun ⟨x, hx, hp⟩ => ⟨_, _, x, hx, hp, hbase x hx, rfl, rfl⟩⟩
  · exact ⟨fun ⟨_, x, hx, hp, _, _, hn⟩ => ⟨x, hx, hp, hn.symm⟩,
      fun ⟨x, hx, hp, hn⟩ => ⟨_, x, hx, hp, hbase x hx, rfl, hn.symm⟩⟩

/-- Without using-declarations the checkers are those of C74 and C115. -/
theorem C137_plain [DecidableEq τ] (l : List (Fn τ)) (target : Fn τ) (o : Object) (args : List τ) :
    hasInvocableRUsing ⟨l.map fun f => (true, false, f), []⟩ target =
      hasInvocableR (.functions (l.map fun f => (false, f))) target ∧
    callUsing ⟨l.map fun f => (true, false, f), []⟩ o args = overloadedCall l o args := by
  have hc : candidates (⟨l.map fun f => (true, false, f), []⟩ : UsingClass τ) =
      l.map fun f => ⟨true, false, f, none⟩ := by
    simp [candidates]
  constructor
  · unfold hasInvocableRUsing hasInvocableR
    rw [hc]
    simp only [List.filter_map, Function.comp_def, Bool.not_false, Bool.true_and, List.length_map]
    match l.filter fun f => pointerConvertible f target with
    | [] => rfl
    | [_] => rfl
    | _ :: _ :: _ => simp
  · unfold callUsing overloadedCall
    rw [hc]
    simp only [List.filter_map, Function.comp_def, Bool.false_or, List.all_map, Bool.not_false, Bool.true_and,
      Candidate.mk.injEq, and_true, true_and]
    generalize (l.filter fun f => decide (f.params = args) && accepts f.q o) = v
    match v.filter fun f => v.all fun g => decide (g = f) || betterObject f.q g.q with
    | [] => rfl
    | [_] => rfl
    | _ :: _ :: _ => rfl

/-- `int NAME()`. -/
def exGet : Fn Nat := ⟨0, [], false, {}⟩
/-- `int NAME() const`. -/
def exGetC : Fn Nat := ⟨0, [], false, { isConst := true }⟩

/-- `struct B { int NAME(); int NAME() const; };`
`struct T : B { using B::NAME; int NAME() const; };`: the first comes from `B`, the second is `T`'s own. -/
def exUsing (base : BaseOf) : UsingClass Nat := ⟨[(true, false, exGetC)], [⟨true, base, [(false, exGet), (false, exGetC)]⟩]⟩

theorem exUsing_distinct (base : BaseOf) : Distinct (exUsing base) :=
  ⟨by simp [exUsing], by simp [exUsing, SameSignature, exGet, exGetC]⟩

/-- It meets the hypotheses, offers two functions, and the checkers see both. -/
example : candidates (exUsing {}) = [⟨true, false, exGetC, none⟩, ⟨true, false, exGet, some {}⟩] ∧
    hasInvocableRUsing (exUsing {}) exGet = true ∧ hasInvocableRUsing (exUsing {}) exGetC = true ∧
    callUsing (exUsing {}) {} [] = some (0, false) := by
  decide

example : ∃ x, Offers (exUsing {}) x ∧ x.isPublic = true ∧ x.isStatic = false ∧ Fits x.fn exGet :=
  (C137_method_partial (exUsing_distinct {}) (by simp [exUsing]) exGet).1 (by decide)

example : ∃ x, Offers (⟨[], [⟨true, { isPublic := false }, [(true, exGet)]⟩]⟩ : UsingClass Nat) x ∧ x.isPublic = true ∧
    x.isStatic = true ∧ Fits x.fn exGet :=
  (C137_static ⟨by simp, by simp⟩ exGet).1 (by decide)

/-- A call on a const object, with a private base: the function of `T` is selected. -/
example : ∃ x, Selected (exUsing { isPublic := false }) { isConst := true } [] x ∧ x.isPublic = true :=
  (C137_call_partial (τ := Nat) 9 (boolConstant := fun b => if b then 1 else 0) (exUsing_distinct _)
    (by simp [exUsing]) { isConst := true } [] (by decide) (by decide)).1.1 (by decide)

/-- C137 is false.  `class T : B { public: using B::NAME; };` makes `NAME` a public member of `T`, which can be
called, but the checkers with a result type do not see it because `B` is a private base; the same with a virtual
base. -/
theorem C137_counterexample :
    (hasInvocableRUsing (exUsing { isPublic := false }) exGet = false ∧
      (∃ x, Offers (exUsing { isPublic := false }) x ∧ x.isPublic = true ∧ x.isStatic = false ∧ Fits x.fn exGet) ∧
      callUsing (exUsing { isPublic := false }) {} [] = some (0, false)) ∧
    (hasInvocableRUsing (exUsing { isVirtual := true }) exGet = false ∧
      callUsing (exUsing { isVirtual := true }) {} [] = some (0, false)) := by
  refine ⟨⟨by decide, ⟨⟨true, false, exGet, some { isPublic := false }⟩, ?_, rfl, rfl, ?_⟩, by decide⟩, by decide,
    by decide⟩
  · rw [← mem_candidates]
    decide
  · rw [← pointerConvertible_iff]
    decide

end Utils.Props
