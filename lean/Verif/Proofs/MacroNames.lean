import Verif.Spec.MacroNames

/-! # Lemmas about the names that macros declare -/

namespace Utils.MacroProofs

open Utils.Macros Utils.Spec

/-- Two beginnings without what they have in common, if one of them begins with the other. -/
def strip : List Char → List Char → Option (List Char × List Char)
  | [], q => some ([], q)
  | c :: p, [] => some (c :: p, [])
  | c :: p, d :: q => if c = d then strip p q else none

theorem strip_iff {p q u w : List Char} :
    p ++ u = q ++ w ↔ ∃ r, strip p q = some r ∧ r.1 ++ u = r.2 ++ w := by
  induction p generalizing q with
  | nil => simp [strip]
  | cons c p ih =>
    cases q with
    | nil => simp [strip]
    | cons d q =>
      by_cases h : c = d
      · subst h
        simp [strip, ih]
      · simp [strip, h]

def stripEnd (x y : List Char) : Option (List Char × List Char) :=
  (strip x.reverse y.reverse).map fun r => (r.1.reverse, r.2.reverse)

theorem stripEnd_iff {x y u w : List Char} :
    u ++ x = w ++ y ↔ ∃ r, stripEnd x y = some r ∧ u ++ r.1 = w ++ r.2 := by
  rw [← List.reverse_inj, List.reverse_append, List.reverse_append, strip_iff]
  simp only [stripEnd, Option.map_eq_some_iff]
  constructor
  · rintro ⟨r, h, e⟩
    refine ⟨_, ⟨r, h, rfl⟩, ?_⟩
    rw [← List.reverse_inj]
    simpa using e
  · rintro ⟨_, ⟨r, h, rfl⟩, e⟩
    refine ⟨r, h, ?_⟩
    rw [← List.reverse_inj] at e
    simpa using e

/-! The comparison of all shapes is computed on lists of characters: strings are much slower in the kernel. -/

abbrev Chars := List Char

abbrev c_constE : Chars := ['_', 'c', 'o', 'n', 's', 't']
abbrev c_volatileE : Chars := ['_', 'v', 'o', 'l', 'a', 't', 'i', 'l', 'e']
abbrev c_refE : Chars := ['_', 'r', 'e', 'f']
abbrev c_rrefE : Chars := ['_', 'r', 'r', 'e', 'f']
abbrev c_noexceptE : Chars := ['_', 'n', 'o', 'e', 'x', 'c', 'e', 'p', 't']
abbrev c_has_typeB : Chars := ['h', 'a', 's', '_', 't', 'y', 'p', 'e', '_']
abbrev c_helperE : Chars := ['_', 'h', 'e', 'l', 'p', 'e', 'r']
abbrev c_vE : Chars := ['_', 'v']
abbrev c_has_exact_typeB : Chars := ['h', 'a', 's', '_', 'e', 'x', 'a', 'c', 't', '_', 't', 'y', 'p', 'e', '_']
abbrev c_has_convertible_typeB : Chars :=
  ['h', 'a', 's', '_', 'c', 'o', 'n', 'v', 'e', 'r', 't', 'i', 'b', 'l', 'e', '_', 't', 'y', 'p', 'e', '_']
abbrev c_not_staticB : Chars := ['n', 'o', 't', '_', 's', 't', 'a', 't', 'i', 'c', '_']
abbrev c_typeE : Chars := ['_', 't', 'y', 'p', 'e']
abbrev c_has_dataB : Chars := ['h', 'a', 's', '_', 'd', 'a', 't', 'a', '_']
abbrev c_staticB : Chars := ['s', 't', 'a', 't', 'i', 'c', '_']
abbrev c_has_static_dataB : Chars :=
  ['h', 'a', 's', '_', 's', 't', 'a', 't', 'i', 'c', '_', 'd', 'a', 't', 'a', '_']
abbrev c_is_invocableB : Chars := ['i', 's', '_', 'i', 'n', 'v', 'o', 'c', 'a', 'b', 'l', 'e', '_']
abbrev c_tE : Chars := ['_', 't']
abbrev c_noexcept_tE : Chars := ['_', 'n', 'o', 'e', 'x', 'c', 'e', 'p', 't', '_', 't']
abbrev c_has_invocableB : Chars := ['h', 'a', 's', '_', 'i', 'n', 'v', 'o', 'c', 'a', 'b', 'l', 'e', '_']
abbrev c_noexcept_vE : Chars := ['_', 'n', 'o', 'e', 'x', 'c', 'e', 'p', 't', '_', 'v']
abbrev c_methodB : Chars := ['m', 'e', 't', 'h', 'o', 'd', '_']
abbrev c_ptr_tE : Chars := ['_', 'p', 't', 'r', '_', 't']
abbrev c_has_invocable_rB : Chars :=
  ['h', 'a', 's', '_', 'i', 'n', 'v', 'o', 'c', 'a', 'b', 'l', 'e', '_', 'r', '_']
abbrev c_static_method_resultB : Chars :=
  ['s', 't', 'a', 't', 'i', 'c', '_', 'm', 'e', 't', 'h', 'o', 'd', '_', 'r', 'e', 's', 'u', 'l', 't', '_']
abbrev c_static_method_rB : Chars :=
  ['s', 't', 'a', 't', 'i', 'c', '_', 'm', 'e', 't', 'h', 'o', 'd', '_', 'r', '_']
abbrev c_has_static_invocableB : Chars :=
  ['h', 'a', 's', '_', 's', 't', 'a', 't', 'i', 'c', '_', 'i', 'n', 'v', 'o', 'c', 'a', 'b', 'l', 'e', '_']
abbrev c_has_static_invocable_rB : Chars :=
  ['h', 'a', 's', '_', 's', 't', 'a', 't', 'i', 'c', '_', 'i', 'n', 'v', 'o', 'c', 'a', 'b', 'l', 'e', '_', 'r', '_']
abbrev c_return_tE : Chars := ['_', 'r', 'e', 't', 'u', 'r', 'n', '_', 't']
abbrev c_noexcept_return_tE : Chars :=
  ['_', 'n', 'o', 'e', 'x', 'c', 'e', 'p', 't', '_', 'r', 'e', 't', 'u', 'r', 'n', '_', 't']
abbrev c_isB : Chars := ['i', 's', '_']
abbrev c_invocableE : Chars := ['_', 'i', 'n', 'v', 'o', 'c', 'a', 'b', 'l', 'e']
abbrev c_invocable_vE : Chars := ['_', 'i', 'n', 'v', 'o', 'c', 'a', 'b', 'l', 'e', '_', 'v']
abbrev c_noexcept_invocableE : Chars :=
  ['_', 'n', 'o', 'e', 'x', 'c', 'e', 'p', 't', '_', 'i', 'n', 'v', 'o', 'c', 'a', 'b', 'l', 'e']
abbrev c_noexcept_invocable_vE : Chars :=
  ['_', 'n', 'o', 'e', 'x', 'c', 'e', 'p', 't', '_', 'i', 'n', 'v', 'o', 'c', 'a', 'b', 'l', 'e', '_', 'v']
abbrev c_invocable_rE : Chars := ['_', 'i', 'n', 'v', 'o', 'c', 'a', 'b', 'l', 'e', '_', 'r']
abbrev c_invocable_r_vE : Chars := ['_', 'i', 'n', 'v', 'o', 'c', 'a', 'b', 'l', 'e', '_', 'r', '_', 'v']
abbrev c_noexcept_invocable_rE : Chars :=
  ['_', 'n', 'o', 'e', 'x', 'c', 'e', 'p', 't', '_', 'i', 'n', 'v', 'o', 'c', 'a', 'b', 'l', 'e', '_', 'r']
abbrev c_noexcept_invocable_r_vE : Chars :=
  ['_', 'n', 'o', 'e', 'x', 'c', 'e', 'p', 't', '_', 'i', 'n', 'v', 'o', 'c', 'a', 'b', 'l', 'e', '_', 'r', '_', 'v']
abbrev c_rB : Chars := ['r', '_']
abbrev c_returnE : Chars := ['_', 'r', 'e', 't', 'u', 'r', 'n']
abbrev c_noexcept_returnE : Chars :=
  ['_', 'n', 'o', 'e', 'x', 'c', 'e', 'p', 't', '_', 'r', 'e', 't', 'u', 'r', 'n']

/-- The ends of the method checkers with result type, before `_v`. -/
def suffixChars : List Chars :=
  [[], c_constE].flatMap fun c => [[], c_volatileE].flatMap fun v => [[], c_refE, c_rrefE].flatMap fun r =>
    [[], c_noexceptE].map fun n => c ++ (v ++ (r ++ n))

/-- `shapes` as characters. -/
def shapeChars : Macro → List (Bool × Chars × Chars)
  | .type => [(true, c_has_typeB, c_helperE), (false, c_has_typeB, []), (false, c_has_typeB, c_vE),
      (false, c_has_exact_typeB, []), (false, c_has_exact_typeB, c_vE),
      (false, c_has_convertible_typeB, []), (false, c_has_convertible_typeB, c_vE)]
  | .data => [(true, c_not_staticB, c_typeE), (true, c_has_dataB, []), (false, c_has_dataB, []),
      (false, c_has_dataB, c_vE)]
  | .staticData => [(true, c_staticB, c_typeE), (true, c_has_static_dataB, []),
      (false, c_has_static_dataB, []), (false, c_has_static_dataB, c_vE)]
  | .method => [(true, c_is_invocableB, c_tE), (true, c_is_invocableB, c_noexcept_tE),
      (false, c_has_invocableB, []), (false, c_has_invocableB, c_vE),
      (false, c_has_invocableB, c_noexceptE), (false, c_has_invocableB, c_noexcept_vE)]
  | .rMethod => suffixChars.flatMap fun x => [(true, c_methodB, x ++ c_ptr_tE),
      (false, c_has_invocable_rB, x), (false, c_has_invocable_rB, x ++ c_vE)]
  | .staticMethod => [[], c_noexceptE].flatMap fun x => [(true, c_static_method_resultB, x ++ c_tE),
      (true, c_static_method_rB, x ++ c_ptr_tE),
      (false, c_has_static_invocableB, x), (false, c_has_static_invocableB, x ++ c_vE),
      (false, c_has_static_invocable_rB, x), (false, c_has_static_invocable_rB, x ++ c_vE)]
  | .freeFunction => [(true, [], c_return_tE), (true, [], c_noexcept_return_tE),
      (false, c_isB, c_invocableE), (false, c_isB, c_invocable_vE),
      (false, c_isB, c_noexcept_invocableE), (false, c_isB, c_noexcept_invocable_vE),
      (false, c_isB, c_invocable_rE), (false, c_isB, c_invocable_r_vE),
      (false, c_isB, c_noexcept_invocable_rE), (false, c_isB, c_noexcept_invocable_r_vE)]

/-- The same shapes, perhaps in another order. -/
theorem mem_shapeChars (m : Macro) (d : Bool) (p x : Chars) :
    (∃ s ∈ shapes m, s.inDetails = d ∧ s.before.toList = p ∧ s.after.toList = x) ↔
      (d, p, x) ∈ shapeChars m := by
  have h : ∀ m, (∀ t ∈ (shapes m).map fun s => (s.inDetails, s.before.toList, s.after.toList),
        t ∈ shapeChars m) ∧ ∀ t ∈ shapeChars m,
        t ∈ (shapes m).map fun s => (s.inDetails, s.before.toList, s.after.toList) := by
    intro m
    cases m <;> decide +kernel
  constructor
  · rintro ⟨s, hs, rfl, rfl, rfl⟩
    exact (h m).1 _ (List.mem_map.2 ⟨s, hs, rfl⟩)
  · intro ht
    obtain ⟨s, hs, e⟩ := List.mem_map.1 ((h m).2 _ ht)
    simp only [Prod.mk.injEq] at e
    exact ⟨s, hs, e.1, e.2.1, e.2.2⟩

/-- `p ++ a ++ x = q ++ b ++ y` as characters. -/
abbrev EqChars := Chars × Chars × Chars × Chars

def EqChars.Holds (e : EqChars) (a b : Chars) : Prop := e.1 ++ a ++ e.2.1 = e.2.2.1 ++ b ++ e.2.2.2

/-- The equation of two shapes. -/
def reduce (s t : Bool × Chars × Chars) : Option EqChars :=
  if s.1 = t.1 then
    (strip s.2.1 t.2.1).bind fun r => (stripEnd s.2.2 t.2.2).map fun r' => (r.1, r'.1, r.2, r'.2)
  else none

theorem reduce_iff {s t : Bool × Chars × Chars} {a b : Chars} :
    (s.1, s.2.1 ++ a ++ s.2.2) = (t.1, t.2.1 ++ b ++ t.2.2) ↔
      ∃ e, reduce s t = some e ∧ EqChars.Holds e a b := by
  rw [Prod.mk.injEq]
  by_cases hd : s.1 = t.1
  · simp only [hd, true_and, reduce, if_true, EqChars.Holds]
    rw [List.append_assoc, List.append_assoc, strip_iff]
    constructor
    · rintro ⟨r, h, e⟩
      rw [← List.append_assoc, ← List.append_assoc, stripEnd_iff] at e
      obtain ⟨r', h', e⟩ := e
      exact ⟨(r.1, r'.1, r.2, r'.2), by simp [h, h'], e⟩
    · rintro ⟨e, h, he⟩
      simp only [Option.bind_eq_some_iff, Option.map_eq_some_iff] at h
      obtain ⟨r, h, r', h', rfl⟩ := h
      refine ⟨r, h, ?_⟩
      rw [← List.append_assoc, ← List.append_assoc, stripEnd_iff]
      exact ⟨r', h', he⟩
  · simp [hd, reduce]

/-- All equations of two macros. -/
def found (m n : Macro) : List EqChars :=
  (shapeChars m).flatMap fun s => (shapeChars n).filterMap fun t => reduce s t

theorem collide_found {m n : Macro} {a b : String} :
    Collide (m, a) (n, b) ↔ ∃ e ∈ found m n, EqChars.Holds e a.toList b.toList := by
  simp only [Collide, declared, List.mem_map, found, List.mem_flatMap, List.mem_filterMap]
  constructor
  · rintro ⟨d, ⟨s, hs, rfl⟩, t, ht, e⟩
    obtain ⟨q, hq, hh⟩ := (reduce_iff (s := (s.inDetails, s.before.toList, s.after.toList))
      (t := (t.inDetails, t.before.toList, t.after.toList)) (a := a.toList) (b := b.toList)).1 (by
        simp only [Prod.mk.injEq] at e
        simp only [e.1, ← String.toList_append, e.2])
    exact ⟨q, ⟨_, (mem_shapeChars ..).1 ⟨s, hs, rfl, rfl, rfl⟩, _,
      (mem_shapeChars ..).1 ⟨t, ht, rfl, rfl, rfl⟩, hq⟩, hh⟩
  · rintro ⟨q, ⟨s, hs, t, ht, hq⟩, hh⟩
    obtain ⟨d, p, x⟩ := s
    obtain ⟨d', p', x'⟩ := t
    obtain ⟨s, hs', rfl, rfl, rfl⟩ := (mem_shapeChars ..).2 hs
    obtain ⟨t, ht', rfl, rfl, rfl⟩ := (mem_shapeChars ..).2 ht
    refine ⟨_, ⟨s, hs', rfl⟩, t, ht', ?_⟩
    have := reduce_iff.2 ⟨q, hq, hh⟩
    simp only [Prod.mk.injEq, ← String.toList_append, String.toList_inj] at this
    rw [this.1, this.2]

def plusChars (ends : List Chars) : List EqChars := ends.flatMap fun e => [([], e, [], []), ([], [], [], e)]

def behindChars (beginning : Chars) (ends ends' : List Chars) : List EqChars :=
  (ends.map fun e => ([], e, beginning, [])) ++ ends'.map fun e => ([], [], beginning, e)

def flippedChars (l : List EqChars) : List EqChars := l.map fun e => (e.2.2.1, e.2.2.2, e.1, e.2.1)

def methodEndChars : List Chars := [[], c_vE, c_noexceptE, c_noexcept_vE]

def rMethodEndChars : List Chars := suffixChars.flatMap fun x => [[], c_vE].map fun w => x ++ w

/-- `equationsOf` as characters. -/
def equationChars : Macro → Macro → List EqChars
  | .type, .type | .data, .data | .staticData, .staticData => plusChars [[], c_vE]
  | .method, .method => plusChars methodEndChars
  | .rMethod, .rMethod => plusChars rMethodEndChars
  | .staticMethod, .staticMethod =>
    plusChars methodEndChars ++ behindChars c_rB methodEndChars methodEndChars ++
      flippedChars (behindChars c_rB methodEndChars methodEndChars)
  | .freeFunction, .freeFunction => plusChars [[], c_noexceptE]
  | .method, .rMethod => behindChars c_rB methodEndChars rMethodEndChars
  | .rMethod, .method => flippedChars (behindChars c_rB methodEndChars rMethodEndChars)
  | .freeFunction, .method => behindChars c_is_invocableB [c_returnE, c_noexcept_returnE] []
  | .method, .freeFunction => flippedChars (behindChars c_is_invocableB [c_returnE, c_noexcept_returnE] [])
  | .freeFunction, .staticMethod => behindChars c_static_method_resultB [c_returnE, c_noexcept_returnE] []
  | .staticMethod, .freeFunction =>
    flippedChars (behindChars c_static_method_resultB [c_returnE, c_noexcept_returnE] [])
  | .freeFunction, .data => behindChars c_has_dataB [c_return_tE, c_noexcept_return_tE] []
  | .data, .freeFunction => flippedChars (behindChars c_has_dataB [c_return_tE, c_noexcept_return_tE] [])
  | .freeFunction, .staticData => behindChars c_has_static_dataB [c_return_tE, c_noexcept_return_tE] []
  | .staticData, .freeFunction =>
    flippedChars (behindChars c_has_static_dataB [c_return_tE, c_noexcept_return_tE] [])
  | _, _ => []

theorem equationChars_eq (m n : Macro) :
    (equationsOf m n).map (fun e => (e.p.toList, e.x.toList, e.q.toList, e.y.toList)) = equationChars m n := by
  cases m <;> cases n <;> decide +kernel

theorem found_eq (m n : Macro) :
    (∀ e ∈ found m n, e ∈ equationChars m n) ∧ ∀ e ∈ equationChars m n, e ∈ found m n := by
  cases m <;> cases n <;> decide +kernel

theorem collide_iff {m n : Macro} {a b : String} :
    Collide (m, a) (n, b) ↔ ∃ e ∈ equationsOf m n, e.Holds a b := by
  rw [collide_found]
  constructor
  · rintro ⟨e, he, h⟩
    have he := (found_eq m n).1 e he
    rw [← equationChars_eq, List.mem_map] at he
    obtain ⟨e, he', rfl⟩ := he
    refine ⟨e, he', ?_⟩
    rw [Equation.Holds, ← String.toList_inj]
    simpa [EqChars.Holds] using h
  · rintro ⟨e, he, h⟩
    refine ⟨_, (found_eq m n).2 _ ((equationChars_eq m n) ▸ List.mem_map.2 ⟨e, he, rfl⟩), ?_⟩
    rw [Equation.Holds, ← String.toList_inj] at h
    simpa [EqChars.Holds] using h

/-- What tells the shapes of one macro apart, whatever the argument: how often some letters occur. -/
def key (s : Shape) : Bool × List Nat :=
  (s.inDetails, ("vnsrlfxcp_".toList.map fun c => (s.before ++ s.after).toList.count c))

theorem declared_nodup (m : Macro) (a : String) : (declared m a).Nodup := by
  have hk : ((shapes m).map key).Nodup := by cases m <;> decide +kernel
  rw [List.Nodup, List.pairwise_map] at hk
  rw [declared, List.Nodup, List.pairwise_map]
  refine hk.imp fun {s t} h e => h ?_
  simp only [Prod.mk.injEq] at e
  simp only [key, Prod.mk.injEq, e.1, true_and]
  refine List.map_congr_left fun c _ => ?_
  have := congrArg (fun l : String => l.toList.count c) e.2
  simp only [String.toList_append, List.count_append] at this ⊢
  omega

theorem compiles_iff {uses : List (Macro × String)} :
    compiles uses = true ↔ uses.Pairwise fun u w => ¬ Collide u w := by
  simp only [compiles, decide_eq_true_eq]
  induction uses with
  | nil => simp
  | cons u uses ih =>
    rw [List.flatMap_cons, List.nodup_append, ih, List.pairwise_cons]
    constructor
    · rintro ⟨_, h, hd⟩
      refine ⟨fun w hw ⟨d, h1, h2⟩ => ?_, h⟩
      exact hd d h1 d (List.mem_flatMap.2 ⟨w, hw, h2⟩) rfl
    · rintro ⟨hd, h⟩
      refine ⟨declared_nodup _ _, h, fun d h1 d' h2 e => ?_⟩
      subst e
      obtain ⟨w, hw, h2⟩ := List.mem_flatMap.1 h2
      exact hd w hw ⟨d, h1, h2⟩

/-- A word without underscore and something that is empty or begins with an underscore determine each other. -/
theorem word_unique {a b x y : Chars} (ha : '_' ∉ a) (hb : '_' ∉ b) (h : a ++ '_' :: x = b ++ '_' :: y) :
    a = b := by
  induction a generalizing b with
  | nil =>
    cases b with
    | nil => rfl
    | cons c b => simp at h; simp [← h.1] at hb
  | cons c a ih =>
    cases b with
    | nil => simp at h; simp [h.1] at ha
    | cons d b =>
      simp only [List.cons_append, List.cons.injEq] at h
      simp only [List.mem_cons, not_or] at ha hb
      rw [h.1, ih ha.2 hb.2 h.2]

/-- The first name plus an end is the second behind a beginning. -/
def Shifted (e : EqChars) : Prop :=
  e.1 = [] ∧ e.2.2.2 = [] ∧ e.2.1.head? = some '_' ∧ '_' ∈ e.2.2.1 ∧
    (e.2.2.1.takeWhile (· != '_') = ['r'] ∨ ¬ e.2.2.1.dropWhile (· != '_') <+: e.2.1)

instance (e : EqChars) : Decidable (Shifted e) := by
  unfold Shifted
  infer_instance

/-- One name contains an underscore. -/
def Contains (e : EqChars) : Prop := e.1 = [] ∧ e.2.1 = [] ∧ '_' ∈ e.2.2.1 ++ e.2.2.2

instance (e : EqChars) : Decidable (Contains e) := by
  unfold Contains
  infer_instance

def turn (e : EqChars) : EqChars := (e.2.2.1, e.2.2.2, e.1, e.2.1)

theorem forms (m n : Macro) : ∀ e ∈ equationChars m n, (m = n ∧ e = ([], [], [], [])) ∨
    Contains e ∨ Contains (turn e) ∨ Shifted e ∨ Shifted (turn e) := by
  cases m <;> cases n <;> decide +kernel

theorem not_contains {e : EqChars} {a b : Chars} (ha : '_' ∉ a) (he : Contains e)
    (h : EqChars.Holds e a b) : False := by
  obtain ⟨p, x, q, y⟩ := e
  obtain ⟨h1, h2, h3⟩ := he
  simp only at h1 h2 h3
  subst h1 h2
  simp only [EqChars.Holds, List.nil_append, List.append_nil] at h
  rw [h] at ha
  simp only [List.mem_append, not_or] at ha h3
  rcases h3 with h3 | h3
  · exact ha.1.1 h3
  · exact ha.2 h3

theorem not_shifted {e : EqChars} {a b : Chars} (ha : '_' ∉ a) (hr : a ≠ ['r']) (he : Shifted e)
    (h : EqChars.Holds e a b) : False := by
  obtain ⟨p, x, q, y⟩ := e
  obtain ⟨h1, h2, h3, h4, h5⟩ := he
  simp only at h1 h2 h3 h4 h5
  subst h1 h2
  simp only [EqChars.Holds, List.nil_append, List.append_nil] at h
  obtain ⟨x', rfl⟩ : ∃ x', x = '_' :: x' := by
    cases x with
    | nil => simp at h3
    | cons c x => simp at h3; exact ⟨x, by rw [h3]⟩
  have hw : ∀ l : Chars, '_' ∉ l.takeWhile (· != '_') := by
    intro l
    induction l with
    | nil => simp
    | cons c l ih =>
      by_cases hc : c = '_'
      · simp [hc]
      · simp [hc, Ne.symm hc, ih]
  have hd : ∀ l : Chars, '_' ∈ l → ∃ l', l.dropWhile (· != '_') = '_' :: l' := by
    intro l hl
    induction l with
    | nil => simp at hl
    | cons c l ih =>
      by_cases hc : c = '_'
      · simp [hc]
      · simp only [List.mem_cons, Ne.symm hc, false_or] at hl
        simpa [hc] using ih hl
  obtain ⟨q', hq'⟩ := hd q h4
  have hq := List.takeWhile_append_dropWhile (p := (· != '_')) (l := q)
  rw [← hq, hq', List.append_assoc, List.cons_append] at h
  have haw := word_unique ha (hw q) h
  rw [← haw] at h
  rcases h5 with h5 | h5
  · exact hr (haw.trans h5)
  · refine h5 ⟨b, ?_⟩
    rw [hq']
    simpa using h.symm

/-- No equation holds of different words other than `r`. -/
theorem words_apart {m n : Macro} {a b : Chars} (ha : '_' ∉ a) (hb : '_' ∉ b) (hra : a ≠ ['r'])
    (hrb : b ≠ ['r']) (hne : ¬ (m = n ∧ a = b)) (e : EqChars) (he : e ∈ equationChars m n)
    (h : EqChars.Holds e a b) : False := by
  have h' : EqChars.Holds (turn e) b a := by
    simp only [EqChars.Holds, turn] at h ⊢
    exact h.symm
  rcases forms m n e he with ⟨hmn, rfl⟩ | hf | hf | hf | hf
  · exact hne ⟨hmn, by simpa [EqChars.Holds] using h⟩
  · exact not_contains ha hf h
  · exact not_contains hb hf h'
  · exact not_shifted ha hra hf h
  · exact not_shifted hb hrb hf h'

theorem collide_chars {m n : Macro} {a b : String} :
    Collide (m, a) (n, b) ↔ ∃ e ∈ equationChars m n, EqChars.Holds e a.toList b.toList := by
  rw [collide_found]
  exact ⟨fun ⟨e, he, h⟩ => ⟨e, (found_eq m n).1 e he, h⟩, fun ⟨e, he, h⟩ => ⟨e, (found_eq m n).2 e he, h⟩⟩

/-! Reserved names. -/

/-- Two underscores in a row. -/
def dbl : Chars → Bool
  | [] => false
  | [_] => false
  | c :: d :: l => (c == '_' && d == '_') || dbl (d :: l)

theorem dbl_iff {l : Chars} : dbl l = true ↔ ∃ a b, l = a ++ ['_', '_'] ++ b := by
  induction l with
  | nil => simp [dbl]
  | cons c l ih =>
    cases l with
    | nil =>
      simp only [dbl, Bool.false_eq_true, false_iff, not_exists]
      intro a b h
      have := congrArg List.length h
      simp at this
      omega
    | cons d l =>
      simp only [dbl, Bool.or_eq_true, Bool.and_eq_true, beq_iff_eq, ih]
      constructor
      · rintro (⟨rfl, rfl⟩ | ⟨a, b, h⟩)
        · exact ⟨[], l, by simp⟩
        · exact ⟨c :: a, b, by simp [h]⟩
      · rintro ⟨a, b, h⟩
        cases a with
        | nil => simp at h; exact Or.inl ⟨h.1, h.2.1⟩
        | cons a0 a =>
          simp only [List.cons_append, List.cons.injEq] at h
          exact Or.inr ⟨a, b, h.2⟩

theorem dbl_append {u w : Chars} :
    dbl (u ++ w) = (dbl u || dbl w || (u.getLast? == some '_' && w.head? == some '_')) := by
  induction u with
  | nil => simp [dbl]
  | cons c u ih =>
    cases u with
    | nil =>
      cases w with
      | nil => simp [dbl]
      | cons d w =>
        simp only [List.cons_append, List.nil_append, dbl, List.getLast?_singleton, List.head?_cons,
          Bool.false_or]
        rw [Bool.or_comm]
        rfl
    | cons d u =>
      simp only [List.cons_append, dbl] at ih ⊢
      rw [ih, List.getLast?_cons_cons]
      simp only [Bool.or_assoc]

theorem shape_facts (m : Macro) : (∀ s ∈ shapeChars m,
    dbl s.2.1 = false ∧ dbl s.2.2 = false ∧ (s.2.1 = [] ∨ s.2.1.getLast? = some '_') ∧
    (s.2.2 = [] ∨ s.2.2.head? = some '_') ∧ s.2.1.head? ≠ some '_' ∧ (s.2.1 = [] → s.2.2 ≠ [])) ∧
    (∃ s ∈ shapeChars m, s.2.1.getLast? = some '_') ∧ ∃ s ∈ shapeChars m, s.2.2.head? = some '_' := by
  cases m <;> decide +kernel

theorem mem_declared {m : Macro} {a s : String} : (∃ d ∈ declared m a, d.2 = s) ↔
    ∃ t ∈ shapeChars m, s.toList = t.2.1 ++ a.toList ++ t.2.2 := by
  simp only [declared, List.mem_map]
  constructor
  · rintro ⟨_, ⟨t, ht, rfl⟩, rfl⟩
    exact ⟨_, (mem_shapeChars ..).1 ⟨t, ht, rfl, rfl, rfl⟩, by simp⟩
  · rintro ⟨⟨d, p, x⟩, ht, h⟩
    obtain ⟨t, ht', rfl, rfl, rfl⟩ := (mem_shapeChars ..).2 ht
    exact ⟨_, ⟨t, ht', rfl⟩, by rw [← String.toList_inj, h]; simp⟩

end Utils.MacroProofs
