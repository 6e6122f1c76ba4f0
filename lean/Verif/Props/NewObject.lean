import Verif.Model.NewObject

/-!
C117: `new_object<U>(args...)` is `U(args...)` in new storage.  False of the code; the exact conditions
are proved.
-/

namespace Utils.NewObj

variable {τ α : Type}

/-! ## What is expected -/

/-- `std::is_nothrow_constructible_v<U, CtorArgs...>`. -/
def NothrowConstructible (L : Lang τ α) (U : τ) (args : List (Form τ)) : Prop :=
  (∃ c, L.ctor U args = some c ∧ c.noexc = true) ∧ L.dtor U = true

/-- A function that can be called as it is expected of `new_object`: null if there is no memory, and
otherwise the object `U(args...)` with the effect of that construction on the arguments. -/
def IsConstruction (L : Lang τ α) (U : τ) (args : List (Form τ))
    (f : Bool → List α → Result α) : Prop :=
  ∃ c, L.ctor U args = some c ∧
    ∀ vs : List α, vs.length = args.length →
      f false vs = .null vs ∧
      ∀ obj left, c.run vs = (some obj, left) → f true vs = .made obj left

/-- An argument that can be taken for a `T`: it is one (or of a derived class) and writable unless
`T` is const, or it is of an unrelated type and converts as an lvalue. -/
def TakenAs (L : Lang τ α) (T : τ) (tconst : Bool) (a : Form τ) : Prop :=
  ((∃ s, L.sub a.ty T = some s) ∧ (a.const = true → tconst = true)) ∨
  (L.sub a.ty T = none ∧ ∃ f, L.conv ⟨a.ty, a.const, false⟩ T = some f)

/-- The value of one argument throws on its way to `T`. -/
def ThrowsAs (L : Lang τ α) (T : τ) (a : Form τ) (v : α) : Prop :=
  L.sub a.ty T = none ∧ ∃ f, L.conv ⟨a.ty, a.const, false⟩ T = some f ∧ (f v).1 = none

/-- What the constructor gets to see of an argument. -/
def SeenAs (L : Lang τ α) (T : τ) (a : Form τ) (v seen : α) : Prop :=
  (∃ s, L.sub a.ty T = some s ∧ seen = s.get v) ∨
  (L.sub a.ty T = none ∧ ∃ f, L.conv ⟨a.ty, a.const, false⟩ T = some f ∧ (f v).1 = some seen)

/-- What is left of an argument `v` when the constructor leaves `w` of what it saw. -/
def LeftAs (L : Lang τ α) (T : τ) (a : Form τ) (v w left : α) : Prop :=
  (∃ s, L.sub a.ty T = some s ∧ left = s.set v w) ∨
  (L.sub a.ty T = none ∧ ∃ f, L.conv ⟨a.ty, a.const, false⟩ T = some f ∧ left = (f v).2)

/-- A relation between arguments, their values and one more list, place by place. -/
inductive Each (R : Form τ → α → α → Prop) : List (Form τ) → List α → List α → Prop
  | nil : Each R [] [] []
  | cons {a v w as vs ws} : R a v w → Each R as vs ws → Each R (a :: as) (v :: vs) (w :: ws)

/-- The same with two more lists. -/
inductive Each2 (R : Form τ → α → α → α → Prop) :
    List (Form τ) → List α → List α → List α → Prop
  | nil : Each2 R [] [] [] []
  | cons {a v w x as vs ws xs} : R a v w x → Each2 R as vs ws xs →
      Each2 R (a :: as) (v :: vs) (w :: ws) (x :: xs)

/-! ## Proofs -/

theorem forwardAs_isSome (L : Lang τ α) (T : τ) (tconst : Bool) (a : Form τ) :
    (forwardAs L T tconst a).isSome ↔ TakenAs L T tconst a := by
  unfold forwardAs TakenAs
  cases L.sub a.ty T with
  | none => cases L.conv ⟨a.ty, a.const, false⟩ T <;> simp
  | some s => cases a.const <;> cases tconst <;> simp

theorem forwardAll_isSome (L : Lang τ α) (T : τ) (tconst : Bool) (as : List (Form τ)) :
    (forwardAll L T tconst as).isSome ↔ ∀ a ∈ as, TakenAs L T tconst a := by
  induction as with
  | nil => simp [forwardAll]
  | cons a as ih =>
    unfold forwardAll
    rw [List.forall_mem_cons, ← ih, ← forwardAs_isSome]
    cases forwardAs L T tconst a <;> cases forwardAll L T tconst as <;> simp

theorem forwardAll_cons {L : Lang τ α} {T : τ} {tconst : Bool} {a : Form τ} {as : List (Form τ)}
    {qs : List (Passed α)} (h : forwardAll L T tconst (a :: as) = some qs) :
    ∃ p ps, qs = p :: ps ∧ forwardAs L T tconst a = some p ∧
      forwardAll L T tconst as = some ps := by
  unfold forwardAll at h
  cases h1 : forwardAs L T tconst a with
  | none => rw [h1] at h; simp at h
  | some p =>
    cases h2 : forwardAll L T tconst as with
    | none => rw [h1, h2] at h; simp at h
    | some ps =>
      rw [h1, h2] at h
      exact ⟨p, ps, (Option.some.inj h).symm, rfl, rfl⟩

/-- The two ways an argument is passed. -/
theorem forwardAs_cases {L : Lang τ α} {T : τ} {tconst : Bool} {a : Form τ} {p : Passed α}
    (h : forwardAs L T tconst a = some p) :
    (∃ s, L.sub a.ty T = some s ∧ p = .itself s) ∨
    (L.sub a.ty T = none ∧ ∃ f, L.conv ⟨a.ty, a.const, false⟩ T = some f ∧ p = .temporary f) := by
  unfold forwardAs at h
  cases hs : L.sub a.ty T with
  | none =>
    rw [hs] at h
    cases hc : L.conv ⟨a.ty, a.const, false⟩ T with
    | none => simp [hc] at h
    | some f => simp [hc] at h; exact .inr ⟨rfl, f, rfl, h.symm⟩
  | some s =>
    rw [hs] at h
    simp only at h
    split at h
    · simp at h
    · exact .inl ⟨s, rfl, (Option.some.inj h).symm⟩

theorem enter_none {L : Lang τ α} {T : τ} {tconst : Bool} :
    ∀ {as : List (Form τ)} {ps : List (Passed α)} {vs : List α},
      forwardAll L T tconst as = some ps → vs.length = as.length →
      (enter ps vs = none ↔ ∃ a v, (a, v) ∈ as.zip vs ∧ ThrowsAs L T a v)
  | [], ps, vs, h, hl => by
    cases Option.some.inj h
    simp [enter]
  | a :: as, ps, [], h, hl => by simp at hl
  | a :: as, ps, v :: vs, h, hl => by
    obtain ⟨p, ps, rfl, hp, hps⟩ := forwardAll_cons h
    have ih := enter_none hps (vs := vs) (by simpa using hl)
    simp only [List.zip_cons_cons, List.mem_cons, Prod.mk.injEq]
    rcases forwardAs_cases hp with ⟨s, hs, rfl⟩ | ⟨hs, f, hf, rfl⟩
    · rw [show enter (.itself s :: ps) (v :: vs) = none ↔ enter ps vs = none by simp [enter], ih]
      constructor
      · rintro ⟨b, w, hm, ht⟩; exact ⟨b, w, .inr hm, ht⟩
      · rintro ⟨b, w, ⟨rfl, rfl⟩ | hm, ht⟩
        · rw [ThrowsAs, hs] at ht; exact absurd ht.1 (by simp)
        · exact ⟨b, w, hm, ht⟩
    · unfold enter
      cases hv : f v with
      | mk r left =>
        cases r with
        | none =>
          simp only [true_iff]
          exact ⟨a, v, .inl ⟨rfl, rfl⟩, hs, f, hf, by rw [hv]⟩
        | some w =>
          simp only [Option.map_eq_none_iff, ih]
          constructor
          · rintro ⟨b, w, hm, ht⟩; exact ⟨b, w, .inr hm, ht⟩
          · rintro ⟨b, w, ⟨rfl, rfl⟩ | hm, ht⟩
            · obtain ⟨g, hg, hn⟩ := ht.2
              rw [hf] at hg; cases hg
              rw [hv] at hn; simp at hn
            · exact ⟨b, w, hm, ht⟩

theorem enter_some {L : Lang τ α} {T : τ} {tconst : Bool} :
    ∀ {as : List (Form τ)} {ps : List (Passed α)} {vs seen rest : List α},
      forwardAll L T tconst as = some ps → vs.length = as.length →
      enter ps vs = some (seen, rest) →
      Each (SeenAs L T) as vs seen ∧
      ∀ ws, ws.length = as.length → Each2 (LeftAs L T) as vs ws (leave ps rest ws)
  | [], ps, vs, seen, rest, h, hl, he => by
    cases Option.some.inj h
    cases List.length_eq_zero_iff.1 hl
    simp only [enter, Option.some.injEq, Prod.mk.injEq] at he
    obtain ⟨rfl, rfl⟩ := he
    refine ⟨.nil, fun ws hw => ?_⟩
    cases List.length_eq_zero_iff.1 hw
    exact .nil
  | a :: as, ps, [], seen, rest, h, hl, he => by simp at hl
  | a :: as, ps, v :: vs, seen, rest, h, hl, he => by
    obtain ⟨p, ps, rfl, hp, hps⟩ := forwardAll_cons h
    have ih := fun s r => enter_some (seen := s) (rest := r) hps (vs := vs) (by simpa using hl)
    rcases forwardAs_cases hp with ⟨s, hs, rfl⟩ | ⟨hs, f, hf, rfl⟩
    · unfold enter at he
      obtain ⟨⟨seen', rest'⟩, h1, h2⟩ := Option.map_eq_some_iff.1 he
      cases h2
      obtain ⟨i1, i2⟩ := ih _ _ h1
      refine ⟨.cons (.inl ⟨s, hs, rfl⟩) i1, fun ws hw => ?_⟩
      cases ws with
      | nil => simp at hw
      | cons w ws => exact .cons (.inl ⟨s, hs, rfl⟩) (i2 ws (by simpa using hw))
    · unfold enter at he
      cases hv : f v with
      | mk r left =>
        rw [hv] at he
        cases r with
        | none => simp at he
        | some w =>
          simp only at he
          obtain ⟨⟨seen', rest'⟩, h1, h2⟩ := Option.map_eq_some_iff.1 he
          cases h2
          obtain ⟨i1, i2⟩ := ih _ _ h1
          refine ⟨.cons (.inr ⟨hs, f, hf, by rw [hv]⟩) i1, fun ws hw => ?_⟩
          cases ws with
          | nil => simp at hw
          | cons x ws => exact .cons (.inr ⟨hs, f, hf, by rw [hv]⟩) (i2 ws (by simpa using hw))

/-- What a program that compiles consists of. -/
theorem newObject_eq_some {L : Lang τ α} {T : τ} {tconst : Bool} {U : τ} {args : List (Form τ)}
    {f : Bool → List α → Result α} (h : newObject L T tconst U args = some f) :
    NothrowConstructible L U args ∧ ∃ ps c, forwardAll L T tconst args = some ps ∧
      L.ctor U (args.map fun _ => ⟨T, tconst, true⟩) = some c ∧
      f = fun got vs => if got then construct ps c vs else .null vs := by
  unfold newObject at h
  cases h1 : L.ctor U args with
  | none => rw [h1] at h; simp at h
  | some b =>
    rw [h1] at h
    simp only at h
    split at h
    · rename_i hb
      simp only [Bool.and_eq_true] at hb
      cases h2 : forwardAll L T tconst args with
      | none => rw [h2] at h; simp at h
      | some ps =>
        cases h3 : L.ctor U (args.map fun _ => ⟨T, tconst, true⟩) with
        | none => rw [h2, h3] at h; simp at h
        | some c =>
          rw [h2, h3] at h
          exact ⟨⟨⟨b, h1, hb.1⟩, hb.2⟩, ps, c, rfl, rfl, (Option.some.inj h).symm⟩
    · simp at h

/-! ## C117 -/

/-- `new_object<U>(args...)` of an `allocator<T>` compiles exactly if `U` is nothrow constructible
from the arguments, every argument can be taken for a `T`, and `U` is constructible, even by a
constructor that throws, from as many rvalues of type `T`.  Missing from C117: it should compile
whenever the first holds. -/
theorem C117_compiles_partial (L : Lang τ α) (T : τ) (tconst : Bool) (U : τ)
    (args : List (Form τ)) :
    (newObject L T tconst U args).isSome ↔
      NothrowConstructible L U args ∧ (∀ a ∈ args, TakenAs L T tconst a) ∧
      ∃ c, L.ctor U (List.replicate args.length ⟨T, tconst, true⟩) = some c := by
  have hm : (args.map fun _ => (⟨T, tconst, true⟩ : Form τ)) =
      List.replicate args.length ⟨T, tconst, true⟩ := List.map_const' ..
  rw [← forwardAll_isSome, ← hm]
  constructor
  · intro h
    obtain ⟨f, hf⟩ := Option.isSome_iff_exists.1 h
    obtain ⟨h1, ps, c, h2, h3, _⟩ := newObject_eq_some hf
    exact ⟨h1, by rw [h2]; rfl, c, h3⟩
  · rintro ⟨⟨⟨b, h1, hn⟩, hd⟩, h2, c, h3⟩
    obtain ⟨ps, h2⟩ := Option.isSome_iff_exists.1 h2
    simp [newObject, h1, hn, hd, h2, h3]

/-- What a call that compiles does.  Without memory: nothing.  With memory, it ends the program
exactly if an argument throws on its way to `T`, or the constructor of `U` from the `T`s throws.
Otherwise the object is what that constructor makes of what it sees of the arguments; arguments that
are a `T` are left as the constructor leaves an rvalue, the others as the conversion leaves them.
Missing from C117: the object is not `U(args...)`. -/
theorem C117_call_partial {L : Lang τ α} {T : τ} {tconst : Bool} {U : τ} {args : List (Form τ)}
    {f : Bool → List α → Result α} (h : newObject L T tconst U args = some f) {vs : List α}
    (hl : vs.length = args.length) :
    f false vs = .null vs ∧
    ∃ c, L.ctor U (List.replicate args.length ⟨T, tconst, true⟩) = some c ∧
      (f true vs = .terminated ↔
        (∃ a v, (a, v) ∈ args.zip vs ∧ ThrowsAs L T a v) ∨
        ∃ seen, Each (SeenAs L T) args vs seen ∧ (c.run seen).1 = none) ∧
      ∀ obj left, f true vs = .made obj left → ∃ seen ws, Each (SeenAs L T) args vs seen ∧
        c.run seen = (some obj, ws) ∧
        (ws.length = args.length → Each2 (LeftAs L T) args vs ws left) := by
  have hm : (args.map fun _ => (⟨T, tconst, true⟩ : Form τ)) =
      List.replicate args.length ⟨T, tconst, true⟩ := List.map_const' ..
  obtain ⟨_, ps, c, h2, h3, rfl⟩ := newObject_eq_some h
  rw [hm] at h3
  refine ⟨rfl, c, h3, ?_, ?_⟩
  · have hn := enter_none h2 hl
    rw [← hn]
    show construct ps c vs = .terminated ↔ _
    unfold construct
    cases he : enter ps vs with
    | none => simp
    | some x =>
      obtain ⟨seen, rest⟩ := x
      have hs := (enter_some h2 hl he).1
      have huniq : ∀ {as : List (Form τ)} {us s1 s2 : List α}, Each (SeenAs L T) as us s1 →
          Each (SeenAs L T) as us s2 → s1 = s2 := by
        intro as us s1 s2 h1
        induction h1 generalizing s2 with
        | nil => intro h2; cases h2; rfl
        | cons hr _ ih =>
          intro h2
          cases h2 with
          | cons hr2 h2 =>
            rw [ih h2]
            congr 1
            rcases hr with ⟨s, e, rfl⟩ | ⟨e, f, ef, ev⟩ <;>
              rcases hr2 with ⟨s', e', rfl⟩ | ⟨e', f', ef', ev'⟩
            · rw [e] at e'; cases e'; rfl
            · rw [e] at e'; cases e'
            · rw [e] at e'; cases e'
            · rw [ef] at ef'; cases ef'; rw [ev] at ev'; exact Option.some.inj ev'
      cases hr : c.run seen with
      | mk r ws =>
        cases r with
        | none =>
          exact ⟨fun _ => .inr ⟨seen, hs, by rw [hr]⟩, fun _ => by simp only [hr]⟩
        | some obj =>
          simp only [hr, reduceCtorEq, false_or, false_iff]
          rintro ⟨s2, h21, h22⟩
          cases huniq hs h21
          rw [hr] at h22; simp at h22
  · intro obj left hf
    have hf : construct ps c vs = .made obj left := hf
    unfold construct at hf
    cases he : enter ps vs with
    | none => rw [he] at hf; simp at hf
    | some x =>
      obtain ⟨seen, rest⟩ := x
      rw [he] at hf
      simp only at hf
      cases hr : c.run seen with
      | mk r ws =>
        rw [hr] at hf
        cases r with
        | none => simp at hf
        | some o =>
          simp only [Result.made.injEq] at hf
          obtain ⟨rfl, rfl⟩ := hf
          obtain ⟨h1, h4⟩ := enter_some h2 hl he
          exact ⟨seen, ws, h1, hr, h4 ws⟩

/-- Where C117 holds: all arguments are writable rvalues of the allocator's own value type.  Then
`new_object` compiles exactly if `U` is nothrow constructible from them, and is that construction.
Missing: all other arguments. -/
theorem C117_rvalues_partial (L : Lang τ α) (T U : τ) (args : List (Form τ))
    (hself : L.sub T T = some ⟨id, fun _ w => w⟩)
    (hctor : ∀ c vs, L.ctor U args = some c → vs.length = args.length →
      (c.run vs).2.length = args.length)
    (hargs : ∀ a ∈ args, a = ⟨T, false, true⟩) :
    ((newObject L T false U args).isSome ↔ NothrowConstructible L U args) ∧
    ∀ f, newObject L T false U args = some f → IsConstruction L U args f := by
  have hrep : args = List.replicate args.length ⟨T, false, true⟩ := List.eq_replicate_iff.2 ⟨rfl, hargs⟩
  constructor
  · rw [C117_compiles_partial]
    constructor
    · exact fun h => h.1
    · intro h
      refine ⟨h, fun a ha => ?_, ?_⟩
      · rw [hargs a ha]
        exact .inl ⟨⟨_, hself⟩, by simp⟩
      · rw [← hrep]
        obtain ⟨⟨c, hc, _⟩, _⟩ := h
        exact ⟨c, hc⟩
  · intro f hf
    obtain ⟨⟨⟨c, hc, hn⟩, _⟩, _⟩ := newObject_eq_some hf
    refine ⟨c, hc, fun vs hl => ?_⟩
    obtain ⟨h0, c', hc', hterm, hmade⟩ := C117_call_partial hf hl
    rw [← hrep, hc] at hc'
    cases hc'
    refine ⟨h0, fun obj left hr => ?_⟩
    have hseen : ∀ {as : List (Form τ)} {us seen : List α}, (∀ a ∈ as, a = ⟨T, false, true⟩) →
        Each (SeenAs L T) as us seen → seen = us := by
      intro as us seen ha he
      induction he with
      | nil => rfl
      | cons hs _ ih =>
        rw [ih (fun a h => ha a (List.mem_cons_of_mem _ h))]
        have hT := ha _ List.mem_cons_self
        subst hT
        rcases hs with ⟨s, e, rfl⟩ | ⟨e, _⟩
        · rw [hself] at e; cases e; rfl
        · rw [hself] at e; cases e
    have hleft : ∀ {as : List (Form τ)} {us ws left : List α}, (∀ a ∈ as, a = ⟨T, false, true⟩) →
        Each2 (LeftAs L T) as us ws left → left = ws := by
      intro as us ws left ha he
      induction he with
      | nil => rfl
      | cons hs _ ih =>
        rw [ih (fun a h => ha a (List.mem_cons_of_mem _ h))]
        have hT := ha _ List.mem_cons_self
        subst hT
        rcases hs with ⟨s, e, rfl⟩ | ⟨e, _⟩
        · rw [hself] at e; cases e; rfl
        · rw [hself] at e; cases e
    cases hres : f true vs with
    | null args' =>
      obtain ⟨_, ps, c2, _, _, rfl⟩ := newObject_eq_some hf
      have hres : construct ps c2 vs = .null args' := hres
      unfold construct at hres
      split at hres
      · cases hres
      · split at hres <;> cases hres
    | terminated =>
      rcases hterm.1 hres with ⟨a, v, hm, ht⟩ | ⟨seen, hs, hn⟩
      · rw [hargs a (List.of_mem_zip hm).1] at ht
        rw [ThrowsAs, hself] at ht
        exact absurd ht.1 (by simp)
      · rw [hseen hargs hs, hr] at hn; cases hn
    | made obj' left' =>
      obtain ⟨seen, ws, hs, hrun, hl2⟩ := hmade obj' left' hres
      rw [hseen hargs hs] at hrun
      have hws : ws.length = args.length := by
        have := hctor c vs hc hl
        rw [hrun] at this
        exact this
      rw [hr] at hrun
      cases hrun
      rw [hleft hargs (hl2 hws)]

/-! ### A language for the examples -/

/-- `str`: a string that owns its characters; `view`: a view of characters; `lit`: a string literal;
`tag`: an integer. -/
inductive Ty | str | view | lit | tag deriving DecidableEq

/-- Strings are lists of characters.  A string is copied from const or lvalue strings, which can throw,
and moved from the others.  A string made of a literal throws if the literal is longer than 3
(no memory).  A view is made of anything, without exceptions. -/
def exLang : Lang Ty (List Char) where
  sub := fun A T => if A = T then some ⟨id, fun _ w => w⟩ else none
  conv := fun a T => match a.ty, T with
    | .lit, .str => some fun v => (if v.length ≤ 3 then some v else none, v)
    | .lit, .view => some fun v => (some v, v)
    | .str, .view => some fun v => (some v, v)
    | _, _ => none
  ctor := fun U as => match U, as with
    | .view, [⟨.tag, _, _⟩] => none
    | .view, [_] => some ⟨true, fun vs => (vs.head?, vs)⟩
    | .str, [⟨.str, false, true⟩] => some ⟨true, fun vs => (vs.head?, vs.map fun _ => [])⟩
    | .str, [⟨.str, _, _⟩] => some ⟨false, fun vs => (vs.head?, vs)⟩
    | .str, [⟨.lit, _, _⟩] =>
      some ⟨false, fun vs => (vs.head?.bind fun v => if v.length ≤ 3 then some v else none, vs)⟩
    | .tag, [⟨.str, _, _⟩] => some ⟨true, fun vs => (vs.head?.map fun v => [v.headD ' '], vs)⟩
    | _, _ => none
  dtor := fun _ => true

/-- The result of a call with memory. -/
def exCall (T : Ty) (tconst : Bool) (U : Ty) (a : Form Ty) (v : List Char) :
    Option (Result (List Char)) :=
  (newObject exLang T tconst U [a]).map fun f => f true [v]

-- a string moved into a new string
example : (∀ a ∈ [(⟨.str, false, true⟩ : Form Ty)], a = ⟨.str, false, true⟩) ∧
    exLang.sub .str .str = some ⟨id, fun _ w => w⟩ ∧
    NothrowConstructible exLang .str [⟨.str, false, true⟩] ∧
    exCall .str false .str ⟨.str, false, true⟩ ['a', 'b'] = some (.made ['a', 'b'] [[]]) :=
  ⟨by decide, rfl, ⟨⟨_, rfl, rfl⟩, rfl⟩, by decide⟩

-- a literal that is converted to the value type first
example : exCall .str false .view ⟨.lit, true, false⟩ ['a'] = some (.made ['a'] [['a']]) := by decide

/-- C117 is false in three ways.  A view of a const string, which takes no exceptions, does not
compile on an `allocator<str>`, but does on an `allocator<const str>`.  A view of a long literal ends
the program on an `allocator<str>`, where the literal becomes a string first, while the construction
itself does not throw.  A tag made of a string does not compile on an `allocator<view>`. -/
theorem C117_counterexample :
    (NothrowConstructible exLang .view [⟨.str, true, false⟩] ∧
      exCall .str false .view ⟨.str, true, false⟩ ['a'] = none ∧
      exCall .str true .view ⟨.str, true, false⟩ ['a'] = some (.made ['a'] [['a']])) ∧
    (NothrowConstructible exLang .view [⟨.lit, true, false⟩] ∧
      exCall .str false .view ⟨.lit, true, false⟩ ['a', 'b', 'c', 'd'] = some .terminated ∧
      exCall .view false .view ⟨.lit, true, false⟩ ['a', 'b', 'c', 'd'] =
        some (.made ['a', 'b', 'c', 'd'] [['a', 'b', 'c', 'd']])) ∧
    (NothrowConstructible exLang .tag [⟨.str, false, true⟩] ∧
      exCall .view false .tag ⟨.str, false, true⟩ ['a'] = none ∧
      exCall .str false .tag ⟨.str, false, true⟩ ['a'] = some (.made ['a'] [['a']])) := by
  refine ⟨⟨⟨⟨_, rfl, rfl⟩, rfl⟩, by decide, by decide⟩, ⟨⟨⟨_, rfl, rfl⟩, rfl⟩, by decide, by decide⟩,
    ⟨⟨_, rfl, rfl⟩, rfl⟩, by decide, by decide⟩

end Utils.NewObj
