import Verif.Model.ArrayThrow
import Verif.Props.Types

/-! # Arrays of elements that throw (C111) -/

namespace Utils.Props

open Utils.ArrayThrow
open Utils.Types (Cat)

variable {α : Type}

/-- Copies and moves keep the value, or throw. -/
structure KeepsOrThrows (E : XElem α) : Prop where
  copy : ∀ x y, E.copy x = some y → y = x
  move : ∀ x y, (E.move x).1 = some y → y = x

/-- The construction of an element of the result from `x` throws. -/
def XElem.Fails (E : XElem α) : Cat → α → Prop
  | .copied, x => E.copy x = none
  | .moved, x => (E.move x).1 = none

theorem mapM_keeps {f : α → Option α} (h : ∀ x y, f x = some y → y = x) : ∀ l : List α,
    (l.mapM f = none ∧ ∃ x ∈ l, f x = none) ∨ (l.mapM f = some l ∧ ∀ x ∈ l, f x ≠ none)
  | [] => .inr ⟨rfl, by simp⟩
  | x :: l => by
    cases e : f x with
    | none => exact .inl ⟨by simp [e], x, by simp, e⟩
    | some y =>
      obtain rfl := h x y e
      rcases mapM_keeps h l with ⟨h1, z, hz, h2⟩ | ⟨h1, h2⟩
      · exact .inl ⟨by simp [e, h1], z, by simp [hz], h2⟩
      · refine .inr ⟨by simp [e, h1], ?_⟩
        intro z hz
        rcases List.mem_cons.1 hz with rfl | hz
        · simp [e]
        · exact h2 z hz

theorem takeX_keeps {E : XElem α} (h : KeepsOrThrows E) (k : Cat) (a : List α) :
    (takeX E k a = none ∧ ∃ x ∈ a, XElem.Fails E k x) ∨
      (takeX E k a = some a ∧ ∀ x ∈ a, ¬XElem.Fails E k x) := by
  cases k with
  | copied => exact mapM_keeps h.copy a
  | moved => exact mapM_keeps h.move a

theorem concatX_keeps {E : XElem α} (h : KeepsOrThrows E) : ∀ (rest : List (Cat × List α)) (k : Cat)
    (a : List α),
    (concatX E k a rest = none ∧
      ((∃ p ∈ (k, a) :: rest, ∃ x ∈ p.2, XElem.Fails E p.1 x) ∨
        rest ≠ [] ∧ ∃ p ∈ (k, a) :: rest, ∃ x ∈ p.2, XElem.Fails E .moved x)) ∨
    (concatX E k a rest = some (((k, a) :: rest).flatMap (·.2)) ∧
      (∀ p ∈ (k, a) :: rest, ∀ x ∈ p.2, ¬XElem.Fails E p.1 x) ∧
      (rest ≠ [] → ∀ p ∈ (k, a) :: rest, ∀ x ∈ p.2, ¬XElem.Fails E .moved x))
  | [], k, a => by
    rcases takeX_keeps h k a with ⟨h1, h2⟩ | ⟨h1, h2⟩
    · exact .inl ⟨h1, .inl ⟨(k, a), by simp, h2⟩⟩
    · exact .inr ⟨by simp [concatX, h1], by simpa using h2, fun hc => absurd rfl hc⟩
  | (j, b) :: rest, k, a => by
    rcases takeX_keeps h k a with ⟨h1, h2⟩ | ⟨h1, h2⟩
    · exact .inl ⟨by simp [concatX, h1], .inl ⟨(k, a), by simp, h2⟩⟩
    rcases takeX_keeps h j b with ⟨h3, h4⟩ | ⟨h3, h4⟩
    · exact .inl ⟨by simp [concatX, h1, h3], .inl ⟨(j, b), by simp, h4⟩⟩
    have hx : concatX E k a ((j, b) :: rest) = concatX E .moved (a ++ b) rest := by
      simp [concatX, h1, h3]
    rw [hx]
    rcases concatX_keeps h rest .moved (a ++ b) with ⟨h5, h6⟩ | ⟨h5, h6, h7⟩
    · refine .inl ⟨h5, ?_⟩
      have lift : ∀ p ∈ ((Cat.moved, a ++ b) :: rest), ∀ x ∈ p.2, XElem.Fails E .moved x →
          ∃ p ∈ (k, a) :: (j, b) :: rest, ∃ x ∈ p.2, XElem.Fails E .moved x := by
        intro p hp x hx hf
        rcases List.mem_cons.1 hp with rfl | hp
        · rcases List.mem_append.1 hx with hx | hx
          · exact ⟨(k, a), by simp, x, hx, hf⟩
          · exact ⟨(j, b), by simp, x, hx, hf⟩
        · exact ⟨p, by simp [hp], x, hx, hf⟩
      rcases h6 with ⟨p, hp, x, hx, hf⟩ | ⟨-, p, hp, x, hx, hf⟩
      · rcases List.mem_cons.1 hp with rfl | hp'
        · exact .inr ⟨by simp, lift _ hp x hx hf⟩
        · exact .inl ⟨p, by simp [hp'], x, hx, hf⟩
      · exact .inr ⟨by simp, lift p hp x hx hf⟩
    · refine .inr ⟨by simp [h5], ?_, ?_⟩
      · intro p hp
        rcases List.mem_cons.1 hp with rfl | hp
        · exact h2
        · rcases List.mem_cons.1 hp with rfl | hp
          · exact h4
          · exact h6 p (by simp [hp])
      · intro _ p hp x hx
        have h8 := h6 (.moved, a ++ b) (by simp)
        rcases List.mem_cons.1 hp with rfl | hp
        · exact h8 x (by simp [hx])
        · rcases List.mem_cons.1 hp with rfl | hp
          · exact h8 x (by simp [hx])
          · by_cases hr : rest = []
            · subst hr; cases hp
            · exact h7 hr p (by simp [hp]) x hx

/-- Without exceptions the functions are those of C20 and C87. -/
theorem C111_refines (E : XElem α) (E' : Arrays.Elem α) (hc : ∀ x, E.copy x = some (E'.copy x))
    (hm : ∀ x, E.move x = (some (E'.move x).1, (E'.move x).2)) :
    (∀ a rest, concatenateX E a rest = .value (Types.concatObjects E' a.1 a.2 rest).1) ∧
    (∀ n v, makeArrayFillX E n v = .value (Arrays.makeArrayFill E' n v)) ∧
    (∀ n z, makeZeroArrayX E (some z) n = .value (Arrays.makeZeroArray E' z n)) := by
  have ht : ∀ k a, takeX E k a = some (Types.takeAll E' k a).1 := by
    have hmap : ∀ (f : α → α) (l : List α), l.mapM (fun x => some (f x)) = some (l.map f) := by
      intro f l
      induction l with
      | nil => rfl
      | cons x l ih => simp [ih]
    intro k a
    cases k with
    | copied => simp only [takeX, Types.takeAll, funext hc, hmap]
    | moved => simp only [takeX, Types.takeAll, hm, hmap]
  have hconcat : ∀ rest k a, concatX E k a rest = some (Types.concatObjects E' k a rest).1 := by
    intro rest
    induction rest with
    | nil => intro k a; exact ht k a
    | cons p rest ih =>
      intro k a
      simp only [concatX, ht, ih, Types.concatObjects, Option.bind_eq_bind, Option.bind_some]
  have hfill : ∀ n v, fillX E v n = some (Arrays.fillMoves E' v n) := by
    intro n
    induction n with
    | zero => intro v; rfl
    | succ n ih => intro v; simp [fillX, hm, ih, Arrays.fillMoves]
  refine ⟨fun a rest => ?_, fun n v => ?_, fun n z => ?_⟩
  · simp [concatenateX, hconcat, Ends.noexcept]
  · simp [makeArrayFillX, hc, hfill, Ends.noexcept, Arrays.makeArrayFill]
  · simp [makeZeroArrayX, hfill, Ends.noexcept, Arrays.makeZeroArray]

example : concatenateX (⟨some, fun x => (some x, 0)⟩ : XElem Nat) (.moved, [1, 2]) [(.copied, [3])] =
    .value (Types.concatObjects ⟨id, fun x => (x, 0)⟩ .moved [1, 2] [(.copied, [3])]).1 := by decide

/-- C111 for `concatenate_arrays`, for elements whose copies and moves keep the value or throw.  The caller
never gets an exception.  The program is ended iff some element of an array that is copied cannot be
copied, or some element of an array that is moved cannot be moved, or there are several arrays and some
element, of whichever array, cannot be moved.  Otherwise the result is the concatenation. -/
theorem C111_concatenate (E : XElem α) (h : KeepsOrThrows E) (a : Cat × List α)
    (rest : List (Cat × List α)) :
    concatenateX E a rest ≠ .throws ∧
    (concatenateX E a rest = .terminates ↔
      ∃ p ∈ a :: rest, ∃ x ∈ p.2, (p.1 = .copied ∧ E.copy x = none) ∨
        ((p.1 = .moved ∨ rest ≠ []) ∧ (E.move x).1 = none)) ∧
    (concatenateX E a rest ≠ .terminates →
      concatenateX E a rest = .value ((a :: rest).flatMap (·.2))) := by
  obtain ⟨k, a⟩ := a
  rcases concatX_keeps h rest k a with ⟨h1, h2⟩ | ⟨h1, h2, h3⟩
  · have e : concatenateX E (k, a) rest = .terminates := by simp [concatenateX, h1, Ends.noexcept]
    refine ⟨by rw [e]; simp, ⟨fun _ => ?_, fun _ => e⟩, fun hc => absurd e hc⟩
    rcases h2 with ⟨p, hp, x, hx, hf⟩ | ⟨hr, p, hp, x, hx, hf⟩
    · refine ⟨p, hp, x, hx, ?_⟩
      obtain ⟨pk, pa⟩ := p
      cases pk with
      | copied => exact .inl ⟨rfl, hf⟩
      | moved => exact .inr ⟨.inl rfl, hf⟩
    · exact ⟨p, hp, x, hx, .inr ⟨.inr hr, hf⟩⟩
  · have e : concatenateX E (k, a) rest = .value (((k, a) :: rest).flatMap (·.2)) := by
      simp [concatenateX, h1, Ends.noexcept]
    refine ⟨by rw [e]; simp, ⟨fun hc => (by rw [e] at hc; cases hc), ?_⟩, fun _ => e⟩
    rintro ⟨p, hp, x, hx, ⟨hk, hf⟩ | ⟨hk, hf⟩⟩
    · obtain ⟨pk, pa⟩ := p
      cases hk
      exact absurd hf (h2 _ hp x hx)
    · rcases hk with hk | hk
      · obtain ⟨pk, pa⟩ := p
        cases hk
        exact absurd hf (h2 _ hp x hx)
      · exact absurd hf (h3 hk p hp x hx)

/-- Elements 0 and 1 throw when copied, elements 0 and 2 when moved; a move leaves 9. -/
def xDemo : XElem Nat :=
  ⟨fun x => if x = 0 ∨ x = 1 then none else some x, fun x => (if x = 0 ∨ x = 2 then none else some x, 9)⟩

theorem xDemo_keeps : KeepsOrThrows xDemo := by
  refine ⟨fun x y h => ?_, fun x y h => ?_⟩ <;>
  · simp only [xDemo] at h
    split at h
    · cases h
    · exact (Option.some.inj h).symm

example : concatenateX xDemo (.moved, [1, 5]) [(.copied, [6])] = .value [1, 5, 6] ∧
    concatenateX xDemo (.copied, [2, 5]) [] = .value [2, 5] := by decide

/-- An exception of the copy of an element ends the program; and so does one of a move, although the
arrays are lvalues. -/
theorem C111_counterexample :
    concatenateX xDemo (.copied, [1, 5]) [(.copied, [6])] = .terminates ∧
    concatenateX xDemo (.copied, [2, 5]) [(.copied, [6])] = .terminates ∧
    makeArrayFillX xDemo 3 2 = .terminates := by decide

/-- The `i`-th state of the parameter that is moved from again and again. -/
def movedFrom (E : XElem α) (p : α) : Nat → α
  | 0 => p
  | i + 1 => (E.move (movedFrom E p i)).2

theorem movedFrom_succ (E : XElem α) (p : α) : ∀ i, movedFrom E p (i + 1) = movedFrom E (E.move p).2 i
  | 0 => rfl
  | i + 1 => by
    show (E.move (movedFrom E p (i + 1))).2 = _
    rw [movedFrom_succ E p i]
    rfl

theorem fillX_none (E : XElem α) : ∀ (n : Nat) (p : α),
    fillX E p n = none ↔ ∃ i < n, (E.move (movedFrom E p i)).1 = none
  | 0, p => by simp [fillX]
  | n + 1, p => by
    cases e : (E.move p).1 with
    | none =>
      refine ⟨fun _ => ⟨0, by omega, e⟩, fun _ => by simp [fillX, e]⟩
    | some x =>
      have ih := fillX_none E n (E.move p).2
      have : fillX E p (n + 1) = none ↔ fillX E (E.move p).2 n = none := by
        cases h : fillX E (E.move p).2 n <;> simp [fillX, e, h]
      rw [this, ih]
      constructor
      · rintro ⟨i, hi, h⟩
        exact ⟨i + 1, by omega, by rw [movedFrom_succ]; exact h⟩
      · rintro ⟨i, hi, h⟩
        cases i with
        | zero => rw [movedFrom, e] at h; cases h
        | succ i => exact ⟨i, by omega, by rw [← movedFrom_succ]; exact h⟩

/-- C111 for `make_array<T, N>(v)`: the caller gets an exception iff the first copy throws; the program is
ended iff one of the moves of that copy throws, and there are `N` of them. -/
theorem C111_fill (E : XElem α) (n : Nat) (v : α) :
    (makeArrayFillX E n v = .throws ↔ E.copy v = none) ∧
    (makeArrayFillX E n v = .terminates ↔
      ∃ p, E.copy v = some p ∧ ∃ i < n, (E.move (movedFrom E p i)).1 = none) := by
  unfold makeArrayFillX
  cases e : E.copy v with
  | none => simp
  | some p =>
    have := fillX_none E n p
    cases h : fillX E p n with
    | none =>
      have := this.1 h
      simpa [Ends.noexcept, h] using this
    | some l =>
      have : ¬∃ i < n, (E.move (movedFrom E p i)).1 = none := fun hc => by
        rw [this.2 hc] at h; cases h
      simpa [Ends.noexcept, h] using this

example : makeArrayFillX xDemo 2 1 = .throws ∧ makeArrayFillX xDemo 2 2 = .terminates ∧
    makeArrayFillX xDemo 0 2 = .value [] ∧ makeArrayFillX xDemo 2 3 = .value [3, 9] := by decide

/-- The same for `make_zero_array<T, N>()` and `T{}`. -/
theorem C111_zero (E : XElem α) (n : Nat) (zero : Option α) :
    (makeZeroArrayX E zero n = .throws ↔ zero = none) ∧
    (makeZeroArrayX E zero n = .terminates ↔
      ∃ p, zero = some p ∧ ∃ i < n, (E.move (movedFrom E p i)).1 = none) := by
  have h := C111_fill (⟨fun _ => zero, E.move⟩ : XElem α)
  cases zero with
  | none => simp [makeZeroArrayX]
  | some p =>
    have hm : ∀ i, movedFrom (⟨fun _ => some p, E.move⟩ : XElem α) p i = movedFrom E p i := by
      intro i
      induction i with
      | zero => rfl
      | succ i ih => simp only [movedFrom, ih]
    have hf : ∀ n v, fillX (⟨fun _ => some p, E.move⟩ : XElem α) v n = fillX E v n := by
      intro n
      induction n with
      | zero => intro v; rfl
      | succ n ih => intro v; simp only [fillX, ih]
    have h := h n p
    simp only [makeArrayFillX, hf] at h
    simpa only [makeZeroArrayX, Option.some.injEq, exists_eq_left', hm] using h

example : makeZeroArrayX xDemo none 3 = .throws ∧ makeZeroArrayX xDemo (some 0) 1 = .terminates ∧
    makeZeroArrayX xDemo (some 4) 2 = .value [4, 9] := by decide

/-- If moves do not throw, every exception of `make_array` and `make_zero_array` reaches the caller; if
copies do not throw either, `concatenate_arrays` ends well.  (The full claim has no condition; it is
false: `C111_counterexample`.) -/
theorem C111_reach_partial (E : XElem α) (hm : ∀ x, (E.move x).1 ≠ none) (n : Nat) (v : α)
    (zero : Option α) (args : List (Option α)) :
    makeArrayFillX E n v ≠ .terminates ∧ makeZeroArrayX E zero n ≠ .terminates ∧
    (makeArrayArgsX args = .throws ↔ none ∈ args) ∧
    (∀ l, makeArrayArgsX args = .value l ↔ args = l.map some) ∧
    ((∀ x, E.copy x ≠ none) → KeepsOrThrows E → ∀ a rest,
      concatenateX E a rest = .value ((a :: rest).flatMap (·.2))) := by
  refine ⟨?_, ?_, ?_, ?_, ?_⟩
  · rw [Ne, (C111_fill E n v).2]
    rintro ⟨p, -, i, -, h⟩
    exact hm _ h
  · rw [Ne, (C111_zero E n zero).2]
    rintro ⟨p, -, i, -, h⟩
    exact hm _ h
  · have : args.mapM id = none ↔ none ∈ args := by
      induction args with
      | nil => simp
      | cons x args ih =>
        cases x with
        | none => simp
        | some x =>
          rw [List.mapM_cons, List.mem_cons]
          cases h : args.mapM id <;> simp_all
    unfold makeArrayArgsX
    rw [← this]
    cases h : args.mapM id <;> simp [Ends.open]
  · intro l
    have : args.mapM id = some l ↔ args = l.map some := by
      induction args generalizing l with
      | nil => cases l <;> simp
      | cons x args ih =>
        cases x with
        | none => cases l <;> simp
        | some x =>
          cases l with
          | nil => cases h : args.mapM id <;> simp [h]
          | cons y l =>
            have := ih l
            cases h : args.mapM id <;> simp_all
    unfold makeArrayArgsX
    rw [← this]
    cases h : args.mapM id <;> simp [Ends.open]
  · intro hc hk a rest
    refine (C111_concatenate E hk a rest).2.2 ?_
    rw [Ne, (C111_concatenate E hk a rest).2.1]
    rintro ⟨p, -, x, -, ⟨-, h⟩ | ⟨-, h⟩⟩
    · exact hc x h
    · exact hm x h

example : ∃ E : XElem Nat, (∀ x, (E.move x).1 ≠ none) ∧ (E.copy 1 = none) ∧
    makeArrayFillX E 2 1 = .throws ∧ makeArrayArgsX [some 1, none] = (.throws : Ends (List Nat)) :=
  ⟨⟨fun x => if x = 1 then none else some x, fun x => (some x, 9)⟩, by simp, by decide, by decide, by decide⟩

theorem mapM_none {β γ : Type} {f : β → Option γ} : ∀ {l : List β},
    l.mapM f = none ↔ ∃ x ∈ l, f x = none
  | [] => by simp
  | x :: l => by
    rw [List.mapM_cons]
    cases e : f x with
    | none => simp [e]
    | some y =>
      have ih := mapM_none (f := f) (l := l)
      cases h : l.mapM f with
      | none => simpa [e] using ih.1 h
      | some r =>
        have : ¬∃ x ∈ l, f x = none := fun hc => by rw [ih.2 hc] at h; cases h
        simpa [e] using this

theorem mapM_value {β γ : Type} {f : β → Option γ} : ∀ {l : List β} {r : List γ},
    l.mapM f = some r ↔ l.map f = r.map some
  | [], r => by cases r <;> simp
  | x :: l, r => by
    rw [List.mapM_cons]
    cases e : f x with
    | none => cases r <;> simp [e]
    | some y =>
      cases r with
      | nil => cases h : l.mapM f <;> simp
      | cons z r =>
        have ih := mapM_value (f := f) (l := l) (r := r)
        cases h : l.mapM f with
        | none =>
          rw [h] at ih
          simp only [reduceCtorEq, false_iff] at ih
          simp [e, ih]
        | some r' =>
          rw [h, Option.some.injEq] at ih
          simp [e, ← ih]

/-- C111 for `make_array<N, V>(sv)` with at least `N` characters: the caller never gets an exception.  The
program is ended iff the conversion of one of the first `N` characters throws, or the move of the
object it gives; otherwise the array holds what the conversions give. -/
theorem C111_view {β : Type} (E : XElem α) (h : KeepsOrThrows E) (conv : β → Option α) (N : Nat)
    (sv : List β) :
    makeArrayFromSvX E conv N sv ≠ .throws ∧
    (makeArrayFromSvX E conv N sv = .terminates ↔
      ∃ c ∈ sv.take N, ∀ v, conv c = some v → (E.move v).1 = none) ∧
    (∀ l, makeArrayFromSvX E conv N sv = .value l →
      (sv.take N).map conv = l.map some) := by
  unfold makeArrayFromSvX
  cases e : (sv.take N).mapM conv with
  | none =>
    obtain ⟨c, hc, hn⟩ := mapM_none.1 e
    exact ⟨nofun, ⟨fun _ => ⟨c, hc, by simp [hn]⟩, fun _ => rfl⟩, nofun⟩
  | some r =>
    have hr := mapM_value.1 e
    have mem : ∀ v, v ∈ r ↔ ∃ c ∈ sv.take N, conv c = some v := by
      intro v
      have : some v ∈ (sv.take N).map conv ↔ some v ∈ r.map some := by rw [hr]
      rw [List.mem_map, List.mem_map] at this
      simpa using this.symm
    have tot : ∀ c ∈ sv.take N, ∃ v, conv c = some v := by
      intro c hc
      cases hv : conv c with
      | some v => exact ⟨v, rfl⟩
      | none =>
        rw [mapM_none.2 ⟨c, hc, hv⟩] at e
        cases e
    show Ends.noexcept (takeX E .moved r) ≠ .throws ∧ (Ends.noexcept (takeX E .moved r) = .terminates ↔ _) ∧
      ∀ l, Ends.noexcept (takeX E .moved r) = .value l → _
    rcases takeX_keeps h .moved r with ⟨h1, x, hx, h2⟩ | ⟨h1, h2⟩
    · obtain ⟨c, hc, hv⟩ := (mem x).1 hx
      rw [h1]
      refine ⟨nofun, ⟨fun _ => ⟨c, hc, fun v hv' => ?_⟩, fun _ => rfl⟩, nofun⟩
      rw [hv] at hv'
      cases hv'
      exact h2
    · rw [h1]
      refine ⟨nofun, ⟨nofun, ?_⟩, fun l hl => ?_⟩
      · rintro ⟨c, hc, hf⟩
        obtain ⟨v, hv⟩ := tot c hc
        exact absurd (hf v hv) (h2 v ((mem v).2 ⟨c, hc, hv⟩))
      · cases hl
        exact hr

/-- Characters are numbers here; 7 cannot be converted, 2 not be moved. -/
example : KeepsOrThrows xDemo ∧
    makeArrayFromSvX xDemo (fun c : Nat => if c = 7 then none else some c) 2 [4, 5, 7] =
      .value [4, 5] ∧
    makeArrayFromSvX xDemo (fun c : Nat => if c = 7 then none else some c) 3 [4, 5, 7] =
      .terminates ∧
    makeArrayFromSvX xDemo (fun c : Nat => if c = 7 then none else some c) 1 [2] = .terminates :=
  ⟨xDemo_keeps, by decide, by decide, by decide⟩

end Utils.Props
