import Verif.Spec.Types
import Verif.Proofs.CInt

/-!
# Properties C86-C88: type traits, concatenate_arrays and make_array of common.h
-/

namespace Utils.Props

open Utils Utils.Types Utils.Types.CxxTy Utils.Arrays

/-! ## C86 -/

/-- `is_uint_v<T>` for every type: true for the unsigned integer types, qualified or not, and for
qualified `bool`. -/
theorem C86_is_uint (t : CxxTy) :
    t.isUInt = true ↔ UnsignedInteger t ∨ ∃ c v, (c || v) = true ∧ t = int c v .bool := by
  unfold isUInt UnsignedInteger
  cases t with
  | int c v k => cases k <;> cases c <;> cases v <;> simp [isUnsigned, CTy.signed]
  | _ => simp [isUnsigned]

/-- `is_uint_v<T>` is true iff `T` is an unsigned integer type, for every `T` but `const bool`,
`volatile bool` and `const volatile bool`. -/
theorem C86_is_uint_partial {t : CxxTy} (ht : ∀ c v, (c || v) = true → t ≠ int c v .bool) :
    t.isUInt = true ↔ UnsignedInteger t := by
  rw [C86_is_uint]
  exact ⟨fun h => h.elim id fun ⟨c, v, h1, h2⟩ => absurd h2 (ht c v h1), Or.inl⟩

example : (int true false .ushort).isUInt = true ∧ (int false false .bool).isUInt = false ∧
    (lref (int false false .uint)).isUInt = false := by decide

/-- Of `const bool` it is true. -/
theorem C86_counterexample_bool :
    (int true false .bool).isUInt = true ∧ ¬ UnsignedInteger (int true false .bool) := by
  refine ⟨by decide, ?_⟩
  rintro ⟨c, v, h⟩
  simp at h

/-- `is_uint_or_byte_v<T>` likewise, but it does not know qualified `std::byte`. -/
theorem C86_is_uint_or_byte (t : CxxTy) :
    t.isUIntOrByte = true ↔ UnsignedInteger t ∨ t = byte false false ∨
      ∃ c v, (c || v) = true ∧ t = int c v .bool := by
  unfold isUIntOrByte
  rw [Bool.or_eq_true, C86_is_uint, beq_iff_eq, or_assoc,
    or_comm (a := ∃ c v, (c || v) = true ∧ t = int c v .bool)]

/-- So a `const uint8_t` buffer element passes and a `const std::byte` does not. -/
theorem C86_counterexample_byte :
    (int true false .uchar).isUIntOrByte = true ∧ (byte false false).isUIntOrByte = true ∧
      (byte true false).isUIntOrByte = false := by decide

theorem qualified_removeCv {c v : Bool} {u t : CxxTy} (h : Qualified c v u t) :
    t.removeCv = u ∧ u.removeCv = u := by
  induction h <;> simp_all [removeCv]

theorem qualified_removeReference {c v : Bool} {u t : CxxTy} (h : Qualified c v u t) :
    t.removeReference = t := by
  cases h <;> rfl

/-- `remove_cvref_t<T>` strips the reference and the qualifiers and nothing else: it is `U`, which has
neither, for exactly the types that are `U` with qualifiers and a reference added. -/
theorem C86_remove_cvref {t : CxxTy} (ht : Formed t) (u : CxxTy) :
    t.removeCvref = u ↔ Variant u t := by
  have key : ∀ u t, Variant u t → t.removeCvref = u := by
    rintro u t ⟨c, v, x, h, rfl | rfl | rfl⟩
    · unfold removeCvref
      rw [qualified_removeReference h, (qualified_removeCv h).1]
    · exact (qualified_removeCv h).1
    · exact (qualified_removeCv h).1
  constructor
  · rintro rfl
    obtain ⟨u, hu⟩ := ht
    rw [key u t hu]
    exact hu
  · exact key u t

example : Formed (lref (array (int true false .char) 6)) ∧
    (lref (array (int true false .char) 6)).removeCvref = array (int false false .char) 6 :=
  ⟨⟨array (int false false .char) 6, true, false, _, .array 6 (.int .char), Or.inr (Or.inl rfl)⟩,
    rfl⟩

/-- `is_std_array_v<T>`: `T` is a `std::array`, a reference to one, with or without qualifiers. -/
theorem C86_is_std_array {t : CxxTy} (ht : Formed t) :
    t.isStdArray = true ↔ ∃ e n, Variant (stdArray false false e n) t := by
  have h : t.isStdArray = true ↔ ∃ e n, t.removeCvref = stdArray false false e n := by
    unfold isStdArray decay removeCvref
    generalize t.removeReference = s
    cases s <;> simp [removeCv, isStdArrayStruct]
  rw [h]
  simp only [C86_remove_cvref ht]

example : (lref (stdArray true false (int false false .int) 3)).isStdArray = true ∧
    (ptr false false (stdArray false false (int false false .int) 3)).isStdArray = false := by decide

/-- `is_ref_wrapper_v<T>` and `unwrap_reference_t<T>` know exactly unqualified reference wrappers. -/
theorem C86_ref_wrapper (t : CxxTy) :
    (t.isRefWrapper = true ↔ ∃ u, t = refWrapper false false u) ∧
    (∀ u, t = refWrapper false false u → t.unwrapReference = lref u) ∧
    (t.isRefWrapper = false → t.unwrapReference = t) := by
  cases t with
  | refWrapper c v u => cases c <;> cases v <;> simp [isRefWrapper, unwrapReference]
  | _ => simp [isRefWrapper, unwrapReference]

/-- So a `const std::reference_wrapper<int>` is no reference wrapper to them. -/
theorem C86_counterexample_ref_wrapper :
    (refWrapper true false (int false false .int)).isRefWrapper = false ∧
    (refWrapper true false (int false false .int)).unwrapReference =
      refWrapper true false (int false false .int) := by decide

/-! ## C87 -/

theorem decay_stdArray (t e : CxxTy) (n : Nat) :
    t.decay = stdArray false false e n ↔ t.removeCvref = stdArray false false e n := by
  unfold decay removeCvref
  generalize t.removeReference = s
  cases s <;> simp [removeCv]

theorem isStdArray_iff (t : CxxTy) :
    t.isStdArray = true ↔ ∃ e n, t.removeCvref = stdArray false false e n := by
  simp only [← decay_stdArray]
  unfold isStdArray
  generalize t.decay = s
  cases s with
  | stdArray c v e n => cases c <;> cases v <;> simp [isStdArrayStruct]
  | _ => simp [isStdArrayStruct]

theorem stdArrayData_iff (t e : CxxTy) :
    t.stdArrayData = some e ↔ ∃ n, t.removeCvref = stdArray false false e n := by
  simp only [← decay_stdArray]
  unfold stdArrayData decay
  generalize t.removeReference = s
  cases s <;> simp [valueType, removeCv]

theorem stdArraySize_eq {t e : CxxTy} {n : Nat} (h : t.removeCvref = stdArray false false e n) :
    t.stdArraySize = some n := by
  unfold stdArraySize
  rw [(decay_stdArray _ _ _).2 h]
  rfl

theorem sizesSum_foldl {ts : List CxxTy} {ns : List Nat} {e : CxxTy} (s : Nat)
    (h : List.Forall₂ (fun t n => t.removeCvref = stdArray false false e n) ts ns) :
    ts.foldl (fun s t => do
      let s ← s
      let n ← t.stdArraySize
      pure (s + n)) (some s) = some (s + ns.sum) := by
  induction h generalizing s with
  | nil => rfl
  | cons h1 _ ih =>
    simp only [List.foldl_cons, List.sum_cons, stdArraySize_eq h1]
    rw [← Nat.add_assoc]
    exact ih _

theorem sizesSum_eq {ts : List CxxTy} {ns : List Nat} {e : CxxTy}
    (h : List.Forall₂ (fun t n => t.removeCvref = stdArray false false e n) ts ns) :
    stdArraySizesSum ts = some ns.sum := by
  unfold stdArraySizesSum
  rw [sizesSum_foldl 0 h, Nat.zero_add]

/-- `std_array_size_v<T>` and `std_array_data_t<T>` name the two parts of a `std::array` (a reference
to one, with or without qualifiers) and do not compile for any other type. -/
theorem C86_array_parts {t : CxxTy} (ht : Formed t) :
    (∀ n, t.stdArraySize = some n ↔ ∃ e, Variant (stdArray false false e n) t) ∧
    (∀ e, t.stdArrayData = some e ↔ ∃ n, Variant (stdArray false false e n) t) := by
  constructor
  · intro n
    simp only [← C86_remove_cvref ht, ← decay_stdArray]
    unfold stdArraySize decay
    generalize t.removeReference = s
    cases s <;> simp [tupleSize, removeCv]
  · intro e
    simp only [← C86_remove_cvref ht]
    exact stdArrayData_iff t e

example : (lref (stdArray true false (int false false .int) 3)).stdArraySize = some 3 ∧
    (lref (array (int false false .int) 3)).stdArraySize = none := by decide

/-- `is_same_data_std_arrays<A, B>` compiles for two `std::array`s only, and compares their element
types. -/
theorem C86_same_data {a b : CxxTy} (ha : Formed a) (hb : Formed b) (r : Bool) :
    isSameDataStdArrays a b = some r ↔ ∃ e f m n, Variant (stdArray false false e m) a ∧
      Variant (stdArray false false f n) b ∧ (r = true ↔ e = f) := by
  unfold isSameDataStdArrays
  constructor
  · intro h
    simp only [Option.bind_eq_bind, Option.bind_eq_some_iff] at h
    obtain ⟨e, he, f, hf, h⟩ := h
    obtain ⟨m, hm⟩ := ((C86_array_parts ha).2 e).1 he
    obtain ⟨n, hn⟩ := ((C86_array_parts hb).2 f).1 hf
    refine ⟨e, f, m, n, hm, hn, ?_⟩
    rw [(C86_is_std_array ha).2 ⟨e, m, hm⟩, (C86_is_std_array hb).2 ⟨f, n, hn⟩] at h
    simp only [Bool.true_and, Option.pure_def, Option.some.injEq] at h
    rw [← h, beq_iff_eq]
  · rintro ⟨e, f, m, n, hm, hn, hr⟩
    rw [((C86_array_parts ha).2 e).2 ⟨m, hm⟩, ((C86_array_parts hb).2 f).2 ⟨n, hn⟩,
      (C86_is_std_array ha).2 ⟨e, m, hm⟩, (C86_is_std_array hb).2 ⟨f, n, hn⟩]
    simp only [Bool.true_and, Option.bind_eq_bind, Option.bind_some, Option.pure_def,
      Option.some.injEq]
    by_cases h : e = f
    · simp [h, hr.2 h]
    · have : r = false := by rw [← Bool.not_eq_true, hr]; exact h
      simp [h, this]

/-- `std_array_sizes_sum<Ts...>` compiles iff all are `std::array`s, of whatever element types, and
is the sum of their sizes. -/
theorem C86_sizes_sum {ts : List CxxTy} (ht : ∀ t ∈ ts, Formed t) (n : Nat) :
    stdArraySizesSum ts = some n ↔
      ∃ ns, List.Forall₂ (fun t k => ∃ e, Variant (stdArray false false e k) t) ts ns ∧
        n = ns.sum := by
  have key : ∀ (ts : List CxxTy), (∀ t ∈ ts, Formed t) → ∀ s : Nat,
      (ts.foldl (fun s t => do
        let s ← s
        let n ← t.stdArraySize
        pure (s + n)) (some s) = some n ↔
      ∃ ns, List.Forall₂ (fun t k => ∃ e, Variant (stdArray false false e k) t) ts ns ∧
        n = s + ns.sum) := by
    intro ts
    induction ts with
    | nil =>
      intro _ s
      constructor
      · rintro ⟨⟩
        exact ⟨[], .nil, rfl⟩
      · rintro ⟨ns, h, rfl⟩
        cases h
        rfl
    | cons t ts ih =>
      intro ht s
      have h1 := (C86_array_parts (ht t (by simp))).1
      have h2 := ih fun t h => ht t (by simp [h])
      rcases hs : t.stdArraySize with _ | k
      · have hnone : ∀ ts : List CxxTy, ts.foldl (fun s t => do
            let s ← s
            let n ← t.stdArraySize
            pure (s + n)) (none : Option Nat) = none := by
          intro ts
          induction ts with
          | nil => rfl
          | cons t ts ih => exact ih
        have e : (t :: ts).foldl (fun s t => do
            let s ← s
            let n ← t.stdArraySize
            pure (s + n)) (some s) = none := by
          rw [List.foldl_cons]
          simp only [hs, Option.bind_eq_bind, Option.bind_some, Option.bind_none]
          exact hnone ts
        rw [e]
        constructor
        · nofun
        · rintro ⟨ns, h, -⟩
          cases h with
          | cons h _ =>
            rw [(h1 _).2 h] at hs
            cases hs
      · simp only [List.foldl_cons, hs, Option.bind_eq_bind, Option.bind_some, Option.pure_def]
        refine (h2 (s + k)).trans ?_
        constructor
        · rintro ⟨ns, h, rfl⟩
          exact ⟨k :: ns, .cons ((h1 k).1 hs) h, by simp [Nat.add_assoc]⟩
        · rintro ⟨ns, h, rfl⟩
          cases h with
          | @cons _ k' _ ns h h' =>
            have := (h1 k').2 h
            rw [hs] at this
            cases this
            exact ⟨ns, h', by simp [Nat.add_assoc]⟩
  have := key ts ht 0
  simp only [Nat.zero_add] at this
  exact this

example : stdArraySizesSum [stdArray true false (int false false .int) 3,
      lref (stdArray false false (byte false false) 4)] = some 7 ∧
    stdArraySizesSum [stdArray true false (int false false .int) 3, byte false false] = none ∧
    isSameDataStdArrays (stdArray true false (int false false .int) 3)
      (stdArray false false (byte false false) 4) = some false := by decide

theorem concat2Type_iff (a b r : CxxTy) :
    concat2Type a b = some r ↔ ∃ e m n, a.removeCvref = stdArray false false e m ∧
      b.removeCvref = stdArray false false e n ∧ r = stdArray false false e (m + n) := by
  constructor
  · intro h
    unfold concat2Type isSameDataStdArrays at h
    rcases hx : a.stdArrayData with _ | x
    · simp [hx] at h
    rcases hy : b.stdArrayData with _ | y
    · simp [hx, hy] at h
    obtain ⟨m, hm⟩ := (stdArrayData_iff a x).1 hx
    obtain ⟨n, hn⟩ := (stdArrayData_iff b y).1 hy
    simp only [hx, hy, Option.bind_eq_bind, Option.bind_some, Option.pure_def] at h
    split at h
    · rename_i hs
      simp only [Bool.and_eq_true, beq_iff_eq] at hs
      obtain ⟨-, rfl⟩ := hs
      rw [sizesSum_eq (.cons hm (.cons hn .nil))] at h
      refine ⟨x, m, n, hm, hn, ?_⟩
      simpa using h.symm
    · cases h
  · rintro ⟨e, m, n, hm, hn, rfl⟩
    unfold concat2Type isSameDataStdArrays
    rw [(stdArrayData_iff a e).2 ⟨m, hm⟩, (stdArrayData_iff b e).2 ⟨n, hn⟩,
      sizesSum_eq (.cons hm (.cons hn .nil))]
    simp [(isStdArray_iff a).2 ⟨e, m, hm⟩, (isStdArray_iff b).2 ⟨e, n, hn⟩]

theorem concatDetailsType_iff (a : CxxTy) (rest : List CxxTy) (r : CxxTy) :
    concatDetailsType a rest = some r ↔
      ∃ e ns, List.Forall₂ (fun t n => t.removeCvref = stdArray false false e n) (a :: rest) ns ∧
        r = stdArray false false e ns.sum := by
  induction rest generalizing a with
  | nil =>
    unfold concatDetailsType
    constructor
    · intro h
      split at h
      · rename_i hs
        obtain ⟨e, n, hn⟩ := (isStdArray_iff a).1 hs
        refine ⟨e, [n], .cons hn .nil, ?_⟩
        rw [hn] at h
        simpa using h.symm
      · cases h
    · rintro ⟨e, ns, h, rfl⟩
      cases h with
      | cons hn h =>
        cases h
        rw [if_pos ((isStdArray_iff a).2 ⟨_, _, hn⟩), hn]
        simp
  | cons b rest ih =>
    unfold concatDetailsType
    constructor
    · intro h
      simp only [Option.bind_eq_bind, Option.bind_eq_some_iff] at h
      obtain ⟨d, -, n, -, c, hc, r', hr, h⟩ := h
      split at h
      · cases h
        obtain ⟨e, m, k, hm, hk, rfl⟩ := (concat2Type_iff a b c).1 hc
        obtain ⟨e', ns, hf, rfl⟩ := (ih _).1 hr
        cases hf with
        | cons h1 h2 =>
          cases h1
          refine ⟨e, m :: k :: _, .cons hm (.cons hk h2), ?_⟩
          simp [Nat.add_assoc]
      · cases h
    · rintro ⟨e, ns, h, rfl⟩
      rw [sizesSum_eq h]
      cases h with
      | cons hm h =>
        cases h with
        | @cons _ k _ ks hk h =>
          rename_i m
          rw [(stdArrayData_iff a e).2 ⟨_, hm⟩, (concat2Type_iff a b _).2 ⟨e, m, k, hm, hk, rfl⟩]
          simp only [Option.bind_eq_bind, Option.bind_some]
          rw [(ih _).2 ⟨e, (m + k) :: ks, .cons rfl h, by simp [Nat.add_assoc]⟩]
          simp

/-- `concatenate_arrays(a1, …, ak)` compiles iff all arguments are `std::array`s (const, volatile,
lvalues or not) of one element type; the result is a `std::array` of that element type whose size is
the sum. -/
theorem C87_accepted (a : CxxTy) (rest : List CxxTy) (r : CxxTy) :
    concatType a rest = some r ↔
      ∃ e ns, List.Forall₂ (fun t n => t.removeCvref = stdArray false false e n) (a :: rest) ns ∧
        r = stdArray false false e ns.sum := by
  rw [← concatDetailsType_iff]
  unfold concatType
  constructor
  · intro h
    simp only [Option.bind_eq_bind, Option.bind_eq_some_iff] at h
    obtain ⟨d, -, n, -, r', hr, h⟩ := h
    split at h
    · cases h; exact hr
    · cases h
  · intro h
    obtain ⟨e, ns, hf, rfl⟩ := (concatDetailsType_iff a rest r).1 h
    rw [h, sizesSum_eq hf]
    cases hf with
    | cons hm _ =>
      rw [(stdArrayData_iff a e).2 ⟨_, hm⟩]
      simp

example : concatType (lref (stdArray true false (int false false .int) 2))
      [stdArray false false (int false false .int) 0, rref (stdArray false false (int false false .int) 3)] =
      some (stdArray false false (int false false .int) 5) ∧
    concatType (stdArray false false (int false false .int) 2)
      [stdArray false false (int true false .int) 2] = none := by decide

theorem takeAll_eq {α : Type} (E : Elem α) (k : Cat) (a : List α) :
    takeAll E k a = (a.map (arrives E k 0), a.map (remains E k)) := by
  cases k with
  | copied =>
    have h : remains E .copied = id := rfl
    rw [h, List.map_id]
    rfl
  | moved => rfl

theorem arrives_arrives {α : Type} (E : Elem α) (k : Cat) (m : Nat) (x : α) :
    arrives E .moved m (arrives E k 0 x) = arrives E k (m + 1) x := rfl

/-- Whatever the element type does when copied and moved: every element of the result was constructed
once from the element it stands for, by copying it if the array is an lvalue or const and by moving
from it otherwise, and then only moved on, once for every array behind the first two and once for
the result.  Arrays that are lvalues or const keep their elements. -/
theorem C87_objects {α : Type} (E : Elem α) (k : Cat) (a : List α) (rest : List (Cat × List α)) :
    concatObjects E k a rest =
      ((((k, a) :: rest).mapIdx fun j x =>
          x.2.map (arrives E x.1 (rest.length + 1 - max j 1))).flatten,
        ((k, a) :: rest).map fun x => x.2.map (remains E x.1)) := by
  induction rest generalizing k a with
  | nil => simp [concatObjects, takeAll_eq]
  | cons b rest ih =>
    obtain ⟨j, b⟩ := b
    simp only [concatObjects, takeAll_eq, ih]
    have hf : (fun (i : Nat) (x : Cat × List α) =>
          x.2.map (arrives E x.1 (((j, b) :: rest).length + 1 - max (i + 1 + 1) 1))) =
        fun i x => x.2.map (arrives E x.1 (rest.length + 1 - max (i + 1) 1)) := by
      funext i x
      rw [show ((j, b) :: rest).length + 1 - max (i + 1 + 1) 1 = rest.length + 1 - max (i + 1) 1 by
        simp only [List.length_cons]; omega]
    simp only [List.mapIdx_cons, List.flatten_cons, List.map_cons, List.tail_cons, hf]
    rw [show ((j, b) :: rest).length + 1 - max 0 1 = rest.length + 1 by simp,
      show ((j, b) :: rest).length + 1 - max (0 + 1) 1 = rest.length + 1 by simp,
      show rest.length + 1 - max 0 1 = rest.length by simp, List.map_append, List.map_map, List.map_map,
      List.append_assoc]
    rfl

/-- For an element type whose copies and moves give equal objects: the result is the elements of all
arrays in order. -/
theorem C87_values {α : Type} {E : Elem α} (hc : ∀ x, E.copy x = x) (hm : ∀ x, (E.move x).1 = x)
    (k : Cat) (a : List α) (rest : List (Cat × List α)) :
    (concatObjects E k a rest).1 = (a :: rest.map Prod.snd).flatten := by
  have h : ∀ c m x, arrives E c m x = x := by
    intro c m x
    induction m with
    | zero => cases c <;> simp [arrives, hc, hm]
    | succ m ih =>
      unfold arrives at ih ⊢
      rw [Function.iterate_succ_apply', ih, hm]
  rw [C87_objects]
  have h2 : ∀ (n : Nat) (l : List (Cat × List α)),
      l.mapIdx (fun j x => x.2.map (arrives E x.1 (n - max j 1))) = l.map Prod.snd := by
    intro n l
    have : (fun (j : Nat) (x : Cat × List α) => x.2.map (arrives E x.1 (n - max j 1))) =
        fun _ x => x.2 := by
      funext j x
      rw [show arrives E x.1 (n - max j 1) = id from funext fun y => h _ _ y, List.map_id]
    rw [this]
    induction l with
    | nil => rfl
    | cons x l ih => rw [List.mapIdx_cons, ih, List.map_cons]
  rw [h2]
  rfl

/-- Elements that count how often they were copied and moved; the source of a move is emptied (0). -/
def counting : Elem (Nat × Nat × Nat) where
  copy x := (x.1, x.2.1 + 1, x.2.2)
  move x := ((x.1, x.2.1, x.2.2 + 1), (0, x.2.1, x.2.2))

example : concatObjects counting .copied [(7, 0, 0)]
      [(.moved, [(8, 0, 0)]), (.copied, [(9, 0, 0)])] =
    ([(7, 1, 2), (8, 0, 3), (9, 1, 1)], [[(7, 0, 0)], [(0, 0, 0)], [(9, 0, 0)]]) := by decide

/-! ## C88 -/

/-- All integer types. -/
def allTys : List CTy :=
  [.bool, .char, .schar, .uchar, .short, .ushort, .int, .uint, .long, .ulong, .llong, .ullong]

theorem mem_allTys (t : CTy) : t ∈ allTys := by cases t <;> decide

theorem common_comm (a b : CTy) : CTy.common a b = CTy.common b a := by
  have h : ∀ a ∈ allTys, ∀ b ∈ allTys, CTy.common a b = CTy.common b a := by decide +kernel
  exact h a (mem_allTys a) b (mem_allTys b)

theorem common_assoc (a b c : CTy) :
    CTy.common (CTy.common a b) c = CTy.common a (CTy.common b c) := by
  have h : ∀ a ∈ allTys, ∀ b ∈ allTys, ∀ c ∈ allTys,
      CTy.common (CTy.common a b) c = CTy.common a (CTy.common b c) := by decide +kernel
  exact h a (mem_allTys a) b (mem_allTys b) c (mem_allTys c)

theorem common_self (a : CTy) : CTy.common a a = a := if_pos rfl

/-- What is absorbed by its common type is narrowed iff its sign is lost. -/
theorem narrowing_iff {u t : CTy} (h : CTy.common u t = t) :
    narrowing u t = true ↔ u.signed = true ∧ t.signed = false := by
  have key : ∀ u ∈ allTys, ∀ t ∈ allTys, CTy.common u t = t →
      (narrowing u t = true ↔ u.signed = true ∧ t.signed = false) := by decide +kernel
  exact key u (mem_allTys u) t (mem_allTys t) h

theorem foldl_common (ts : List CTy) (t : CTy) (u : CTy) :
    ts.foldl CTy.common (CTy.common u t) = CTy.common u (ts.foldl CTy.common t) := by
  induction ts generalizing t with
  | nil => rfl
  | cons x ts ih => rw [List.foldl_cons, List.foldl_cons, common_assoc, ih]

theorem absorbed (ts : List CTy) (t : CTy) : ∀ u ∈ t :: ts,
    CTy.common u (ts.foldl CTy.common t) = ts.foldl CTy.common t := by
  induction ts generalizing t with
  | nil => intro u hu; rw [List.mem_singleton] at hu; subst hu; exact common_self u
  | cons x ts ih =>
    intro u hu
    rw [List.foldl_cons]
    rcases List.mem_cons.1 hu with rfl | hu
    · rw [foldl_common, ← common_assoc, common_self]
    · rw [common_comm t x, foldl_common, ]
      rcases List.mem_cons.1 hu with rfl | hu
      · rw [← common_assoc, common_self]
      · rw [← common_assoc, common_comm u x, common_assoc, ih t u (List.mem_cons_of_mem _ hu)]

/-- Where width and sign of the common type come from. -/
theorem foldl_witness (ts : List CTy) (t : CTy) :
    ((ts.foldl CTy.common t).signed = false → 32 ≤ (ts.foldl CTy.common t).width →
      ∃ u ∈ t :: ts, u.signed = false ∧ u.width = (ts.foldl CTy.common t).width) ∧
    ((ts.foldl CTy.common t).signed = true → (ts.foldl CTy.common t).width = 64 →
      ∃ u ∈ t :: ts, u.signed = true ∧ u.width = 64) := by
  have key : ∀ a ∈ allTys, ∀ b ∈ allTys,
      ((CTy.common a b).signed = false → 32 ≤ (CTy.common a b).width →
        (a.signed = false ∧ a.width = (CTy.common a b).width) ∨
        (b.signed = false ∧ b.width = (CTy.common a b).width)) ∧
      ((CTy.common a b).signed = true → (CTy.common a b).width = 64 →
        (a.signed = true ∧ a.width = 64) ∨ (b.signed = true ∧ b.width = 64)) := by decide +kernel
  induction ts generalizing t with
  | nil => exact ⟨fun h _ => ⟨t, by simp, h, rfl⟩, fun h h' => ⟨t, by simp, h, h'⟩⟩
  | cons x ts ih =>
    rw [List.foldl_cons, common_comm t x, foldl_common]
    obtain ⟨k1, k2⟩ := key x (mem_allTys x) (ts.foldl CTy.common t) (mem_allTys _)
    constructor
    · intro h1 h2
      rcases k1 h1 h2 with ⟨h3, h4⟩ | ⟨h3, h4⟩
      · exact ⟨x, by simp, h3, h4⟩
      · obtain ⟨u, hu, h5, h6⟩ := (ih t).1 h3 (by omega)
        refine ⟨u, ?_, h5, by omega⟩
        rcases List.mem_cons.1 hu with rfl | hu <;> simp [*]
    · intro h1 h2
      rcases k2 h1 h2 with ⟨h3, h4⟩ | ⟨h3, h4⟩
      · exact ⟨x, by simp, h3, h4⟩
      · obtain ⟨u, hu, h5, h6⟩ := (ih t).2 h3 h4
        refine ⟨u, ?_, h5, h6⟩
        rcases List.mem_cons.1 hu with rfl | hu <;> simp [*]

/-- `make_array(args...)` of integers contains no narrowing conversion iff no argument is signed, or
every unsigned argument of at least the width of `int` is narrower than some signed argument. -/
theorem C88_accepted {args : List CVal} {t : CTy} {bad : Bool} {vs : List Int}
    (h : makeArrayOf args = some (t, bad, vs)) :
    bad = false ↔ Compatible (args.map CVal.ty) := by
  rcases args with _ | ⟨a, args⟩
  · simp [makeArrayOf, commonAll] at h
  simp only [makeArrayOf, commonAll, List.map_cons, Option.bind_eq_bind, Option.bind_some,
    Option.pure_def, Option.some.injEq, Prod.mk.injEq] at h
  obtain ⟨ht, hb, -⟩ := h
  have hw := foldl_witness (args.map CVal.ty) a.ty
  have ha := absorbed (args.map CVal.ty) a.ty
  rw [ht] at hw ha hb
  have hbad : bad = false ↔ t.signed = true ∨ ∀ u ∈ (a :: args).map CVal.ty, u.signed = false := by
    rw [← hb, List.any_eq_false]
    constructor
    · intro h
      rcases ht' : t.signed with _ | _
      · right
        intro u hu
        obtain ⟨x, hx, rfl⟩ := List.mem_map.1 hu
        have := h x hx
        rw [narrowing_iff (ha _ (by simpa using hu))] at this
        simpa [ht'] using this
      · exact Or.inl rfl
    · intro h x hx
      rw [narrowing_iff (ha _ (by simpa using List.mem_map_of_mem hx))]
      rintro ⟨h1, h2⟩
      rcases h with h | h
      · rw [h] at h2; cases h2
      · rw [h _ (List.mem_map_of_mem hx)] at h1; cases h1
  rw [hbad]
  unfold Compatible
  rw [List.map_cons]
  have small : ∀ u ∈ allTys, ∀ t ∈ allTys, CTy.common u t = t →
      (u.signed = false → 32 ≤ u.width → t.signed = true → u.width < 64 ∧ t.width = 64) ∧
      (u.signed = true → t.signed = false → 32 ≤ t.width ∧ u.width ≤ t.width) := by decide +kernel
  constructor
  · rintro (h | h)
    · right
      intro u hu h1 h2
      obtain ⟨h3, h4⟩ := (small u (mem_allTys u) t (mem_allTys t) (ha u hu)).1 h1 h2 h
      obtain ⟨s, hs, h5, h6⟩ := hw.2 h h4
      exact ⟨s, hs, h5, by omega⟩
    · exact Or.inl h
  · rintro (h | h)
    · exact Or.inr h
    · rcases ht' : t.signed with _ | _
      · right
        intro u hu
        rcases hu' : u.signed with _ | _
        · rfl
        · exfalso
          obtain ⟨h3, -⟩ := (small u (mem_allTys u) t (mem_allTys t) (ha u hu)).2 hu' ht'
          obtain ⟨x, hx, h5, h6⟩ := hw.1 ht' h3
          obtain ⟨s, hs, h7, h8⟩ := h x hx h5 (by omega)
          have := ((small s (mem_allTys s) t (mem_allTys t) (ha s hs)).2 h7 ht').2
          omega
      · exact Or.inl rfl

example : Compatible [.uchar, .uint, .long] ∧ ¬ Compatible [.uint, .int] := by
  constructor
  · right; simp [CTy.signed, CTy.width]
  · simp [Compatible, CTy.signed, CTy.width]

/-- It is accepted iff no values of the argument types are changed by it. -/
theorem C88_values {args : List CVal} {t : CTy} {bad : Bool} {vs : List Int}
    (h : makeArrayOf args = some (t, bad, vs)) :
    bad = false ↔ ∀ xs : List CVal, xs.map CVal.ty = args.map CVal.ty →
      (∀ x ∈ xs, x.ty.InRange x.val) → makeArrayOf xs = some (t, bad, xs.map CVal.val) := by
  have hgen : ∀ xs : List CVal, xs.map CVal.ty = args.map CVal.ty →
      makeArrayOf xs = some (t, bad, xs.map fun x => t.conv x.val) := by
    intro xs hxs
    unfold makeArrayOf at h ⊢
    rw [hxs]
    simp only [Option.bind_eq_bind, Option.bind_eq_some_iff, Option.pure_def, Option.some.injEq,
      Prod.mk.injEq] at h ⊢
    obtain ⟨t', h1, rfl, h2, -⟩ := h
    refine ⟨t', h1, rfl, ?_, rfl⟩
    have hm : ∀ l : List CVal, (l.any fun x => narrowing x.ty t') =
        (l.map CVal.ty).any fun u => narrowing u t' := fun l => by rw [List.any_map]; rfl
    rw [← h2, hm, hm, hxs]
  have hbad : bad = args.any fun x => narrowing x.ty t := by
    unfold makeArrayOf at h
    simp only [Option.bind_eq_bind, Option.bind_eq_some_iff, Option.pure_def, Option.some.injEq,
      Prod.mk.injEq] at h
    obtain ⟨t', h1, rfl, h2, -⟩ := h
    exact h2.symm
  constructor
  · intro hb xs hxs hr
    rw [hgen xs hxs]
    congr 3
    apply List.map_congr_left
    intro x hx
    apply CTy.conv_eq_self
    have hn : narrowing x.ty t = false := by
      have hm : x.ty ∈ args.map CVal.ty := hxs ▸ List.mem_map_of_mem hx
      obtain ⟨y, hy, hyx⟩ := List.mem_map.1 hm
      rw [hb] at hbad
      have := List.any_eq_false.1 hbad.symm y hy
      rw [← hyx]
      simpa using this
    have h1 := hr x hx
    unfold narrowing at hn
    unfold CTy.InRange at h1 ⊢
    rw [decide_eq_false_iff_not] at hn
    omega
  · intro hall
    rcases hb : bad with _ | _
    · rfl
    exfalso
    rw [hb] at hbad
    obtain ⟨y, hy, hn⟩ := List.any_eq_true.1 hbad.symm
    have hmm : ∀ u : CTy, u.minVal ≤ u.maxVal := by intro u; cases u <;> decide
    let pick : CTy → Int := fun u => if u.minVal < t.minVal then u.minVal else u.maxVal
    let xs := args.map fun x => (⟨x.ty, pick x.ty⟩ : CVal)
    have hxs : xs.map CVal.ty = args.map CVal.ty := by
      simp only [xs, List.map_map]
      rfl
    have hr : ∀ x ∈ xs, x.ty.InRange x.val := by
      intro x hx
      obtain ⟨z, hz, rfl⟩ := List.mem_map.1 hx
      have := hmm z.ty
      unfold CTy.InRange
      simp only [pick]
      split <;> omega
    have e := (hgen xs hxs).symm.trans (hall xs hxs hr)
    simp only [Option.some.injEq, Prod.mk.injEq, true_and] at e
    have hx : (⟨y.ty, pick y.ty⟩ : CVal) ∈ xs := List.mem_map_of_mem hy
    have hc : t.conv (pick y.ty) = pick y.ty := (List.map_inj_left.1 e) _ hx
    have hin := CTy.conv_inRange t (pick y.ty)
    rw [hc] at hin
    unfold narrowing at hn
    rw [decide_eq_true_iff] at hn
    unfold CTy.InRange at hin
    simp only [pick] at hin
    have := hmm y.ty
    split at hin <;> omega

/-- The element type and whether it is accepted do not depend on the order of the arguments. -/
theorem C88_order {args args' : List CVal} (hp : args.Perm args') {t : CTy} {bad : Bool}
    {vs : List Int} (h : makeArrayOf args = some (t, bad, vs)) :
    ∃ vs', makeArrayOf args' = some (t, bad, vs') ∧ vs.Perm vs' := by
  have hc : ∀ {l l' : List CTy}, l.Perm l' → commonAll l = commonAll l' := by
    intro l l' hp
    induction hp with
    | nil => rfl
    | cons x hp ih =>
      rename_i l1 l2
      rcases l1 with _ | ⟨a, l1⟩
      · rw [hp.nil_eq]
      rcases l2 with _ | ⟨b, l2⟩
      · exact absurd hp (by simp)
      simp only [commonAll, Option.some.injEq] at ih ⊢
      rw [List.foldl_cons, List.foldl_cons, foldl_common, foldl_common, ih]
    | swap x y l => simp only [commonAll, List.foldl_cons, common_comm x y]
    | trans _ _ h1 h2 => exact h1.trans h2
  unfold makeArrayOf at h ⊢
  simp only [Option.bind_eq_bind, Option.bind_eq_some_iff, Option.pure_def, Option.some.injEq,
    Prod.mk.injEq] at h ⊢
  obtain ⟨t', h1, rfl, h2, rfl⟩ := h
  refine ⟨_, ⟨t', (hc (hp.map CVal.ty)).symm.trans h1, rfl, ?_, rfl⟩, hp.map _⟩
  rw [← h2]
  exact (hp.any_eq ..).symm

/-- The type is the same for every order, also where the common types of the pairs differ. -/
example : makeArrayOf [⟨.ulong, 1⟩, ⟨.llong, 2⟩, ⟨.char, 3⟩] = some (.ullong, true, [1, 2, 3]) ∧
    makeArrayOf [⟨.int, -1⟩, ⟨.uint, 2⟩] = some (.uint, true, [4294967295, 2]) ∧
    makeArrayOf [⟨.int, -1⟩, ⟨.uint, 2⟩, ⟨.long, 3⟩] = some (.long, false, [-1, 2, 3]) ∧
    makeArrayOf [⟨.uchar, 1⟩, ⟨.uchar, 2⟩] = some (.uchar, false, [1, 2]) ∧
    makeArrayOf [⟨.uchar, 1⟩, ⟨.ushort, 2⟩] = some (.int, false, [1, 2]) := by
  decide +kernel

end Utils.Props
