import Verif.Proofs.Memory
import Verif.Spec.Memory

/-!
# Properties C18, C35-C37, C65: raw memory helpers

Inaccessible bytes are part of every memory: a result `ok` for a memory in which nothing but the
mentioned ranges is accessible shows that nothing else is touched.
-/

namespace Utils.Props

open Utils Utils.Memory Utils.Spec

/-- A small memory for the examples: the given bytes from address 16 on, nothing else accessible. -/
def mem16 (l : List UInt8) : Mem := fun x => if 16 ≤ x then l[x - 16]? else none

/-- The accessible bytes among the `n` from `a` on. -/
def dump (a n : Nat) (m : Mem) : List (Option UInt8) := (List.range n).map fun i => m (a + i)

/-! ## C18 -/

/-- `memvcmp(p, v, n)` is true iff `p` is non-null, `n > 0` and all `n` bytes equal `v`; it needs no
other byte to be accessible. -/
theorem C18_memvcmp {m : Mem} {p n : Nat} (v : UInt8) (h : Accessible m p n) :
    ∃ r, memvcmp m p v n = .ok r ∧
      (r = true ↔ p ≠ 0 ∧ 0 < n ∧ ∀ i < n, m (p + i) = some v) :=
  memvcmp_ok v h

example : Accessible (mem16 [7, 7, 7]) 16 3 ∧ memvcmp (mem16 [7, 7, 7]) 16 7 3 = .ok true ∧
    memvcmp (mem16 [7, 7, 8]) 16 7 3 = .ok false := by
  refine ⟨?_, by decide, by decide⟩
  unfold Accessible; decide

/-- Whatever the bytes are, a null pointer or no bytes give false without any access. -/
theorem C18_rejects (m : Mem) (v : UInt8) (p n : Nat) (h : p = 0 ∨ n = 0) :
    memvcmp m p v n = .ok false := by
  unfold memvcmp
  rw [if_pos h.symm]

example : memvcmp (fun _ => none) 0 7 3 = .ok false := C18_rejects _ _ _ _ (by decide)

/-! ## C35 -/

/-- `secure_zero_memory(p, n)` zeroes the `n` bytes and changes nothing else. -/
theorem C35_secure_zero_memory {m : Mem} {p n : Nat} (h : Accessible m p n) :
    ∃ m', secureZeroMemory m p n = .ok m' ∧ (∀ i < n, m' (p + i) = some 0) ∧
      SameOutside p n m m' := by
  refine ⟨_, zeroLoop_ok (p := p) n 0 m (fun j _ hj => h j (by omega)), ?_, ?_⟩
  · intro i hi
    rw [if_pos (by omega)]
  · intro x hx
    simp only
    rw [if_neg (by omega)]

example : (secureZeroMemory (mem16 [1, 2, 3, 4]) 17 2).map (dump 15 6) =
    .ok [none, some 1, some 0, some 0, some 4, none] := by
  decide

/-- It writes all of the range: an inaccessible byte in it is undefined behaviour. -/
theorem C35_writes_all {m : Mem} {p n i : Nat} (hi : i < n) (h : m (p + i) = none) :
    secureZeroMemory m p n = .ub :=
  zeroLoop_ub n 0 m i (by omega) (by omega) h

example : (mem16 [1, 2]) (16 + 2) = none := by decide

/-- The checked variant: `-1` for null whatever the size, else `-2` for size 0, both without any
access; otherwise `0` after zeroing. -/
theorem C35_secure_zero_memory_safe (m : Mem) (p n : Nat) :
    (p = 0 → secureZeroMemorySafe m p n = .ok (-1, m)) ∧
    (p ≠ 0 → n = 0 → secureZeroMemorySafe m p n = .ok (-2, m)) ∧
    (p ≠ 0 → n ≠ 0 → Accessible m p n → ∃ m', secureZeroMemorySafe m p n = .ok (0, m') ∧
      (∀ i < n, m' (p + i) = some 0) ∧ SameOutside p n m m') := by
  refine ⟨fun h => ?_, fun h1 h2 => ?_, fun h1 h2 h3 => ?_⟩
  · unfold secureZeroMemorySafe
    rw [if_pos h]
  · unfold secureZeroMemorySafe
    rw [if_neg h1, if_pos h2]
  · obtain ⟨m', e, h⟩ := C35_secure_zero_memory h3
    refine ⟨m', ?_, h⟩
    unfold secureZeroMemorySafe
    rw [if_neg h1, if_neg h2, e]
    rfl

example : ((secureZeroMemorySafe (mem16 [1, 2, 3]) 16 3).map fun r => (r.1, dump 16 3 r.2)) =
    .ok (0, [some 0, some 0, some 0]) := by
  decide

/-! ## C36 -/

/-- `memmove(dst, src, n)` leaves in the destination the bytes that were in the source, and changes
nothing else.  At run time this holds for every overlap.  Missing for the full claim: a destination
that starts inside the source during constant evaluation, where it is false
(`C36_constant_evaluation`, `C36_counterexample`). -/
theorem C36_memmove_partial (constEval : Bool) {m : Mem} {dst src n : Nat}
    (hs : Accessible m src n) (hd : Accessible m dst n)
    (hnull : constEval = false → dst ≠ 0 ∧ src ≠ 0)
    (hover : constEval = true → ¬ (src < dst ∧ dst < src + n)) :
    ∃ m', memmove constEval m dst src n = .ok (dst, m') ∧
      (∀ i < n, m' (dst + i) = m (src + i)) ∧ SameOutside dst n m m' := by
  cases constEval with
  | false =>
    obtain ⟨h1, h2⟩ := hnull rfl
    unfold memmove cMemmove
    rw [if_neg (by simp), if_neg (by omega), cMove_ok hs hd]
    refine ⟨_, rfl, ?_, ?_⟩
    · intro i hi
      rw [if_pos (by omega), show dst + i - dst = i by omega]
    · intro x hx
      simp only
      rw [if_neg (by omega)]
  | true =>
    have hover := hover rfl
    unfold memmove
    rw [if_pos rfl]
    by_cases he : dst = src
    · rw [if_pos he]
      exact ⟨m, rfl, fun i _ => by rw [he], fun x _ => rfl⟩
    · rw [if_neg he, copyLoop_ok he hs hd n 0 m (by omega)
        (fun x => by rw [if_neg (by omega)])]
      refine ⟨_, rfl, ?_, ?_⟩
      · intro i hi
        rw [if_pos (by omega), show dst + i - dst = i by omega, copied, if_neg hover]
      · intro x hx
        simp only
        rw [if_neg (by omega)]

example : ((memmove true (mem16 [1, 2, 3, 4]) 16 17 3).map fun r => dump 16 4 r.2) =
      .ok [some 2, some 3, some 4, some 4] ∧
    ((memmove false (mem16 [1, 2, 3, 4]) 17 16 3).map fun r => dump 16 4 r.2) =
      .ok [some 1, some 1, some 2, some 3] := by
  decide

/-- What constant evaluation computes when the destination starts inside the source: the first
`dst - src` bytes of the source, repeated. -/
theorem C36_constant_evaluation {m : Mem} {dst src n : Nat}
    (hs : Accessible m src n) (hd : Accessible m dst n) (h : src < dst ∧ dst < src + n) :
    ∃ m', memmove true m dst src n = .ok (dst, m') ∧
      (∀ i < n, m' (dst + i) = m (src + i % (dst - src))) ∧ SameOutside dst n m m' := by
  unfold memmove
  rw [if_pos rfl, if_neg (by omega), copyLoop_ok (by omega) hs hd n 0 m (by omega)
    (fun x => by rw [if_neg (by omega)])]
  refine ⟨_, rfl, ?_, ?_⟩
  · intro i hi
    rw [if_pos (by omega), show dst + i - dst = i by omega, copied, if_pos h]
  · intro x hx
    simp only
    rw [if_neg (by omega)]

/-- The full claim is false: moving three bytes up by one during constant evaluation. -/
theorem C36_counterexample :
    ((memmove true (mem16 [1, 2, 3, 4]) 17 16 3).map fun r => dump 16 4 r.2) =
      .ok [some 1, some 1, some 1, some 1] := by
  decide

/-! ## C37 -/

/-- `m'` is `m` with the `n` bytes from `src` on copied to `dst`, and nothing else changed. -/
def CopiedTo (m : Mem) (dst src n : Nat) (m' : Mem) : Prop :=
  (∀ i < n, m' (dst + i) = m (src + i)) ∧ SameOutside dst n m m'

/-- Every one of the `n` bytes from `a` on is zero or one. -/
def AllBool (m : Mem) (a n : Nat) : Prop := ∀ i < n, m (a + i) = some 0 ∨ m (a + i) = some 1

/-- At run time, for disjoint ranges and non-null pointers, `memcpy` copies the bytes and changes
nothing else, in every build and with pointers of every type. -/
theorem C37_memcpy (debug : Bool) (types : Option (ByteTy × ByteTy)) {m : Mem} {dst src n : Nat}
    (h1 : dst ≠ 0) (h2 : src ≠ 0) (hs : Accessible m src n) (hd : Accessible m dst n)
    (hdis : DisjointRanges dst src n) :
    ∃ m', memcpy debug false types m dst src n = .ok m' ∧ CopiedTo m dst src n m' := by
  unfold memcpy
  rw [show (dst != 0) = true by simpa using h1, show (src != 0) = true by simpa using h2]
  rw [cassert_true, Outcome.ok_bind, Outcome.ok_bind]
  unfold DisjointRanges at hdis
  rw [if_neg (by decide)]
  unfold cMemcpy
  rw [if_neg (by omega), if_neg (by omega), cMove_ok hs hd]
  refine ⟨_, rfl, ?_, ?_⟩
  · intro i hi
    simp only
    rw [if_pos (by omega), show dst + i - dst = i by omega]
  · intro x hx
    simp only
    rw [if_neg (by omega)]

example : Accessible (mem16 [1, 2, 3, 4, 5]) 16 2 ∧ Accessible (mem16 [1, 2, 3, 4, 5]) 19 2 ∧
    DisjointRanges 19 16 2 ∧
    ((memcpy true false (some (.bool, .uchar)) (mem16 [1, 2, 3, 4, 5]) 19 16 2).map (dump 16 5)) =
      .ok [some 1, some 2, some 3, some 1, some 2] := by
  simp only [Accessible, DisjointRanges]
  decide

private theorem cast_eq {to : ByteTy} {b : UInt8} (h : to = .bool → b = 0 ∨ b = 1) :
    to.cast b = b := by
  cases to <;> try rfl
  rcases h rfl with rfl | rfl <;> rfl

private theorem constEval_eq (debug : Bool) {to from_ : ByteTy} {m : Mem} {dst src n : Nat}
    (h1 : dst ≠ 0) (h2 : src ≠ 0) :
    memcpy debug true (some (to, from_)) m dst src n = castLoop to from_ m dst src 0 n := by
  unfold memcpy
  rw [show (dst != 0) = true by simpa using h1, show (src != 0) = true by simpa using h2]
  rw [cassert_true, Outcome.ok_bind, Outcome.ok_bind]
  rfl

private theorem holds_of {from_ : ByteTy} {m : Mem} {src n : Nat} (hs : Accessible m src n)
    (hb : from_ = .bool → AllBool m src n) :
    ∀ j < n, ∃ b, m (src + 0 + j) = some b ∧ from_.holds b = true := by
  intro j hj
  obtain ⟨b, h⟩ := Option.isSome_iff_exists.1 (hs j hj)
  refine ⟨b, by rw [Nat.add_zero]; exact h, ?_⟩
  cases from_ <;> try rfl
  rcases hb rfl j hj with h' | h' <;> rw [h] at h' <;> cases h' <;> decide

/-- During constant evaluation the same holds when neither pointer is to `void`, and when, if one is
to `bool`, the source holds zeros and ones only. The full claim has neither condition; `C37_iff` shows
that both are needed. -/
theorem C37_constant_partial (debug : Bool) (to from_ : ByteTy) {m : Mem} {dst src n : Nat}
    (h1 : dst ≠ 0) (h2 : src ≠ 0) (hs : Accessible m src n) (hd : Accessible m dst n)
    (hdis : DisjointRanges dst src n)
    (hb : to = .bool ∨ from_ = .bool → AllBool m src n) :
    ∃ m', memcpy debug true (some (to, from_)) m dst src n = .ok m' ∧
      CopiedTo m dst src n m' := by
  unfold DisjointRanges at hdis
  rw [constEval_eq debug h1 h2, castLoop_ok n 0 m (by omega) (holds_of hs fun h => hb (.inr h))
    (fun j hj => by rw [Nat.add_zero]; exact hd j hj)]
  refine ⟨_, rfl, ?_, ?_⟩
  · intro i hi
    simp only
    rw [if_pos (by omega), show src + (dst + i - dst) = src + i by omega]
    obtain ⟨b, h⟩ := Option.isSome_iff_exists.1 (hs i hi)
    rw [h, Option.map_some, cast_eq]
    intro ht
    rcases hb (.inl ht) i hi with h' | h' <;> rw [h] at h' <;> cases h' <;> decide
  · intro x hx
    simp only
    rw [if_neg (by omega)]

example : Accessible (mem16 [1, 2, 3, 4, 5]) 16 2 ∧ Accessible (mem16 [1, 2, 3, 4, 5]) 19 2 ∧
    DisjointRanges 19 16 2 ∧
    ((memcpy true true (some (.byte, .char)) (mem16 [1, 2, 3, 4, 5]) 19 16 2).map (dump 16 5)) =
      .ok [some 1, some 2, some 3, some 1, some 2] := by
  simp only [Accessible, DisjointRanges]
  decide

/-- From another type to `bool`, constant evaluation does not copy the bytes: it writes whether each
is nonzero. -/
theorem C37_to_bool (debug : Bool) (from_ : ByteTy) (hf : from_ ≠ .bool) {m : Mem}
    {dst src n : Nat} (h1 : dst ≠ 0) (h2 : src ≠ 0) (hs : Accessible m src n)
    (hd : Accessible m dst n) (hdis : DisjointRanges dst src n) :
    ∃ m', memcpy debug true (some (.bool, from_)) m dst src n = .ok m' ∧
      (∀ i < n, m' (dst + i) = if m (src + i) = some 0 then some 0 else some 1) ∧
      SameOutside dst n m m' := by
  unfold DisjointRanges at hdis
  rw [constEval_eq debug h1 h2, castLoop_ok n 0 m (by omega) (holds_of hs fun h => absurd h hf)
    (fun j hj => by rw [Nat.add_zero]; exact hd j hj)]
  refine ⟨_, rfl, ?_, ?_⟩
  · intro i hi
    rw [if_pos (by omega), show src + (dst + i - dst) = src + i by omega]
    obtain ⟨b, h⟩ := Option.isSome_iff_exists.1 (hs i hi)
    rw [h, Option.map_some]
    by_cases h0 : b = 0
    · subst h0
      rfl
    · rw [if_neg (by simpa using h0)]
      simp only [ByteTy.cast, if_neg h0]
  · intro x hx
    simp only
    rw [if_neg (by omega)]

example : ((memcpy true true (some (.bool, .uchar)) (mem16 [0, 2, 1, 4, 5, 6]) 19 16 3).map
    (dump 16 6)) = .ok [some 0, some 2, some 1, some 0, some 1, some 1] := by
  decide

/-- The exact condition, for disjoint accessible ranges and non-null pointers: `memcpy` copies the
bytes and changes nothing else if and only if it runs at run time, or neither pointer is to `void`
and, if one is to `bool`, the source holds zeros and ones only. -/
theorem C37_iff (debug constEval : Bool) (types : Option (ByteTy × ByteTy)) {m : Mem}
    {dst src n : Nat} (h1 : dst ≠ 0) (h2 : src ≠ 0) (hs : Accessible m src n)
    (hd : Accessible m dst n) (hdis : DisjointRanges dst src n) :
    (∃ m', memcpy debug constEval types m dst src n = .ok m' ∧ CopiedTo m dst src n m') ↔
      (constEval = true → ∃ to from_, types = some (to, from_) ∧
        (to = .bool ∨ from_ = .bool → AllBool m src n)) := by
  cases constEval with
  | false => exact ⟨fun _ h => (nomatch h), fun _ => C37_memcpy debug types h1 h2 hs hd hdis⟩
  | true =>
    constructor
    · rintro ⟨m', e, hc, _⟩ -
      cases types with
      | none =>
        unfold memcpy at e
        rw [show (dst != 0) = true by simpa using h1, show (src != 0) = true by simpa using h2,
          cassert_true, Outcome.ok_bind, Outcome.ok_bind] at e
        cases e
      | some t =>
        obtain ⟨to, from_⟩ := t
        refine ⟨to, from_, rfl, fun hb i hi => ?_⟩
        obtain ⟨b, hbi⟩ := Option.isSome_iff_exists.1 (hs i hi)
        by_cases hf : from_ = .bool
        · subst hf
          cases hh : ByteTy.bool.holds b with
          | true =>
            rw [hbi]
            simp only [ByteTy.holds, Bool.or_eq_true, decide_eq_true_eq] at hh
            exact hh.imp (congrArg some) (congrArg some)
          | false =>
            unfold DisjointRanges at hdis
            rw [constEval_eq debug h1 h2, castLoop_ub n 0 m i b (by omega) hi hbi hh] at e
            cases e
        · obtain rfl := hb.resolve_right hf
          obtain ⟨m'', e', hc', _⟩ := C37_to_bool debug from_ hf h1 h2 hs hd hdis
          rw [e] at e'
          cases e'
          rw [← hc i hi, hc' i hi]
          split
          · exact .inl rfl
          · exact .inr rfl
    · intro h
      obtain ⟨to, from_, rfl, hb⟩ := h rfl
      exact C37_constant_partial debug to from_ h1 h2 hs hd hdis hb

example : AllBool (mem16 [1, 0, 1, 9, 9, 9]) 16 3 ∧
    ((memcpy true true (some (.bool, .uchar)) (mem16 [1, 0, 1, 9, 9, 9]) 19 16 3).map
      (dump 16 6)) = .ok [some 1, some 0, some 1, some 1, some 0, some 1] := by
  simp only [AllBool]
  decide

/-- The full claim is false: three bytes copied to an array of `bool` during constant evaluation, and
the same call at run time. -/
theorem C37_counterexample :
    [true, false].map (fun constEval =>
      (memcpy true constEval (some (.bool, .uchar)) (mem16 [0, 2, 255, 7, 7, 7]) 19 16 3).map
        (dump 16 6)) =
      [.ok [some 0, some 2, some 255, some 0, some 1, some 1],
        .ok [some 0, some 2, some 255, some 0, some 2, some 255]] := by
  decide

/-- A null pointer fails an assertion in debug builds, whatever the count. -/
theorem C37_null (constEval : Bool) (types : Option (ByteTy × ByteTy)) (m : Mem) (dst src n : Nat)
    (h : dst = 0 ∨ src = 0) :
    memcpy true constEval types m dst src n = .assertFailed := by
  unfold memcpy
  by_cases hd : dst = 0
  · rw [show (dst != 0) = false by simpa using hd]
    rfl
  · rw [show (dst != 0) = true by simpa using hd, cassert_true, Outcome.ok_bind,
      show (src != 0) = false by simpa using h.resolve_left hd]
    rfl

example : memcpy true false (some (.byte, .byte)) (mem16 [1]) 0 16 1 = .assertFailed := C37_null _ _ _ _ _ _ (by decide)

/-! ## C65 -/

/-- `bit_cast<To>(x)` has the object representation of `x`: the bytes of the result, read at either
type, mean what the bytes of `x` mean. -/
theorem C65_bit_cast {α β : Type} (To : ObjRepr α) (From : ObjRepr β) (hsz : To.size = From.size)
    {m : Mem} {dst src : Nat} (h1 : dst ≠ 0) (h2 : src ≠ 0)
    (hs : Accessible m src From.size) (hd : Accessible m dst To.size)
    (hdis : DisjointRanges dst src To.size) :
    ∃ m', bitCast To From m dst src = some (.ok m') ∧
      bytesAt m' dst To.size = bytesAt m src From.size ∧ SameOutside dst To.size m m' := by
  unfold bitCast
  rw [if_pos hsz]
  obtain ⟨m', e, g1, g2⟩ := C37_memcpy false none h1 h2 (hsz ▸ hs) hd hdis
  refine ⟨m', ?_, ?_, g2⟩
  · rw [← e]
    rfl
  · unfold bytesAt
    rw [← hsz]
    apply List.map_congr_left
    intro i hi
    exact g1 i (List.mem_range.1 hi)

/-- Casting there and back gives an object with the same representation, hence the same value. -/
theorem C65_round_trip {α β : Type} (To : ObjRepr α) (From : ObjRepr β) (hsz : To.size = From.size)
    {m : Mem} {src mid dst : Nat} (h1 : dst ≠ 0) (h2 : src ≠ 0) (h3 : mid ≠ 0)
    (hs : Accessible m src From.size) (hm : Accessible m mid To.size)
    (hd : Accessible m dst From.size) (hdis1 : DisjointRanges mid src To.size)
    (hdis2 : DisjointRanges dst mid To.size) :
    ∃ m1 m2, bitCast To From m mid src = some (.ok m1) ∧
      bitCast From To m1 dst mid = some (.ok m2) ∧
      ∃ l : List UInt8, bytesAt m src From.size = l.map some ∧ bytesAt m2 dst From.size = l.map some ∧
        (loadBytes m2 dst From.size).map From.read = (loadBytes m src From.size).map From.read := by
  obtain ⟨m1, e1, g1, g2⟩ := C65_bit_cast To From hsz h3 h2 hs hm hdis1
  have acc : ∀ {a n}, Accessible m a n → Accessible m1 a n := by
    intro a n ha i hi
    by_cases hx : a + i < mid ∨ mid + To.size ≤ a + i
    · rw [g2 _ hx]
      exact ha i hi
    · have : m1 (a + i) = m (src + (a + i - mid)) := by
        have hl : (bytesAt m1 mid To.size)[a + i - mid]? =
            (bytesAt m src From.size)[a + i - mid]? := by rw [g1]
        unfold bytesAt at hl
        rw [List.getElem?_map, List.getElem?_map, List.getElem?_range (by omega),
          List.getElem?_range (by omega)] at hl
        have := Option.some.inj hl
        simp only at this
        rwa [show mid + (a + i - mid) = a + i by omega] at this
      rw [this]
      exact hs _ (by omega)
  obtain ⟨m2, e2, g3, -⟩ := C65_bit_cast From To hsz.symm h1 h3 (acc hm) (acc hd) (hsz ▸ hdis2)
  have hb : bytesAt m2 dst From.size = bytesAt m src From.size := g3.trans g1
  obtain ⟨l, l1, l2, l3⟩ := loadBytes_ok m From.size src hs
  have hl : bytesAt m src From.size = l.map some := by
    apply List.ext_getElem?
    intro i
    unfold bytesAt
    by_cases hi : i < From.size
    · rw [List.getElem?_map, List.getElem?_range hi, List.getElem?_map,
        List.getElem?_eq_getElem (by omega)]
      simp only [Option.map_some]
      rw [l3 i hi, List.getElem?_eq_getElem (by omega)]
    · rw [List.getElem?_eq_none (by simp; omega), List.getElem?_eq_none (by simp; omega)]
  have hat : ∀ i < From.size, m2 (dst + i) = m (src + i) := by
    intro i hi
    have hl : (bytesAt m2 dst From.size)[i]? = (bytesAt m src From.size)[i]? := by rw [hb]
    unfold bytesAt at hl
    rw [List.getElem?_map, List.getElem?_map, List.getElem?_range hi] at hl
    exact Option.some.inj hl
  obtain ⟨r, r1, r2, r3⟩ := loadBytes_ok m2 From.size dst fun i hi => by
    rw [hat i hi]
    exact hs i hi
  have : r = l := by
    apply List.ext_getElem?
    intro i
    by_cases hi : i < From.size
    · rw [← r3 i hi, ← l3 i hi, hat i hi]
    · rw [List.getElem?_eq_none (by omega), List.getElem?_eq_none (by omega)]
  exact ⟨m1, m2, e1, e2, l, hl, by rw [hb, hl], by rw [r1, l1, this]⟩

/-- A little-endian 16-bit integer and a pair of bytes. -/
def u16le : ObjRepr Nat := ⟨2, fun l => l.foldr (fun b acc => b.toNat + 256 * acc) 0⟩
def bytePair : ObjRepr (UInt8 × UInt8) := ⟨2, fun l => (l[0]!, l[1]!)⟩

example : ((bitCast bytePair u16le (mem16 [1, 2, 0, 0]) 18 16).map fun o =>
    (o.bind fun m => loadBytes m 18 2).map bytePair.read) = some (.ok (1, 2)) := by
  decide

/-- Types of different sizes are rejected. -/
theorem C65_sizes {α β : Type} (To : ObjRepr α) (From : ObjRepr β) (hsz : To.size ≠ From.size)
    (m : Mem) (dst src : Nat) : bitCast To From m dst src = none := if_neg hsz

example : u16le.size ≠ (⟨1, fun l => l[0]!⟩ : ObjRepr UInt8).size := by decide

end Utils.Props
