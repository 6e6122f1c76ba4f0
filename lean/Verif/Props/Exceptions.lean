import Verif.Spec.Exceptions
import Verif.Props.Objects

/-!
# C94: fast_pimpl and exceptions
-/

namespace Utils.Objects

open Utils

variable {α : Type} {E : XImpl α} {N : Nothrow}

theorem xconstruct_live (l : List (Option α)) (log : List TEvent) (i : Nat) (r : Option α) :
    ∃ ev, xconstruct ⟨liveCells l, log⟩ i r =
      (⟨liveCells (plainConstruct l i r).1, log ++ ev⟩, (plainConstruct l i r).2) ∧
      (LifeInv l log → LifeInv (plainConstruct l i r).1 (log ++ ev)) ∧
      ((plainConstruct l i r).2 = true → r = none) := by
  unfold xconstruct plainConstruct
  simp only [liveCells_get]
  by_cases h : free l i = true
  · rw [(free_iff l i).1 h, if_pos h]
    cases r with
    | none => exact ⟨[], by simp, by simp, fun _ => rfl⟩
    | some v =>
      refine ⟨[.construct i], by simp [placeNew_live], fun hl => ?_, nofun⟩
      obtain ⟨h1, h2⟩ := free_at h
      refine lifeInv_construct hl h1 (by simp [at?_set, h2]) fun k hk => ?_
      rw [at?_set, if_neg (fun hc => hk hc.1.symm)]
  · rw [if_neg h]
    refine ⟨[], ?_, by simp, nofun⟩
    rw [free_iff] at h
    cases hl : l[i]? with
    | none => cases r <;> simp
    | some o =>
      cases o with
      | none => exact absurd hl h
      | some v => cases r <;> simp

/-- The bodies do what the same calls do on plain variables, and keep constructions and destructions in
turn. -/
theorem xbody_live (E : XImpl α) (l : List (Option α)) (log : List TEvent) (op : XOp α) :
    ∃ ev, xbody E ⟨liveCells l, log⟩ op =
      .ok (⟨liveCells (xplain E l op).1, log ++ ev⟩, (xplain E l op).2) ∧
      (LifeInv l log → LifeInv (xplain E l op).1 (log ++ ev)) := by
  have hset : ∀ {i : Nat} {d : α} (v : α), at? l i = some d → LifeInv l log →
      LifeInv (l.set i (some v)) (log ++ []) := by
    intro i d v hd h
    rw [List.append_nil]
    exact lifeInv_same h fun k => isSome_set hd
  cases op with
  | default i =>
    obtain ⟨ev, h1, h2, -⟩ := xconstruct_live l log i E.default
    exact ⟨ev, by simp only [xbody, xplain, h1]; rfl, h2⟩
  | forward i r n =>
    obtain ⟨ev, h1, h2, -⟩ := xconstruct_live l log i r
    exact ⟨ev, by simp only [xbody, xplain, h1]; rfl, h2⟩
  | copy i j =>
    simp only [xbody, xplain, liveCells_at]
    cases hj : at? l j with
    | none => exact ⟨[], by simp, by simp⟩
    | some v =>
      obtain ⟨ev, h1, h2, -⟩ := xconstruct_live l log i (E.copy v)
      exact ⟨ev, by simp only [Option.map_some, Cell.get, Outcome.ok_bind, h1]; rfl, h2⟩
  | fromT i v =>
    obtain ⟨ev, h1, h2, -⟩ := xconstruct_live l log i (E.copy v)
    exact ⟨ev, by simp only [xbody, xplain, h1]; rfl, h2⟩
  | move i j =>
    simp only [xbody, xplain, liveCells_at, liveCells_get]
    cases hj : at? l j with
    | none => exact ⟨[], by cases l[i]? with | none => simp | some o => cases o <;> simp, by simp⟩
    | some v =>
      by_cases h : free l i = true
      · simp only [if_pos h]
        obtain ⟨ev, h1, h2, -⟩ := xconstruct_live (l.set j (some (E.move v).2)) log i (E.move v).1
        refine ⟨ev, ?_, fun hl => h2 ?_⟩
        · rw [(free_iff l i).1 h]
          simp only [Option.map_some, Option.map_none, Cell.get, Outcome.ok_bind,
            liveCells_set_some, h1]
          rfl
        · exact lifeInv_same hl fun k => isSome_set hj
      · simp only [if_neg h]
        refine ⟨[], ?_, by simp⟩
        rw [free_iff] at h
        cases hl : l[i]? with
        | none => simp
        | some o =>
          cases o with
          | none => exact absurd hl h
          | some v => simp
  | moveT i v =>
    obtain ⟨ev, h1, h2, -⟩ := xconstruct_live l log i (E.move v).1
    exact ⟨ev, by simp only [xbody, xplain, h1]; rfl, h2⟩
  | assign i j =>
    refine ⟨[], ?_, ?_⟩ <;> simp only [xbody, xplain, liveCells_at]
    · cases hi : at? l i <;> cases hj : at? l j <;>
        simp only [Option.map_some, Option.map_none, Cell.get, Outcome.ok_bind, liveCells_set_some,
          List.append_nil] <;> rfl
    · cases hi : at? l i <;> cases hj : at? l j <;> simp only [List.append_nil, imp_self]
      intro h
      simpa using hset _ hi h
  | assignT i v =>
    refine ⟨[], ?_, ?_⟩ <;> simp only [xbody, xplain, liveCells_at]
    · cases hi : at? l i <;>
        simp only [Option.map_some, Option.map_none, Cell.get, Outcome.ok_bind, liveCells_set_some,
          List.append_nil] <;> rfl
    · cases hi : at? l i <;> simp only [List.append_nil, imp_self]
      intro h
      simpa using hset _ hi h
  | moveAssign i j =>
    refine ⟨[], ?_, ?_⟩ <;> simp only [xbody, xplain, liveCells_at]
    · cases hi : at? l i <;> cases hj : at? l j <;>
        simp only [Option.map_some, Option.map_none, Cell.get, Outcome.ok_bind, liveCells_set_some,
          List.append_nil] <;> try rfl
      by_cases hij : i = j
      · simp only [hij, if_true]; rfl
      · simp only [hij, if_false]; rfl
    · cases hi : at? l i <;> cases hj : at? l j <;> simp only [List.append_nil, imp_self]
      intro h
      by_cases hij : i = j
      · rw [if_pos hij]
        simpa using hset _ hi h
      · rw [if_neg hij]
        refine lifeInv_same h fun k => ?_
        rename_i d v
        rw [isSome_set (w := d) (by rw [at?_set, if_neg (fun hc => hij hc.1.symm), hi]), isSome_set hj]
  | moveAssignT i v =>
    refine ⟨[], ?_, ?_⟩ <;> simp only [xbody, xplain, liveCells_at]
    · cases hi : at? l i <;>
        simp only [Option.map_some, Option.map_none, Cell.get, Outcome.ok_bind, liveCells_set_some,
          List.append_nil] <;> rfl
    · cases hi : at? l i <;> simp only [List.append_nil, imp_self]
      intro h
      simpa using hset _ hi h
  | destroy i =>
    simp only [xbody, xplain, liveCells_at]
    cases hi : at? l i with
    | none => exact ⟨[], by simp, by simp⟩
    | some d =>
      refine ⟨[.destroy i], ?_, fun h => ?_⟩
      · simp only [Option.map_some, Cell.get, Outcome.ok_bind]
        have := liveCells_set l i none
        simp only [Option.map_none] at this
        rw [this]
        rfl
      · refine lifeInv_destroy h (by simp [hi]) (by simp [at?_set, at?_lt hi]) fun k hk => ?_
        rw [at?_set, if_neg (fun hc => hk hc.1.symm)]

/-- An exception specification stops nothing but exceptions of destructors. -/
theorem spec_stops (ht : Truthful E N) (l : List (Option α)) (op : XOp α) (hop : TruthfulOp op) :
    ((xplain E l op).2 && xspec N op) = true ↔
      ∃ i v, op = .destroy i ∧ at? l i = some v ∧ E.destroy v = true := by
  have hc : ∀ (l : List (Option α)) i (r : Option α), (plainConstruct l i r).2 = true → r = none := by
    intro l i r
    obtain ⟨_, -, -, h⟩ := xconstruct_live l [] i r
    exact h
  constructor
  · intro h
    obtain ⟨h1, h2⟩ := (Bool.and_eq_true_iff).1 h
    cases op with
    | default i => exact absurd (hc _ _ _ h1) (ht.default h2)
    | forward i r n => exact absurd (hc _ _ _ h1) (hop h2)
    | copy i j =>
      simp only [xplain] at h1
      split at h1
      · exact absurd (hc _ _ _ h1) (ht.copy h2 _)
      · cases h1
    | fromT i v => exact absurd (hc _ _ _ h1) (ht.copy h2 _)
    | move i j =>
      simp only [xplain] at h1
      split at h1
      · split at h1
        · exact absurd (hc _ _ _ h1) (ht.move h2 _)
        · cases h1
      · cases h1
    | moveT i v => exact absurd (hc _ _ _ h1) (ht.move h2 _)
    | assign i j =>
      simp only [xplain] at h1
      split at h1
      · rw [ht.copyAssign h2] at h1; cases h1
      · cases h1
    | assignT i v =>
      simp only [xplain] at h1
      split at h1
      · rw [ht.copyAssign h2] at h1; cases h1
      · cases h1
    | moveAssign i j =>
      simp only [xplain] at h1
      split at h1
      · next d v _ _ =>
        split at h1
        · rw [(ht.moveAssign h2 d d).2] at h1; cases h1
        · rw [(ht.moveAssign h2 d v).1] at h1; cases h1
      · cases h1
    | moveAssignT i v =>
      simp only [xplain] at h1
      split at h1
      · next d _ => rw [(ht.moveAssign h2 d v).1] at h1; cases h1
      · cases h1
    | destroy i =>
      simp only [xplain] at h1
      split at h1
      · next v hv => exact ⟨i, v, rfl, hv, h1⟩
      · cases h1
  · rintro ⟨i, v, rfl, h1, h2⟩
    simp [xplain, xspec, h1, h2]

theorem xrun_live (ht : Truthful E N) : ∀ (ops : List (XOp α)) (l : List (Option α))
    (log : List TEvent), (∀ op ∈ ops, TruthfulOp op) → LifeInv l log →
    (DtorThrows E l ops → xrun E N ⟨liveCells l, log⟩ ops = .aborted) ∧
    (¬ DtorThrows E l ops → ∃ log', xrun E N ⟨liveCells l, log⟩ ops =
      .ok (⟨liveCells (xplainRun E l ops).1, log'⟩, (xplainRun E l ops).2) ∧
      LifeInv (xplainRun E l ops).1 log')
  | [], l, log, _, h => ⟨nofun, fun _ => ⟨log, rfl, h⟩⟩
  | op :: ops, l, log, hops, h => by
    obtain ⟨ev, e1, e2⟩ := xbody_live E l log op
    have hs := spec_stops ht l op (hops op (by simp))
    obtain ⟨ih1, ih2⟩ := xrun_live ht ops (xplain E l op).1 (log ++ ev)
      (fun o ho => hops o (by simp [ho])) (e2 h)
    by_cases hd : ((xplain E l op).2 && xspec N op) = true
    · have hstep : xstep E N ⟨liveCells l, log⟩ op = .aborted := by
        unfold xstep
        rw [e1, Outcome.ok_bind]
        simp only [hd, if_true]
      refine ⟨fun _ => ?_, fun hn => absurd (Or.inl (hs.1 hd)) hn⟩
      rw [xrun, hstep]
      rfl
    · have hstep : xstep E N ⟨liveCells l, log⟩ op =
          .ok (⟨liveCells (xplain E l op).1, log ++ ev⟩, (xplain E l op).2) := by
        unfold xstep
        rw [e1, Outcome.ok_bind]
        simp only [if_neg hd]
        rfl
      constructor
      · rintro (hn | hn)
        · exact absurd (hs.2 hn) hd
        · rw [xrun, hstep, Outcome.ok_bind]
          simp only [ih1 hn]
          rfl
      · intro hn
        obtain ⟨log', g1, g2⟩ := ih2 fun hc => hn (Or.inr hc)
        refine ⟨log', ?_, g2⟩
        rw [xrun, hstep, Outcome.ok_bind]
        simp only [g1]
        rfl

end Utils.Objects

namespace Utils.Props

open Utils Utils.Objects

variable {α : Type} {E : XImpl α} {N : Nothrow}

theorem lifeInv_start (n : Nat) : LifeInv (List.replicate n none : List (Option α)) [] := by
  intro i
  refine ⟨trivial, ?_⟩
  unfold at?
  simp only [List.getElem?_replicate]
  split <;> simp [lifeOf]

theorem noPimpls_eq (n : Nat) : (noPimpls n : PStore α) = ⟨liveCells (List.replicate n none), []⟩ := by
  unfold noPimpls liveCells
  simp

/-- Whatever operations of `T` throw, as long as no destructor does: the objects behave like plain
variables of type `T`, the caller sees exactly the exceptions it would see with plain variables, no `T`
is used before it lives or after it is gone, and at each place constructions and destructions of `T`
take turns (so that a constructor that fails leaves nothing to destroy).  Missing for the full claim:
destructors that throw (`C94_terminate_iff`). -/
theorem C94_transparent_partial (ht : Truthful E N) (n : Nat) (ops : List (XOp α))
    (hops : ∀ op ∈ ops, TruthfulOp op) (hd : ¬ DtorThrows E (List.replicate n none) ops) :
    ∃ log, xrun E N (noPimpls n) ops =
        .ok (⟨(xplainRun E (List.replicate n none) ops).1.map fun o => o.map Cell.obj, log⟩,
          (xplainRun E (List.replicate n none) ops).2) ∧
      ∀ i, Alternates (lifeOf i log) ∧
        ((at? (xplainRun E (List.replicate n none) ops).1 i).isSome = true ↔
          (lifeOf i log).length % 2 = 1) := by
  obtain ⟨log, h1, h2⟩ := (xrun_live ht ops _ [] hops (lifeInv_start n)).2 hd
  refine ⟨log, ?_, h2⟩
  rw [noPimpls_eq, h1]
  rfl

/-- The program is terminated iff a destructor of `T` throws: the destructor of `fast_pimpl` is
`noexcept` even if that of `T` is not. -/
theorem C94_terminate_iff (ht : Truthful E N) (n : Nat) (ops : List (XOp α))
    (hops : ∀ op ∈ ops, TruthfulOp op) :
    xrun E N (noPimpls n) ops = .aborted ↔ DtorThrows E (List.replicate n none) ops := by
  obtain ⟨h1, h2⟩ := xrun_live ht ops _ [] hops (lifeInv_start n)
  rw [noPimpls_eq]
  refine ⟨fun h => Classical.byContradiction fun hn => ?_, h1⟩
  obtain ⟨log', e, -⟩ := h2 hn
  rw [h] at e
  cases e

/-- Integers: copying an odd one throws, moving never does, copy assignment of an odd one throws after
having cleared the target, destroying 13 throws. -/
def picky : XImpl Int where
  default := some 0
  copy := fun v => if v % 2 = 0 then some v else none
  move := fun v => (some v, 0)
  copyAssign := fun _ v => if v % 2 = 0 then (false, v) else (true, 0)
  moveAssign := fun _ v => (false, v, 0)
  selfMove := fun v => (false, v)
  destroy := fun v => v == 13

def pickyTraits : Nothrow := ⟨true, false, true, false, true⟩

example : Truthful picky pickyTraits :=
  ⟨nofun, nofun, nofun, nofun, fun _ _ _ => ⟨rfl, rfl⟩⟩

/-- A failed copy construction, a failed copy assignment, a move. -/
example : ((xrun picky pickyTraits (noPimpls 3)
      [.default 0, .forward 1 (some 5) false, .copy 2 1, .assign 0 1, .move 2 1, .assign 1 2,
        .destroy 2, .forward 2 none false]).map fun x => (x.1.cells, x.1.log, x.2)) =
    .ok ([some (.obj 0), some (.obj 0), none],
      [.construct 0, .construct 1, .construct 2, .destroy 2],
      [false, false, true, true, false, true, false, true]) := by decide

/-- The full claim is false: with a plain variable the exception of the destructor could be caught, with
`fast_pimpl` the program ends. -/
theorem C94_counterexample :
    (xrun picky pickyTraits (noPimpls 1) [.forward 0 (some 13) true, .destroy 0]).map (fun x => x.2) =
      .aborted ∧
    (xplainRun picky (List.replicate 1 none) [.forward 0 (some 13) true, .destroy 0]).2 =
      [false, true] := by decide

end Utils.Props
