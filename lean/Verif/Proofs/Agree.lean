import Verif.Spec.SRCycle
import Verif.Spec.Agree
import Verif.Spec.SRHistory
import Verif.Spec.Resources
import Verif.Model.Arrays
import Verif.Model.Memory

/-! Builds with and without assertions. -/

namespace Utils

open Utils.Bits

namespace Agree

theorem refl {α : Type} (o : Outcome α) : Agree o o := .inr rfl

theorem bind {α β : Type} {m n : Outcome α} {f g : α → Outcome β} (h : Agree m n)
    (hf : ∀ a, m = .ok a → Agree (f a) (g a)) : Agree (m >>= f) (n >>= g) := by
  rcases h with h | h
  · subst h; exact .inl rfl
  · subst h
    cases m with
    | ok a => exact hf a rfl
    | _ => exact .inr rfl

theorem map_ok {α β : Type} {m n : Outcome α} (f : α → Outcome β) (h : Agree m n) :
    Agree (m >>= f) (n >>= f) := h.bind fun _ _ => refl _

theorem cassert (d c : Bool) : Agree (Utils.cassert d c) (Utils.cassert false c) := by
  cases d <;> cases c <;> first | exact .inl rfl | exact .inr rfl

theorem cassert_bind {β : Type} (d c : Bool) {f g : Unit → Outcome β}
    (hf : c = true ∨ d = false → Agree (f ()) (g ())) :
    Agree (Utils.cassert d c >>= f) (Utils.cassert false c >>= g) := by
  cases d <;> cases c <;> first | exact .inl rfl | exact hf (by simp)

theorem ite {α : Type} {c : Prop} [Decidable c] {a b a' b' : Outcome α} (h : c → Agree a a')
    (h' : ¬ c → Agree b b') : Agree (if c then a else b) (if c then a' else b') := by
  by_cases hc : c
  · rw [if_pos hc, if_pos hc]; exact h hc
  · rw [if_neg hc, if_neg hc]; exact h' hc

end Agree

/-! ## bits -/

theorem skipToAlign_agree {w : Nat} (d : Bool) (p a : BitVec w) :
    Agree (skipToAlign d p a) (skipToAlign false p a) := by
  unfold skipToAlign nextMultipleOf
  refine .cassert_bind _ _ fun _ => .map_ok _ (.cassert_bind _ _ fun _ => .refl _)

theorem isAligned_agree {w : Nat} (d : Bool) (p a : BitVec w) :
    Agree (isAligned d p a) (isAligned false p a) :=
  .cassert_bind _ _ fun _ => .refl _

theorem maxAlignment_agree (d : Bool) (p a : BitVec 64) :
    Agree (maxAlignmentInsideBlock d p a) (maxAlignmentInsideBlock false p a) :=
  .cassert_bind _ _ fun _ => .cassert_bind _ _ fun _ => .refl _

theorem calcClz_agree {w : Nat} (impl : Impl) (d : Bool) (v : BitVec w) :
    Agree (calcClz impl d v) (calcClz impl false v) := by
  refine .cassert_bind _ _ fun _ => ?_
  cases impl
  · exact .refl _
  · exact .refl _
  · exact .cassert_bind _ _ fun _ => .refl _

theorem calcCtz_agree {w : Nat} (impl : Impl) (d : Bool) (v : BitVec w) :
    Agree (calcCtz impl d v) (calcCtz impl false v) := by
  refine .cassert_bind _ _ fun _ => ?_
  cases impl
  · exact .refl _
  · exact .refl _
  · exact .cassert_bind _ _ fun _ => .refl _

/-! ## simple_resource -/

namespace SR

variable (p : Params)

theorem checkIdx_agree (s : State) (i : Nat) : Agree (checkIdx p s i) (checkIdx p.ndebug s i) :=
  .cassert_bind _ _ fun _ => .refl _

theorem nextAt_agree (s : State) (i : Nat) : Agree (nextAt p s i) (nextAt p.ndebug s i) :=
  .map_ok _ (checkIdx_agree p s i)

theorem inUseAt_agree (s : State) (i : Nat) : Agree (inUseAt p s i) (inUseAt p.ndebug s i) :=
  .map_ok _ (checkIdx_agree p s i)

theorem setInUse_agree (s : State) (i : Nat) (v : Bool) :
    Agree (setInUse p s i v) (setInUse p.ndebug s i v) :=
  .map_ok _ (checkIdx_agree p s i)

theorem setPrev_agree (s : State) (i pv : Nat) : Agree (setPrev p s i pv) (setPrev p.ndebug s i pv) :=
  .cassert_bind _ _ fun _ => .ite (fun _ => .map_ok _ (checkIdx_agree p s i)) fun _ => .refl _

theorem setNext_agree (s : State) (i pv : Nat) : Agree (setNext p s i pv) (setNext p.ndebug s i pv) :=
  .cassert_bind _ _ fun _ => .ite (fun _ => .map_ok _ (checkIdx_agree p s i)) fun _ => .refl _

theorem setPrevNext_agree (s : State) (i pv nx : Nat) :
    Agree (setPrevNext p s i pv nx) (setPrevNext p.ndebug s i pv nx) :=
  .cassert_bind _ _ fun _ => .cassert_bind _ _ fun _ => .map_ok _ (checkIdx_agree p s i)

theorem allocateNotMatched_agree (s : State) (a b c d : Nat) :
    Agree (allocateNotMatched p s a b c d) (allocateNotMatched p.ndebug s a b c d) :=
  .cassert_bind _ _ fun _ => .cassert_bind _ _ fun _ => .cassert_bind _ _ fun _ =>
    .bind (setInUse_agree p s b true) fun s _ => .bind (checkIdx_agree p s a) fun _ _ =>
    .bind (setPrevNext_agree p s b a _) fun s _ => .bind (setPrevNext_agree p s _ b _) fun s _ =>
    .bind (setPrev_agree p s _ _) fun s _ => .bind (setNext_agree p s a b) fun _ _ => .refl _

theorem allocateBeginMatched_agree (s : State) (a b c : Nat) :
    Agree (allocateBeginMatched p s a b c) (allocateBeginMatched p.ndebug s a b c) :=
  .cassert_bind _ _ fun _ => .cassert_bind _ _ fun _ =>
    .bind (setInUse_agree p s a true) fun s _ => .bind (checkIdx_agree p s a) fun _ _ =>
    .bind (setPrevNext_agree p s _ a _) fun s _ =>
    .bind (setPrev_agree p s _ _) fun s _ => .bind (setNext_agree p s a _) fun _ _ => .refl _

theorem allocateEndMatched_agree (s : State) (a b c : Nat) :
    Agree (allocateEndMatched p s a b c) (allocateEndMatched p.ndebug s a b c) :=
  .cassert_bind _ _ fun _ => .cassert_bind _ _ fun _ =>
    .bind (setInUse_agree p s b true) fun s _ => .bind (checkIdx_agree p s a) fun _ _ =>
    .bind (setPrevNext_agree p s b a _) fun s _ =>
    .bind (setPrev_agree p s _ _) fun s _ => .bind (setNext_agree p s a b) fun _ _ => .refl _

theorem allocateMatched_agree (s : State) (a : Nat) :
    Agree (allocateMatched p s a) (allocateMatched p.ndebug s a) :=
  .cassert_bind _ _ fun _ => .map_ok _ (setInUse_agree p s a true)

theorem pointerToBlockIndex_agree (s : State) (a : Nat) :
    Agree (pointerToBlockIndex p s a) (pointerToBlockIndex p.ndebug s a) :=
  .cassert_bind _ _ fun _ => .cassert_bind _ _ fun _ => .refl _

theorem blockIndexToPointer_agree (s : State) (a : Nat) :
    Agree (blockIndexToPointer p s a) (blockIndexToPointer p.ndebug s a) :=
  .cassert_bind _ _ fun _ => .refl _

theorem blockSizeInBytes_agree (s : State) (a : Nat) :
    Agree (blockSizeInBytes p s a) (blockSizeInBytes p.ndebug s a) :=
  .map_ok _ (nextAt_agree p s a)

theorem allocateBlocks_agree (s : State) (a b c : Nat) :
    Agree (allocateBlocks p s a b c) (allocateBlocks p.ndebug s a b c) :=
  .bind (pointerToBlockIndex_agree p s b) fun _ _ =>
  .bind (pointerToBlockIndex_agree p s _) fun _ _ => .bind (nextAt_agree p s a) fun _ _ =>
  .ite (fun _ => .ite (fun _ => allocateBeginMatched_agree p s _ _ _)
      fun _ => allocateMatched_agree p s _)
    fun _ => .ite (fun _ => allocateNotMatched_agree p s _ _ _ _)
      fun _ => allocateEndMatched_agree p s _ _ _

/-- The loop, for actions that keep an invariant. -/
theorem applyLoop_agree {β : Type} {pred pred' : State → Nat → Outcome Bool}
    {act act' : State → β → Nat → Outcome (State × β × Bool)} (I : State → Prop)
    (hp : ∀ s i, Agree (pred s i) (pred' s i)) (ha : ∀ s b i, I s → Agree (act s b i) (act' s b i))
    (hI : ∀ s b i r, I s → act s b i = .ok r → I r.1) (fuel : Nat) (s : State) (b : β) (i : Nat)
    (hs : I s) :
    Agree (applyLoop p pred act fuel s b i) (applyLoop p.ndebug pred' act' fuel s b i) := by
  induction fuel generalizing s b i with
  | zero => exact .refl _
  | succ fuel ih =>
    refine .bind (checkIdx_agree p s i) fun _ _ => .bind (hp s i) fun c _ => ?_
    refine .ite (fun _ => .bind (ha s b i hs) fun r e => ?_) fun _ => .ite (fun _ => ih _ _ _ hs)
      fun _ => .refl _
    exact .ite (fun _ => ih _ _ _ (hI s b i r hs e)) fun _ => .refl _

theorem scan_agree (fuel : Nat) (s : State) (size align : Nat) :
    Agree (scan p fuel s size align) (scan p.ndebug fuel s size align) := by
  refine applyLoop_agree p (fun _ => True) (fun s i => .map_ok _ (inUseAt_agree p s i)) ?_
    (fun _ _ _ _ _ _ => trivial) fuel s 0 0 trivial
  intro s b i _
  refine .bind (blockSizeInBytes_agree p s i) fun _ _ =>
    .bind (blockIndexToPointer_agree p s i) fun _ _ => .bind (skipToAlign_agree _ _ _) fun _ _ =>
    .ite (fun _ => .map_ok _ (allocateBlocks_agree p s _ _ _)) fun _ => .map_ok _ (nextAt_agree p s i)

theorem allocateLocal_agree (fuel : Nat) (s : State) (size align : Nat) :
    Agree (allocateLocal p fuel s size align) (allocateLocal p.ndebug fuel s size align) :=
  .ite (fun _ => .bind (calcCtz_agree _ _ _) fun _ _ => .bind (.refl _) fun _ _ =>
    .bind (maxAlignment_agree _ _ _) fun _ _ => .ite (fun _ => scan_agree p fuel s size align)
      fun _ => .refl _) fun _ => .refl _

theorem allocate_agree {σ : Type} (up : Option (Upstream σ)) (fuel : Nat) (s : State) (u : σ)
    (size align : Nat) :
    Agree (allocate p up fuel s u size align) (allocate p.ndebug up fuel s u size align) :=
  .ite (fun _ => .refl _) fun _ => .cassert_bind _ _ fun _ =>
    .bind (allocateLocal_agree p fuel s size align) fun _ _ =>
    .bind (isAligned_agree _ _ _) fun _ _ => .cassert_bind _ _ fun _ => .refl _

/-! ### Giving back: the block count -/

theorem setInUse_count {s t : State} {i : Nat} {v : Bool} (h : setInUse p s i v = .ok t) :
    t.blockCount = s.blockCount := by
  obtain ⟨_, -, h⟩ := Outcome.bind_eq_ok.1 h
  cases Outcome.ok.inj h
  rfl

theorem setPrev_count {s t : State} {i v : Nat} (h : setPrev p s i v = .ok t) :
    t.blockCount = s.blockCount := by
  obtain ⟨_, -, h⟩ := Outcome.bind_eq_ok.1 h
  split at h
  · obtain ⟨_, -, h⟩ := Outcome.bind_eq_ok.1 h
    cases Outcome.ok.inj h
    rfl
  · cases Outcome.ok.inj h
    rfl

theorem setNext_count {s t : State} {i v : Nat} (h : setNext p s i v = .ok t) :
    t.blockCount = s.blockCount := by
  obtain ⟨_, -, h⟩ := Outcome.bind_eq_ok.1 h
  split at h
  · obtain ⟨_, -, h⟩ := Outcome.bind_eq_ok.1 h
    cases Outcome.ok.inj h
    rfl
  · cases Outcome.ok.inj h
    rfl

theorem merge_count {s : State} {l r : Nat} {x : State × Nat}
    (h : mergeIfBothNotInUse p s l r = .ok x) : x.1.blockCount = s.blockCount := by
  unfold mergeIfBothNotInUse at h
  split at h
  · cases Outcome.ok.inj h; rfl
  · obtain ⟨_, -, h⟩ := Outcome.bind_eq_ok.1 h
    obtain ⟨ul, -, h⟩ := Outcome.bind_eq_ok.1 h
    split at h
    · obtain ⟨ur, -, h⟩ := Outcome.bind_eq_ok.1 h
      split at h
      · obtain ⟨_, -, h⟩ := Outcome.bind_eq_ok.1 h
        obtain ⟨_, -, h⟩ := Outcome.bind_eq_ok.1 h
        obtain ⟨s1, e1, h⟩ := Outcome.bind_eq_ok.1 h
        obtain ⟨s2, e2, h⟩ := Outcome.bind_eq_ok.1 h
        cases Outcome.ok.inj h
        exact (setNext_count p e2).trans (setPrev_count p e1)
      · cases Outcome.ok.inj h; rfl
    · obtain ⟨_, -, h⟩ := Outcome.bind_eq_ok.1 h
      cases Outcome.ok.inj h; rfl

theorem mergeAdjacent_count {s : State} {i : Nat} {x : State × Nat}
    (h : mergeAdjacentBlocks p s i = .ok x) : x.1.blockCount = s.blockCount := by
  obtain ⟨_, -, h⟩ := Outcome.bind_eq_ok.1 h
  obtain ⟨_, -, h⟩ := Outcome.bind_eq_ok.1 h
  obtain ⟨_, -, h⟩ := Outcome.bind_eq_ok.1 h
  obtain ⟨y, e, h⟩ := Outcome.bind_eq_ok.1 h
  exact (merge_count p h).trans (merge_count p e)

theorem deallocateBlocks_count {s : State} {i : Nat} {x : State × Nat}
    (h : deallocateBlocks p s i = .ok x) : x.1.blockCount = s.blockCount := by
  obtain ⟨_, -, h⟩ := Outcome.bind_eq_ok.1 h
  obtain ⟨_, -, h⟩ := Outcome.bind_eq_ok.1 h
  obtain ⟨_, -, h⟩ := Outcome.bind_eq_ok.1 h
  obtain ⟨t, e, h⟩ := Outcome.bind_eq_ok.1 h
  obtain ⟨_, -, h⟩ := Outcome.bind_eq_ok.1 h
  obtain ⟨_, -, h⟩ := Outcome.bind_eq_ok.1 h
  exact (mergeAdjacent_count p h).trans (show t.blockCount = _ from setInUse_count p e)

/-! ### Allocating: the block count -/

theorem setPrevNext_count {s t : State} {i a b : Nat} (h : setPrevNext p s i a b = .ok t) :
    t.blockCount = s.blockCount := by
  obtain ⟨_, -, h⟩ := Outcome.bind_eq_ok.1 h
  obtain ⟨_, -, h⟩ := Outcome.bind_eq_ok.1 h
  obtain ⟨_, -, h⟩ := Outcome.bind_eq_ok.1 h
  cases Outcome.ok.inj h
  split <;> split <;> rfl

theorem allocateBlocks_count {s t : State} {a b c : Nat} (h : allocateBlocks p s a b c = .ok t) :
    t.blockCount = s.blockCount := by
  obtain ⟨first, -, h⟩ := Outcome.bind_eq_ok.1 h
  obtain ⟨last, -, h⟩ := Outcome.bind_eq_ok.1 h
  obtain ⟨nx, -, h⟩ := Outcome.bind_eq_ok.1 h
  dsimp only at h
  generalize (if nx ≠ 0 then nx - 1 else p.trunc (dec64 s.blockCount)) = lo at h
  split at h
  · split at h
    · obtain ⟨_, -, h⟩ := Outcome.bind_eq_ok.1 h
      obtain ⟨_, -, h⟩ := Outcome.bind_eq_ok.1 h
      obtain ⟨s1, e1, h⟩ := Outcome.bind_eq_ok.1 h
      obtain ⟨_, -, h⟩ := Outcome.bind_eq_ok.1 h
      obtain ⟨s2, e2, h⟩ := Outcome.bind_eq_ok.1 h
      obtain ⟨s3, e3, h⟩ := Outcome.bind_eq_ok.1 h
      obtain ⟨s4, e4, h⟩ := Outcome.bind_eq_ok.1 h
      cases Outcome.ok.inj h
      exact (setNext_count p e4).trans <| (setPrev_count p e3).trans <|
        (setPrevNext_count p e2).trans (setInUse_count p e1)
    · obtain ⟨_, -, h⟩ := Outcome.bind_eq_ok.1 h
      obtain ⟨s1, e1, h⟩ := Outcome.bind_eq_ok.1 h
      cases Outcome.ok.inj h
      exact show s1.blockCount = _ from setInUse_count p e1
  · split at h
    · obtain ⟨_, -, h⟩ := Outcome.bind_eq_ok.1 h
      obtain ⟨_, -, h⟩ := Outcome.bind_eq_ok.1 h
      obtain ⟨_, -, h⟩ := Outcome.bind_eq_ok.1 h
      obtain ⟨s1, e1, h⟩ := Outcome.bind_eq_ok.1 h
      obtain ⟨_, -, h⟩ := Outcome.bind_eq_ok.1 h
      obtain ⟨s2, e2, h⟩ := Outcome.bind_eq_ok.1 h
      obtain ⟨s3, e3, h⟩ := Outcome.bind_eq_ok.1 h
      obtain ⟨s4, e4, h⟩ := Outcome.bind_eq_ok.1 h
      obtain ⟨s5, e5, h⟩ := Outcome.bind_eq_ok.1 h
      cases Outcome.ok.inj h
      exact (show s5.blockCount = _ from setNext_count p e5).trans <| (setPrev_count p e4).trans <|
        (setPrevNext_count p e3).trans <| (setPrevNext_count p e2).trans (setInUse_count p e1)
    · obtain ⟨_, -, h⟩ := Outcome.bind_eq_ok.1 h
      obtain ⟨_, -, h⟩ := Outcome.bind_eq_ok.1 h
      obtain ⟨s1, e1, h⟩ := Outcome.bind_eq_ok.1 h
      obtain ⟨_, -, h⟩ := Outcome.bind_eq_ok.1 h
      obtain ⟨s2, e2, h⟩ := Outcome.bind_eq_ok.1 h
      obtain ⟨s3, e3, h⟩ := Outcome.bind_eq_ok.1 h
      obtain ⟨s4, e4, h⟩ := Outcome.bind_eq_ok.1 h
      cases Outcome.ok.inj h
      exact (show s4.blockCount = _ from setNext_count p e4).trans <| (setPrev_count p e3).trans <|
        (setPrevNext_count p e2).trans (setInUse_count p e1)

theorem applyLoop_keeps {β : Type} {pred : State → Nat → Outcome Bool}
    {act : State → β → Nat → Outcome (State × β × Bool)} {I : State → Prop}
    (hI : ∀ s b i r, I s → act s b i = .ok r → I r.1) {fuel : Nat} {s : State} {b : β} {i : Nat}
    (hs : I s) {x : State × β} (h : applyLoop p pred act fuel s b i = .ok x) : I x.1 := by
  induction fuel generalizing s b i with
  | zero => cases h
  | succ fuel ih =>
    obtain ⟨_, -, h⟩ := Outcome.bind_eq_ok.1 h
    obtain ⟨c, -, h⟩ := Outcome.bind_eq_ok.1 h
    split at h
    · obtain ⟨r, e, h⟩ := Outcome.bind_eq_ok.1 h
      have hr := hI s b i r hs e
      dsimp only at h
      generalize (if r.2.2 = true then 1 else 0) = j at h
      split at h
      · exact ih hr h
      · cases Outcome.ok.inj h
        exact hr
    · dsimp only at h
      split at h
      · exact ih hs h
      · cases Outcome.ok.inj h
        exact hs

theorem allocate_count {σ : Type} {up : Option (Upstream σ)} {fuel : Nat} {s : State} {u : σ}
    {size align : Nat} {r : Nat × State × σ} (h : allocate p up fuel s u size align = .ok r) :
    r.2.1.blockCount = s.blockCount := by
  unfold allocate at h
  split at h
  · cases Outcome.ok.inj h; rfl
  · obtain ⟨_, -, h⟩ := Outcome.bind_eq_ok.1 h
    obtain ⟨x, e, h⟩ := Outcome.bind_eq_ok.1 h
    obtain ⟨_, -, h⟩ := Outcome.bind_eq_ok.1 h
    obtain ⟨_, -, h⟩ := Outcome.bind_eq_ok.1 h
    cases Outcome.ok.inj h
    show x.1.blockCount = s.blockCount
    unfold allocateLocal at e
    split at e
    · obtain ⟨_, -, e⟩ := Outcome.bind_eq_ok.1 e
      obtain ⟨_, -, e⟩ := Outcome.bind_eq_ok.1 e
      obtain ⟨_, -, e⟩ := Outcome.bind_eq_ok.1 e
      split at e
      · refine applyLoop_keeps p (I := fun t => t.blockCount = s.blockCount) ?_ rfl e
        intro t b i r ht hr
        obtain ⟨_, -, hr⟩ := Outcome.bind_eq_ok.1 hr
        obtain ⟨_, -, hr⟩ := Outcome.bind_eq_ok.1 hr
        obtain ⟨_, -, hr⟩ := Outcome.bind_eq_ok.1 hr
        split at hr
        · obtain ⟨t1, e1, hr⟩ := Outcome.bind_eq_ok.1 hr
          cases Outcome.ok.inj hr
          exact (allocateBlocks_count p e1).trans ht
        · obtain ⟨_, -, hr⟩ := Outcome.bind_eq_ok.1 hr
          cases Outcome.ok.inj hr
          exact ht
      · cases Outcome.ok.inj e; rfl
    · cases Outcome.ok.inj e; rfl

theorem deallocate_count {σ : Type} {up : Option (Upstream σ)} {s : State} {u : σ} {ptr : Nat}
    {r : State × σ} (h : deallocate p up s u ptr = .ok r) : r.1.blockCount = s.blockCount := by
  unfold deallocate at h
  split at h
  · cases Outcome.ok.inj h; rfl
  · obtain ⟨_, -, h⟩ := Outcome.bind_eq_ok.1 h
    obtain ⟨_, -, h⟩ := Outcome.bind_eq_ok.1 h
    split at h
    · obtain ⟨_, -, h⟩ := Outcome.bind_eq_ok.1 h
      obtain ⟨x, e, h⟩ := Outcome.bind_eq_ok.1 h
      cases Outcome.ok.inj h
      exact deallocateBlocks_count p e
    · split at h
      · cases Outcome.ok.inj h; rfl
      · obtain ⟨_, -, h⟩ := Outcome.bind_eq_ok.1 h
        obtain ⟨_, -, h⟩ := Outcome.bind_eq_ok.1 h
        cases Outcome.ok.inj h; rfl

theorem step_count {σ : Type} {up : Option (Upstream σ)} {fuel : Nat} {w w' : World σ} {op : Op}
    (h : step p up fuel w op = .ok w') : w'.st.blockCount = w.st.blockCount := by
  cases op with
  | alloc size align =>
    obtain ⟨r, e, h⟩ := Outcome.bind_eq_ok.1 h
    cases Outcome.ok.inj h
    exact allocate_count p e
  | free i =>
    simp only [step, doFree] at h
    split at h
    · cases Outcome.ok.inj h; rfl
    · obtain ⟨r, e, h⟩ := Outcome.bind_eq_ok.1 h
      cases Outcome.ok.inj h
      exact deallocate_count p e

theorem run_count {p : Params} {σ : Type} {up : Option (Upstream σ)} {fuel : Nat} {w w' : World σ}
    {ops : List Op} (h : run p up fuel w ops = .ok w') : w'.st.blockCount = w.st.blockCount := by
  induction ops generalizing w with
  | nil => cases Outcome.ok.inj h; rfl
  | cons op ops ih =>
    obtain ⟨v, e, h⟩ := Outcome.bind_eq_ok.1 h
    exact (ih h).trans (step_count p e)

/-! ### Giving back: agreement -/

variable {p}

theorem merge_agree {s : State} (hs : s.blockCount ≤ p.maxBlocks) (l r : Nat) :
    Agree (mergeIfBothNotInUse p s l r) (mergeIfBothNotInUse p.ndebug s l r) := by
  refine .ite (fun _ => .refl _) fun _ => .cassert_bind _ _ fun _ =>
    .bind (inUseAt_agree p s l) fun ul _ => .ite (fun _ => .bind (inUseAt_agree p s r) fun ur _ =>
      .ite (fun _ => .cassert_bind _ _ fun _ => .bind (checkIdx_agree p s r) fun _ _ =>
        .bind (setPrev_agree p s _ _) fun s _ => .map_ok _ (setNext_agree p s _ _))
        fun _ => .refl _) fun _ => ?_
  refine .map_ok _ ?_
  unfold assertNotInUse
  by_cases hd : p.debug = true
  · rw [if_pos hd, if_neg (by simp [Params.ndebug])]
    by_cases hr : r < s.blockCount
    · have hr' : r < p.maxBlocks := by omega
      cases hu : s.inUse r <;> simp [inUseAt, checkIdx, hr, hr', hu, hd, Agree]
    · simp [inUseAt, checkIdx, hr, hd, Agree]
  · rw [if_neg hd, if_neg (by simp [Params.ndebug])]
    exact .refl _

theorem mergeAdjacent_agree {s : State} (hs : s.blockCount ≤ p.maxBlocks) (i : Nat) :
    Agree (mergeAdjacentBlocks p s i) (mergeAdjacentBlocks p.ndebug s i) :=
  .bind (checkIdx_agree p s i) fun _ _ => .bind (inUseAt_agree p s i) fun _ _ =>
    .cassert_bind _ _ fun _ => .bind (merge_agree hs _ _) fun _ e =>
    merge_agree (by rw [merge_count p e]; exact hs) _ _

theorem deallocateBlocks_agree {s : State} (hs : s.blockCount ≤ p.maxBlocks) (i : Nat) :
    Agree (deallocateBlocks p s i) (deallocateBlocks p.ndebug s i) :=
  .cassert_bind _ _ fun _ => .bind (inUseAt_agree p s i) fun _ _ => .bind (.refl _) fun _ _ =>
    .bind (setInUse_agree p s i false) fun t e => .cassert_bind _ _ fun _ =>
    .cassert_bind _ _ fun _ => mergeAdjacent_agree
      (by rw [show (incFree (decBusy t)).blockCount = t.blockCount from rfl,
        setInUse_count p e]; exact hs) i

theorem deallocate_agree {σ : Type} (up : Option (Upstream σ)) {s : State}
    (hs : s.blockCount ≤ p.maxBlocks) (u : σ) (ptr : Nat) :
    Agree (deallocate p up s u ptr) (deallocate p.ndebug up s u ptr) :=
  .ite (fun _ => .refl _) fun _ => .bind (isAligned_agree _ _ _) fun _ _ =>
    .bind (.refl _) fun _ _ => .ite (fun _ => .bind (pointerToBlockIndex_agree p s ptr) fun _ _ =>
      .map_ok _ (deallocateBlocks_agree hs _)) fun _ => .refl _

theorem release_agree {s : State} (hs : s.blockCount ≤ p.maxBlocks) (fuel : Nat) :
    Agree (release p fuel s) (release p.ndebug fuel s) := by
  refine .map_ok _ (applyLoop_agree p (fun s => s.blockCount ≤ p.maxBlocks)
    (fun s i => inUseAt_agree p s i) ?_ ?_ fuel s () 0 hs)
  · intro s _ i hs
    exact .bind (deallocateBlocks_agree hs i) fun _ _ => .map_ok _ (nextAt_agree p _ _)
  · intro s _ i r hs h
    obtain ⟨x, e, h⟩ := Outcome.bind_eq_ok.1 h
    obtain ⟨_, -, h⟩ := Outcome.bind_eq_ok.1 h
    cases Outcome.ok.inj h
    exact Nat.le_trans (Nat.le_of_eq (deallocateBlocks_count p e)) hs

theorem run_agree {σ : Type} (up : Option (Upstream σ)) (fuel : Nat) (ops : List Op) (w : World σ)
    (hw : w.st.blockCount ≤ p.maxBlocks) :
    Agree (run p up fuel w ops) (run p.ndebug up fuel w ops) := by
  induction ops generalizing w with
  | nil => exact .refl _
  | cons op ops ih =>
    refine .bind ?_ fun w' e => ih w' (by rw [step_count p e]; exact hw)
    cases op with
    | alloc size align => exact .map_ok _ (allocate_agree p up fuel w.st w.up size align)
    | free i =>
      simp only [step, doFree]
      split
      · exact .refl _
      · exact .map_ok _ (deallocate_agree up hw w.up _)

theorem release_count {fuel : Nat} {s t : State} (h : release p fuel s = .ok t) :
    t.blockCount = s.blockCount := by
  obtain ⟨x, e, h⟩ := Outcome.bind_eq_ok.1 h
  cases Outcome.ok.inj h
  refine applyLoop_keeps p (I := fun t => t.blockCount = s.blockCount) ?_ rfl e
  intro t b i r ht hr
  obtain ⟨y, e1, hr⟩ := Outcome.bind_eq_ok.1 hr
  obtain ⟨_, -, hr⟩ := Outcome.bind_eq_ok.1 hr
  cases Outcome.ok.inj hr
  exact (deallocateBlocks_count p e1).trans ht

theorem cstep_count {σ : Type} {up : Option (Upstream σ)} {fuel : Nat} {w w' : World σ} {op : COp}
    (h : cstep p up fuel w op = .ok w') : w'.st.blockCount = w.st.blockCount := by
  cases op with
  | call op => exact step_count p h
  | release =>
    obtain ⟨t, e, h⟩ := Outcome.bind_eq_ok.1 h
    cases Outcome.ok.inj h
    exact release_count e

theorem crun_agree {σ : Type} (up : Option (Upstream σ)) (fuel : Nat) (ops : List COp) (w : World σ)
    (hw : w.st.blockCount ≤ p.maxBlocks) :
    Agree (crun p up fuel w ops) (crun p.ndebug up fuel w ops) := by
  induction ops generalizing w with
  | nil => exact .refl _
  | cons op ops ih =>
    refine .bind ?_ fun w' e => ih w' (by rw [cstep_count e]; exact hw)
    cases op with
    | call op =>
      have := run_agree (p := p) up fuel [op] w hw
      have e : ∀ q : Params, run q up fuel w [op] = step q up fuel w op := fun q => by
        show (step q up fuel w op >>= fun w => Outcome.ok w) = _
        cases step q up fuel w op <;> rfl
      rw [e, e] at this
      exact this
    | release => exact .map_ok _ (release_agree hw fuel)

theorem create_agree (buffer bytes : Nat) :
    Agree (create p buffer bytes) (create p.ndebug buffer bytes) :=
  .bind (.ite (fun _ => .map_ok _ (skipToAlign_agree _ _ _)) fun _ => .refl _) fun _ _ => .refl _

end SR

end Utils
