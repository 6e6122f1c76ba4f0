import Verif.Proofs.SRHistory

/-!
# Histories of `simple_resource`
-/

namespace Utils.SR

open Utils Utils.Bits

variable {p : Params} {s : State} {size align : Nat} {σ : Type} {up : Option (Upstream σ)}

/-- Induction over a history. -/
theorem run_inv {fuel : Nat} {I : World σ → Prop} {A : World σ → Op → Prop}
    (hstep : ∀ w op, I w → A w op → ∃ w', step p up fuel w op = .ok w' ∧ I w')
    {w : World σ} {ops : List Op} (hI : I w) (hA : Along p up fuel A w ops) :
    ∃ w', run p up fuel w ops = .ok w' ∧ I w' := by
  induction ops generalizing w with
  | nil => exact ⟨w, rfl, hI⟩
  | cons op ops ih =>
    obtain ⟨w1, h1, h2⟩ := hstep w op hI hA.1
    obtain ⟨w', h3, h4⟩ := ih h2 (hA.2 w1 h1)
    exact ⟨w', by rw [run, h1, Outcome.ok_bind, h3], h4⟩

/-- Induction over a history, comparing with an ideal allocator. -/
theorem run_refines {fuel : Nat} {I : World σ → Prop} {A : World σ → Op → Prop}
    {place : List (Nat × Nat) → Nat → Option Nat} {area : Nat → Bool}
    (hstep : ∀ w op, I w → A w op → ∃ w', step p up fuel w op = .ok w' ∧ I w' ∧
      (w'.live, w'.up) = idealStep place area up (w.live, w.up) op)
    {w : World σ} {ops : List Op} (hI : I w) (hA : Along p up fuel A w ops) :
    ∃ w', run p up fuel w ops = .ok w' ∧ I w' ∧
      (w'.live, w'.up) = ops.foldl (idealStep place area up) (w.live, w.up) := by
  induction ops generalizing w with
  | nil => exact ⟨w, rfl, hI, rfl⟩
  | cons op ops ih =>
    obtain ⟨w1, h1, h2, h5⟩ := hstep w op hI hA.1
    obtain ⟨w', h3, h4, h6⟩ := ih h2 (hA.2 w1 h1)
    exact ⟨w', by rw [run, h1, Outcome.ok_bind, h3], h4, by rw [h6, h5]; rfl⟩

theorem Along.of_forall {fuel : Nat} {A : Op → Prop} (w : World σ) {ops : List Op}
    (h : ∀ op ∈ ops, A op) : Along p up fuel (fun _ => A) w ops := by
  induction ops generalizing w with
  | nil => trivial
  | cons op ops ih =>
    exact ⟨h op (by simp), fun w' _ => ih w' (fun o ho => h o (by simp [ho]))⟩

/-- The upstream answers do not depend on the bookkeeping. -/
theorem UpstreamOK.congr {s s' : State} (h : UpstreamOK p s up) (hd : s'.data = s.data)
    (hn : s'.blockCount = s.blockCount) : UpstreamOK p s' up := by
  intro U hU u size align
  rw [inArea_congr hd hn]
  exact h U hU u size align

theorem AllocResult.geometry {w w' : World σ} {rs : List Region}
    (h : AllocResult p up w rs size align w') :
    w'.st.data = w.st.data ∧ w'.st.blockCount = w.st.blockCount ∧ ∃ rs', Tracks p up w' rs' := by
  cases h with
  | served h1 h2 h3 h4 h5 => exact ⟨h4.data, h4.count, _, h5⟩
  | refused h1 h2 h3 => exact ⟨by rw [h2], by rw [h2], _, h3⟩

theorem FreeResult.geometry {w w' : World σ} {rs rs' : List Region} {i : Nat}
    (h : FreeResult p up w rs i w' rs') :
    w'.st.data = w.st.data ∧ w'.st.blockCount = w.st.blockCount := by
  cases h with
  | nothing h1 h2 => rw [h2]; exact ⟨rfl, rfl⟩
  | locl _ _ _ _ _ _ _ _ h1 h2 => exact ⟨h1, h2⟩
  | upstream => simp_all

/-- Histories of safely scanned calls. -/
theorem safe_history {fuel : Nat} {w : World σ} {ops : List Op} {rs : List Region} (hv : Valid p)
    (h : Tracks p up w rs) (hu : UpstreamOK p w.st up) (hfuel : w.st.blockCount ≤ fuel)
    (hs : Along p up fuel (SafeOp p) w ops) :
    ∃ w', run p up fuel w ops = .ok w' ∧ (∃ rs', Tracks p up w' rs') ∧
      w'.st.data = w.st.data ∧ w'.st.blockCount = w.st.blockCount := by
  refine run_inv (I := fun w' => (∃ rs', Tracks p up w' rs') ∧
      w'.st.data = w.st.data ∧ w'.st.blockCount = w.st.blockCount) ?_ ⟨⟨rs, h⟩, rfl, rfl⟩ hs
  rintro w1 op ⟨⟨rs1, h1⟩, h2, h3⟩ hA
  cases op with
  | alloc size align =>
    obtain ⟨w2, e, hres⟩ := doAlloc_good hv h1 (hu.congr h2 h3) hA.1 (hA.2 _ h1.tiled)
      (h3 ▸ hfuel)
    obtain ⟨g1, g2, g3⟩ := hres.geometry
    exact ⟨w2, e, g3, g1.trans h2, g2.trans h3⟩
  | free i =>
    obtain ⟨w2, rs2, e, ht, hres⟩ := doFree_good hv h1 i
    obtain ⟨g1, g2⟩ := hres.geometry
    exact ⟨w2, e, ⟨rs2, ht⟩, g1.trans h2, g2.trans h3⟩

/-- Either all regions are busy or there is a first free one. -/
theorem exists_first_free (rs : List Region) : (∀ r ∈ rs, r.busy = true) ∨
    ∃ pre len post, rs = pre ++ ⟨len, false⟩ :: post ∧ ∀ r ∈ pre, r.busy = true := by
  induction rs with
  | nil => left; simp
  | cons q rs ih =>
    obtain ⟨l, b⟩ := q
    cases b with
    | false => exact Or.inr ⟨[], l, rs, rfl, by simp⟩
    | true =>
      rcases ih with ih | ⟨pre, len, post, rfl, h⟩
      · left; simpa using ih
      · right; exact ⟨⟨l, true⟩ :: pre, len, post, rfl, by simpa using h⟩

end Utils.SR
