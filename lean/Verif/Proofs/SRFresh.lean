import Verif.Proofs.SRRelease

/-!
# Fresh resources
-/

namespace Utils.SR

open Utils Utils.Bits

variable {p : Params} {s : State} {size align : Nat} {σ : Type} {up : Option (Upstream σ)}

theorem create_cases (hv : Valid p) {buffer bytes : Nat} (hw : buffer + bytes ≤ 2 ^ 64) :
    (create p buffer bytes = .ok (construct p (0, 0)) ∧
      (buffer = 0 ∨ bytes < padding buffer p.blockSize + p.blockSize)) ∨
    (buffer ≠ 0 ∧ padding buffer p.blockSize + p.blockSize ≤ bytes ∧
      create p buffer bytes = .ok (construct p (buffer + padding buffer p.blockSize,
        (bytes - padding buffer p.blockSize) / p.blockSize))) := by
  have hB := hv.pos
  by_cases h : buffer = 0 ∨ bytes = 0
  · exact Or.inl ⟨create_null h, by omega⟩
  · have h1 := originAndBlockCount_eq hv (buffer := buffer) (size := bytes) (by omega) (by omega) hw
    unfold create
    rw [h1]
    by_cases hz : (bytes - padding buffer p.blockSize) / p.blockSize = 0
    · left
      rw [if_pos hz]
      refine ⟨rfl, Or.inr ?_⟩
      rw [Nat.div_eq_zero_iff] at hz
      omega
    · right
      rw [if_neg hz]
      refine ⟨by omega, ?_, rfl⟩
      rw [Nat.div_eq_zero_iff] at hz
      omega

theorem Fresh.eq {buffer bytes : Nat} (hv : Valid p) (h : Fresh p buffer bytes s) :
    buffer ≠ 0 ∧ padding buffer p.blockSize + p.blockSize ≤ bytes ∧
      s = construct p (buffer + padding buffer p.blockSize,
        (bytes - padding buffer p.blockSize) / p.blockSize) := by
  rcases create_cases hv h.buffer with ⟨h1, -⟩ | ⟨h1, h2, h3⟩
  · have := h.made
    rw [h1] at this
    cases this
    exact absurd rfl h.area
  · have := h.made
    rw [h3] at this
    cases this
    exact ⟨h1, h2, rfl⟩

/-- A fresh resource satisfies every invariant. -/
theorem Fresh.start {buffer bytes : Nat} (hv : Valid p) (h : Fresh p buffer bytes s) (u : σ) :
    Tracks p up ⟨s, u, []⟩ [⟨s.blockCount, false⟩] ∧ ForwardFree s := by
  obtain ⟨h1, h2, h3⟩ := h.eq hv
  have hB := hv.pos
  have hq : 0 < (bytes - padding buffer p.blockSize) / p.blockSize :=
    Nat.div_pos (by omega) hB
  have h2m := hv.two
  have hdata : s.data = buffer + padding buffer p.blockSize := by rw [h3]; rfl
  have hcount : s.blockCount
      = min ((bytes - padding buffer p.blockSize) / p.blockSize) p.maxBlocks := by rw [h3]; rfl
  refine ⟨⟨⟨h.area, ?_, h.noWrap, ?_, ?_⟩, h.small, ?_, ?_, ?_, ?_, ?_⟩, ?_⟩
  · show p.blockSize ∣ s.data
    rw [hdata]; exact skipNat_dvd hB
  · show 1 ≤ s.blockCount
    rw [hcount]; omega
  · show s.blockCount ≤ p.maxBlocks
    rw [hcount]; omega
  · have := construct_tiled (p := p) (o := (buffer + padding buffer p.blockSize,
        (bytes - padding buffer p.blockSize) / p.blockSize)) hq (by omega)
    rw [← h3] at this
    exact this
  · show LinksForward s
    rw [h3]; exact construct_links _
  · simp [localLive]
  · simp
  · simp
  · rw [h3]
    intro j _ _
    exact Or.inl ⟨rfl, fun _ _ _ => rfl⟩

theorem small_of_le (hd : s.data ≠ 0) (h : s.data + s.blockCount * p.blockSize ≤ 2 ^ 31) :
    Small p s := by
  intro k hk
  have := Nat.le_of_dvd (by omega) hk
  omega

end Utils.SR
