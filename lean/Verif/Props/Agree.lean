import Verif.Proofs.Agree
import Verif.Proofs.SROverflow
import Verif.Proofs.SRCycle
import Verif.Props.SimpleResource

/-!
# Builds with and without assertions (C51, C59, C90)

`Agree` (Verif/Spec/Agree.lean): the call with assertions stops at an assertion or ends exactly as
the call without.
-/

namespace Utils.Props

open Utils Utils.Bits Utils.SR Utils.Arrays Utils.Memory Utils.Res

/-! ## C90 -/

/-- Integers: `next_multiple_of`, `skip_to_align`, `is_aligned`, `max_alignment_inside_block`,
`shift_right`, `shift_left`, `div`, `div_as`, `get_alignment`. -/
theorem C90_integers (d : Bool) {w : Nat} (a b : BitVec w) (x y : BitVec 64) (t u r : CTy) (v m : Int)
    (n : Nat) (const : Bool) :
    Agree (nextMultipleOf d a b) (nextMultipleOf false a b) ∧
    Agree (skipToAlign d a b) (skipToAlign false a b) ∧
    Agree (isAligned d a b) (isAligned false a b) ∧
    Agree (maxAlignmentInsideBlock d x y) (maxAlignmentInsideBlock false x y) ∧
    Agree (shiftRight d t v n) (shiftRight false t v n) ∧
    Agree (shiftLeft d t v n) (shiftLeft false t v n) ∧
    Agree (divConst d t v u m) (divConst false t v u m) ∧
    Agree (divRun d t v u m) (divRun false t v u m) ∧
    Agree (divAs const d r t v u m) (divAs const false r t v u m) ∧
    Agree (getAlignment d x) (getAlignment false x) :=
  ⟨.cassert_bind _ _ fun _ => .refl _, skipToAlign_agree d a b, isAligned_agree d a b,
    maxAlignment_agree d x y, .cassert_bind _ _ fun _ => .refl _, .cassert_bind _ _ fun _ => .refl _,
    .cassert_bind _ _ fun _ => .refl _, .cassert_bind _ _ fun _ => .refl _,
    .ite (fun _ => .cassert_bind _ _ fun _ => .refl _) fun _ => .cassert_bind _ _ fun _ => .refl _,
    .cassert_bind _ _ fun _ => .map_ok _ (calcCtz_agree _ _ _)⟩

/-- `clz` and `ctz`, whichever implementation is compiled in. -/
theorem C90_count_zeros (impl : Impl) (supported : List Supported) (d : Bool) (size : Nat)
    (v : BitVec (8 * size)) :
    (∀ o, clz impl supported d size v = some o →
      ∃ o', clz impl supported false size v = some o' ∧ Agree o o') ∧
    (∀ o, ctz impl supported d size v = some o →
      ∃ o', ctz impl supported false size v = some o' ∧ Agree o o') := by
  constructor
  · intro o h
    simp only [clz, Option.bind_eq_bind, Option.bind_eq_some_iff] at h ⊢
    obtain ⟨s, hs, h⟩ := h
    cases Option.some.inj h
    exact ⟨_, ⟨s, hs, rfl⟩, .map_ok _ (calcClz_agree _ _ _)⟩
  · intro o h
    simp only [ctz, Option.bind_eq_bind, Option.bind_eq_some_iff] at h ⊢
    obtain ⟨s, hs, h⟩ := h
    cases Option.some.inj h
    exact ⟨_, ⟨s, hs, rfl⟩, calcCtz_agree _ _ _⟩

/-- `is_equal`, `make_array` from a string view, `memcpy`. -/
theorem C90_arrays {α β : Type} (d : Bool) (ne : α → α → Bool) (conv : α → β) (n k : Nat)
    (l l' : List α) (constEval : Bool)
    (types : Option (ByteTy × ByteTy)) (m : Mem) (dst src len : Nat) :
    Agree (isEqual d ne n l l' k) (isEqual false ne n l l' k) ∧
    Agree (makeArrayFromSv d conv n l) (makeArrayFromSv false conv n l) ∧
    Agree (memcpy d constEval types m dst src len) (memcpy false constEval types m dst src len) :=
  ⟨.cassert_bind _ _ fun _ => .refl _, .cassert_bind _ _ fun _ => .refl _,
    .cassert_bind _ _ fun _ => .cassert_bind _ _ fun _ => .refl _⟩

/-- Every history of calls on a `monotonic_buffer_resource`. -/
theorem C90_monotonic {σ : Type} (d : Bool) (up : Option (Upstream σ)) (w : MonoWorld σ)
    (ops : List MonoOp) : Agree (monoRun d up w ops) (monoRun false up w ops) := by
  induction ops generalizing w with
  | nil => exact .refl _
  | cons op ops ih =>
    refine .bind ?_ fun w' _ => ih w'
    cases op with
    | alloc size align =>
      refine .map_ok _ (.ite (fun _ => .refl _) fun _ => .cassert_bind _ _ fun _ => .bind ?_ ?_)
      · exact .ite (fun _ => .map_ok _ (skipToAlign_agree _ _ _)) fun _ => .refl _
      · exact fun _ _ => .refl _
    | free ptr => exact .refl _
    | release => exact .refl _

/-- The life of a `simple_resource`: construction, every history of calls and releases. -/
theorem C90_simple_resource {σ : Type} (p : Params) (up : Option (Upstream σ)) (u : σ)
    (buffer bytes fuel : Nat) (ops : List COp) :
    Agree (create p buffer bytes) (create p.ndebug buffer bytes) ∧
    ∀ s, create p buffer bytes = .ok s →
      Agree (crun p up fuel ⟨s, u, []⟩ ops) (crun p.ndebug up fuel ⟨s, u, []⟩ ops) := by
  refine ⟨create_agree buffer bytes, fun s hs => ?_⟩
  have hle : s.blockCount ≤ p.maxBlocks := by
    obtain ⟨o, -, h⟩ := Outcome.bind_eq_ok.1 hs
    cases Outcome.ok.inj h
    exact Nat.min_le_right _ _
  exact crun_agree up fuel ops ⟨s, u, []⟩ hle

/-- Undefined behaviour of a build without assertions is preceded by a failed assertion of the build
with assertions (areas as in `C60_defined_partial`). -/
theorem C90_undefined_caught {σ : Type} {p : Params} (hv : Valid p) (hd : p.debug = true)
    (up : Option (Upstream σ)) {fuel : Nat} {ops : List COp} {w : World σ} (hp : Placed p w.st)
    (hsm : Small p w.st) (h : crun p.ndebug up fuel w ops = .ub) :
    crun p up fuel w ops = .assertFailed := by
  rcases crun_agree up fuel ops w hp.le with e | e
  · exact e
  · exact absurd (e.trans h) (crun_no_ub hv hd ops w hp hsm).1

/-- Both alternatives occur: a history that runs to its end in both builds, and one that stops only
in the build with assertions. -/
example :
    liveAfter pDebug (fresh pDebug 4096 32) [.alloc 9 1, .alloc 3 1, .free 0] =
      liveAfter pRelease (fresh pDebug 4096 32) [.alloc 9 1, .alloc 3 1, .free 0] ∧
    liveAfter pDebug (fresh pDebug 4096 32) [.alloc 9 1, .alloc 3 1, .free 0] =
      .ok [(4096, 9)] ∧
    liveAfter pDebug (fresh pDebug 4096 8) [.alloc 1 1, .alloc 56 1] = .assertFailed ∧
    liveAfter pRelease (fresh pDebug 4096 8) [.alloc 1 1, .alloc 56 1] =
      .ok [(4104, 56), (4096, 1)] := by
  refine ⟨?_, ?_, ?_, ?_⟩ <;> decide +kernel
example : pDebug.ndebug = pRelease := rfl
/-- `C90_undefined_caught`: the whole area in one request. -/
example : liveAfter pRelease (fresh pRelease 4096 32) [.alloc 256 1] = .ub ∧
    liveAfter pDebug (fresh pDebug 4096 32) [.alloc 256 1] = .assertFailed := by
  constructor <;> decide +kernel
example : skipToAlign true (5#8) 4#8 = skipToAlign false (5#8) 4#8 ∧
    skipToAlign true (5#8) 6#8 = .assertFailed ∧ skipToAlign false (5#8) 6#8 ≠ .assertFailed := by
  refine ⟨?_, ?_, ?_⟩ <;> decide +kernel

/-! ## C51, C59 without assertions -/

/-- Without assertions, a request for the whole area of a fresh resource followed by any request of
fewer than `MaxBlockCount - n - 2` blocks (`n` blocks in the area) hands out memory that lies
entirely behind the end of the buffer. -/
theorem C51_overrun {σ : Type} {p : Params} {s : State} (hv : Valid p) (hd : p.debug = false)
    {buffer bytes : Nat} (hf : Fresh p buffer bytes s) (up : Option (Upstream σ)) (u : σ) {fuel : Nat}
    (hfuel : 2 ≤ fuel) {size : Nat} (hsz : 0 < size)
    (hroom : s.blockCount + size / p.blockSize + 2 < p.maxBlocks) :
    ∃ w ptr, run p up fuel ⟨s, u, []⟩ [.alloc (s.blockCount * p.blockSize) 1, .alloc size 1] = .ok w ∧
      w.live = [(ptr, size), (s.data, s.blockCount * p.blockSize)] ∧ buffer + bytes < ptr := by
  refine ⟨_, _, run_overflow (up := up) hv hd hf u hfuel hsz hroom, rfl, ?_⟩
  obtain ⟨h1, h2, h3⟩ := hf.eq hv
  have hB := hv.pos
  have hdata : s.data = buffer + padding buffer p.blockSize := by rw [h3]; rfl
  have hcount : s.blockCount
      = min ((bytes - padding buffer p.blockSize) / p.blockSize) p.maxBlocks := by rw [h3]; rfl
  have hq : 0 ≤ size / p.blockSize := Nat.zero_le _
  have hc : s.blockCount = (bytes - padding buffer p.blockSize) / p.blockSize := by
    rw [Nat.min_def] at hcount
    split at hcount
    · exact hcount
    · omega
  have h4 := Nat.div_add_mod (bytes - padding buffer p.blockSize) p.blockSize
  have h5 := Nat.mod_lt (bytes - padding buffer p.blockSize) hB
  rw [← hc, Nat.mul_comm] at h4
  rw [hdata, Nat.add_mul]
  omega

example : ∃ w ptr, run pRelease (none : Option (Upstream Unit)) 1000 ⟨fresh pRelease 4096 2, (), []⟩
      [.alloc 16 1, .alloc 8 1] = .ok w ∧ w.live = [(ptr, 8), (4096, 16)] ∧ 4096 + 16 < ptr :=
  C51_overrun (s := fresh pRelease 4096 2) (bytes := 16) (buffer := 4096) pRelease_valid rfl
    ⟨by rfl, by decide, by decide, by decide, small_of_le (by decide) (by decide)⟩ none () (by decide)
    (by decide) (by decide)

/-- Without assertions the destructor may abort although nothing of the area is live: after the
history of `C51_overrun` the resource counts the memory behind its end as its own. -/
theorem C59_counterexample :
    ((run pRelease none 1000 (⟨fresh pRelease 4096 2, (), []⟩ : World Unit)
      [.alloc 16 1, .alloc 8 1, .free 1]).bind fun w => .ok (w.live, localLive pRelease w))
      = .ok ([(4120, 8)], []) ∧
    ((run pRelease none 1000 (⟨fresh pRelease 4096 2, (), []⟩ : World Unit)
      [.alloc 16 1, .alloc 8 1, .free 1]).bind fun w => destroy w.st) = .aborted := by
  constructor <;> decide +kernel

end Utils.Props
