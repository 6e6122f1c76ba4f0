import Verif.Spec.SRInspect
import Verif.Props.SRCycle

/-!
# C92: the query functions of `simple_resource`
-/

namespace Utils.SR

open Utils

variable {p : Params} {s : State}

/-- The notes for regions that start at block `h`. -/
def notes (p : Params) (s : State) : Nat → List Region → List Seen
  | _, [] => []
  | h, r :: rs => ⟨s.data + h * p.blockSize, r.len * p.blockSize, r.busy⟩ :: notes p s (h + r.len) rs

theorem inspect_eq (hv : Valid p) (hp : Placed p s) :
    ∀ (post pre : List Region) (fuel : Nat), Tiles s (pre ++ post) → post.length < fuel →
    inspect p s fuel (blocks pre) = .ok (notes p s (blocks pre) post)
  | [], pre, fuel + 1, ht, _ => by
    have := ht.blocks_eq
    rw [List.append_nil] at this
    rw [inspect, size_eq hv hp, if_neg (by rw [this]; omega)]
    rfl
  | r :: post, pre, fuel + 1, ht, hf => by
    obtain ⟨h1, h2, h3, h4, -, -⟩ := ht.at
    have hB := hv.pos
    have hnw := hp.noWrap
    have hle : (blocks pre + r.len) * p.blockSize ≤ p.maxBlocks * p.blockSize :=
      Nat.mul_le_mul_right _ (Nat.le_trans h2 hp.le)
    have hmax := hp.max_lt hv
    have hm := hp.le
    have hlt : blocks pre * p.blockSize < s.blockCount * p.blockSize :=
      Nat.mul_lt_mul_of_pos_right (by omega) hB
    rw [Nat.add_mul] at hle
    have hsz : blockSizeInBytes p s (blocks pre) = .ok (r.len * p.blockSize) := by
      have he : (if s.next (blocks pre) = 0 then s.blockCount else s.next (blocks pre))
          = blocks pre + r.len := by
        rw [h3]
        by_cases he : blocks pre + r.len = s.blockCount
        · rw [if_pos he, if_pos rfl, he]
        · rw [if_neg he, if_neg (by omega)]
      unfold blockSizeInBytes nextAt
      rw [checkIdx_ok (by omega) hp.le]
      simp only [Outcome.ok_bind, Outcome.pure_eq, he]
      rw [show blocks pre + r.len + (2 ^ 64 - blocks pre) = r.len + 2 ^ 64 by omega,
        Nat.add_mod_right, Nat.mod_eq_of_lt (by omega : r.len < 2 ^ 64), Nat.mod_eq_of_lt (by omega)]
    have ih := inspect_eq hv hp post (pre ++ [r]) fuel (by simpa using ht) (by simpa using hf)
    rw [blocks_append, blocks_cons, blocks_nil, Nat.add_zero] at ih
    rw [inspect, size_eq hv hp, if_pos hlt, inUseAt_ok (by omega) hp.le, Outcome.ok_bind, hsz,
      Outcome.ok_bind, Nat.mul_div_cancel _ hB, ih, h4]
    rfl

theorem notes_gapless (hB : 0 < p.blockSize) : ∀ (rs : List Region) (h : Nat),
    (∀ r ∈ rs, 0 < r.len) → Gapless (s.data + h * p.blockSize) (notes p s h rs)
      (s.data + (h + blocks rs) * p.blockSize)
  | [], h, _ => by simp [notes, Gapless]
  | r :: rs, h, hr => by
    refine ⟨rfl, Nat.mul_pos (hr r (by simp)) hB, ?_⟩
    have := notes_gapless hB rs (h + r.len) fun q hq => hr q (by simp [hq])
    rw [blocks_cons]
    rw [Nat.add_mul, ← Nat.add_assoc, Nat.add_assoc h] at this
    exact this

theorem notes_busy : ∀ (rs : List Region) (h : Nat),
    ((notes p s h rs).filter fun x => x.busy).map (fun x => (x.addr, x.bytes)) =
      (busyRuns h rs).map fun r => (s.data + r.1 * p.blockSize, r.2 * p.blockSize)
  | [], h => rfl
  | ⟨len, true⟩ :: rs, h => by
    rw [busyRuns_busy, notes, List.filter_cons_of_pos (by rfl), List.map_cons, List.map_cons,
      notes_busy rs]
  | ⟨len, false⟩ :: rs, h => by
    rw [busyRuns_free, notes, List.filter_cons_of_neg (by simp), notes_busy rs]

theorem notes_map : ∀ (rs : List Region) (h : Nat),
    (notes p s h rs).map (fun x => x.busy) = rs.map fun r => r.busy
  | [], h => rfl
  | r :: rs, h => by rw [notes, List.map_cons, List.map_cons, notes_map rs]

end Utils.SR

namespace Utils.Props

open Utils Utils.SR

variable {p : Params} {s : State} {σ : Type} {up : Option (Upstream σ)}

/-- After any history of releases and calls that are good choices, on an area of at least one block, a
client that walks the area with `in_use` and `block_size_in_bytes` sees: regions that follow one another
without gaps from `data()` to `data() + size()`; the busy ones are exactly the allocations held, each
with the bytes set aside for it; no two free ones are neighbours; and `free_count()` and `busy_count()`
are the numbers of them.  Missing for the full claim: a resource without any block
(`C92_counterexample`), and other choices, which spoil the bookkeeping (C81). -/
theorem C92_inspect_partial (hv : Valid p) {buffer bytes : Nat} (hf : Fresh p buffer bytes s)
    (hu : UpstreamOK p s up) (u : σ) {fuel : Nat}
    (hfuel : (s.blockCount + 1) * (s.blockCount + 2) ≤ fuel) {ops : List COp}
    (hs : CAlong p up fuel (GoodOp p) ⟨s, u, []⟩ ops) :
    ∃ w', crun p up fuel ⟨s, u, []⟩ ops = .ok w' ∧
      ∃ seen, inspect p w'.st fuel 0 = .ok seen ∧
        Gapless w'.st.data seen (w'.st.data + SR.size p w'.st) ∧
        ((seen.filter fun x => x.busy).map fun x => (x.addr, x.bytes)).Perm
          ((localLive p w').map fun x => (x.1, (x.2 / p.blockSize + 1) * p.blockSize)) ∧
        (∀ a x y b, seen = a ++ x :: y :: b → x.busy = true ∨ y.busy = true) ∧
        w'.st.freeCount = seen.countP (fun x => !x.busy) ∧
        w'.st.busyCount = seen.countP (fun x => x.busy) := by
  obtain ⟨w', h1, ⟨rs, h2⟩, -, -, hn⟩ := C91_sound_partial hv hf hu u hfuel hs
  have ht := (tiled_iff.1 h2.tiled).1
  have hb := ht.blocks_eq
  have hlen : rs.length < fuel := by
    obtain ⟨pv, hseg⟩ := ht.seg
    have := hseg.length_le
    have : (s.blockCount + 1) * 1 ≤ (s.blockCount + 1) * (s.blockCount + 2) :=
      Nat.mul_le_mul_left _ (by omega)
    omega
  have e := inspect_eq hv h2.placed rs [] fuel ht hlen
  rw [blocks_nil] at e
  refine ⟨w', h1, _, e, ?_, ?_, ?_, ?_, ?_⟩
  · have hpos : ∀ r ∈ rs, 0 < r.len := by
      intro r hr
      obtain ⟨a, b, rfl⟩ := List.append_of_mem hr
      exact ht.at.1
    have := notes_gapless (s := w'.st) hv.pos rs 0 hpos
    rw [Nat.zero_mul, Nat.add_zero, Nat.zero_add, hb] at this
    rw [size_eq hv h2.placed]
    exact this
  · rw [notes_busy]
    have := (h2.live.map fun x => (x.1, x.2 * p.blockSize)).symm
    simpa [List.map_map, Function.comp_def] using this
  · intro a x y b hab
    have hm := notes_map (p := p) (s := w'.st) rs 0
    rw [hab] at hm
    simp only [List.map_append, List.map_cons] at hm
    obtain ⟨a', t', e1, e2, e3⟩ := List.map_eq_append_iff.1 hm.symm
    obtain ⟨x', t2, e4, e5, e6⟩ := List.map_eq_cons_iff.1 e3
    obtain ⟨y', t3, e7, e8, e9⟩ := List.map_eq_cons_iff.1 e6
    have := h2.tiled.coalesced a' x' y' t3 (by rw [e1, e4, e7])
    rw [← e5, ← e8]
    exact this
  · rw [ht.free]
    have hm := congrArg (List.countP fun b => !b) (notes_map (p := p) (s := w'.st) rs 0)
    rw [List.countP_map, List.countP_map] at hm
    exact hm.symm
  · rw [ht.busy]
    have hm := congrArg (List.countP fun b => b) (notes_map (p := p) (s := w'.st) rs 0)
    rw [List.countP_map, List.countP_map] at hm
    exact hm.symm

/-- What the client sees after two allocations, of which the first was freed. -/
example : ((crun pDebug none 5000 (⟨fresh pDebug 4096 32, (), []⟩ : World Unit)
      [.call (.alloc 3 1), .call (.alloc 9 1), .call (.free 1)]).bind fun w =>
        (inspect pDebug w.st 100 0).map fun l => (l, w.st.freeCount, w.st.busyCount)) =
    .ok ([⟨4096, 8, false⟩, ⟨4104, 16, true⟩, ⟨4120, 232, false⟩], 2, 1) := by decide +kernel

/-- The full claim is false: a resource over a buffer without room for a block reports one free region,
and there is none. -/
theorem C92_counterexample :
    (create pDebug 4097 8).bind (fun s => (inspect pDebug s 100 0).map fun l =>
      (l, SR.size pDebug s, s.freeCount, s.busyCount)) = .ok ([], 0, 1, 0) := by decide +kernel

/-- In general: every buffer without room for an aligned block. -/
theorem C92_no_block (hv : Valid p) {buffer bytes fuel : Nat} (hw : buffer + bytes ≤ 2 ^ 64)
    (hn : ¬ (buffer ≠ 0 ∧ ∃ a, buffer ≤ a ∧ p.blockSize ∣ a ∧ a + p.blockSize ≤ buffer + bytes)) :
    ∃ s, create p buffer bytes = .ok s ∧ inspect p s (fuel + 1) 0 = .ok [] ∧ s.freeCount = 1 := by
  obtain ⟨s, h1, -, h3⟩ := C45_geometry hv hw
  refine ⟨s, h1, ?_, ?_⟩
  · rw [inspect, (h3 hn).2.2, if_neg (by omega)]
    rfl
  · unfold create at h1
    obtain ⟨o, -, h1⟩ := Outcome.bind_eq_ok.1 h1
    cases h1
    rfl

example : ¬ ((4097 : Nat) ≠ 0 ∧ ∃ a, 4097 ≤ a ∧ 8 ∣ a ∧ a + 8 ≤ 4097 + 8) := by
  rintro ⟨-, a, h1, h2, h3⟩
  omega

end Utils.Props
