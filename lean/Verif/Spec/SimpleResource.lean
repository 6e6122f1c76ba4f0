import Verif.Model.SimpleResource

/-!
# What the bookkeeping of `simple_resource` is supposed to mean

A region is a run of blocks, free or busy.  `Tiled s rs` says that the concrete state `s` (links,
marks and counters) describes the regions `rs`, in address order.
-/

namespace Utils.SR

/-- A run of blocks. -/
structure Region where
  len : Nat
  busy : Bool
  deriving DecidableEq

/-- Number of blocks of a list of regions. -/
def blocks (rs : List Region) : Nat := (rs.map Region.len).sum

/-- Walking from block `h`, whose predecessor region starts at `pv`, the links of `s` describe
exactly the regions `rs`; the walk ends at block `h'`, the last region visited starting at `pv'`.
Every region is non-empty, inside the managed area, linked to its neighbours in both directions
(0 stands for "none" after the last region), and carries the in-use mark at its first block and
nowhere else. -/
def Seg (s : State) : Nat → Nat → List Region → Nat → Nat → Prop
  | h, pv, [], h', pv' => h' = h ∧ pv' = pv
  | h, pv, r :: rs, h', pv' =>
    0 < r.len ∧ h + r.len ≤ s.blockCount ∧ s.prev h = pv ∧
    s.next h = (if h + r.len = s.blockCount then 0 else h + r.len) ∧
    s.inUse h = r.busy ∧ (∀ j, h < j → j < h + r.len → s.inUse j = false) ∧
    Seg s (h + r.len) h rs h' pv'

/-- No two free regions are neighbours. -/
def Coalesced (rs : List Region) : Prop :=
  ∀ a x y b, rs = a ++ x :: y :: b → x.busy = true ∨ y.busy = true

/-- The concrete state describes the regions `rs`. -/
structure Tiled (s : State) (rs : List Region) : Prop where
  /-- the regions tile the managed area -/
  seg : ∃ pv, Seg s 0 0 rs s.blockCount pv
  /-- maximal free regions -/
  coalesced : Coalesced rs
  /-- `free_count()` -/
  free : s.freeCount = rs.countP fun r => !r.busy
  /-- `busy_count()` -/
  busy : s.busyCount = rs.countP fun r => r.busy

/-- The busy regions of a list of regions that starts at block `h`: first block and number of
blocks of each, in address order. -/
def busyRuns : Nat → List Region → List (Nat × Nat)
  | _, [] => []
  | h, r :: rs =>
    if r.busy then (h, r.len) :: busyRuns (h + r.len) rs else busyRuns (h + r.len) rs

/-- Template arguments for which the class compiles and the size of a full area fits `std::size_t`. -/
structure Valid (p : Params) : Prop where
  pow2 : ∃ k, p.blockSize = 2 ^ k
  two : 2 ≤ p.maxBlocks
  area : p.maxBlocks * p.blockSize < 2 ^ 64

/-- A managed area as the constructor produces it (C45), placed so that no address computed by the
code wraps around. -/
structure Placed (p : Params) (s : State) : Prop where
  data : s.data ≠ 0
  aligned : p.blockSize ∣ s.data
  noWrap : s.data + p.maxBlocks * p.blockSize < 2 ^ 64
  some : 1 ≤ s.blockCount
  le : s.blockCount ≤ p.maxBlocks

/-- Every recorded link, also one left behind in the middle of a region, points forward inside the
area or is 0. -/
def LinksForward (s : State) : Prop :=
  ∀ j, j < s.blockCount → s.next j = 0 ∨ (j < s.next j ∧ s.next j < s.blockCount)

/-- Bytes from `addr` up to the next multiple of `align`. -/
def padding (addr align : Nat) : Nat := (align - addr % align) % align

/-- A request that can be written down: a power of two alignment, at least one byte, and a size that
leaves room for the alignment padding in `std::size_t`. -/
structure Request (size align : Nat) : Prop where
  pow2 : ∃ k, align = 2 ^ k
  pos : 0 < size
  noOverflow : align + size ≤ 2 ^ 64

/-- Bytes a request needs when it is placed at block `h`. -/
def need (p : Params) (s : State) (size align h : Nat) : Nat :=
  padding (s.data + h * p.blockSize) align + size

/-- The area is small enough for the `int` shifts in `allocate`: the address alignment plus the area
size is at most `2^31`. -/
def Small (p : Params) (s : State) : Prop :=
  ∀ k, 2 ^ k ∣ s.data → 2 ^ k + s.blockCount * p.blockSize ≤ 2 ^ 31

/-- Alignments that `allocate` does not reject before looking at the regions: those of the area itself
and those up to its size. -/
def GateOpen (p : Params) (s : State) (align : Nat) : Prop :=
  align ∣ s.data ∨ align ≤ s.blockCount * p.blockSize

/-- No free region of `rs` holds the request. -/
def NoneFits (p : Params) (s : State) (size align : Nat) (rs : List Region) : Prop :=
  ∀ pre len post, rs = pre ++ ⟨len, false⟩ :: post →
    len * p.blockSize < need p s size align (blocks pre)

/-- Region lists on which the scan of a request goes right: a free region is rejected only if it is
the last region or a first region of one block (and then at most one more free region is rejected,
the last one), and no free region is filled to its last byte. -/
inductive SafeScan (p : Params) (s : State) (size align : Nat) : List Region → Prop
  /-- no free region -/
  | full {rs} (hb : ∀ r ∈ rs, r.busy = true) : SafeScan p s size align rs
  /-- the first free region holds the request with a byte to spare -/
  | first {pre len post} (hb : ∀ r ∈ pre, r.busy = true)
      (hf : need p s size align (blocks pre) < len * p.blockSize) :
      SafeScan p s size align (pre ++ ⟨len, false⟩ :: post)
  /-- the only free region is the last region; the request does not fit -/
  | last {pre len} (hb : ∀ r ∈ pre, r.busy = true)
      (hf : len * p.blockSize < need p s size align (blocks pre)) :
      SafeScan p s size align (pre ++ [⟨len, false⟩])
  /-- block 0 is free on its own and too small, the rest is as in the cases above -/
  | skipFull {rs} (hb : ∀ r ∈ rs, r.busy = true)
      (h0 : p.blockSize < need p s size align 0) :
      SafeScan p s size align (⟨1, false⟩ :: rs)
  | skipFirst {pre len post} (hb : ∀ r ∈ pre, r.busy = true)
      (h0 : p.blockSize < need p s size align 0)
      (hf : need p s size align (1 + blocks pre) < len * p.blockSize) :
      SafeScan p s size align (⟨1, false⟩ :: pre ++ ⟨len, false⟩ :: post)
  | skipLast {pre len} (hb : ∀ r ∈ pre, r.busy = true)
      (h0 : p.blockSize < need p s size align 0)
      (hf : len * p.blockSize < need p s size align (1 + blocks pre)) :
      SafeScan p s size align (⟨1, false⟩ :: pre ++ [⟨len, false⟩])

end Utils.SR
