import Verif.Spec.SRHistory

/-!
# What `allocate` and `release` of `simple_resource` decide, on any well-formed state

Both walk along the recorded links, also those left behind inside regions, and both go on at block 1
after a region that is not the last one.
-/

namespace Utils.SR

/-- Following the recorded links from block `i` over blocks that carry the in-use mark: `some j` is
the first block reached that carries none, `none` is the end of the links. -/
inductive Finds (s : State) : Nat → Option Nat → Prop
  | here {i} (hu : s.inUse i = false) : Finds s i (some i)
  | next {i r} (hu : s.inUse i = true) (hn : s.next i ≠ 0) (h : Finds s (s.next i) r) : Finds s i r
  | last {i} (hu : s.inUse i = true) (hn : s.next i = 0) : Finds s i none

/-- The block at which the region recorded at `i` ends. -/
def stop (s : State) (i : Nat) : Nat := if s.next i = 0 then s.blockCount else s.next i

/-- By the links, the region at block `i` is too small for the request. -/
def TooSmall (p : Params) (s : State) (size align i : Nat) : Prop :=
  (stop s i - i) * p.blockSize < need p s size align i

/-- The alignments let through to the regions: smaller than an alignment of the area plus the size of
the area. -/
def Gate (p : Params) (s : State) (align : Nat) : Prop :=
  ∃ k, 2 ^ k ∣ s.data ∧ align < 2 ^ k + s.blockCount * p.blockSize

/-- Answers of a scan. -/
inductive Answer
  /-- the scan never ends -/
  | never
  /-- nothing is taken -/
  | refuse
  /-- the region at this block is taken -/
  | take (i : Nat)

/-- What becomes of a request. -/
inductive Decides (p : Params) (s : State) (size align : Nat) : Answer → Prop
  | gate (h : ¬ Gate p s align) : Decides p s size align .refuse
  | full (h : Gate p s align) (h0 : Finds s 0 none) : Decides p s size align .refuse
  | first {i} (h : Gate p s align) (h0 : Finds s 0 (some i)) (hf : ¬ TooSmall p s size align i) :
      Decides p s size align (.take i)
  | firstLast {i} (h : Gate p s align) (h0 : Finds s 0 (some i)) (hs : TooSmall p s size align i)
      (hn : s.next i = 0) : Decides p s size align .refuse
  | fullFromOne {i} (h : Gate p s align) (h0 : Finds s 0 (some i)) (hs : TooSmall p s size align i)
      (hn : s.next i ≠ 0) (h1 : Finds s 1 none) : Decides p s size align .refuse
  | second {i j} (h : Gate p s align) (h0 : Finds s 0 (some i)) (hs : TooSmall p s size align i)
      (hn : s.next i ≠ 0) (h1 : Finds s 1 (some j)) (hf : ¬ TooSmall p s size align j) :
      Decides p s size align (.take j)
  | secondLast {i j} (h : Gate p s align) (h0 : Finds s 0 (some i)) (hs : TooSmall p s size align i)
      (hn : s.next i ≠ 0) (h1 : Finds s 1 (some j)) (hs1 : TooSmall p s size align j)
      (hn1 : s.next j = 0) : Decides p s size align .refuse
  | never {i j} (h : Gate p s align) (h0 : Finds s 0 (some i)) (hs : TooSmall p s size align i)
      (hn : s.next i ≠ 0) (h1 : Finds s 1 (some j)) (hs1 : TooSmall p s size align j)
      (hn1 : s.next j ≠ 0) : Decides p s size align .never

/-- A request that leaves the bookkeeping right: it is refused, or it is given a region that is free
(not the middle of a region, where a link was left behind) and larger than needed. -/
def GoodChoice (p : Params) (s : State) (size align : Nat) (rs : List Region) : Prop :=
  Decides p s size align .refuse ∨
  ∃ pre len post, rs = pre ++ ⟨len, false⟩ :: post ∧
    Decides p s size align (.take (blocks pre)) ∧
    need p s size align (blocks pre) ≠ len * p.blockSize

/-- A call that leaves the bookkeeping right. -/
def GoodOp {σ : Type} (p : Params) (w : World σ) : Op → Prop
  | .alloc size align => Request size align ∧ ∀ rs, Tiled w.st rs → GoodChoice p w.st size align rs
  | .free _ => True

/-- A call of a client that keeps the allocation at the start of the area: any request (without
assertions its size must not be a whole number of blocks), any live allocation but that one. -/
def PinOp {σ : Type} (p : Params) (w : World σ) : Op → Prop
  | .alloc size align => Request size align ∧ (p.debug = true ∨ size % p.blockSize ≠ 0)
  | .free i => ∀ x, w.live[i]? = some x → x.1 ≠ w.st.data

/-- Block `j` is reached from block `i` along the recorded links. -/
inductive Path (s : State) : Nat → Nat → Prop
  | refl (i) : Path s i i
  | step {i j} (hn : s.next i ≠ 0) (h : Path s (s.next i) j) : Path s i j

/-- `j` is the first block with the in-use mark. -/
def FirstBusy (s : State) (j : Nat) : Prop :=
  j < s.blockCount ∧ s.inUse j = true ∧ ∀ k, k < j → s.inUse k = false

end Utils.SR
