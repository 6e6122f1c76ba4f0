import Verif.Spec.SRExact

/-! Two simple resources that serve the same client on the same area, with different pasts. -/

namespace Utils.SR

/-- The request does not make the scan restart at a block that is no start of a region: if the first
free region is too small and is not the last region, then the first region has one block. -/
def Unrestarted (p : Params) (s : State) (size align : Nat) (rs : List Region) : Prop :=
  ∀ pre len q post, rs = pre ++ ⟨len, false⟩ :: q :: post → (∀ r ∈ pre, r.busy = true) →
    len * p.blockSize < need p s size align (blocks pre) → (rs.head?.map Region.len) = some 1

/-- A call that leaves the bookkeeping right and whose scan does not restart inside a region. -/
def PlainOp {σ : Type} (p : Params) (w : World σ) : Op → Prop
  | .alloc size align => Request size align ∧
      ∀ rs, Tiled w.st rs → GoodChoice p w.st size align rs ∧ Unrestarted p w.st size align rs
  | .free _ => True

/-- Same area, same live allocations, same upstream. -/
structure Alike {σ : Type} (a b : World σ) : Prop where
  data : b.st.data = a.st.data
  count : b.st.blockCount = a.st.blockCount
  live : b.live = a.live
  upstream : b.up = a.up

end Utils.SR
