import Verif.Spec.SRCycle

/-!
# A client that looks at a `simple_resource` through its query functions
-/

namespace Utils.SR

/-- What the client notes about one region. -/
structure Seen where
  addr : Nat
  bytes : Nat
  busy : Bool
  deriving DecidableEq

/-- The client's loop:
`for (size_t i = 0; i * kBlockSize < r.size(); i += r.block_size_in_bytes(i) / kBlockSize)` notes
`r.data() + i * kBlockSize`, `r.block_size_in_bytes(i)` and `r.in_use(i)`; simple_resource.h 227-257. -/
def inspect (p : Params) (s : State) : (fuel : Nat) → (i : Nat) → Outcome (List Seen)
  | 0, _ => .outOfFuel
  | fuel + 1, i =>
    if i * p.blockSize < size p s then do
      let b ← inUseAt p s i
      let n ← blockSizeInBytes p s i
      let rest ← inspect p s fuel (i + n / p.blockSize)
      pure (⟨s.data + i * p.blockSize, n, b⟩ :: rest)
    else pure []

/-- The regions lie one behind the other from address `a` to address `b`, and none is empty. -/
def Gapless : Nat → List Seen → Nat → Prop
  | a, [], b => a = b
  | a, x :: l, b => x.addr = a ∧ 0 < x.bytes ∧ Gapless (a + x.bytes) l b

end Utils.SR
