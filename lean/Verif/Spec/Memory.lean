import Verif.Model.Memory

/-! # Specifications of raw memory operations -/

namespace Utils.Spec

open Utils.Memory

/-- All `n` bytes from `a` on may be accessed. -/
def Accessible (m : Mem) (a n : Nat) : Prop := ∀ i < n, (m (a + i)).isSome

/-- `m'` is `m` outside the `n` bytes from `a` on. -/
def SameOutside (a n : Nat) (m m' : Mem) : Prop := ∀ x, x < a ∨ a + n ≤ x → m' x = m x

/-- The ranges have no address in common. -/
def DisjointRanges (a b n : Nat) : Prop := a + n ≤ b ∨ b + n ≤ a

/-- The object representation at `a`. -/
def bytesAt (m : Mem) (a n : Nat) : List (Option UInt8) := (List.range n).map fun i => m (a + i)

end Utils.Spec
