import Verif.Model.ZeroOpt

/-! # What a compiler may do (C139) -/

namespace Utils.Opt

/-- `Q` may be run in place of `P`: whatever is in memory and whatever comes from outside, the same is observed. -/
def Conforms (P Q : List Instr) : Prop := ∀ s, events Q s = events P s

/-- After `P` the bytes of `[ptr, ptr + n)` are zero. -/
def Erases (P : List Instr) (ptr n : Nat) : Prop := ∀ s, ∀ i < n, (after P s).mem (ptr + i) = 0

/-- A secret comes from outside into `[ptr, ptr + n)`. -/
def receive (ptr n : Nat) : List Instr := (List.range n).map fun i => .input (ptr + i)

/-- The byte that is at `a` before the program reaches the outside, perhaps by way of copies. -/
def reaches : List Instr → Nat → Bool
  | [], _ => false
  | .write b _ :: is, a => a != b && reaches is a
  | .strict b _ :: is, a => a != b && reaches is a
  | .input b :: is, a => a != b && reaches is a
  | .output b :: is, a => a == b || reaches is a
  | .copy dst src :: is, a => (a == src && reaches is dst) || (a != dst && reaches is a)

/-- The stores of the loop at the indices that are kept. -/
def someOf (keep : Nat → Bool) (ptr n : Nat) : List Instr :=
  ((List.range n).filter keep).map fun i => .write (ptr + i) 0

end Utils.Opt
