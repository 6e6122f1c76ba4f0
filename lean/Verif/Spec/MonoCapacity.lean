import Verif.Spec.Resources

/-! # Specification for C129: how requests are packed -/

namespace Utils.Spec

open Utils.Res

/-- A request: size and alignment. -/
abbrev Req := Nat × Nat

/-- A request of at least one byte with a power-of-two alignment. -/
def Proper (r : Req) : Prop := 0 < r.1 ∧ IsPow2 r.2 ∧ r.2 < 2 ^ 64

/-- `Packed pos rs gs e`: the requests `rs`, put one after the other from `pos` on, each at the next address with
its alignment, are `gs`, and the last one ends at `e`. -/
inductive Packed : Nat → List Req → List Grant → Nat → Prop
  | nil (pos : Nat) : Packed pos [] [] pos
  | cons {pos start e size align : Nat} {rs : List Req} {gs : List Grant} (h : LeastMultiple align pos start)
      (hs : Packed (start + size) rs gs e) : Packed pos ((size, align) :: rs) (⟨start, size, align⟩ :: gs) e

/-- The requests as calls. -/
def calls (rs : List Req) : List MonoOp := rs.map fun r => .alloc r.1 r.2

end Utils.Spec
