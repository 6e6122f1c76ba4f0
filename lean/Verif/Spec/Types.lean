import Verif.Model.Types
import Mathlib.Logic.Function.Iterate

/-! # Types: what the traits should say -/

namespace Utils.Types

open CxxTy

/-- An unsigned integer type other than `bool`, possibly qualified. -/
def UnsignedInteger (t : CxxTy) : Prop :=
  ∃ c v, t = int c v .uchar ∨ t = int c v .ushort ∨ t = int c v .uint ∨ t = int c v .ulong ∨
    t = int c v .ullong

/-- `t` is `u` with these top-level qualifiers. -/
inductive Qualified (c v : Bool) : CxxTy → CxxTy → Prop
  | int (t) : Qualified c v (int false false t) (int c v t)
  | byte : Qualified c v (byte false false) (byte c v)
  | float (n) : Qualified c v (float false false n) (float c v n)
  | enum (n) : Qualified c v (enum false false n) (enum c v n)
  | cls (n) : Qualified c v (cls false false n) (cls c v n)
  | ptr (t) : Qualified c v (ptr false false t) (ptr c v t)
  | array {t u} (n) : Qualified c v t u → Qualified c v (array t n) (array u n)
  | stdArray (t n) : Qualified c v (stdArray false false t n) (stdArray c v t n)
  | refWrapper (t) : Qualified c v (refWrapper false false t) (refWrapper c v t)

/-- `t` is `u`, which has neither qualifiers nor a reference, with qualifiers and a reference added or
not. -/
def Variant (u t : CxxTy) : Prop :=
  ∃ c v x, Qualified c v u x ∧ (t = x ∨ t = lref x ∨ t = rref x)

/-- The type exists: no references to references and no arrays of references. -/
def Formed (t : CxxTy) : Prop := ∃ u, Variant u t

/-- The intrinsic rule for a list of integer types that have a common type with all their values: none is
signed, or every unsigned one that integral promotion leaves unsigned is narrower than some signed
one. -/
def Compatible (ts : List CTy) : Prop :=
  (∀ u ∈ ts, u.signed = false) ∨
    ∀ u ∈ ts, u.signed = false → 32 ≤ u.width → ∃ s ∈ ts, s.signed = true ∧ u.width < s.width

/-- A value constructed from an element of an array passed this way and then moved `m` times. -/
def arrives {α : Type} (E : Arrays.Elem α) (k : Cat) (m : Nat) (x : α) : α :=
  (fun y => (E.move y).1)^[m] (match k with | .copied => E.copy x | .moved => (E.move x).1)

/-- What is left of an element of an array passed this way. -/
def remains {α : Type} (E : Arrays.Elem α) (k : Cat) (x : α) : α :=
  match k with | .copied => x | .moved => (E.move x).2

end Utils.Types
