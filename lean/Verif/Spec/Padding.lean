import Verif.Model.Padding

/-! # Which bytes of an object hold data -/

namespace Utils.Padding

mutual

/-- Byte `i` of an object belongs to a scalar in it. -/
def Owned : Ty → Nat → Prop
  | .scalar s _, i => i < s
  | .cls _ _ ms, i => OwnedAll 0 ms i

/-- Byte `i` belongs to a scalar in one of the members, the first of which may start at `off`. -/
def OwnedAll (off : Nat) : List Ty → Nat → Prop
  | [], _ => False
  | t :: ts, i => (roundUp off (alignOf t) ≤ i ∧ Owned t (i - roundUp off (alignOf t))) ∨
      OwnedAll (roundUp off (alignOf t) + byteSize t) ts i

end

mutual

/-- Byte `i` belongs to a scalar, or to a class that is no aggregate. -/
def Visible : Ty → Nat → Prop
  | .scalar s _, i => i < s
  | .cls true _ ms, i => VisibleAll 0 ms i
  | .cls false a ms, i => i < byteSize (.cls false a ms)

/-- The same for members. -/
def VisibleAll (off : Nat) : List Ty → Nat → Prop
  | [], _ => False
  | t :: ts, i => (roundUp off (alignOf t) ≤ i ∧ Visible t (i - roundUp off (alignOf t))) ∨
      VisibleAll (roundUp off (alignOf t) + byteSize t) ts i

end

mutual

/-- All alignments are positive, and no aggregate outside a non-aggregate class is empty. -/
def Proper : Ty → Prop
  | .scalar _ a => 0 < a
  | .cls true a ms => 0 < a ∧ ms ≠ [] ∧ ProperAll ms
  | .cls false a _ => 0 < a

/-- The same for members. -/
def ProperAll : List Ty → Prop
  | [] => True
  | t :: ts => Proper t ∧ ProperAll ts

end

mutual

/-- Scalars and aggregates only. -/
def Plain : Ty → Prop
  | .scalar _ _ => True
  | .cls b _ ms => b = true ∧ PlainAll ms

/-- The same for members. -/
def PlainAll : List Ty → Prop
  | [] => True
  | t :: ts => Plain t ∧ PlainAll ts

end

mutual

/-- There is an aggregate without members somewhere (not looking into non-aggregates). -/
def EmptyInside : Ty → Prop
  | .scalar _ _ => False
  | .cls true _ ms => ms = [] ∨ EmptyInsideAll ms
  | .cls false _ _ => False

/-- The same for members. -/
def EmptyInsideAll : List Ty → Prop
  | [] => False
  | t :: ts => EmptyInside t ∨ EmptyInsideAll ts

end

mutual

/-- No class that is not an aggregate contains padding. -/
def Dense : Ty → Prop
  | .scalar _ _ => True
  | .cls true _ ms => DenseAll ms
  | .cls false a ms => ∀ i, Owned (.cls false a ms) i ↔ i < byteSize (.cls false a ms)

/-- The same for members. -/
def DenseAll : List Ty → Prop
  | [] => True
  | t :: ts => Dense t ∧ DenseAll ts

end

mutual

/-- All alignments are positive, inside non-aggregate classes too. -/
def PosAlign : Ty → Prop
  | .scalar _ a => 0 < a
  | .cls _ a ms => 0 < a ∧ PosAlignAll ms

/-- The same for members. -/
def PosAlignAll : List Ty → Prop
  | [] => True
  | t :: ts => PosAlign t ∧ PosAlignAll ts

end

end Utils.Padding
