import Verif.Model.DeleteObject

/-! # Specification for C128 -/

namespace Utils.Spec

open Utils.Delete

mutual
/-- The subobjects in the order in which their constructors run: the bases in their order, then the class. -/
def constructed (at_ : List Nat) : Cls → List (List Nat)
  | .mk _ _ _ bases => constructedBases at_ 0 bases ++ [at_]
def constructedBases (at_ : List Nat) (i : Nat) : List Cls → List (List Nat)
  | [] => []
  | b :: bases => constructed (at_ ++ [i]) b ++ constructedBases at_ (i + 1) bases
end

/-- What `delete` does: destroys everything that was constructed, in reverse order, and gives back the address
where the object was made. -/
def DeletedRight (cls : Cls) (address : Nat) (r : Option (List (List Nat) × Nat)) : Prop :=
  r = some ((constructed [] cls).reverse, address)

/-- Every base on the way is the first one with virtual functions. -/
def FirstPolymorphic : Cls → List Nat → Prop
  | _, [] => True
  | c, i :: path => ∃ b, c.bases[i]? = some b ∧ b.polymorphic = true ∧
      (∀ b' ∈ c.bases.take i, b'.polymorphic = false) ∧ FirstPolymorphic b path

/-- Every class on the way has at most one base with virtual functions. -/
def OnePolymorphicBase : Cls → List Nat → Prop
  | _, [] => True
  | c, i :: path => (c.bases.filter Cls.polymorphic).length ≤ 1 ∧
      ∀ b, c.bases[i]? = some b → OnePolymorphicBase b path

end Utils.Spec
