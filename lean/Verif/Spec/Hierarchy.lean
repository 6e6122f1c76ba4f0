import Verif.Model.Hierarchy

/-! # Base classes, for C124 -/

namespace Utils.Spec

open Utils.Traits

variable {τ : Type}

/-- `b` is a direct base, virtual or not, public or not. -/
inductive DirectBase : Bases τ → Bool → Bool → Class τ → Prop
  | here {v p b rest} : DirectBase (.cons v p b rest) v p b
  | there {v p b rest v' p' b'} : DirectBase rest v' p' b' → DirectBase (.cons v p b rest) v' p' b'

/-- An object of class `c` at `p` contains one of class `d` at `q`; `pub`: by public bases only.
A virtual base is the same one wherever it is inherited. -/
inductive Contains : List Nat → Class τ → List Nat → Class τ → Bool → Prop
  | self {p c} : Contains p c p c true
  | base {p c v pb b q d pub} (h : DirectBase c.bases v pb b)
      (h' : Contains (if v then [b.id] else p ++ [b.id]) b q d pub) : Contains p c q d (pb && pub)

/-- Two classes of one hierarchy with the same name are the same class. -/
def Consistent (t : Class τ) : Prop :=
  ∀ p c x q d y, Contains [t.id] t p c x → Contains [t.id] t q d y → c.id = d.id → c = d

/-- The subobject `d` of `t` at `q` declares the name, and no subobject it is part of declares it too. -/
def Visible (t : Class τ) (q : List Nat) (d : Class τ) : Prop :=
  (∃ x, Contains [t.id] t q d x) ∧ d.own ≠ none ∧
  ∀ p c x y, Contains [t.id] t p c x → c.own ≠ none → Contains p c q d y → p = q

/-- `T::NAME` is the declaration in class `c`. -/
def Finds (t c : Class τ) : Prop :=
  (∃ q, Visible t q c) ∧ ∀ q d, Visible t q d → d = c

/-- `c` is `t` or a base of it on public ways. -/
def PublicBase (t c : Class τ) : Prop := ∃ q, Contains [t.id] t q c true

/-- `t` has just one subobject of class `c`. -/
def OnceIn (t c : Class τ) : Prop :=
  ∀ p q x y, Contains [t.id] t p c x → Contains [t.id] t q c y → p = q

/-- No virtual base on the way from `t` to `c`. -/
def NotVirtual (t c : Class τ) : Prop :=
  ∀ q x, Contains [t.id] t q c x → q.head? = some t.id

end Utils.Spec
