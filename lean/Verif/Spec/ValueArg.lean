import Verif.Model.ValueArg

/-! # Specifications of value lists and products with arguments of every kind -/

namespace Utils.Spec

open Utils.VA Utils.CP

/-- Comparing with `==` tells the two template arguments apart: references of one type are both to
functions or arrays, or both to objects with known values, which differ unless the object is one. -/
def ToldApart {τ : Type} (env : Nat → Entity) (a b : Arg τ) : Prop :=
  ∀ t x y, a = .ref t x → b = .ref t y →
    (env x = .address ∧ env y = .address) ∨
      ∃ v w, env x = .constant v ∧ env y = .constant w ∧ (v = w → x = y)

/-- Both are type lists or both are value lists. -/
def SameKind {α β : Type} (a b : Pack α β) : Prop :=
  (∃ l m, a = .types l ∧ b = .types m) ∨ ∃ l m, a = .values l ∧ b = .values m

/-- The list has no element. -/
def EmptyPack {α β : Type} (a : Pack α β) : Prop := a = .types [] ∨ a = .values []

/-- No element is a reference. -/
def NoRefs {α β : Type} (isRef : β → Bool) (a : Pack α β) : Prop :=
  ∀ l, a = .values l → ∀ v ∈ l, isRef v = false

/-- When `cartesian_product_t<Ls...>` compiles: at least two lists; none but the last is empty; no
references; the last two lists are of one kind, and so are all the others unless the last is
empty. -/
def ProductCompiles {α β : Type} (isRef : β → Bool) (ls : List (Pack α β)) : Prop :=
  ∃ pre a b, ls = pre ++ [a, b] ∧ (∀ l ∈ pre ++ [a], ¬ EmptyPack l) ∧ (∀ l ∈ ls, NoRefs isRef l) ∧
    SameKind a b ∧ (EmptyPack b ∨ ∀ l ∈ pre, SameKind l b)

end Utils.Spec
