/-!
# What a predicate that is not always well-formed determines

Independent of the model: a partial predicate has many total extensions; it determines an answer if all of
them give it.
-/

namespace Utils.Spec

variable {α : Type}

/-- The total predicate `q` agrees with `p` wherever `p` is well-formed. -/
def Extends (p : α → Option Bool) (q : α → Bool) : Prop := ∀ a b, p a = some b → q a = b

/-- The question `f` about a predicate has the answer `r`, whatever `p` would be where it is ill-formed. -/
def Determined {β : Type} (p : α → Option Bool) (f : (α → Bool) → β) (r : β) : Prop :=
  ∀ q, Extends p q → f q = r

/-- The predicate is well-formed for every element of the list. -/
def WellFormedOn (p : α → Option Bool) (ts : List α) : Prop := ∀ t ∈ ts, p t ≠ none

end Utils.Spec
