/-! # Arithmetic notions on all integers -/

namespace Utils.Spec

/-- `r` is the least multiple of `m` that is not below `v`, among all integers. -/
def LeastMultipleZ (m v r : Int) : Prop := m ∣ r ∧ v ≤ r ∧ ∀ s, m ∣ s → v ≤ s → r ≤ s

end Utils.Spec
