/-!
# Arithmetic specifications

Plain `Nat` statements, independent of the model.
-/

namespace Utils.Spec

/-- `n` is a power of two. -/
def IsPow2 (n : Nat) : Prop := ∃ k, n = 2 ^ k

/-- `r` is the least multiple of `m` that is not below `v`. -/
def LeastMultiple (m v r : Nat) : Prop := m ∣ r ∧ v ≤ r ∧ ∀ s, m ∣ s → v ≤ s → r ≤ s

/-- `d` is the greatest power of two dividing `v`. -/
def GreatestPow2Divisor (v d : Nat) : Prop :=
  IsPow2 d ∧ d ∣ v ∧ ∀ e, IsPow2 e → e ∣ v → e ≤ d

/-- `b` is the number of bits needed to write `v`: `b` bits suffice and fewer do not. -/
def BitLength (v b : Nat) : Prop := v < 2 ^ b ∧ ∀ c, v < 2 ^ c → b ≤ c

/-- Number of leading zeros of `v ≠ 0` as a `w`-bit number is `c`. -/
def LeadingZeros (w v c : Nat) : Prop := c < w ∧ 2 ^ (w - 1 - c) ≤ v ∧ v < 2 ^ (w - c)

/-- Number of trailing zeros of `v ≠ 0` is `c`. -/
def TrailingZeros (v c : Nat) : Prop := 2 ^ c ∣ v ∧ ¬ 2 ^ (c + 1) ∣ v

/-- Some address of the `size` bytes from `start` is a multiple of `al`. -/
def BlockContainsAligned (start size al : Nat) : Prop :=
  ∃ a, start ≤ a ∧ a < start + size ∧ al ∣ a

/-- `q` and `r` are quotient and remainder of truncating integer division. -/
def TruncDiv (n d q r : Int) : Prop :=
  n = q * d + r ∧ r.natAbs < d.natAbs ∧ (0 ≤ n → 0 ≤ r) ∧ (n ≤ 0 → r ≤ 0)

/-- `w` is the least of the standard widths that can hold `n` bits. -/
def LeastStdWidth (n w : Nat) : Prop :=
  w ∈ [8, 16, 32, 64] ∧ n ≤ w ∧ ∀ x ∈ [8, 16, 32, 64], n ≤ x → w ≤ x

/-- `b` bytes are the least number of 8-bit bytes with room for `bits` bits. -/
def LeastBytes (bits b : Nat) : Prop := bits ≤ 8 * b ∧ ∀ c, bits ≤ 8 * c → b ≤ c

end Utils.Spec
