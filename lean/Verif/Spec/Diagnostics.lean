import Verif.Model.Diagnostics
import Verif.Spec.SRHistory

/-! # Spec: what a diagnostic ought to say -/

namespace Utils.Diag

/-- The number of arguments that a format asks for. -/
def conversions : List Char → Nat
  | [] => 0
  | '%' :: '%' :: f => conversions f
  | '%' :: _ :: f => conversions f + 1
  | '%' :: [] => 0
  | _ :: f => conversions f

/-- The parts of a report. -/
def beforeFile : List Char := "[ERROR]\nfile: ".toList
/-- See `beforeFile`. -/
def beforeLine : List Char := "\nline: ".toList
/-- See `beforeFile`. -/
def beforeFunc : List Char := "\nfunc: ".toList

/-- The place and the message. -/
def Place.report (w : Place) (message : List Char) : List Char :=
  beforeFile ++ w.file ++ beforeLine ++ Nat.toDigits 10 w.line ++ beforeFunc ++ w.func ++ message

end Utils.Diag

namespace Utils.SR

/-- Whether a message is true of the call `deallocate(ptr)`: the reason it gives, and the numbers in
it. -/
def Message.TrueOf (p : Params) {σ : Type} (up : Option (Upstream σ)) (w : World σ) (ptr : Nat) : Message → Prop
  | .destroyed _ => False
  | .unaligned q => q = ptr ∧ ¬ p.blockSize ∣ ptr
  | .below q d => q = ptr ∧ d = w.st.data ∧ ptr < d ∧ up = none
  | .above q e => q = ptr ∧ e = w.st.data + w.st.blockCount * p.blockSize ∧ e ≤ ptr ∧ up = none
  | .notAllocated i => ptr = w.st.data + i * p.blockSize ∧ i < w.st.blockCount ∧ ∀ x ∈ w.live, x.1 ≠ ptr

/-- The texts, with the numbers filled in by `sp` (pointers) and in decimal. -/
def Message.text (p : Params) (sp : Nat → List Char) : Message → List Char
  | .destroyed b =>
    "\nreason: simple_resource is being destroyed while ".toList ++ Nat.toDigits 10 b ++
      " of its regions are in use.".toList
  | .unaligned q =>
    "\nreason: pointer(".toList ++ sp q ++
      ") which is being deallocated must be aligned at least as one block size(".toList ++
      Nat.toDigits 10 p.blockSize ++ ")".toList
  | .below q d =>
    "\nreason: deallocating pointer(".toList ++ sp q ++
      ") is less than simple_resource's left boundary(".toList ++ sp d ++ ")".toList
  | .above q e =>
    "\nreason: deallocating pointer(".toList ++ sp q ++
      ") is more than simple_resource's right boundary(".toList ++ sp e ++ ")".toList
  | .notAllocated i =>
    "\nreason: trying to deallocate block(".toList ++ Nat.toDigits 10 i ++
      ") that was not marked as allocated".toList

end Utils.SR
