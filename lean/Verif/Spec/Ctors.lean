import Verif.Model.Ctors

/-! # Specification for C99: what the arguments of a resource's constructor mean -/

namespace Utils.Spec

open Utils.Ctors

/-- The start of a buffer. -/
def asBuffer : Arg → Option Nat
  | .array addr _ => some addr
  | .pointer addr => some addr
  | .null | .zero => some 0
  | _ => none

/-- A number of bytes. -/
def asSize : Arg → Option Nat
  | .size n | .int n => some n
  | .zero => some 0
  | _ => none

/-- An upstream; `nullptr` and `0` are none. -/
def asUpstream : Arg → Option Nat
  | .resource r | .derived r => some r
  | .null | .zero => some 0
  | _ => none

/-- What a caller means: an array stands for all of its bytes unless a number says otherwise; without
an upstream the default resource is meant.  A literal `0` behind an array is read as "no upstream", as
`nullptr` is. -/
def intended (dflt : Nat) : List Arg → Option (Nat × Nat × Nat)
  | [.array addr n] => some (addr, n, dflt)
  | [b, a] =>
    match b, asUpstream a with
    | .array addr n, some u => some (addr, n, u)
    | _, _ => do
      let addr ← asBuffer b
      let n ← asSize a
      pure (addr, n, dflt)
  | [b, a, u] => do
    let addr ← asBuffer b
    let n ← asSize a
    let up ← asUpstream u
    pure (addr, n, up)
  | _ => none

end Utils.Spec
