import Verif.Model.Program

/-! # Programs that use allocators: what they may do -/

namespace Utils.Res

variable {ι σ : Type}

/-- What a program has to respect: it uses allocators that exist, its requests are not larger than
`SIZE_MAX` and are taken by the resource of the allocator, and it gives back what it holds through an
allocator that compares equal (`operator==`; `addr` are the addresses of the resources) to the one it
got it from. -/
def Respects (addr : ι → Nat) (Ask : ι → σ → Nat → Nat → Prop) (w : Program ι σ) : AllocOp ι → Prop
  | .setDefault _ => True
  | .make => True
  | .makeOn _ => True
  | .copy a => a < w.allocs.length
  | .allocate a sizeOf alignOf count =>
    ∃ i, w.allocs[a]? = some i ∧ count * sizeOf < 2 ^ 64 ∧ Ask i w.st (count * sizeOf) alignOf
  | .deallocate a k =>
    ∃ i g b j, w.allocs[a]? = some i ∧ w.live[k]? = some (g, b) ∧ w.allocs[b]? = some j ∧
      allocatorEq (addr i) (addr j) = .ok true

/-- Every call of the history respects the rules in the state in which it is made. -/
def RespectsAll (R : Service ι σ) (addr : ι → Nat) (Ask : ι → σ → Nat → Nat → Prop) :
    Program ι σ → List (AllocOp ι) → Prop
  | _, [] => True
  | w, op :: ops => Respects addr Ask w op ∧
      ∀ w', Program.step R w op = .ok w' → RespectsAll R addr Ask w' ops

/-- The resource set last, or the one that was set before. -/
def lastDefault (i : ι) : List (AllocOp ι) → ι
  | [] => i
  | .setDefault j :: ops => lastDefault j ops
  | _ :: ops => lastDefault i ops

/-- Whether a call makes an allocator. -/
def AllocOp.makes : AllocOp ι → Bool
  | .make | .makeOn _ | .copy _ => true
  | _ => false

end Utils.Res
