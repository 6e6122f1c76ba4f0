import Verif.Spec.SRExact
import Verif.Spec.SRHistory

/-!
# Clients of `simple_resource` that also call `release`
-/

namespace Utils.SR

variable {σ : Type}

/-- What such a client does. -/
inductive COp
  | call (op : Op)
  | release
  deriving DecidableEq

/-- The block at which an allocation of the area starts. -/
def startBlock (p : Params) (s : State) (x : Nat × Nat) : Nat := (x.1 - s.data) / p.blockSize

/-- An allocation the client still holds after `release` has left the resource in state `s`: one that
did not come from the area, or one whose first block `in_use` still reports. -/
def stillHeld (p : Params) (s : State) (x : Nat × Nat) : Bool :=
  !inArea p s x.1 || s.inUse (startBlock p s x)

/-- One call. -/
def cstep (p : Params) (up : Option (Upstream σ)) (fuel : Nat) (w : World σ) :
    COp → Outcome (World σ)
  | .call op => step p up fuel w op
  | .release => do
    let s ← release p fuel w.st
    pure ⟨s, w.up, w.live.filter (stillHeld p s)⟩

/-- A history. -/
def crun (p : Params) (up : Option (Upstream σ)) (fuel : Nat) :
    World σ → List COp → Outcome (World σ)
  | w, [] => .ok w
  | w, op :: ops => do
    let w ← cstep p up fuel w op
    crun p up fuel w ops

/-- Every call of the history satisfies `A` in the state in which it is made; `release` always may be
called. -/
def CAlong (p : Params) (up : Option (Upstream σ)) (fuel : Nat) (A : World σ → Op → Prop) :
    World σ → List COp → Prop
  | _, [] => True
  | w, op :: ops => (∀ o, op = .call o → A w o) ∧
      ∀ w', cstep p up fuel w op = .ok w' → CAlong p up fuel A w' ops

/-- One call on an ideal allocator: `release` takes back everything that lies in the area. -/
def idealCycle (place : List (Nat × Nat) → Nat → Option Nat) (area : Nat → Bool)
    (up : Option (Upstream σ)) (x : List (Nat × Nat) × σ) : COp → List (Nat × Nat) × σ
  | .call op => idealStep place area up x op
  | .release => (x.1.filter fun y => !area y.1, x.2)

end Utils.SR
