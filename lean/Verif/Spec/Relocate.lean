import Verif.Spec.SRCycle
import Verif.Spec.Resources

/-!
# The same resource over a buffer somewhere else
-/

namespace Utils.SR

/-- The resource whose area lies `d` bytes further up. -/
def moved (d : Nat) (s : State) : State := { s with data := s.data + d }

/-- Where an address of the area ends up when the area is moved; other addresses stay. -/
def relocated (p : Params) (s : State) (d ptr : Nat) : Nat := if inArea p s ptr then ptr + d else ptr

/-- The resource moved, its client holding the moved allocations. -/
def movedWorld {σ : Type} (p : Params) (d : Nat) (w : World σ) : World σ :=
  ⟨moved d w.st, w.up, w.live.map fun x => (relocated p w.st d x.1, x.2)⟩

/-- The alignment of every request divides `d`; the arguments are values of `std::size_t`. -/
def AlignedOps (d : Nat) (ops : List COp) : Prop :=
  ∀ size align, COp.call (.alloc size align) ∈ ops → align ∣ d ∧ size < 2 ^ 64 ∧ align < 2 ^ 64

/-- No allocation the client holds lies in the area after the move without being in it before. -/
def StaysApart {σ : Type} (p : Params) (d : Nat) (w : World σ) : Prop :=
  ∀ x ∈ w.live, inArea p w.st x.1 = true ∨ inArea p (moved d w.st) x.1 = false

end Utils.SR

namespace Utils.Res

open Utils.SR

variable {σ : Type}

/-- The `monotonic_buffer_resource` whose buffer lies `d` bytes further up. -/
def Mono.moved (d : Nat) (m : Mono) : Mono := ⟨m.data + d, m.size, m.next + d⟩

/-- The resource moved, and with it what it handed out from its buffer. -/
def movedMono (d : Nat) (w : MonoWorld σ) : MonoWorld σ :=
  ⟨w.res.moved d, w.up, w.given.map fun g => if w.res.inBuffer g.ptr then { g with ptr := g.ptr + d } else g⟩

/-- An upstream that never hands out an address inside the buffer. -/
def MonoApart (m : Mono) (up : Option (Upstream σ)) : Prop :=
  ∀ U, up = some U → ∀ u size align, m.inBuffer (U.alloc u size align).1 = false

end Utils.Res
