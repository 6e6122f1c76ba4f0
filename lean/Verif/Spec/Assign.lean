import Verif.Model.Assign
import Verif.Spec.Resources
import Verif.Spec.SRCycle

/-!
# Clients of several resources that assign them to each other

`O` is a resource together with what the client holds through it.
-/

namespace Utils.Assign

/-- Several resources, the state of everything upstream, and what the client held through a resource
when it was overwritten (it is still in the client's hands, but no resource knows about it). -/
structure Store (O σ : Type) where
  objs : Nat → O
  up : σ
  lost : List O

/-- What a client does. -/
inductive AOp (op : Type)
  /-- a call on resource `i` -/
  | on (i : Nat) (call : op)
  /-- resource `i` `=` resource `j` -/
  | assign (i j : Nat)
  deriving DecidableEq

/-- Assignment to one element. -/
def put {β : Type} (f : Nat → β) (i : Nat) (v : β) : Nat → β := fun k => if k = i then v else f k

/-- The kind of resource: a call, the assignment (what the client held through the source it now holds
through the target), and the same resource with nothing held through it. -/
structure Kind (O σ op : Type) where
  call : O → σ → op → Outcome (O × σ)
  assign : O → O → O
  empty : O → O

variable {O σ op : Type}

/-- One step. -/
def aStep (K : Kind O σ op) (w : Store O σ) : AOp op → Outcome (Store O σ)
  | .on i c => do
    let (x, u) ← K.call (w.objs i) w.up c
    pure ⟨put w.objs i x, u, w.lost⟩
  | .assign i j =>
    if i = j then pure w
    else pure ⟨put (put w.objs i (K.assign (w.objs i) (w.objs j))) j (K.empty (w.objs j)), w.up,
      w.objs i :: w.lost⟩

/-- A history. -/
def aRun (K : Kind O σ op) : Store O σ → List (AOp op) → Outcome (Store O σ)
  | w, [] => .ok w
  | w, o :: ops => do
    let w ← aStep K w o
    aRun K w ops

/-- Every call of the history meets `A` for the resource it is made on. -/
def AAlong (K : Kind O σ op) (A : O → σ → op → Prop) : Store O σ → List (AOp op) → Prop
  | _, [] => True
  | w, o :: ops => (∀ i c, o = .on i c → A (w.objs i) w.up c) ∧
      ∀ w', aStep K w o = .ok w' → AAlong K A w' ops

/-- The resources that were assigned from and not assigned to since. -/
def spentAfter (spent : Nat → Bool) : AOp op → Nat → Bool
  | .on _ _ => spent
  | .assign i j => if i = j then spent else put (put spent i false) j true

/-- Which ones after a history. -/
def spentAll (spent : Nat → Bool) : List (AOp op) → Nat → Bool
  | [] => spent
  | o :: ops => spentAll (spentAfter spent o) ops

/-- Assignment is used like a move: a resource that was assigned from is not used again before it is
assigned to. -/
def Moves (spent : Nat → Bool) : List (AOp op) → Prop
  | [] => True
  | .on i c :: ops => spent i = false ∧ Moves (spentAfter spent (.on i c)) ops
  | .assign i j :: ops => spent j = false ∧ Moves (spentAfter spent (.assign i j : AOp op)) ops

/-- The step involves resource `j`. -/
def AOp.involves (j : Nat) : AOp op → Prop
  | .on i _ => i = j
  | .assign i k => i = j ∨ k = j

/-- Somebody who holds memory: a resource that may be used, or an overwritten one. -/
inductive Holder
  | resource (i : Nat)
  | overwritten (n : Nat)
  deriving DecidableEq

/-- What a holder holds. -/
def Store.holds (w : Store O σ) (spent : Nat → Bool) : Holder → Option O
  | .resource i => if spent i then none else some (w.objs i)
  | .overwritten n => w.lost[n]?

/-! ## The two kinds -/

open Utils.Res Utils.SR

/-- A `monotonic_buffer_resource` and what was handed out by it since the last `release`. -/
structure MonoHeld (σ : Type) where
  obj : MonoObj σ
  given : List Grant

/-- The resource as a client of a single one sees it. -/
def MonoHeld.world (x : MonoHeld σ) (u : σ) : MonoWorld σ := ⟨x.obj.res, u, x.given⟩

/-- `monotonic_buffer_resource`. -/
def monoKind (σ : Type) (debug : Bool) : Kind (MonoHeld σ) σ MonoOp where
  call x u c := do
    let w ← monoStep debug x.obj.upstream (x.world u) c
    pure (⟨⟨w.res, x.obj.upstream⟩, w.given⟩, w.up)
  assign x y := ⟨x.obj.assign y.obj, y.given⟩
  empty x := ⟨x.obj, []⟩

/-- A `simple_resource` and the allocations the client holds through it. -/
structure SimpleHeld (σ : Type) where
  obj : SimpleObj σ
  live : List (Nat × Nat)

/-- The resource as a client of a single one sees it. -/
def SimpleHeld.world (x : SimpleHeld σ) (u : σ) : World σ := ⟨x.obj.st, u, x.live⟩

/-- `simple_resource`. -/
def simpleKind (σ : Type) (p : Params) (fuel : Nat) : Kind (SimpleHeld σ) σ COp where
  call x u c := do
    let w ← cstep p x.obj.upstream fuel (x.world u) c
    pure (⟨⟨w.st, x.obj.upstream⟩, w.live⟩, w.up)
  assign x y := ⟨x.obj.assign y.obj, y.live⟩
  empty x := ⟨x.obj, []⟩

end Utils.Assign
