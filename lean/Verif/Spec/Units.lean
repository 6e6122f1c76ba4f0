import Verif.Model.Units

/-! # Programs of several translation units: what they may do -/

namespace Utils.Units

/-- The addresses a body takes are of objects that are there. -/
def Takes (built : List Nat) (cs : List Call) : Prop := ∀ n, .addr n ∈ cs → n ∈ built

/-- Every static object is constructed once, the addresses taken in constructors and in other code are
of objects constructed before, and `default_resource` is initialised once (`first` tells whether it is
still to come). -/
def Ordered : Bool → List Nat → List Event → Prop
  | _, _, [] => True
  | first, built, .initDefault _ :: es => first = true ∧ Ordered false built es
  | first, built, .ctor n cs :: es => n ∉ built ∧ Takes built cs ∧ Ordered first (n :: built) es
  | first, built, .code cs :: es => Takes built cs ∧ Ordered first built es

/-- A destructor keeps to what the constructor got: it makes calls on those pointers only, and calls
`system_memory_resource()` and `null_memory_resource()` only where the constructor did. -/
def KeepsTo (f : Frame) (cs : List Call) : Prop :=
  ∀ c ∈ cs, match c with
    | .use k => k < f.length
    | .system u => some (.sys u) ∈ f
    | .nullRes u => some (.null u) ∈ f
    | _ => True

/-- No call of `set_default_resource`. -/
def NoSet (cs : List Call) : Prop := ∀ k, .set k ∉ cs

/-- No call of `set_default_resource` in the constructors and other code. -/
def NoSets (es : List Event) : Prop :=
  ∀ e ∈ es, match e with
    | .initDefault _ => True
    | .ctor _ cs => NoSet cs
    | .code cs => NoSet cs

end Utils.Units
