import Verif.Model.FunctionTraits

/-!
# Member checkers and base classes

What `T::NAME` means to the member checkers of /repo/sources/include/utils/function_traits.h if `T` has
base classes, private members and private bases.  The checkers themselves are those of
FunctionTraits.lean; here the name lookup, the access check and the conversion to `R (T::*)(Args...)`
that they rely on are spelled out.  `using` declarations and friends are not modelled.
-/

namespace Utils.Traits

variable {τ : Type}

/-- What a class itself declares under the name `NAME`: functions, each public or not, static or not; or
something else. -/
inductive Own (τ : Type)
  | functions (l : List (Bool × Bool × Fn τ))
  | other (isPublic : Bool) (m : Member τ)

mutual
/-- A class: which one, what it declares under the name `NAME`, if anything, and its bases. -/
inductive Class (τ : Type)
  | mk (id : Nat) (own : Option (Own τ)) (bases : Bases τ)
/-- The direct bases of a class: virtual or not, public or not. -/
inductive Bases (τ : Type)
  | nil
  | cons (isVirtual isPublic : Bool) (base : Class τ) (rest : Bases τ)
end

def Class.id : Class τ → Nat
  | .mk id _ _ => id

def Class.own : Class τ → Option (Own τ)
  | .mk _ own _ => own

def Class.bases : Class τ → Bases τ
  | .mk _ _ bases => bases

/-- A subobject of an object of class type.  `path` identifies it: the classes from the complete object,
or from the last virtual base on the way, down to it.  `viaPublic`: all bases on the way are public. -/
structure SubObj (τ : Type) where
  path : List Nat
  cls : Class τ
  viaPublic : Bool

/-- Where a direct base of the subobject `path` lies. -/
def place (isVirtual : Bool) (path : List Nat) (base : Class τ) : List Nat :=
  if isVirtual then [base.id] else path ++ [base.id]

mutual
/-- All subobjects, itself included; one that can be reached on several ways is listed several times. -/
def Class.subs (path : List Nat) (pub : Bool) : Class τ → List (SubObj τ)
  | .mk id own bases => ⟨path, .mk id own bases, pub⟩ :: bases.subs path pub
def Bases.subs (path : List Nat) (pub : Bool) : Bases τ → List (SubObj τ)
  | .nil => []
  | .cons isVirtual isPublic base rest =>
    base.subs (place isVirtual path base) (pub && isPublic) ++ rest.subs path pub
end

/-- The subobjects of an object of class `t`. -/
def subobjects (t : Class τ) : List (SubObj τ) := t.subs [t.id] true

/-- Those whose class declares `NAME`. -/
def declaring (t : Class τ) : List (SubObj τ) := (subobjects t).filter (·.cls.own.isSome)

/-- Is `d` a base class subobject of `s`? -/
def hides (s d : SubObj τ) : Bool :=
  decide (s.path ≠ d.path) && (s.cls.subs s.path true).any fun x => decide (x.path = d.path)

/-- The declarations that are not hidden by one in a class derived from theirs. -/
def visible (t : Class τ) : List (SubObj τ) :=
  (declaring t).filter fun d => !(declaring t).any (hides · d)

/-- The class in which the name `T::NAME` is found, [class.member.lookup]: the visible declarations have
to be the same, perhaps in several subobjects.  `none`: there is none, or the name is ambiguous. -/
def found (t : Class τ) : Option (Class τ) :=
  match visible t with
  | [] => none
  | s :: rest => if rest.all fun x => decide (x.cls.id = s.cls.id) then some s.cls else none

/-- May everybody use public members of `b` as members of `t`?  [class.access.base] 4, 5. -/
def accessibleBase (t b : Class τ) : Bool :=
  (subobjects t).any fun s => decide (s.cls.id = b.id) && s.viaPublic

/-- Has `t` several subobjects of class `b`? -/
def ambiguousBase (t b : Class τ) : Bool :=
  (subobjects t).any fun s => (subobjects t).any fun s' =>
    decide (s.cls.id = b.id) && decide (s'.cls.id = b.id) && decide (s.path ≠ s'.path)

/-- Is `b` a virtual base of `t`, or a base of one? -/
def virtualBase (t b : Class τ) : Bool :=
  (subobjects t).any fun s => decide (s.cls.id = b.id) && decide (s.path.head? ≠ some t.id)

/-- `has_data_NAME_v<T>`, function_traits.h 74-103: `&T::NAME` is a pointer to member of the class where
the name is found, and nothing asks for more. -/
def hasDataIn (t : Class τ) : Bool :=
  match found t with
  | some c =>
    match c.own with
    | some (.other isPublic m) => isPublic && accessibleBase t c && hasData m
    | _ => false
  | none => false

/-- `has_static_data_NAME_v<T>`, function_traits.h 105-135. -/
def hasStaticDataIn (t : Class τ) : Bool :=
  match found t with
  | some c =>
    match c.own with
    | some (.other isPublic m) => isPublic && accessibleBase t c && hasStaticData m
    | _ => false
  | none => false

/-- `has_type_NAME_v<T>`, function_traits.h 35-50. -/
def hasTypeIn (t : Class τ) : Bool :=
  match found t with
  | some c =>
    match c.own with
    | some (.other isPublic .type) => isPublic && accessibleBase t c
    | _ => false
  | none => false

/-- `has_invocable_r_NAME...<R, T, Args...>`, function_traits.h 189-208: `&T::NAME` has to convert to
`R (T::*)(Args...) c v r n`, for which `T`'s base may be neither ambiguous nor virtual nor inaccessible
([conv.mem] 2).  The access check comes after the choice between overloads. -/
def hasInvocableRIn [DecidableEq τ] (t : Class τ) (target : Fn τ) : Bool :=
  match found t with
  | some c =>
    match c.own with
    | some (.functions l) =>
      match l.filter fun x => !x.2.1 && pointerConvertible x.2.2 target with
      | [x] => x.1 && accessibleBase t c && !ambiguousBase t c && !virtualBase t c
      | _ => false
    | some (.other isPublic m) => isPublic && accessibleBase t c && hasInvocableR m target
    | none => false
  | none => false

/-- `has_static_invocable_r_NAME[_noexcept]<R, T, Args...>`, function_traits.h 258-262 and 275-286. -/
def hasStaticInvocableRIn [DecidableEq τ] (t : Class τ) (target : Fn τ) : Bool :=
  match found t with
  | some c =>
    match c.own with
    | some (.functions l) =>
      match l.filter fun x => x.2.1 && pointerConvertible x.2.2 target with
      | [x] => x.1 && accessibleBase t c
      | _ => false
    | some (.other isPublic m) => isPublic && accessibleBase t c && hasStaticInvocableR m target
    | none => false
  | none => false

/-- `std::declval<T>().NAME(std::declval<Args>()...)`, function_traits.h 215-222, if `NAME` is one
function in the class where it is found: the object has to convert to that class unless the function is
static.  Overloads are not modelled here. -/
def callIn (convert : List τ → List τ → Option Bool) (t : Class τ) (o : Object) : Calls τ := fun args =>
  match found t with
  | some c =>
    match c.own with
    | some (.functions [x]) =>
      if x.1 && accessibleBase t c && (x.2.1 || !ambiguousBase t c) then methodCall convert x.2 o args
      else none
    | _ => none
  | none => none

end Utils.Traits
