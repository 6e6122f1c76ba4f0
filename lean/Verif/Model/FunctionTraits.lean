/-!
# The detection idiom and the function traits

Types are elements of an arbitrary type `τ`; only the structure the traits look at is spelled out.
`none` stands for a program that does not compile (or, inside the detection idiom, for a substitution
failure).  Name lookup and access checks are not modelled, nor is overload resolution of calls except
between methods that differ in their qualifiers; what they deliver is an argument of the model.
-/

namespace Utils.Traits

variable {τ : Type}

/-! ## detector.h -/

/-- `details::detector`, /repo/sources/include/utils/detector.h 18-31: the specialisation (26-31) is
chosen iff `std::void_t<Op<Args...>>` is well-formed.  Result: `value_t` and `type`. -/
def detector (default : τ) (op : List τ → Option τ) (args : List τ) : Bool × τ :=
  match op args with
  | some t => (true, t)
  | none => (false, default)

/-- `is_detected_v`, detector.h 42-47. -/
def isDetected (nonesuch : τ) (op : List τ → Option τ) (args : List τ) : Bool :=
  (detector nonesuch op args).1

/-- `detected_t`, detector.h 49-51. -/
def detectedT (nonesuch : τ) (op : List τ → Option τ) (args : List τ) : τ :=
  (detector nonesuch op args).2

/-- `detected_or_t`, detector.h 53-57. -/
def detectedOrT (default : τ) (op : List τ → Option τ) (args : List τ) : τ :=
  (detector default op args).2

/-- `is_detected_exact_v`, detector.h 59-64. -/
def isDetectedExact [DecidableEq τ] (nonesuch expected : τ) (op : List τ → Option τ)
    (args : List τ) : Bool :=
  expected = detectedT nonesuch op args

/-- `is_detected_convertible_v`, detector.h 66-72; `convertible` is `std::is_convertible_v`. -/
def isDetectedConvertible (convertible : τ → τ → Bool) (nonesuch to : τ) (op : List τ → Option τ)
    (args : List τ) : Bool :=
  convertible (detectedT nonesuch op args) to

/-! ## Function types -/

/-- The reference qualifier of a function type. -/
inductive RefQ
  | none | lvalue | rvalue
  deriving DecidableEq, Repr

/-- The qualifiers of a function type. -/
structure Quals where
  isConst : Bool := false
  isVolatile : Bool := false
  ref : RefQ := .none
  isNoexcept : Bool := false
  deriving DecidableEq, Repr

/-- A function type `R(Args...) c v r n`; with `ellipsis` it is `R(Args..., ...) c v r n`. -/
structure Fn (τ : Type) where
  ret : τ
  params : List τ
  ellipsis : Bool := false
  q : Quals := {}
  deriving DecidableEq, Repr

/-- One row of the macro `QUALIFIERS`: the four macro arguments as source text. -/
structure Row where
  c : String
  v : String
  r : String
  n : String
  deriving DecidableEq, Repr

/-- The table `QUALIFIERS`, /repo/sources/include/utils/function_traits.h 9-33. -/
def rows : List Row := [
  ⟨"", "", "", ""⟩,
  ⟨"const", "", "", ""⟩,
  ⟨"", "volatile", "", ""⟩,
  ⟨"const", "volatile", "", ""⟩,
  ⟨"", "", "&", ""⟩,
  ⟨"const", "", "&", ""⟩,
  ⟨"", "volatile", "&", ""⟩,
  ⟨"const", "volatile", "&", ""⟩,
  ⟨"", "", "&&", ""⟩,
  ⟨"const", "", "&&", ""⟩,
  ⟨"", "volatile", "&&", ""⟩,
  ⟨"const", "volatile", "&&", ""⟩,
  ⟨"", "", "", "noexcept"⟩,
  ⟨"const", "", "", "noexcept"⟩,
  ⟨"", "volatile", "", "noexcept"⟩,
  ⟨"const", "volatile", "", "noexcept"⟩,
  ⟨"", "", "&", "noexcept"⟩,
  ⟨"const", "", "&", "noexcept"⟩,
  ⟨"", "volatile", "&", "noexcept"⟩,
  ⟨"const", "volatile", "&", "noexcept"⟩,
  ⟨"", "", "&&", "noexcept"⟩,
  ⟨"const", "", "&&", "noexcept"⟩,
  ⟨"", "volatile", "&&", "noexcept"⟩,
  ⟨"const", "volatile", "&&", "noexcept"⟩]

/-- How the compiler reads qualifiers behind `R(Args...)`. -/
def readQuals (words : List String) : Quals where
  isConst := words.contains "const"
  isVolatile := words.contains "volatile"
  ref := if words.contains "&" then .lvalue else if words.contains "&&" then .rvalue else .none
  isNoexcept := words.contains "noexcept"

/-- The partial specialisation `Trait<R(Args...) c v r n>` that a function type selects.  None of them
matches a type with an ellipsis. -/
def selectRow (f : Fn τ) : Option Row :=
  if f.ellipsis then none
  else rows.find? fun row => readQuals [row.c, row.v, row.r, row.n] == f.q

/-- `remove_const_qualifier`, function_traits.h 545-555. -/
def removeConst (f : Fn τ) : Option (Fn τ) :=
  (selectRow f).map fun row => ⟨f.ret, f.params, false, readQuals [row.v, row.r, row.n]⟩

/-- `remove_volatile_qualifier`, function_traits.h 557-567. -/
def removeVolatile (f : Fn τ) : Option (Fn τ) :=
  (selectRow f).map fun row => ⟨f.ret, f.params, false, readQuals [row.c, row.r, row.n]⟩

/-- `remove_reference_qualifier`, function_traits.h 569-579. -/
def removeReference (f : Fn τ) : Option (Fn τ) :=
  (selectRow f).map fun row => ⟨f.ret, f.params, false, readQuals [row.c, row.v, row.n]⟩

/-- `remove_noexcept_qualifier`, function_traits.h 581-591. -/
def removeNoexcept (f : Fn τ) : Option (Fn τ) :=
  (selectRow f).map fun row => ⟨f.ret, f.params, false, readQuals [row.c, row.v, row.r]⟩

/-- `remove_all_qualifiers`, function_traits.h 593-606. -/
def removeAll (f : Fn τ) : Option (Fn τ) :=
  (selectRow f).map fun _ => ⟨f.ret, f.params, false, readQuals []⟩

/-- `qualifier_size_v<decltype("...")>`, function_traits.h 389-399: length of the literal plus one. -/
def literalSize (s : String) : Nat := s.length + 1

/-- `details::has_const`, function_traits.h 401-413, of a stringised macro argument. -/
def hasConst (s : String) : Bool := literalSize s == literalSize "const"
/-- `details::has_volatile`, function_traits.h 415-427. -/
def hasVolatile (s : String) : Bool := literalSize s == literalSize "volatile"
/-- `details::has_lvalue_reference`, function_traits.h 429-441. -/
def hasLvalue (s : String) : Bool := literalSize s == literalSize "&"
/-- `details::has_rvalue_reference`, function_traits.h 443-455. -/
def hasRvalue (s : String) : Bool := literalSize s == literalSize "&&"
/-- `details::has_noexcept`, function_traits.h 457-469. -/
def hasNoexcept (s : String) : Bool := literalSize s == literalSize "noexcept"

/-- `has_const_qualifier_v`, function_traits.h 608-621. -/
def hasConstQualifier (f : Fn τ) : Option Bool := (selectRow f).map fun row => hasConst row.c
/-- `has_volatile_qualifier_v`, function_traits.h 623-637. -/
def hasVolatileQualifier (f : Fn τ) : Option Bool := (selectRow f).map fun row => hasVolatile row.v
/-- `has_lvalue_reference_qualifier_v`, function_traits.h 639-653. -/
def hasLvalueQualifier (f : Fn τ) : Option Bool := (selectRow f).map fun row => hasLvalue row.r
/-- `has_rvalue_reference_qualifier_v`, function_traits.h 655-669. -/
def hasRvalueQualifier (f : Fn τ) : Option Bool := (selectRow f).map fun row => hasRvalue row.r
/-- `has_noexcept_qualifier_v`, function_traits.h 671-685. -/
def hasNoexceptQualifier (f : Fn τ) : Option Bool := (selectRow f).map fun row => hasNoexcept row.n

/-- `return_type_t`, function_traits.h 687-700. -/
def returnType (f : Fn τ) : Option τ := (selectRow f).map fun _ => f.ret

/-- `params_list_t`, function_traits.h 702-715. -/
def paramsList (f : Fn τ) : Option (List τ) := (selectRow f).map fun _ => f.params

/-! ## Invocable things -/

/-- What the traits can see of a type. -/
inductive TypeForm (τ : Type)
  /-- a function type -/
  | function (f : Fn τ)
  /-- a pointer (to a function, or with `none` to something else), itself `const`/`volatile` or not -/
  | pointer (pointee : Option (Fn τ)) (cv : Bool)
  /-- a pointer to a member function or (`none`) a data member, itself `const`/`volatile` or not -/
  | memberPointer (member : Option (Fn τ)) (cv : Bool)
  /-- a class with these call operators; `template` says whether one of them is a template -/
  | cls (callOps : List (Fn τ)) (template : Bool)
  /-- a reference -/
  | reference
  /-- anything else: arithmetic types, enumerations, arrays, `void` -/
  | other
  deriving DecidableEq

/-- `decltype(&T::operator())`, function_traits.h 375-376: well-formed iff there is one call operator
and it is no template; its type is a pointer to member of that function type. -/
def callOperatorPointer : TypeForm τ → Option (TypeForm τ)
  | .cls [f] false => some (.memberPointer (some f) false)
  | _ => none

/-- `std::is_function_v`. -/
def isFunction : TypeForm τ → Bool
  | .function _ => true
  | _ => false

/-- `is_simple_functor_v`, function_traits.h 487-491. -/
def isSimpleFunctor (t : TypeForm τ) : Bool := (callOperatorPointer t).isSome

/-- `function_traits::is_invocable_v`, function_traits.h 511-533: the specialisations are for
`U T::*`, `R (*)(Args...)` and `R (*)(Args...) noexcept`. -/
def isInvocable : TypeForm τ → Bool
  | .memberPointer member false => member.isSome
  | .pointer (some ⟨_, _, false, ⟨false, false, .none, _⟩⟩) false => true
  | t => isFunction t || isSimpleFunctor t

/-- `member_signature`, function_traits.h 378-387. -/
def memberSignature : TypeForm τ → Option (Fn τ)
  | .memberPointer (some f) false => some f
  | _ => none

/-- `signature_t`, function_traits.h 471-484 and 535-543. -/
def signature : TypeForm τ → Option (Fn τ)
  | .function f => some f
  | t => (callOperatorPointer t).bind memberSignature

/-! ## Member checkers -/

/-- What a pointer points to: a member (of `T` or a base class) or not, and a function of which type, or
(`none`) an object. -/
structure AddrForm (τ : Type) where
  toMember : Bool
  function : Option (Fn τ)
  deriving DecidableEq

/-- The type of a data member, as far as taking its address is concerned. -/
inductive DataTy (τ : Type)
  | object | refToObject
  | refToFunction (f : Fn τ)
  /-- a class that overloads the unary `&`, or (`ref`) a reference to one; `result` is the type of
  `&x`, `none` if it is no pointer (nor converts to one) or does not compile -/
  | overloadsAddress (ref : Bool) (result : Option (AddrForm τ))
  deriving DecidableEq

/-- What name lookup finds for `T::name` (all members accessible). -/
inductive Member (τ : Type)
  | absent
  | type
  | enumerator
  | data (ty : DataTy τ)
  | bitField
  | staticData (ty : DataTy τ)
  /-- member functions: is it static, and its type -/
  | functions (overloads : List (Bool × Fn τ))
  deriving DecidableEq

/-- `decltype(&T::name)`, if it is a pointer.  There is no pointer to member of reference type and
none to a bit-field, an overloaded name has no type, and `&` of a static member is `&` of the object
or function it is or refers to. -/
def addressOf : Member τ → Option (AddrForm τ)
  | .data .object => some ⟨true, none⟩
  | .data (.overloadsAddress false _) => some ⟨true, none⟩
  | .staticData .object => some ⟨false, none⟩
  | .staticData .refToObject => some ⟨false, none⟩
  | .staticData (.refToFunction f) => some ⟨false, some f⟩
  | .staticData (.overloadsAddress _ result) => result
  | .functions [(true, f)] => some ⟨false, some f⟩
  | .functions [(false, f)] => some ⟨true, some f⟩
  | _ => none

/-- `has_data_NAME_v`, function_traits.h 74-103, with `is_member_data_pointer`, 361-369. -/
def hasData (m : Member τ) : Bool :=
  match addressOf m with
  | some a => a.toMember && a.function.isNone
  | none => false

/-- `has_static_data_NAME_v`, function_traits.h 105-135, with `is_data_pointer`, 351-359. -/
def hasStaticData (m : Member τ) : Bool :=
  match addressOf m with
  | some a => !a.toMember && a.function.isNone
  | none => false

/-- A function of type `f` may initialise a pointer to function of type `target`: the types are equal,
or differ only in that `f` is `noexcept` and `target` is not (standard conversion; the same rule picks
from an overload set). -/
def pointerConvertible [DecidableEq τ] (f target : Fn τ) : Bool :=
  f = target || (f.q.isNoexcept && decide ({ f with q := { f.q with isNoexcept := false } } = target))

/-- `has_invocable_r_NAME...`, function_traits.h 189-208, for one row of `SYMBOLIZED_QUALIFIERS`,
137-165: is `method_pointer...<R, T, Args...>{&T::name}` well-formed?  `target` is
`R(Args...) c v r n`.  The braces take one of several overloads, or any other expression `&T::name`
whose type is a pointer that converts. -/
def hasInvocableR [DecidableEq τ] (m : Member τ) (target : Fn τ) : Bool :=
  match m with
  | .functions l => (l.filter fun x => !x.1 && pointerConvertible x.2 target).length == 1
  | m =>
    match addressOf m with
    | some ⟨true, some f⟩ => pointerConvertible f target
    | _ => false

/-- `has_static_invocable_r_NAME[_noexcept]`, function_traits.h 258-262 and 275-286. -/
def hasStaticInvocableR [DecidableEq τ] (m : Member τ) (target : Fn τ) : Bool :=
  match m with
  | .functions l => (l.filter fun x => x.1 && pointerConvertible x.2 target).length == 1
  | m =>
    match addressOf m with
    | some ⟨false, some f⟩ => pointerConvertible f target
    | _ => false

/-! ## Member type checkers -/

/-- `details::has_type_NAME_helper`, function_traits.h 39: `typename T::NAME`; `memberType` is what the
name denotes inside a type, if it denotes a type. -/
def memberTypeOp (memberType : τ → Option τ) : List τ → Option τ
  | [t] => memberType t
  | _ => none

/-- `has_type_NAME_v`, function_traits.h 42-50. -/
def hasType (nonesuch : τ) (memberType : τ → Option τ) (t : τ) : Bool :=
  isDetected nonesuch (memberTypeOp memberType) [t]

/-- `has_exact_type_NAME_v`, function_traits.h 52-61. -/
def hasExactType [DecidableEq τ] (nonesuch : τ) (memberType : τ → Option τ) (t expected : τ) : Bool :=
  isDetectedExact nonesuch expected (memberTypeOp memberType) [t]

/-- `has_convertible_type_NAME_v`, function_traits.h 63-72. -/
def hasConvertibleType (convertible : τ → τ → Bool) (nonesuch : τ) (memberType : τ → Option τ)
    (t to : τ) : Bool :=
  isDetectedConvertible convertible nonesuch to (memberTypeOp memberType) [t]

/-! ## Checkers by call -/

/-- What `decltype(NAME(std::declval<Args>()...))` and `noexcept(NAME(...))` give; `none` if the call
does not compile. -/
abbrev Calls (τ : Type) := List τ → Option (τ × Bool)

/-- `static_method_result_NAME[_noexcept]_t`, function_traits.h 251-256: `call` is what
`T::NAME(std::declval<Args>()...)` gives, `isTrue` and `isFalse` are `std::true_type` and
`std::false_type`.  Both arms of `std::conditional_t` have to be well-formed. -/
def staticResult (isTrue isFalse : τ) (n : String) (call : Calls τ) (args : List τ) : Option τ :=
  (call args).map fun r => if hasNoexcept n then (if r.2 then isTrue else isFalse) else isTrue

/-- `has_static_invocable_NAME[_noexcept]_v`, function_traits.h 264-273. -/
def hasStaticInvocable (convertible : τ → τ → Bool) (nonesuch isTrue isFalse : τ) (n : String)
    (call : Calls τ) (args : List τ) : Bool :=
  isDetectedConvertible convertible nonesuch isTrue (staticResult isTrue isFalse n call) args

/-- `NAME_return_t`, function_traits.h 294-296. -/
def returnT (call : Calls τ) (args : List τ) : Option τ := (call args).map (·.1)

/-- `NAME_noexcept_return_t`, function_traits.h 298-301 (`std::enable_if_t`). -/
def noexceptReturnT (call : Calls τ) (args : List τ) : Option τ :=
  match call args with
  | some (r, true) => some r
  | _ => none

/-- `is_NAME_invocable_v`, function_traits.h 304-312. -/
def isCallable (nonesuch : τ) (call : Calls τ) (args : List τ) : Bool :=
  isDetected nonesuch (returnT call) args

/-- `is_NAME_noexcept_invocable_v`, function_traits.h 314-323. -/
def isNoexceptCallable (nonesuch : τ) (call : Calls τ) (args : List τ) : Bool :=
  isDetected nonesuch (noexceptReturnT call) args

/-- `is_NAME_invocable_r_v`, function_traits.h 325-334. -/
def isCallableR [DecidableEq τ] (nonesuch r : τ) (call : Calls τ) (args : List τ) : Bool :=
  isDetectedExact nonesuch r (returnT call) args

/-- `is_NAME_noexcept_invocable_r_v`, function_traits.h 336-345. -/
def isNoexceptCallableR [DecidableEq τ] (nonesuch r : τ) (call : Calls τ) (args : List τ) : Bool :=
  isDetectedExact nonesuch r (noexceptReturnT call) args

/-! ## Method checkers by call -/

/-- What `std::declval<T>()` is an expression of: a class, possibly `const`/`volatile`; an lvalue iff
`T` is an lvalue reference. -/
structure Object where
  isConst : Bool := false
  isVolatile : Bool := false
  lvalue : Bool := false
  deriving DecidableEq

/-- May a method qualified `q` be called on the object?  [over.match.funcs]: the object may not lose
`const` or `volatile`; a method without reference qualifier takes lvalues and rvalues, one with `&&`
rvalues, one with `&` lvalues and, if it is `const` and not `volatile`, rvalues too. -/
def accepts (q : Quals) (o : Object) : Bool :=
  (!o.isConst || q.isConst) && (!o.isVolatile || q.isVolatile) &&
    match q.ref with
    | .none => true
    | .lvalue => o.lvalue || (q.isConst && !q.isVolatile)
    | .rvalue => !o.lvalue

/-- The type and the `noexcept` of `std::declval<T>().NAME(std::declval<Args>()...)`, for a `T` whose
member `NAME` is one function, no template.  `convert` says which argument lists its parameters can be
initialised from, and whether that is `noexcept`.  Results whose destructor may throw are not
modelled. -/
def methodCall (convert : List τ → List τ → Option Bool) (m : Bool × Fn τ) (o : Object) : Calls τ :=
  fun args =>
    if m.1 || accepts m.2.q o then
      (convert args m.2.params).map fun nothrow => (m.2.ret, m.2.q.isNoexcept && nothrow)
    else none

/-- Is `f` the better match for the object, of two methods that accept it?  [over.ics.rank] 3.2.3 and
3.2.6 for the implicit object parameter: `&&` is better than `&` (if both accept the object it is an
rvalue); otherwise the one that adds less `const` and `volatile`. -/
def betterObject (f g : Quals) : Bool :=
  if f.ref = .rvalue && g.ref = .lvalue then true
  else if f.ref = .lvalue && g.ref = .rvalue then false
  else (!f.isConst || g.isConst) && (!f.isVolatile || g.isVolatile) &&
    (f.isConst != g.isConst || f.isVolatile != g.isVolatile)

/-- `std::declval<T>().NAME(std::declval<Args>()...)` for a `T` whose members `NAME` are the methods
`l`, no templates, called with exactly the parameter types of some of them: the one that is better
than all others that can be called. Conversions of arguments are not modelled here. -/
def overloadedCall [DecidableEq τ] (l : List (Fn τ)) (o : Object) : Calls τ := fun args =>
  let viable := l.filter fun f => f.params = args && accepts f.q o
  match viable.filter fun f => viable.all fun g => g = f || betterObject f.q g.q with
  | [f] => some (f.ret, f.q.isNoexcept)
  | _ => none

/-- `has_invocable_NAME_v`, function_traits.h 215-217 and 225-234; `call` is what
`std::declval<T>().NAME(std::declval<Args>()...)` gives. -/
def hasInvocable (nonesuch : τ) (call : Calls τ) (args : List τ) : Bool :=
  isDetected nonesuch (returnT call) args

/-- `has_invocable_NAME_noexcept_v`, function_traits.h 219-222 and 236-246; `boolConstant` is
`std::bool_constant`. -/
def hasInvocableNoexcept [DecidableEq τ] (nonesuch : τ) (boolConstant : Bool → τ) (call : Calls τ)
    (args : List τ) : Bool :=
  isDetectedExact nonesuch (boolConstant true) (fun args => (call args).map fun r => boolConstant r.2) args

end Utils.Traits
