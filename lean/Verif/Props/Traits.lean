import Verif.Model.FunctionTraits

/-! # Properties C33, C67, C71-C75, C77, C78, C115: detection idiom and function traits -/

namespace Utils.Props

open Utils.Traits

variable {τ : Type}

/-! ## C33 -/

/-- For every function type without an ellipsis, each `has_X_qualifier` reports exactly its
qualifier. -/
theorem C33_has (f : Fn τ) (h : f.ellipsis = false) :
    hasConstQualifier f = some f.q.isConst ∧
    hasVolatileQualifier f = some f.q.isVolatile ∧
    hasLvalueQualifier f = some (f.q.ref == .lvalue) ∧
    hasRvalueQualifier f = some (f.q.ref == .rvalue) ∧
    hasNoexceptQualifier f = some f.q.isNoexcept := by
  obtain ⟨ret, params, e, ⟨c, v, r, n⟩⟩ := f
  cases h
  cases c <;> cases v <;> cases r <;> cases n <;> exact ⟨rfl, rfl, rfl, rfl, rfl⟩

/-- Each `remove_X_qualifier` clears exactly its qualifier and changes nothing else. -/
theorem C33_remove (f : Fn τ) (h : f.ellipsis = false) :
    removeConst f = some { f with q.isConst := false } ∧
    removeVolatile f = some { f with q.isVolatile := false } ∧
    removeReference f = some { f with q.ref := .none } ∧
    removeNoexcept f = some { f with q.isNoexcept := false } ∧
    removeAll f = some { f with q := ⟨false, false, .none, false⟩ } := by
  obtain ⟨ret, params, e, ⟨c, v, r, n⟩⟩ := f
  cases h
  cases c <;> cases v <;> cases r <;> cases n <;> exact ⟨rfl, rfl, rfl, rfl, rfl⟩

/-- Return type and parameters are reported unchanged, whatever the qualifiers. -/
theorem C33_signature (f : Fn τ) (h : f.ellipsis = false) :
    returnType f = some f.ret ∧ paramsList f = some f.params := by
  obtain ⟨ret, params, e, ⟨c, v, r, n⟩⟩ := f
  cases h
  cases c <;> cases v <;> cases r <;> cases n <;> exact ⟨rfl, rfl⟩

/-- Function types with an ellipsis are rejected by all of them. -/
theorem C33_ellipsis (f : Fn τ) (h : f.ellipsis = true) :
    (hasConstQualifier f = none ∧ hasVolatileQualifier f = none ∧ hasLvalueQualifier f = none ∧
      hasRvalueQualifier f = none ∧ hasNoexceptQualifier f = none) ∧
    (removeConst f = none ∧ removeVolatile f = none ∧ removeReference f = none ∧
      removeNoexcept f = none ∧ removeAll f = none) ∧
    returnType f = none ∧ paramsList f = none := by
  obtain ⟨ret, params, e, q⟩ := f
  cases h
  exact ⟨⟨rfl, rfl, rfl, rfl, rfl⟩, ⟨rfl, rfl, rfl, rfl, rfl⟩, rfl, rfl⟩

/-- `int(char, long) volatile && noexcept`, with the types named by strings. -/
def exFn : Fn String := ⟨"int", ["char", "long"], false, ⟨false, true, .rvalue, true⟩⟩

example : hasVolatileQualifier exFn = some true ∧ hasConstQualifier exFn = some false ∧
    removeVolatile exFn = some ⟨"int", ["char", "long"], false, ⟨false, false, .rvalue, true⟩⟩ ∧
    paramsList exFn = some ["char", "long"] := by decide

/-! ## C67 -/

/-- `is_detected_v` is true iff `Op<Args...>` is well-formed; `detected_or_t` is `Op<Args...>` if it
is, and the default otherwise. -/
theorem C67_detected (nonesuch default : τ) (op : List τ → Option τ) (args : List τ) :
    (isDetected nonesuch op args = true ↔ ∃ t, op args = some t) ∧
    (∀ t, op args = some t → detectedOrT default op args = t ∧ detectedT nonesuch op args = t) ∧
    (op args = none → detectedOrT default op args = default ∧
      detectedT nonesuch op args = nonesuch) := by
  unfold isDetected detectedOrT detectedT detector
  cases op args <;> simp

/-- `is_detected_exact_v<E, ...>` is true iff `Op<Args...>` is well-formed and is `E`, for every `E`
other than `nonesuch`. Missing from C67: `E = nonesuch`. -/
theorem C67_exact_partial [DecidableEq τ] (nonesuch expected : τ) (op : List τ → Option τ)
    (args : List τ) (h : expected ≠ nonesuch) :
    isDetectedExact nonesuch expected op args = true ↔ op args = some expected := by
  unfold isDetectedExact detectedT detector
  cases op args with
  | none => simp [h]
  | some t => simp [eq_comm]

/-- An `Op` for the examples: the member type of `"vector"`, nothing else has one. -/
def exOp : List String → Option String
  | ["vector"] => some "int"
  | _ => none

example : isDetected "nonesuch" exOp ["vector"] = true ∧ isDetected "nonesuch" exOp ["int"] = false ∧
    detectedOrT "void" exOp ["int"] = "void" ∧
    isDetectedExact "nonesuch" "int" exOp ["vector"] = true := by decide

/-- C67 is false for `nonesuch`: it is "detected exactly" when nothing is detected. -/
theorem C67_counterexample : exOp ["int"] = none ∧
    isDetectedExact "nonesuch" "nonesuch" exOp ["int"] = true := by decide

/-- `is_detected_convertible_v<To, ...>` agrees with "well-formed and convertible to `To`" exactly if
`nonesuch` itself does not convert to `To` or something is detected. -/
theorem C67_convertible (convertible : τ → τ → Bool) (nonesuch to : τ) (op : List τ → Option τ)
    (args : List τ) :
    (isDetectedConvertible convertible nonesuch to op args = true ↔
      ∃ t, op args = some t ∧ convertible t to = true) ↔
    (convertible nonesuch to = false ∨ ∃ t, op args = some t) := by
  unfold isDetectedConvertible detectedT detector
  cases op args <;> simp

/-- A target constructible from anything (like `std::any`) is reported although nothing is
detected. -/
example : isDetectedConvertible (fun _ to => to == "any") "nonesuch" "any" exOp ["int"] = true := by
  decide

/-! ## C71 -/

/-- What is meant by "can be called": a function, a pointer to one, a pointer to a member function, a
class with a call operator. -/
def Callable : TypeForm τ → Prop
  | .function _ => True
  | .pointer pointee _ => pointee ≠ none
  | .memberPointer member _ => member ≠ none
  | .cls ops template => ops ≠ [] ∨ template = true
  | .reference => False
  | .other => False

/-- `function_traits::is_invocable_v` is never true of something that cannot be called. -/
theorem C71_sound {t : TypeForm τ} (h : isInvocable t = true) : Callable t := by
  unfold isInvocable at h
  split at h
  · unfold Callable; cases ‹Option (Fn τ)› <;> simp_all
  · exact (by simp [Callable])
  · cases t with
    | function f => trivial
    | pointer p cv => simp [isFunction, isSimpleFunctor, callOperatorPointer] at h
    | memberPointer m cv => simp [isFunction, isSimpleFunctor, callOperatorPointer] at h
    | cls ops template =>
      match ops, template with
      | [], false => simp [isFunction, isSimpleFunctor, callOperatorPointer] at h
      | [], true => simp [Callable]
      | _ :: _, _ => simp [Callable]
    | reference => simp [isFunction, isSimpleFunctor, callOperatorPointer] at h
    | other => simp [isFunction, isSimpleFunctor, callOperatorPointer] at h

/-- It is true of every function type, of every pointer (not itself `const`) to a function without an
ellipsis, of every pointer (not itself `const`) to member function, and of every class with exactly
one call operator that is no template. Missing from C71: the other callable types. -/
theorem C71_complete_partial :
    (∀ f : Fn τ, isInvocable (.function f) = true) ∧
    (∀ (ret : τ) (params : List τ) (n : Bool),
      isInvocable (.pointer (some ⟨ret, params, false, ⟨false, false, .none, n⟩⟩) false) = true) ∧
    (∀ f : Fn τ, isInvocable (.memberPointer (some f) false) = true) ∧
    (∀ f : Fn τ, isInvocable (.cls [f] false) = true) :=
  ⟨fun _ => rfl, fun _ _ _ => rfl, fun _ => rfl, fun _ => rfl⟩

/-- C71 is false of: a pointer to a C-variadic function (such as `printf`), a `const` pointer to
function, a `const` pointer to member function, a class with two call operators, a generic lambda. -/
theorem C71_counterexample :
    (Callable (.pointer (some ⟨"int", ["const char*"], true, {}⟩) false) ∧
      isInvocable (.pointer (some ⟨"int", ["const char*"], true, {}⟩) false) = false) ∧
    (Callable (.pointer (some ⟨"int", [], false, {}⟩) true) ∧
      isInvocable (.pointer (some (⟨"int", [], false, {}⟩ : Fn String)) true) = false) ∧
    (Callable (.memberPointer (some exFn) true) ∧ isInvocable (.memberPointer (some exFn) true) = false) ∧
    (Callable (.cls [exFn, ⟨"int", [], false, {}⟩] false) ∧
      isInvocable (.cls [exFn, ⟨"int", [], false, {}⟩] false) = false) ∧
    (Callable (.cls [exFn] true) ∧ isInvocable (.cls [exFn] true) = false) := by
  simp [Callable, isInvocable, isFunction, isSimpleFunctor, callOperatorPointer]

/-! ## C72 -/

/-- For a function type, and for a class with one call operator (a lambda), `signature_t` is the type
of the function, qualifiers included, and `return_type_t` and `params_list_t` of it are the return
and parameter types. -/
theorem C72_signature (f : Fn τ) (h : f.ellipsis = false) {t : TypeForm τ}
    (ht : t = .function f ∨ t = .cls [f] false) :
    signature t = some f ∧ (signature t).bind returnType = some f.ret ∧
    (signature t).bind paramsList = some f.params ∧
    (signature t).bind removeAll = some ⟨f.ret, f.params, false, {}⟩ := by
  have hs : signature t = some f := by
    rcases ht with rfl | rfl <;> rfl
  rw [hs]
  obtain ⟨h1, h2⟩ := C33_signature f h
  obtain ⟨-, -, -, -, h3⟩ := C33_remove f h
  refine ⟨rfl, h1, h2, ?_⟩
  show removeAll f = _
  rw [h3]
  obtain ⟨ret, params, e, q⟩ := f
  cases h
  rfl

example : signature (.cls [exFn] false) = some exFn := rfl

/-- Everything else has no signature: in particular pointers to functions, which `is_invocable_v`
accepts. -/
theorem C72_rejects (t : TypeForm τ) :
    signature t = none ↔ (∀ f, t ≠ .function f) ∧ (∀ f, t ≠ .cls [f] false) := by
  constructor
  · intro h
    refine ⟨fun f e => ?_, fun f e => ?_⟩ <;> (subst e; cases h)
  · rintro ⟨h1, h2⟩
    cases t with
    | function f => exact absurd rfl (h1 f)
    | cls ops template =>
      match ops, template, h2 with
      | [], _, _ => rfl
      | [f], false, h2 => exact absurd rfl (h2 f)
      | [_], true, _ => rfl
      | _ :: _ :: _, _, _ => rfl
    | pointer _ _ => rfl
    | memberPointer _ _ => rfl
    | reference => rfl
    | other => rfl

/-! ## C73 -/

/-- `has_data_NAME_v` is true exactly of the non-static data members that are neither references nor
bit-fields, and of static ones whose class overloads `&` to give a pointer to a data member.  Missing
from C73: references, bit-fields and that overload. -/
theorem C73_data_partial (m : Member τ) :
    hasData m = true ↔
      m = .data .object ∨ (∃ result, m = .data (.overloadsAddress false result)) ∨
      ∃ ref, m = .staticData (.overloadsAddress ref (some ⟨true, none⟩)) := by
  cases m with
  | data ty =>
    cases ty with
    | overloadsAddress ref result => cases ref <;> simp [hasData, addressOf]
    | _ => simp [hasData, addressOf]
  | staticData ty =>
    cases ty with
    | overloadsAddress ref result =>
      match result with
      | none => simp [hasData, addressOf]
      | some ⟨a, b⟩ => cases a <;> cases b <;> simp [hasData, addressOf]
    | _ => simp [hasData, addressOf]
  | functions l =>
    match l with
    | [] => simp [hasData, addressOf]
    | [(true, _)] => simp [hasData, addressOf]
    | [(false, _)] => simp [hasData, addressOf]
    | _ :: _ :: _ => simp [hasData, addressOf]
  | _ => simp [hasData, addressOf]

/-- C73 is false: a data member of reference type and a bit-field are not reported, and a static
member whose class overloads `&` to give a pointer to a data member is reported as non-static. -/
theorem C73_counterexample_data :
    hasData (.data .refToObject : Member τ) = false ∧ hasData (.bitField : Member τ) = false ∧
    hasData (.staticData (.overloadsAddress false (some ⟨true, none⟩)) : Member τ) = true :=
  ⟨rfl, rfl, rfl⟩

/-- `has_static_data_NAME_v` is true exactly of the static data members other than references to
functions, if their class does not overload `&`; if it does, of those for which `&` still gives a
pointer to an object. -/
theorem C73_static_data_partial (m : Member τ) :
    hasStaticData m = true ↔ ∃ ty, m = .staticData ty ∧ (∀ f, ty ≠ .refToFunction f) ∧
      ∀ ref result, ty = .overloadsAddress ref result → result = some ⟨false, none⟩ := by
  cases m with
  | data ty =>
    cases ty with
    | overloadsAddress ref result => cases ref <;> simp [hasStaticData, addressOf]
    | _ => simp [hasStaticData, addressOf]
  | staticData ty =>
    cases ty with
    | overloadsAddress ref result =>
      match result with
      | none => simp [hasStaticData, addressOf]
      | some ⟨a, b⟩ => cases a <;> cases b <;> simp [hasStaticData, addressOf]
    | _ => simp [hasStaticData, addressOf]
  | functions l =>
    match l with
    | [] => simp [hasStaticData, addressOf]
    | [(true, _)] => simp [hasStaticData, addressOf]
    | [(false, _)] => simp [hasStaticData, addressOf]
    | _ :: _ :: _ => simp [hasStaticData, addressOf]
  | _ => simp [hasStaticData, addressOf]

/-- C73 is false: a static reference to a function is not reported, nor is a static object whose `&`
is deleted. -/
theorem C73_counterexample_static (f : Fn τ) :
    hasStaticData (.staticData (.refToFunction f) : Member τ) = false ∧
    hasStaticData (.staticData (.overloadsAddress false none) : Member τ) = false := ⟨rfl, rfl⟩

/-- Member functions, types and enumerators are never reported as data. -/
theorem C73_functions (l : List (Bool × Fn τ)) :
    hasData (.functions l) = false ∧ hasStaticData (.functions l) = false := by
  match l with
  | [] => exact ⟨rfl, rfl⟩
  | [(true, _)] => exact ⟨rfl, rfl⟩
  | [(false, _)] => exact ⟨rfl, rfl⟩
  | _ :: _ :: _ => simp [hasData, hasStaticData, addressOf]

/-! ## C74 -/

/-- The overloads of a class: no two can be told apart by return type and `noexcept` only. -/
def WellFormed (l : List (Bool × Fn τ)) : Prop :=
  l.Pairwise fun x y => ¬ (x.1 = y.1 ∧ x.2.params = y.2.params ∧ x.2.ellipsis = y.2.ellipsis ∧
    x.2.q.isConst = y.2.q.isConst ∧ x.2.q.isVolatile = y.2.q.isVolatile ∧ x.2.q.ref = y.2.q.ref)

/-- A function type as good as the target: the same, except that it may promise more (`noexcept`). -/
def Fits (f target : Fn τ) : Prop :=
  f.ret = target.ret ∧ f.params = target.params ∧ f.ellipsis = target.ellipsis ∧
  f.q.isConst = target.q.isConst ∧ f.q.isVolatile = target.q.isVolatile ∧ f.q.ref = target.q.ref ∧
  (target.q.isNoexcept = true → f.q.isNoexcept = true)

theorem pointerConvertible_iff [DecidableEq τ] (f target : Fn τ) :
    pointerConvertible f target = true ↔ Fits f target := by
  obtain ⟨r, p, e, ⟨c, v, rf, n⟩⟩ := f
  obtain ⟨r', p', e', ⟨c', v', rf', n'⟩⟩ := target
  unfold pointerConvertible Fits
  simp only [Bool.or_eq_true, decide_eq_true_eq, Fn.mk.injEq, Quals.mk.injEq, Bool.and_eq_true]
  cases n <;> cases n' <;> simp

theorem filter_length_one {α : Type} {R : α → α → Prop} {P : α → Bool} : ∀ {l : List α},
    l.Pairwise R → (∀ x ∈ l, ∀ y ∈ l, P x = true → P y = true → ¬ R x y) →
    ((l.filter P).length = 1 ↔ ∃ x ∈ l, P x = true)
  | [], _, _ => by simp
  | x :: l, hp, hr => by
    rw [List.pairwise_cons] at hp
    by_cases hx : P x = true
    · rw [List.filter_cons_of_pos hx]
      have : l.filter P = [] := by
        rw [List.filter_eq_nil_iff]
        intro y hy hPy
        exact hr x (by simp) y (by simp [hy]) hx hPy (hp.1 y hy)
      rw [this]
      simp [hx]
    · rw [List.filter_cons_of_neg hx,
        filter_length_one hp.2 fun a ha b hb => hr a (by simp [ha]) b (by simp [hb])]
      simp [hx]

/-- `has_invocable_r_NAME...<R, T, Args...>` is true iff the class has a non-static member function
with exactly that return type, parameters and qualifiers (a `noexcept` one also answers the question
without `noexcept`). -/
theorem C74_method [DecidableEq τ] {l : List (Bool × Fn τ)} (h : WellFormed l) (target : Fn τ) :
    hasInvocableR (.functions l) target = true ↔ ∃ f, (false, f) ∈ l ∧ Fits f target := by
  unfold hasInvocableR
  simp only [beq_iff_eq]
  rw [filter_length_one h]
  · simp [pointerConvertible_iff]
  · rintro ⟨s, f⟩ - ⟨s', f'⟩ - h1 h2 h3
    simp only [Bool.and_eq_true, Bool.not_eq_true', pointerConvertible_iff] at h1 h2
    obtain ⟨rfl, -, a1, a2, a3, a4, a5, -⟩ := h1
    obtain ⟨rfl, -, b1, b2, b3, b4, b5, -⟩ := h2
    exact h3 ⟨rfl, a1.trans b1.symm, a2.trans b2.symm, a3.trans b3.symm, a4.trans b4.symm,
      a5.trans b5.symm⟩

/-- `has_static_invocable_r_NAME[_noexcept]`: the same for static member functions. -/
theorem C74_static_method [DecidableEq τ] {l : List (Bool × Fn τ)} (h : WellFormed l)
    (target : Fn τ) :
    hasStaticInvocableR (.functions l) target = true ↔ ∃ f, (true, f) ∈ l ∧ Fits f target := by
  unfold hasStaticInvocableR
  simp only [beq_iff_eq]
  rw [filter_length_one h]
  · simp [pointerConvertible_iff]
  · rintro ⟨s, f⟩ - ⟨s', f'⟩ - h1 h2 h3
    simp only [Bool.and_eq_true, pointerConvertible_iff] at h1 h2
    obtain ⟨rfl, -, a1, a2, a3, a4, a5, -⟩ := h1
    obtain ⟨rfl, -, b1, b2, b3, b4, b5, -⟩ := h2
    exact h3 ⟨rfl, a1.trans b1.symm, a2.trans b2.symm, a3.trans b3.symm, a4.trans b4.symm,
      a5.trans b5.symm⟩

/-- Two overloads, `int f(char, long) volatile && noexcept` and `int f()`. -/
def exOverloads : List (Bool × Fn String) := [(false, exFn), (false, ⟨"int", [], false, {}⟩)]

example : WellFormed exOverloads ∧ hasInvocableR (.functions exOverloads) exFn = true ∧
    hasInvocableR (.functions exOverloads) { exFn with q.isNoexcept := false } = true ∧
    hasInvocableR (.functions exOverloads) { exFn with q.isVolatile := false } = false := by
  refine ⟨?_, by decide, by decide, by decide⟩
  unfold WellFormed; decide

/-! ## C118 -/

/-- If the name denotes no functions, `has_invocable_r_NAME...` is true exactly of a static data member
whose class overloads `&` to give a pointer to a member function that fits.  Missing from C118: that
overload. -/
theorem C118_method_partial [DecidableEq τ] {m : Member τ} (hm : ∀ l, m ≠ .functions l)
    (target : Fn τ) :
    hasInvocableR m target = true ↔
      ∃ ref f, m = .staticData (.overloadsAddress ref (some ⟨true, some f⟩)) ∧ Fits f target := by
  cases m with
  | functions l => exact absurd rfl (hm l)
  | data ty =>
    cases ty with
    | overloadsAddress ref result => cases ref <;> simp [hasInvocableR, addressOf]
    | _ => simp [hasInvocableR, addressOf]
  | staticData ty =>
    cases ty with
    | overloadsAddress ref result =>
      match result with
      | none => simp [hasInvocableR, addressOf]
      | some ⟨true, none⟩ => simp [hasInvocableR, addressOf]
      | some ⟨false, _⟩ => simp [hasInvocableR, addressOf]
      | some ⟨true, some f⟩ =>
        rw [show hasInvocableR (.staticData (.overloadsAddress ref (some ⟨true, some f⟩))) target =
          pointerConvertible f target from rfl, pointerConvertible_iff]
        exact ⟨fun h => ⟨ref, f, rfl, h⟩, by rintro ⟨_, _, h, h2⟩; cases h; exact h2⟩
    | _ => simp [hasInvocableR, addressOf]
  | _ => simp [hasInvocableR, addressOf]

/-- Likewise `has_static_invocable_r_NAME[_noexcept]`: true exactly of a static reference to a function
that fits, and of a static data member whose class overloads `&` to give a pointer to such a function.
Missing from C118: these two. -/
theorem C118_static_partial [DecidableEq τ] {m : Member τ} (hm : ∀ l, m ≠ .functions l)
    (target : Fn τ) :
    hasStaticInvocableR m target = true ↔
      ∃ f, Fits f target ∧ (m = .staticData (.refToFunction f) ∨
        ∃ ref, m = .staticData (.overloadsAddress ref (some ⟨false, some f⟩))) := by
  cases m with
  | functions l => exact absurd rfl (hm l)
  | data ty =>
    cases ty with
    | overloadsAddress ref result => cases ref <;> simp [hasStaticInvocableR, addressOf]
    | _ => simp [hasStaticInvocableR, addressOf]
  | staticData ty =>
    cases ty with
    | refToFunction f => simp [hasStaticInvocableR, addressOf, pointerConvertible_iff]
    | overloadsAddress ref result =>
      match result with
      | none => simp [hasStaticInvocableR, addressOf]
      | some ⟨false, none⟩ => simp [hasStaticInvocableR, addressOf]
      | some ⟨true, _⟩ => simp [hasStaticInvocableR, addressOf]
      | some ⟨false, some f⟩ => simp [hasStaticInvocableR, addressOf, pointerConvertible_iff]
    | _ => simp [hasStaticInvocableR, addressOf]
  | _ => simp [hasStaticInvocableR, addressOf]

/-- Where C118 holds: the name denotes nothing, a type, an enumerator, a bit-field, a non-static data
member of any type, or a static one that is no reference to a function and whose class leaves `&`
alone. -/
theorem C118_silent_partial [DecidableEq τ] {m : Member τ} (hm : ∀ l, m ≠ .functions l)
    (hr : ∀ f, m ≠ .staticData (.refToFunction f))
    (ho : ∀ ref result, m ≠ .staticData (.overloadsAddress ref result)) (target : Fn τ) :
    hasInvocableR m target = false ∧ hasStaticInvocableR m target = false := by
  constructor <;> refine Bool.eq_false_iff.2 fun h => ?_
  · obtain ⟨ref, f, h, _⟩ := (C118_method_partial hm target).1 h
    exact ho _ _ h
  · obtain ⟨f, _, h | ⟨ref, h⟩⟩ := (C118_static_partial hm target).1 h
    · exact hr _ h
    · exact ho _ _ h

example : hasInvocableR (.data (.refToFunction ⟨"int", [], false, {}⟩)) (⟨"int", [], false, {}⟩ : Fn String)
    = false :=
  (C118_silent_partial (by intro l h; cases h) (by intro f h; cases h) (by intro r x h; cases h) _).1

/-- C118 is false: `static int (&name)(char);` passes for a static member function
`static int name(char)`, and so does an object whose `&` gives a pointer to such a function; an object
whose `&` gives a pointer to a member function passes for one. -/
theorem C118_counterexample :
    let f : Fn String := ⟨"int", ["char"], false, {}⟩
    hasStaticInvocableR (.staticData (.refToFunction f)) f = true ∧
    hasStaticInvocableR (.staticData (.overloadsAddress false (some ⟨false, some f⟩))) f = true ∧
    hasInvocableR (.staticData (.overloadsAddress false (some ⟨true, some f⟩))) f = true := by
  decide

/-! ## C75 -/

/-- `is_NAME_invocable_v<Args...>` is true iff the call compiles, the `noexcept` version iff it
compiles and is `noexcept`. -/
theorem C75_callable (nonesuch : τ) (call : Calls τ) (args : List τ) :
    (isCallable nonesuch call args = true ↔ ∃ r n, call args = some (r, n)) ∧
    (isNoexceptCallable nonesuch call args = true ↔ ∃ r, call args = some (r, true)) := by
  unfold isCallable isNoexceptCallable isDetected detector returnT noexceptReturnT
  match h : call args with
  | none => simp
  | some (r, true) => simp
  | some (r, false) => simp

/-- `is_NAME_invocable_r_v<R, Args...>` is true iff the call compiles and returns exactly `R`, for
every `R` other than `nonesuch`. Missing from C75: `R = nonesuch`. -/
theorem C75_callable_r_partial [DecidableEq τ] (nonesuch r : τ) (call : Calls τ) (args : List τ)
    (hr : r ≠ nonesuch) :
    (isCallableR nonesuch r call args = true ↔ ∃ n, call args = some (r, n)) ∧
    (isNoexceptCallableR nonesuch r call args = true ↔ call args = some (r, true)) := by
  unfold isCallableR isNoexceptCallableR
  rw [C67_exact_partial _ _ _ _ hr, C67_exact_partial _ _ _ _ hr]
  unfold returnT noexceptReturnT
  match h : call args with
  | none => simp
  | some (r', true) => simp
  | some (r', false) => simp

/-- `has_static_invocable_NAME_v` is true iff the static call compiles, the `noexcept` version iff it
is also `noexcept`; `std::false_type` and `nonesuch` do not convert to `std::true_type`. -/
theorem C75_static (convertible : τ → τ → Bool) (nonesuch isTrue isFalse : τ) (call : Calls τ)
    (args : List τ) (h1 : convertible isTrue isTrue = true) (h2 : convertible isFalse isTrue = false)
    (h3 : convertible nonesuch isTrue = false) :
    (hasStaticInvocable convertible nonesuch isTrue isFalse "" call args = true ↔
      ∃ r n, call args = some (r, n)) ∧
    (hasStaticInvocable convertible nonesuch isTrue isFalse "noexcept" call args = true ↔
      ∃ r, call args = some (r, true)) := by
  have e1 : hasNoexcept "" = false := by decide
  have e2 : hasNoexcept "noexcept" = true := by decide
  unfold hasStaticInvocable isDetectedConvertible detectedT detector staticResult
  match h : call args with
  | none => simp [h3]
  | some (r, true) => simp [e1, e2, h1]
  | some (r, false) => simp [e1, e2, h1, h2]

/-- A function for the examples: `int f(char) noexcept` and `void f()`. -/
def exCalls : Calls String
  | ["char"] => some ("int", true)
  | [] => some ("void", false)
  | _ => none

example : isCallable "nonesuch" exCalls ["char"] = true ∧
    isNoexceptCallable "nonesuch" exCalls [] = false ∧
    isCallableR "nonesuch" "int" exCalls ["char"] = true ∧
    isCallableR "nonesuch" "int" exCalls [] = false := by decide

/-- C75 is false for `nonesuch`: a call that does not compile "returns" it. -/
theorem C75_counterexample : exCalls ["long"] = none ∧
    isCallableR "nonesuch" "nonesuch" exCalls ["long"] = true := by decide

/-! ## C77 -/

/-- `has_type_NAME_v<T>` is true iff `T::NAME` is a type; `has_exact_type_NAME_v<T, E>` iff it is `E`
(for `E` other than `nonesuch`); `has_convertible_type_NAME_v<T, To>` iff it is a type that converts to
`To` (for `To` that `nonesuch` does not convert to).  Missing from C77: these two exceptions, for which
it is false. -/
theorem C77_member_type_partial [DecidableEq τ] (convertible : τ → τ → Bool) (nonesuch : τ)
    (memberType : τ → Option τ) (t e to : τ) (he : e ≠ nonesuch)
    (hto : convertible nonesuch to = false) :
    (hasType nonesuch memberType t = true ↔ ∃ u, memberType t = some u) ∧
    (hasExactType nonesuch memberType t e = true ↔ memberType t = some e) ∧
    (hasConvertibleType convertible nonesuch memberType t to = true ↔
      ∃ u, memberType t = some u ∧ convertible u to = true) :=
  ⟨(C67_detected nonesuch nonesuch _ _).1, C67_exact_partial _ _ _ _ he,
    (C67_convertible convertible nonesuch to _ _).2 (Or.inl hto)⟩

/-- Member types for the examples. -/
def exMemberType : String → Option String
  | "vector" => some "int"
  | _ => none

example : ("int" ≠ "nonesuch") ∧ (fun a b => a == "int" && b == "long") "nonesuch" "long" = false ∧
    hasType "nonesuch" exMemberType "vector" = true ∧ hasType "nonesuch" exMemberType "int" = false ∧
    hasExactType "nonesuch" exMemberType "vector" "int" = true ∧
    hasConvertibleType (fun a b => a == "int" && b == "long") "nonesuch" exMemberType "vector" "long" =
      true := by decide

/-- A type without the member has "exactly the member type `nonesuch`", and one that converts to
everything that takes anything. -/
theorem C77_counterexample : exMemberType "int" = none ∧
    hasExactType "nonesuch" exMemberType "int" "nonesuch" = true ∧
    hasConvertibleType (fun _ to => to == "any") "nonesuch" exMemberType "int" "any" = true := by decide

/-! ## C78 -/

/-- `has_invocable_NAME_v<T, Args...>` is true iff the call compiles, the `noexcept` form iff it also
cannot throw. -/
theorem C78_call [DecidableEq τ] (nonesuch : τ) {boolConstant : Bool → τ} (call : Calls τ)
    (args : List τ) (h1 : boolConstant true ≠ boolConstant false) (h2 : boolConstant true ≠ nonesuch) :
    (hasInvocable nonesuch call args = true ↔ ∃ r n, call args = some (r, n)) ∧
    (hasInvocableNoexcept nonesuch boolConstant call args = true ↔ ∃ r, call args = some (r, true)) := by
  refine ⟨(C75_callable nonesuch call args).1, ?_⟩
  unfold hasInvocableNoexcept
  rw [C67_exact_partial _ _ _ _ h2]
  match h : call args with
  | none => simp
  | some (r, true) => simp
  | some (r, false) => simpa using h1.symm

/-- For a `T` whose `NAME` is a single function and arguments it takes.  If it is static, every `T`
has it.  If not: `T` a class type (not a reference) has it iff the method may be called on a
temporary of `T`. -/
theorem C78_rvalue (nonesuch : τ) (convert : List τ → List τ → Option Bool) (m : Bool × Fn τ) (o : Object)
    (args : List τ) (ho : o.lvalue = false) (hargs : (convert args m.2.params).isSome) :
    hasInvocable nonesuch (methodCall convert m o) args = true ↔
      m.1 = true ∨
      ((o.isConst = true → m.2.q.isConst = true) ∧ (o.isVolatile = true → m.2.q.isVolatile = true) ∧
        (m.2.q.ref = .lvalue → m.2.q.isConst = true ∧ m.2.q.isVolatile = false)) := by
  rw [show hasInvocable nonesuch (methodCall convert m o) args =
    isCallable nonesuch (methodCall convert m o) args from rfl, (C75_callable _ _ _).1]
  unfold methodCall accepts
  obtain ⟨st, f⟩ := m
  obtain ⟨oc, ov, ol⟩ := o
  simp only at ho hargs
  subst ho
  obtain ⟨nothrow, hargs⟩ := Option.isSome_iff_exists.1 hargs
  simp only [hargs]
  cases st <;> cases oc <;> cases ov <;> cases h1 : f.q.ref <;> cases h2 : f.q.isConst <;>
    cases h3 : f.q.isVolatile <;> simp

/-- The same for `T` an lvalue reference: the method may be called on an lvalue. -/
theorem C78_lvalue (nonesuch : τ) (convert : List τ → List τ → Option Bool) (m : Bool × Fn τ) (o : Object)
    (args : List τ) (ho : o.lvalue = true) (hargs : (convert args m.2.params).isSome) :
    hasInvocable nonesuch (methodCall convert m o) args = true ↔
      m.1 = true ∨
      ((o.isConst = true → m.2.q.isConst = true) ∧ (o.isVolatile = true → m.2.q.isVolatile = true) ∧
        m.2.q.ref ≠ .rvalue) := by
  rw [show hasInvocable nonesuch (methodCall convert m o) args =
    isCallable nonesuch (methodCall convert m o) args from rfl, (C75_callable _ _ _).1]
  unfold methodCall accepts
  obtain ⟨st, f⟩ := m
  obtain ⟨oc, ov, ol⟩ := o
  simp only at ho hargs
  subst ho
  obtain ⟨nothrow, hargs⟩ := Option.isSome_iff_exists.1 hargs
  simp only [hargs]
  cases st <;> cases oc <;> cases ov <;> cases h1 : f.q.ref <;> cases h2 : f.q.isConst <;>
    cases h3 : f.q.isVolatile <;> simp

/-- The `noexcept` form, for a `T` whose `NAME` is a single function: true iff the call compiles, the
function is `noexcept` and so is the initialisation of its parameters. -/
theorem C78_noexcept [DecidableEq τ] (nonesuch : τ) {boolConstant : Bool → τ}
    (convert : List τ → List τ → Option Bool) (m : Bool × Fn τ) (o : Object) (args : List τ)
    (h1 : boolConstant true ≠ boolConstant false) (h2 : boolConstant true ≠ nonesuch) :
    hasInvocableNoexcept nonesuch boolConstant (methodCall convert m o) args = true ↔
      hasInvocable nonesuch (methodCall convert m o) args = true ∧ m.2.q.isNoexcept = true ∧
      convert args m.2.params = some true := by
  rw [(C78_call nonesuch _ args h1 h2).1, (C78_call nonesuch _ args h1 h2).2]
  unfold methodCall
  split
  · cases convert args m.2.params with
    | none => simp
    | some nothrow => cases nothrow <;> cases m.2.q.isNoexcept <;> simp
  · simp

/-- Conversions for the examples: a `char` to an `int` without, to a `string` with exceptions. -/
def exConvert (a p : List String) : Option Bool :=
  if a = p || (a = ["char"] && p = ["int"]) then some true
  else if a = ["char"] && p = ["string"] then some false else none

/-- `int T::f(char) &`: found for `T &`, not for `T`.  `int T::f(string) noexcept` is found for `char`,
but the call is not `noexcept`. -/
example : hasInvocable "nonesuch"
      (methodCall exConvert (false, ⟨"int", ["char"], false, { ref := .lvalue }⟩) { lvalue := true })
      ["char"] = true ∧
    hasInvocable "nonesuch"
      (methodCall exConvert (false, ⟨"int", ["char"], false, { ref := .lvalue }⟩) {}) ["char"] =
      false ∧
    hasInvocableNoexcept "nonesuch" (fun b => if b then "true" else "false")
      (methodCall exConvert (false, ⟨"int", ["int"], false, { isNoexcept := true }⟩) {}) ["char"] =
      true ∧
    hasInvocable "nonesuch"
      (methodCall exConvert (false, ⟨"int", ["string"], false, { isNoexcept := true }⟩) {}) ["char"] =
      true ∧
    hasInvocableNoexcept "nonesuch" (fun b => if b then "true" else "false")
      (methodCall exConvert (false, ⟨"int", ["string"], false, { isNoexcept := true }⟩) {}) ["char"] =
      false := by decide

/-! ## C115 -/

/-- What a class may declare: overloads with the same parameters differ in `const`, `volatile` or the
reference qualifier, and either all of them have a reference qualifier or none has. -/
def OverloadSet (l : List (Fn τ)) : Prop :=
  l.Pairwise (fun f g => f.params = g.params → ¬ (f.q.isConst = g.q.isConst ∧
    f.q.isVolatile = g.q.isVolatile ∧ f.q.ref = g.q.ref)) ∧
  ∀ f ∈ l, ∀ g ∈ l, f.params = g.params → (f.q.ref = .none ↔ g.q.ref = .none)

/-- The method, alone, could be called on the object: an rvalue is taken by anything but a `&` without
`const` or with `volatile`, an lvalue by anything but `&&`. -/
def Usable (q : Quals) (o : Object) : Prop :=
  (o.isConst = true → q.isConst = true) ∧ (o.isVolatile = true → q.isVolatile = true) ∧
  (o.lvalue = true → q.ref ≠ .rvalue) ∧
  (o.lvalue = false → q.ref = .lvalue → q.isConst = true ∧ q.isVolatile = false)

/-- The method the language calls: usable; `&&` if any usable one is; and of those with its own
reference qualifier it has no `const` or `volatile` that another lacks. -/
def Chosen (l : List (Fn τ)) (o : Object) (args : List τ) (f : Fn τ) : Prop :=
  (f ∈ l ∧ f.params = args ∧ Usable f.q o) ∧
  ∀ g ∈ l, g.params = args → Usable g.q o →
    (g.q.ref = .rvalue → f.q.ref = .rvalue) ∧
    (g.q.ref = f.q.ref → (f.q.isConst = true → g.q.isConst = true) ∧
      (f.q.isVolatile = true → g.q.isVolatile = true))

theorem accepts_iff (q : Quals) (o : Object) : accepts q o = true ↔ Usable q o := by
  obtain ⟨c, v, r, n⟩ := q
  obtain ⟨oc, ov, ol⟩ := o
  unfold accepts Usable
  cases c <;> cases v <;> cases r <;> cases oc <;> cases ov <;> cases ol <;> simp

theorem pairwise_distinct {α : Type} {R : α → α → Prop} (hs : ∀ x y, R x y → R y x) : ∀ {l : List α},
    l.Pairwise R → ∀ x ∈ l, ∀ y ∈ l, x ≠ y → R x y
  | a :: l, h, x, hx, y, hy, hne => by
    rw [List.pairwise_cons] at h
    rcases List.mem_cons.1 hx with ex | hx' <;> rcases List.mem_cons.1 hy with ey | hy'
    · exact absurd (ex.trans ey.symm) hne
    · exact ex ▸ h.1 y hy'
    · exact ey ▸ hs _ _ (h.1 x hx')
    · exact pairwise_distinct hs h.2 x hx' y hy' hne

theorem betterObject_iff {f g : Quals} (h : f.ref = .none ↔ g.ref = .none)
    (hd : ¬ (f.isConst = g.isConst ∧ f.isVolatile = g.isVolatile ∧ f.ref = g.ref)) :
    betterObject f g = true ↔ (g.ref = .rvalue → f.ref = .rvalue) ∧
      (g.ref = f.ref → (f.isConst = true → g.isConst = true) ∧
        (f.isVolatile = true → g.isVolatile = true)) := by
  obtain ⟨c, v, r, n⟩ := f
  obtain ⟨c', v', r', n'⟩ := g
  unfold betterObject
  revert h hd
  cases c <;> cases v <;> cases r <;> cases c' <;> cases v' <;> cases r' <;> simp

/-- With several methods `NAME`, called with exactly the parameter types of some of them, the checkers
see the method the language calls, and see nothing if there is none. -/
theorem C115_call [DecidableEq τ] {l : List (Fn τ)} (h : OverloadSet l) (o : Object) (args : List τ)
    (r : τ) (n : Bool) :
    overloadedCall l o args = some (r, n) ↔
      ∃ f, Chosen l o args f ∧ r = f.ret ∧ n = f.q.isNoexcept := by
  have hsym : ∀ f ∈ l, ∀ g ∈ l, f ≠ g → f.params = g.params → ¬ (f.q.isConst = g.q.isConst ∧
      f.q.isVolatile = g.q.isVolatile ∧ f.q.ref = g.q.ref) :=
    pairwise_distinct (fun x y hxy e hq => hxy e.symm ⟨hq.1.symm, hq.2.1.symm, hq.2.2.symm⟩) h.1
  let viable := l.filter fun f => f.params = args && accepts f.q o
  have hv : ∀ f, f ∈ viable ↔ f ∈ l ∧ f.params = args ∧ Usable f.q o := by
    intro f
    simp only [viable, List.mem_filter, Bool.and_eq_true, decide_eq_true_eq, accepts_iff]
  have hbest : ∀ f, f ∈ (viable.filter fun f => viable.all fun g => g = f || betterObject f.q g.q) ↔
      Chosen l o args f := by
    intro f
    rw [List.mem_filter, hv, List.all_eq_true]
    unfold Chosen
    refine and_congr_right fun hf => ?_
    constructor
    · intro ha g hg hp hu
      have hg' := ha g ((hv g).2 ⟨hg, hp, hu⟩)
      simp only [Bool.or_eq_true, decide_eq_true_eq] at hg'
      by_cases e : g = f
      · subst e
        exact ⟨id, fun _ => ⟨id, id⟩⟩
      · have hpp : f.params = g.params := hf.2.1.trans hp.symm
        exact (betterObject_iff (h.2 f hf.1 g hg hpp)
          (hsym f hf.1 g hg (fun e' => e e'.symm) hpp)).1 (hg'.resolve_left e)
    · intro ha g hg
      obtain ⟨hg, hp, hu⟩ := (hv g).1 hg
      simp only [Bool.or_eq_true, decide_eq_true_eq]
      by_cases e : g = f
      · exact Or.inl e
      · have hpp : f.params = g.params := hf.2.1.trans hp.symm
        exact Or.inr ((betterObject_iff (h.2 f hf.1 g hg hpp)
          (hsym f hf.1 g hg (fun e' => e e'.symm) hpp)).2 (ha g hg hp hu))
  have hone : ∀ f g, Chosen l o args f → Chosen l o args g → f = g := by
    intro f g hf hg
    refine Classical.byContradiction fun e => ?_
    obtain ⟨a1, a2⟩ := hf.2 g hg.1.1 hg.1.2.1 hg.1.2.2
    obtain ⟨b1, b2⟩ := hg.2 f hf.1.1 hf.1.2.1 hf.1.2.2
    have hpp : f.params = g.params := hf.1.2.1.trans hg.1.2.1.symm
    have hn := h.2 f hf.1.1 g hg.1.1 hpp
    have hd := hsym f hf.1.1 g hg.1.1 e hpp
    revert a1 a2 b1 b2 hn hd
    cases f.q.ref <;> cases g.q.ref <;> cases f.q.isConst <;> cases g.q.isConst <;>
      cases f.q.isVolatile <;> cases g.q.isVolatile <;> simp
  have hnodup : (viable.filter fun f => viable.all fun g => g = f || betterObject f.q g.q).Nodup := by
    refine List.Pairwise.filter _ (List.Pairwise.filter _ (h.1.imp ?_))
    rintro f g hfg rfl
    exact hfg rfl ⟨rfl, rfl, rfl⟩
  show (match viable.filter fun f => viable.all fun g => g = f || betterObject f.q g.q with
    | [f] => some (f.ret, f.q.isNoexcept)
    | _ => none) = some (r, n) ↔ _
  generalize hb : (viable.filter fun f => viable.all fun g => g = f || betterObject f.q g.q) = best
    at hbest hnodup
  match best, hbest, hnodup with
  | [], hbest, _ =>
    constructor
    · intro e
      cases e
    · rintro ⟨f, hf, -⟩
      exact absurd ((hbest f).2 hf) (by simp)
  | [f], hbest, _ =>
    have hf : Chosen l o args f := (hbest f).1 (by simp)
    constructor
    · intro e
      cases e
      exact ⟨f, hf, rfl, rfl⟩
    · rintro ⟨g, hg, rfl, rfl⟩
      rw [hone g f hg hf]
  | f :: g :: _, hbest, hnodup =>
    have : f = g := hone f g ((hbest f).1 (by simp)) ((hbest g).1 (by simp))
    subst this
    simp at hnodup

/-- `has_invocable_NAME_v` is true iff there is a method the language calls; the `noexcept` form iff
that one is `noexcept`.  Missing from C115: it is not enough that some method could be called. -/
theorem C115_checkers_partial [DecidableEq τ] (nonesuch : τ) {boolConstant : Bool → τ} {l : List (Fn τ)}
    (h : OverloadSet l) (o : Object) (args : List τ)
    (h1 : boolConstant true ≠ boolConstant false) (h2 : boolConstant true ≠ nonesuch) :
    (hasInvocable nonesuch (overloadedCall l o) args = true ↔ ∃ f, Chosen l o args f) ∧
    (hasInvocableNoexcept nonesuch boolConstant (overloadedCall l o) args = true ↔
      ∃ f, Chosen l o args f ∧ f.q.isNoexcept = true) := by
  rw [(C78_call nonesuch _ args h1 h2).1, (C78_call nonesuch _ args h1 h2).2]
  simp only [C115_call h]
  constructor
  · exact ⟨fun ⟨_, _, f, hf, _⟩ => ⟨f, hf⟩, fun ⟨f, hf⟩ => ⟨_, _, f, hf, rfl, rfl⟩⟩
  · exact ⟨fun ⟨_, f, hf, _, hn⟩ => ⟨f, hf, hn.symm⟩, fun ⟨f, hf, hn⟩ => ⟨_, f, hf, rfl, hn.symm⟩⟩

/-- Without `volatile` methods nothing is missing: the checker is true iff some method could be called
on the object. -/
theorem C115_no_volatile [DecidableEq τ] (nonesuch : τ) {l : List (Fn τ)} (h : OverloadSet l)
    (hv : ∀ f ∈ l, f.q.isVolatile = false) (o : Object) (args : List τ) :
    hasInvocable nonesuch (overloadedCall l o) args = true ↔
      ∃ f ∈ l, f.params = args ∧ Usable f.q o := by
  have key : hasInvocable nonesuch (overloadedCall l o) args = true ↔ ∃ f, Chosen l o args f := by
    have := (C75_callable nonesuch (overloadedCall l o) args).1
    simp only [C115_call h] at this
    exact this.trans
      ⟨fun ⟨_, _, f, hf, _⟩ => ⟨f, hf⟩, fun ⟨f, hf⟩ => ⟨_, _, f, hf, rfl, rfl⟩⟩
  rw [key]
  refine ⟨fun ⟨f, hf⟩ => ⟨f, hf.1⟩, ?_⟩
  rintro ⟨f, hf⟩
  have pick : ∀ f, (f ∈ l ∧ f.params = args ∧ Usable f.q o) →
      (∀ g, (g ∈ l ∧ g.params = args ∧ Usable g.q o) → g.q.ref = .rvalue → f.q.ref = .rvalue) →
      ∃ f, Chosen l o args f := by
    intro f hf hr
    by_cases hc : ∃ g, (g ∈ l ∧ g.params = args ∧ Usable g.q o) ∧ g.q.ref = f.q.ref ∧
        g.q.isConst = false
    · obtain ⟨g, hg, e, hc⟩ := hc
      refine ⟨g, hg, fun g' h1 h2 h3 => ⟨fun hr' => e.trans (hr g' ⟨h1, h2, h3⟩ hr'), fun _ =>
        ⟨fun h => ?_, fun h => ?_⟩⟩⟩
      · rw [hc] at h
        cases h
      · rw [hv g hg.1] at h
        cases h
    · refine ⟨f, hf, fun g h1 h2 h3 => ⟨hr g ⟨h1, h2, h3⟩, fun e => ⟨fun _ => ?_, fun h => ?_⟩⟩⟩
      · cases hgc : g.q.isConst with
        | true => rfl
        | false => exact absurd ⟨g, ⟨h1, h2, h3⟩, e, hgc⟩ hc
      · rw [hv f hf.1] at h
        cases h
  by_cases hr : ∃ g, (g ∈ l ∧ g.params = args ∧ Usable g.q o) ∧ g.q.ref = .rvalue
  · obtain ⟨g, hg, e⟩ := hr
    exact pick g hg fun _ _ _ => e
  · exact pick f hf fun g hg e => absurd ⟨g, hg, e⟩ hr

/-- The usual four overloads `&`, `const &`, `&&`, `const &&`: whatever they return, every object that
is not `volatile` gets the one with its own `const` and value category. -/
theorem C115_usual [DecidableEq τ] (params : List τ) (ret : Bool → Bool → τ) (o : Object)
    (ho : o.isVolatile = false) :
    overloadedCall
      [⟨ret false true, params, false, { ref := .lvalue }⟩,
       ⟨ret true true, params, false, { isConst := true, ref := .lvalue }⟩,
       ⟨ret false false, params, false, { ref := .rvalue }⟩,
       ⟨ret true false, params, false, { isConst := true, ref := .rvalue }⟩] o params =
      some (ret o.isConst o.lvalue, false) := by
  rw [C115_call]
  · obtain ⟨c, v, lv⟩ := o
    cases ho
    refine ⟨⟨ret c lv, params, false, { isConst := c, ref := if lv then .lvalue else .rvalue }⟩, ?_, rfl,
      rfl⟩
    unfold Chosen Usable
    cases c <;> cases lv <;> simp
  · unfold OverloadSet
    simp

/-- Two methods for the examples: `int f() const` and `int f() volatile noexcept`. -/
def exMethods : List (Fn String) :=
  [⟨"int", [], false, { isConst := true }⟩, ⟨"int", [], false, { isVolatile := true, isNoexcept := true }⟩]

theorem exMethods_set : OverloadSet exMethods := by
  unfold OverloadSet exMethods
  simp

/-- C115 is false: each of `f() const` and `f() volatile` could be called on a `T`, but the call is
ambiguous, so the checker says there is none. -/
theorem C115_counterexample : (∀ f ∈ exMethods, Usable f.q {}) ∧
    hasInvocable "nonesuch" (overloadedCall exMethods {}) [] = false := by
  refine ⟨?_, by decide⟩
  unfold exMethods Usable
  simp

/-- On a `const T` only the first can be called, on a `volatile T` only the second. -/
example : OverloadSet exMethods ∧
    hasInvocable "nonesuch" (overloadedCall exMethods { isConst := true }) [] = true ∧
    hasInvocableNoexcept "nonesuch" (fun b => if b then "true" else "false")
      (overloadedCall exMethods { isConst := true }) [] = false ∧
    hasInvocableNoexcept "nonesuch" (fun b => if b then "true" else "false")
      (overloadedCall exMethods { isVolatile := true }) [] = true :=
  ⟨exMethods_set, by decide, by decide, by decide⟩

end Utils.Props
