import Verif.Model.FunctionTraits

/-!
# The unit tests of the function traits, run on the model

/repo/tests/src/function_traits_*_tests.cpp.  These are tests, not proofs: they check that the model
behaves as the repository says the code behaves.  Types are their names.
-/

namespace Utils.Tests.Traits

open Utils.Traits

/-! `IsSimpleFunctor`, `FunctorCallableTypeMustBeTreatedAsFunction`, `IsInvocable`,
function_traits_tests.cpp 139-172.  The private call operator (lines 85-89) is left out: access is not
modelled. -/

/-- `void operator()(int) const &noexcept`, line 80. -/
def call : Fn String := ⟨"void", ["int"], false, ⟨true, false, .lvalue, true⟩⟩
def functor : TypeForm String := .cls [call] false
def dualFunctor : TypeForm String := .cls [⟨"void", [], false, {}⟩, ⟨"void", ["int"], false, {}⟩] false
def templatedFunctor : TypeForm String := .cls [] true
def func1 : Fn String := ⟨"void", [], false, {}⟩
def func2 : Fn String := ⟨"void", [], false, { isNoexcept := true }⟩
def func3 : Fn String := ⟨"void", ["int", "bool", "float&"], false, {}⟩

example : isSimpleFunctor functor = true := by decide
example : isSimpleFunctor dualFunctor = false := by decide
example : isSimpleFunctor templatedFunctor = false := by decide
example : signature functor = some call := by decide
example : isInvocable functor = true := by decide
example : [func1, func2, func3].map (fun f => isInvocable (.function f)) = [true, true, true] := by
  decide

/-! `RemoveAllQualifiers` and the `Has…` tests, 174-597, on the 24 methods of `Methods`, 109-137. -/

/-- The methods in the order of their declaration, lines 112-135: `noexcept` last, then the reference,
then `volatile`, then `const`. -/
def methods : List (Fn String) :=
  [false, true].flatMap fun n => [RefQ.none, .lvalue, .rvalue].flatMap fun r =>
    [false, true].flatMap fun v => [false, true].map fun c => ⟨"void", [], false, ⟨c, v, r, n⟩⟩

/-- The answers of a test, in the same order. -/
def answers (f : Bool → Bool → RefQ → Bool → Bool) : List (Option Bool) :=
  [false, true].flatMap fun n => [RefQ.none, .lvalue, .rvalue].flatMap fun r =>
    [false, true].flatMap fun v => [false, true].map fun c => some (f c v r n)

example : (signature functor).bind removeAll = some ⟨"void", ["int"], false, {}⟩ := by decide +kernel
example : [func1, func2, func3].map removeAll = [some func1, some func1, some func3] := by
  decide +kernel
example : methods.map removeAll = methods.map fun _ => some func1 := by decide +kernel
example : methods.map hasConstQualifier = answers fun c _ _ _ => c := by decide +kernel
example : methods.map hasVolatileQualifier = answers fun _ v _ _ => v := by decide +kernel
example : methods.map hasLvalueQualifier = answers fun _ _ r _ => r == .lvalue := by decide +kernel
example : methods.map hasRvalueQualifier = answers fun _ _ r _ => r == .rvalue := by decide +kernel
example : methods.map hasNoexceptQualifier = answers fun _ _ _ n => n := by decide +kernel

/-! function_traits_free_function_checkers_tests.cpp: three overloads called with exactly their
parameter types; nothing else compiles. -/

/-- Lines 8-12. -/
def usefulFunc : Calls String
  | ["int"] => some ("void", false)
  | ["int", "bool"] => some ("void", true)
  | ["int", "bool", "char"] => some ("float", true)
  | _ => none

/-- `nonesuch`. -/
def nonesuch : String := "nonesuch"

example : [["int"], ["int", "bool"], ["int", "bool", "char"], ["double", "empty"]].map
    (isCallable nonesuch usefulFunc) = [true, true, true, false] := by decide +kernel
example : [["int"], ["int", "bool"], ["int", "bool", "char"], []].map
    (isNoexceptCallable nonesuch usefulFunc) = [false, true, true, false] := by decide +kernel
example : isCallableR nonesuch "void" usefulFunc ["int"] = true := by decide +kernel
example : isCallableR nonesuch "void" usefulFunc ["int", "bool"] = true := by decide +kernel
example : isCallableR nonesuch "float" usefulFunc ["int", "bool", "char"] = true := by decide +kernel
example : isCallableR nonesuch "void" usefulFunc [] = false := by decide +kernel
example : isNoexceptCallableR nonesuch "void" usefulFunc ["int"] = false := by decide +kernel
example : isNoexceptCallableR nonesuch "void" usefulFunc ["int", "bool"] = true := by decide +kernel
example : isNoexceptCallableR nonesuch "float" usefulFunc ["int", "bool", "char"] = true := by
  decide +kernel
example : isNoexceptCallableR nonesuch "empty" usefulFunc ["int", "bool"] = false := by decide +kernel

/-! function_traits_member_data_checkers_tests.cpp and
function_traits_static_member_data_checkers_tests.cpp: nothing, a data member, a static data member, a
method and a static method called `mem_data`. -/

/-- `int mem_data()`. -/
def memData : Fn String := ⟨"int", [], false, {}⟩

/-- Nothing, data, static data, a method, a static method. -/
def fiveMembers : List (Member String) :=
  [.absent, .data .object, .staticData .object, .functions [(false, memData)],
    .functions [(true, memData)]]

example : fiveMembers.map hasData = [false, true, false, false, false] := by decide
example : fiveMembers.map hasStaticData = [false, false, true, false, false] := by decide

/-! function_traits_member_type_checkers_tests.cpp: only `s1` has a type `mem_type`, and it is `int`. -/

/-- Lines 4-26. -/
def memType : String → Option String
  | "s1" => some "int"
  | _ => none

/-- `std::is_convertible_v` between the types of the test. -/
def convertible (a b : String) : Bool :=
  a == b || (["int", "bool"].contains a && ["int", "bool"].contains b)

example : ["empty", "s1", "s2", "s3", "s4"].map (hasType nonesuch memType)
    = [false, true, false, false, false] := by decide +kernel
example : ["empty", "s1", "s2", "s3", "s4"].map (hasConvertibleType convertible nonesuch memType · "int")
    = [false, true, false, false, false] := by decide +kernel
example : hasConvertibleType convertible nonesuch memType "s1" "bool" = true := by decide +kernel
example : ["empty", "s1", "s2", "s3"].map (hasExactType nonesuch memType · "int")
    = [false, true, false, false] := by decide +kernel
example : hasExactType nonesuch memType "s1" "bool" = false := by decide +kernel
example : hasExactType nonesuch memType "s3" "int (s3::*)()" = false := by decide +kernel
example : hasExactType nonesuch memType "s4" "int()" = false := by decide +kernel

/-! function_traits_method_checkers_tests.cpp. -/

/-- Lines 8-15. -/
def s1 : Member String := .functions
  [(false, ⟨"int", [], false, {}⟩), (false, ⟨"int", ["float"], false, {}⟩),
    (false, ⟨"int", ["bool"], false, { isNoexcept := true }⟩)]

/-- Lines 17-24. -/
def s2 : Member String := .functions
  [(true, ⟨"int", [], false, {}⟩),
    (false, ⟨"void", ["int", "float"], false, { isConst := true, ref := .rvalue }⟩),
    (false, ⟨"void", ["bool"], false, { ref := .lvalue, isNoexcept := true }⟩)]

example : hasInvocableR .absent (⟨"void", [], false, {}⟩ : Fn String) = false := by decide
example : hasInvocableR s1 ⟨"int", [], false, {}⟩ = true := by decide
example : hasInvocableR s1 ⟨"int", ["float"], false, {}⟩ = true := by decide
example : hasInvocableR s1 ⟨"int", [], false, { isNoexcept := true }⟩ = false := by decide
example : hasInvocableR s1 ⟨"int", ["float"], false, { isNoexcept := true }⟩ = false := by decide
example : hasInvocableR s1 ⟨"int", [], false, { ref := .lvalue }⟩ = false := by decide
example : hasInvocableR s1 ⟨"int", [], false, { ref := .rvalue }⟩ = false := by decide
example : hasInvocableR s1 ⟨"int", [], false, { isConst := true }⟩ = false := by decide
example : hasInvocableR s1 ⟨"int", ["bool"], false, {}⟩ = true := by decide
example : hasInvocableR s1 ⟨"int", ["bool"], false, { isNoexcept := true }⟩ = true := by decide
example : hasInvocableR s2 ⟨"int", [], false, {}⟩ = false := by decide
example : hasInvocableR s2 ⟨"void", ["int", "float"], false, { isConst := true, ref := .rvalue }⟩
    = true := by decide
example : hasInvocableR s2 ⟨"void", ["bool"], false, { ref := .lvalue, isNoexcept := true }⟩
    = true := by decide
example : hasInvocableR s2
    ⟨"void", ["int", "float"], false, { isConst := true, ref := .rvalue, isNoexcept := true }⟩
    = false := by decide
example : hasInvocableR s2 ⟨"void", ["bool"], false, { ref := .lvalue }⟩ = true := by decide
example : hasInvocableR s2 ⟨"void", ["bool"], false, { isVolatile := true, ref := .lvalue }⟩
    = false := by decide

/-- Calling one method of `s2`, lines 21-23, with its own parameter types. -/
def callS2 (params : List String) (q : Quals) (o : Object) : Calls String :=
  methodCall (fun a b => if a = b then some true else none) (false, ⟨"void", params, false, q⟩) o

/-- `std::bool_constant`. -/
def boolConstant (b : Bool) : String := if b then "true_type" else "false_type"

example : hasInvocable nonesuch
    (callS2 ["int", "float"] { isConst := true, ref := .rvalue } {}) ["int", "float"] = true := by
  decide +kernel
example : hasInvocable nonesuch
    (callS2 ["bool"] { ref := .lvalue, isNoexcept := true } {}) ["bool"] = false := by decide +kernel
example : hasInvocable nonesuch
    (callS2 ["bool"] { ref := .lvalue, isNoexcept := true } { lvalue := true }) ["bool"] = true := by
  decide +kernel
example : hasInvocableNoexcept nonesuch boolConstant
    (callS2 ["int", "float"] { isConst := true, ref := .rvalue } {}) ["int", "float"] = false := by
  decide +kernel
example : hasInvocableNoexcept nonesuch boolConstant
    (callS2 ["bool"] { ref := .lvalue, isNoexcept := true } {}) ["bool"] = false := by decide +kernel
example : hasInvocableNoexcept nonesuch boolConstant
    (callS2 ["bool"] { ref := .lvalue, isNoexcept := true } { lvalue := true }) ["bool"] = true := by
  decide +kernel

/-! function_traits_static_method_checkers_tests.cpp. -/

/-- Lines 8-15, called with exactly the parameter types. -/
def sfunc : Calls String
  | [] => some ("int", false)
  | ["float"] => some ("int", false)
  | ["bool"] => some ("int", true)
  | _ => none

/-- Lines 8-15 as a member. -/
def s1Static : Member String := .functions
  [(true, ⟨"int", [], false, {}⟩), (true, ⟨"int", ["float"], false, {}⟩),
    (true, ⟨"int", ["bool"], false, { isNoexcept := true }⟩)]

/-- `std::is_convertible_v` between the two constants: only equal types. -/
def sameType (a b : String) : Bool := a == b

example : [[], ["float"], ["bool"]].map
    (hasStaticInvocable sameType nonesuch "true_type" "false_type" "" sfunc)
    = [true, true, true] := by decide +kernel
example : [[], ["float"], ["bool"]].map
    (hasStaticInvocable sameType nonesuch "true_type" "false_type" "noexcept" sfunc)
    = [false, false, true] := by decide +kernel
example : [[], ["s2*"]].map
    (hasStaticInvocable sameType nonesuch "true_type" "false_type" "" (fun _ => none))
    = [false, false] := by decide +kernel
example : hasStaticInvocableR .absent (⟨"void", [], false, {}⟩ : Fn String) = false := by decide
example : hasStaticInvocableR s1Static ⟨"int", [], false, {}⟩ = true := by decide
example : hasStaticInvocableR s1Static ⟨"int", ["float"], false, {}⟩ = true := by decide
example : hasStaticInvocableR s1Static ⟨"int", [], false, { isNoexcept := true }⟩ = false := by decide
example : hasStaticInvocableR s1Static ⟨"int", ["float"], false, { isNoexcept := true }⟩ = false := by
  decide
example : hasStaticInvocableR s1Static ⟨"int", ["bool"], false, { isNoexcept := true }⟩ = true := by
  decide
example : hasStaticInvocableR (.functions [(false, memData)]) memData = false := by decide
example : hasStaticInvocableR (.staticData .object) memData = false := by decide

end Utils.Tests.Traits
