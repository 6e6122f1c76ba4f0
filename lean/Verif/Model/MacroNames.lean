import Verif.Model.Checkers

/-!
# The identifiers that the `CREATE_...` macros declare

/repo/sources/include/utils/function_traits.h 35-345.  A use of a macro declares templates in the namespace
where it is used and in the namespace `details` inside it.  Each of their names is pasted together from a
fixed beginning, the argument of the macro and a fixed end.
-/

namespace Utils.Macros

open Utils.Traits

/-- The macros. -/
inductive Macro
  /-- `CREATE_MEMBER_TYPE_CHECKERS` -/
  | type
  /-- `CREATE_MEMBER_DATA_CHECKERS` -/
  | data
  /-- `CREATE_STATIC_MEMBER_DATA_CHECKERS` -/
  | staticData
  /-- `CREATE_METHOD_CHECKERS` -/
  | method
  /-- `CREATE_R_METHOD_CHECKERS` -/
  | rMethod
  /-- `CREATE_STATIC_METHOD_CHECKERS` -/
  | staticMethod
  /-- `CREATE_FREE_FUNCTION_CHECKERS` -/
  | freeFunction
  deriving DecidableEq, Repr

/-- A name around the argument of the macro, and whether it is declared in `details`. -/
structure Shape where
  inDetails : Bool
  before : String
  after : String
  deriving DecidableEq, Repr

/-- What each macro declares.  Partial specialisations declare no new name. -/
def shapes : Macro → List Shape
  -- function_traits.h 35-72
  | .type => [⟨true, "has_type_", "_helper"⟩, ⟨false, "has_type_", ""⟩, ⟨false, "has_type_", "_v"⟩,
      ⟨false, "has_exact_type_", ""⟩, ⟨false, "has_exact_type_", "_v"⟩,
      ⟨false, "has_convertible_type_", ""⟩, ⟨false, "has_convertible_type_", "_v"⟩]
  -- function_traits.h 74-103
  | .data => [⟨true, "not_static_", "_type"⟩, ⟨true, "has_data_", ""⟩, ⟨false, "has_data_", ""⟩,
      ⟨false, "has_data_", "_v"⟩]
  -- function_traits.h 105-135
  | .staticData => [⟨true, "static_", "_type"⟩, ⟨true, "has_static_data_", ""⟩,
      ⟨false, "has_static_data_", ""⟩, ⟨false, "has_static_data_", "_v"⟩]
  -- function_traits.h 212-246
  | .method => [⟨true, "is_invocable_", "_t"⟩, ⟨true, "is_invocable_", "_noexcept_t"⟩,
      ⟨false, "has_invocable_", ""⟩, ⟨false, "has_invocable_", "_v"⟩,
      ⟨false, "has_invocable_", "_noexcept"⟩, ⟨false, "has_invocable_", "_noexcept_v"⟩]
  -- function_traits.h 189-210
  | .rMethod => symRows.flatMap fun row => [⟨true, "method_", row.suffix ++ "_ptr_t"⟩,
      ⟨false, "has_invocable_r_", row.suffix⟩, ⟨false, "has_invocable_r_", row.suffix ++ "_v"⟩]
  -- function_traits.h 248-289
  | .staticMethod => staticRows.flatMap fun row => [⟨true, "static_method_result_", row.1 ++ "_t"⟩,
      ⟨true, "static_method_r_", row.1 ++ "_ptr_t"⟩,
      ⟨false, "has_static_invocable_", row.1⟩, ⟨false, "has_static_invocable_", row.1 ++ "_v"⟩,
      ⟨false, "has_static_invocable_r_", row.1⟩, ⟨false, "has_static_invocable_r_", row.1 ++ "_v"⟩]
  -- function_traits.h 291-345
  | .freeFunction => [⟨true, "", "_return_t"⟩, ⟨true, "", "_noexcept_return_t"⟩,
      ⟨false, "is_", "_invocable"⟩, ⟨false, "is_", "_invocable_v"⟩,
      ⟨false, "is_", "_noexcept_invocable"⟩, ⟨false, "is_", "_noexcept_invocable_v"⟩,
      ⟨false, "is_", "_invocable_r"⟩, ⟨false, "is_", "_invocable_r_v"⟩,
      ⟨false, "is_", "_noexcept_invocable_r"⟩, ⟨false, "is_", "_noexcept_invocable_r_v"⟩]

/-- The names that `MACRO(name)` declares; the flag tells those in `details`. -/
def declared (m : Macro) (name : String) : List (Bool × String) :=
  (shapes m).map fun s => (s.inDetails, s.before ++ name ++ s.after)

/-- A list of uses in one namespace compiles: no name is declared twice.  Two class templates or two variable
templates of one name are a redefinition; two alias templates are one if their parameters or types differ, which
they do whenever a name is found by two uses.  Other reasons not to compile are not modelled. -/
def compiles (uses : List (Macro × String)) : Bool :=
  decide (uses.flatMap fun u => declared u.1 u.2).Nodup

end Utils.Macros
