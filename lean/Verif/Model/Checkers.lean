import Verif.Model.FunctionTraits

/-!
# The names of the method checkers

`CREATE_R_METHOD_CHECKERS(NAME)` and `CREATE_STATIC_METHOD_CHECKERS(NAME)` define one checker per row of
a table, and the checker reaches its function type through an alias whose name is pasted together from
the same row.  Names are strings here and are looked up as the compiler does.
-/

namespace Utils.Traits

variable {τ : Type}

/-- One row of `SYMBOLIZED_QUALIFIERS`: four parts of a name and four qualifiers, as source text. -/
structure SymRow where
  sc : String
  sv : String
  sr : String
  sn : String
  c : String
  v : String
  r : String
  n : String
  deriving DecidableEq, Repr

/-- The table `SYMBOLIZED_QUALIFIERS`, /repo/sources/include/utils/function_traits.h 137-165. -/
def symRows : List SymRow := [
  ⟨"", "", "", "", "", "", "", ""⟩,
  ⟨"_const", "", "", "", "const", "", "", ""⟩,
  ⟨"", "_volatile", "", "", "", "volatile", "", ""⟩,
  ⟨"_const", "_volatile", "", "", "const", "volatile", "", ""⟩,
  ⟨"", "", "_ref", "", "", "", "&", ""⟩,
  ⟨"_const", "", "_ref", "", "const", "", "&", ""⟩,
  ⟨"", "_volatile", "_ref", "", "", "volatile", "&", ""⟩,
  ⟨"_const", "_volatile", "_ref", "", "const", "volatile", "&", ""⟩,
  ⟨"", "", "_rref", "", "", "", "&&", ""⟩,
  ⟨"_const", "", "_rref", "", "const", "", "&&", ""⟩,
  ⟨"", "_volatile", "_rref", "", "", "volatile", "&&", ""⟩,
  ⟨"_const", "_volatile", "_rref", "", "const", "volatile", "&&", ""⟩,
  ⟨"", "", "", "_noexcept", "", "", "", "noexcept"⟩,
  ⟨"_const", "", "", "_noexcept", "const", "", "", "noexcept"⟩,
  ⟨"", "_volatile", "", "_noexcept", "", "volatile", "", "noexcept"⟩,
  ⟨"_const", "_volatile", "", "_noexcept", "const", "volatile", "", "noexcept"⟩,
  ⟨"", "", "_ref", "_noexcept", "", "", "&", "noexcept"⟩,
  ⟨"_const", "", "_ref", "_noexcept", "const", "", "&", "noexcept"⟩,
  ⟨"", "_volatile", "_ref", "_noexcept", "", "volatile", "&", "noexcept"⟩,
  ⟨"_const", "_volatile", "_ref", "_noexcept", "const", "volatile", "&", "noexcept"⟩,
  ⟨"", "", "_rref", "_noexcept", "", "", "&&", "noexcept"⟩,
  ⟨"_const", "", "_rref", "_noexcept", "const", "", "&&", "noexcept"⟩,
  ⟨"", "_volatile", "_rref", "_noexcept", "", "volatile", "&&", "noexcept"⟩,
  ⟨"_const", "_volatile", "_rref", "_noexcept", "const", "volatile", "&&", "noexcept"⟩]

/-- The table `SYMBOLIZED_STATIC_METHOD_QUALIFIERS`, function_traits.h 167-169: `sn` and `n`. -/
def staticRows : List (String × String) := [("", ""), ("_noexcept", "noexcept")]

/-- What a name denotes among the definitions of a scope.  A name that is defined twice differently is
an error, here without meaning like a name that is not defined. -/
def lookup {α : Type} [DecidableEq α] (defs : List (String × α)) (name : String) : Option α :=
  match (defs.filter fun d => d.1 == name).map (·.2) with
  | [] => none
  | d :: ds => if ds.all (· == d) then some d else none

/-- `sc##sv##sr##sn`. -/
def SymRow.suffix (row : SymRow) : String := row.sc ++ row.sv ++ row.sr ++ row.sn

/-- The aliases `method_pointer...`, function_traits.h 175-179: `R (T::*)(Args...) c v r n`. -/
def methodPointers : List (String × Quals) :=
  symRows.map fun row => ("method_pointer" ++ row.suffix, readQuals [row.c, row.v, row.r, row.n])

/-- The aliases `static_method_pointer...`, function_traits.h 181-185: `R (*)(Args...) n`. -/
def staticMethodPointers : List (String × Quals) :=
  staticRows.map fun row => ("static_method_pointer" ++ row.1, readQuals [row.2])

/-- The checkers that `CREATE_R_METHOD_CHECKERS(NAME)` defines, function_traits.h 189-210: the name and
the name of the alias that the checker uses. -/
def methodCheckers (method : String) : List (String × String) :=
  symRows.map fun row => ("has_invocable_r_" ++ method ++ row.suffix ++ "_v", "method_pointer" ++ row.suffix)

/-- The checkers `has_static_invocable_r_...` that `CREATE_STATIC_METHOD_CHECKERS(NAME)` defines,
function_traits.h 258-262, 275-289. -/
def staticMethodCheckers (method : String) : List (String × String) :=
  staticRows.map fun row =>
    ("has_static_invocable_r_" ++ method ++ row.1 ++ "_v", "static_method_pointer" ++ row.1)

/-- The value of `CHECKER<R, T, Args...>` after `CREATE_R_METHOD_CHECKERS(method)`, for a `T` whose
member `method` is `m`; without a value if there is no such checker. -/
def askMethod [DecidableEq τ] (method checker : String) (m : Member τ) (ret : τ) (params : List τ) :
    Option Bool :=
  ((lookup (methodCheckers method) checker).bind (lookup methodPointers)).map fun q =>
    hasInvocableR m ⟨ret, params, false, q⟩

/-- The same after `CREATE_STATIC_METHOD_CHECKERS(method)`. -/
def askStaticMethod [DecidableEq τ] (method checker : String) (m : Member τ) (ret : τ)
    (params : List τ) : Option Bool :=
  ((lookup (staticMethodCheckers method) checker).bind (lookup staticMethodPointers)).map fun q =>
    hasStaticInvocableR m ⟨ret, params, false, q⟩

end Utils.Traits
