/-!
# Which `make_array` is called

/repo/sources/include/utils/common.h 221-239 and 258-264: four function templates of one name.  A call
has explicit template arguments and arguments; an argument is given by the type that a forwarding
reference deduces from it (`int` for a temporary, `int &` for a variable).  Only deduction and
viability are modelled: whether the body compiles (narrowing, C88) is not, and if two templates were
viable the call would count as ambiguous, without partial ordering.
-/

namespace Utils.MakeArray

variable {τ : Type}

/-- An explicit template argument; values are `std::size_t`s. -/
inductive TArg (τ : Type)
  | type (t : τ)
  | value (n : Nat)
  deriving DecidableEq

/-- A template parameter: `typename`, `std::size_t` or `typename...`. -/
inductive Kind
  | type | value | pack
  deriving DecidableEq

/-- A function parameter: `T &&...`, `T` or `std::basic_string_view<CharT, Traits>`; `T`, `CharT` and
`Traits` are given by their places among the template parameters. -/
inductive Param
  | each
  | byValue (i : Nat)
  | view (charT traits : Nat)
  deriving DecidableEq

/-- What a call makes: the array of `n` arguments converted to `elem`, an array without elements, `n`
copies of a value, or `n` characters of a view converted to `elem`. -/
inductive Made (τ : Type)
  | list (elem : τ) (n : Nat)
  | empty (elem : τ)
  | fill (elem : τ) (n : Nat)
  | chars (elem : τ) (n : Nat)
  deriving DecidableEq

/-- A function template; `optional`: its parameters have default arguments.  `result` is what it makes,
from its template arguments. -/
structure Template (τ : Type) where
  kinds : List Kind
  params : List Param
  optional : Bool := false
  result : List (TArg τ) → Option (Made τ)

/-- What the language says about types: `std::decay_t<std::common_type_t<Ts...>>` (of at least one
type), may `T &&` be bound to an argument, does an argument convert to `T`, the type that a parameter
`T` deduces, the `CharT` and `Traits` of an argument that is a `std::basic_string_view` or of a class
derived from one, and does an argument convert to such a view. -/
structure Lang (τ : Type) where
  common : List τ → Option τ
  binds : τ → τ → Bool
  converts : τ → τ → Bool
  decay : τ → τ
  viewOf : τ → Option (τ × τ)
  toView : τ → τ → τ → Bool

/-- `make_array(T &&...)`, 221-226.  `CommonT` comes behind the pack and cannot be given. -/
def listForm : Template τ := ⟨[.pack], [.each], false, fun _ => none⟩
/-- `make_array<CommonT>()`, 228-232. -/
def emptyForm : Template τ := ⟨[.type], [], false, fun
  | [.type t] => some (.empty t)
  | _ => none⟩
/-- `make_array<T, N>(T aValue = {})`, 234-239. -/
def fillForm : Template τ := ⟨[.type, .value], [.byValue 0], true, fun
  | [.type t, .value n] => some (.fill t n)
  | _ => none⟩
/-- `make_array<N, ValueType, CharT, Traits>(std::basic_string_view<CharT, Traits>)`, 258-264. -/
def viewForm : Template τ := ⟨[.value, .type, .type, .type], [.view 2 3], false, fun
  | [.value n, .type t, _, _] => some (.chars t n)
  | _ => none⟩

/-- Explicit template arguments for a pack of types: all that are left. -/
def assignPack : List (TArg τ) → Option (List (Option (TArg τ)))
  | [] => some []
  | .type t :: l => (assignPack l).map (some (.type t) :: ·)
  | .value _ :: _ => none

/-- Explicit template arguments for the parameters, in order; `none` if there are too many or one is of
the wrong kind.  A pack takes all that are left. -/
def assign : List Kind → List (TArg τ) → Option (List (Option (TArg τ)))
  | [], [] => some []
  | [], _ :: _ => none
  | .pack :: _, l => assignPack l
  | _ :: ks, [] => (assign ks []).map (none :: ·)
  | .type :: ks, .type t :: l => (assign ks l).map (some (.type t) :: ·)
  | .value :: ks, .value n :: l => (assign ks l).map (some (.value n) :: ·)
  | .type :: _, .value _ :: _ => none
  | .value :: _, .type _ :: _ => none

/-- One template argument deduced as `t`: it must agree with an explicit one. -/
def agree [DecidableEq τ] (slots : List (Option (TArg τ))) (i : Nat) (t : τ) :
    Option (List (Option (TArg τ))) :=
  match slots[i]? with
  | some none => some (slots.set i (some (.type t)))
  | some (some x) => if x = .type t then some slots else none
  | none => none

/-- Deduction from one argument.  If all template parameters in the parameter are explicit, the argument
is converted. -/
def deduce [DecidableEq τ] (L : Lang τ) (slots : List (Option (TArg τ))) (p : Param) (a : τ) :
    Option (List (Option (TArg τ))) :=
  match p with
  | .each => none
  | .byValue i =>
    match slots[i]? with
    | some (some (.type t)) => if L.converts t a then some slots else none
    | _ => agree slots i (L.decay a)
  | .view c t =>
    match slots[c]?, slots[t]? with
    | some (some (.type ct)), some (some (.type tr)) => if L.toView ct tr a then some slots else none
    | _, _ =>
      match L.viewOf a with
      | some (ct, tr) => (agree slots c ct).bind fun s => agree s t tr
      | none => none

/-- Deduction from all arguments. -/
def deduceAll [DecidableEq τ] (L : Lang τ) (optional : Bool) :
    List Param → List τ → List (Option (TArg τ)) → Option (List (Option (TArg τ)))
  | [], [], slots => some slots
  | [], _ :: _, _ => none
  | _ :: _, [], slots => if optional then some slots else none
  | p :: ps, a :: as, slots => (deduce L slots p a).bind (deduceAll L optional ps as)

/-- The types of the pack `T...` of the parameter `T &&...`: explicit ones first, the rest deduced. -/
def packTypes (L : Lang τ) : List (Option (TArg τ)) → List τ → Option (List τ)
  | [], as => some as
  | some (.type t) :: ts, a :: as =>
    if L.binds t a then (packTypes L ts as).map (t :: ·) else none
  | _, _ => none

/-- Is the template viable for the call, and what does it make?  Every template parameter needs an
argument. -/
def viable [DecidableEq τ] (L : Lang τ) (f : Template τ) (ex : List (TArg τ)) (args : List τ) :
    Option (Made τ) := do
  let slots ← assign f.kinds ex
  match f.params with
  | [.each] =>
    let ts ← packTypes L slots args
    if ts.isEmpty then none
    else
      let c ← L.common ts
      pure (.list c ts.length)
  | ps =>
    let slots ← deduceAll L f.optional ps args slots
    let targs ← slots.mapM id
    f.result targs

/-- The viable templates. -/
def candidates [DecidableEq τ] (L : Lang τ) (ex : List (TArg τ)) (args : List τ) : List (Made τ) :=
  [listForm, emptyForm, fillForm, viewForm].filterMap fun f => viable L f ex args

/-- `make_array<ex...>(args...)`; `none` if it does not compile. -/
def makeArray [DecidableEq τ] (L : Lang τ) (ex : List (TArg τ)) (args : List τ) : Option (Made τ) :=
  match candidates L ex args with
  | [m] => some m
  | _ => none

end Utils.MakeArray
