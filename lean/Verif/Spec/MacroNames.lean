import Verif.Model.MacroNames

/-!
# Which checkers cannot live in one namespace
-/

namespace Utils.Spec

open Utils.Macros

/-- Two uses declare the same name in the same namespace. -/
def Collide (u w : Macro × String) : Prop := ∃ d, d ∈ declared u.1 u.2 ∧ d ∈ declared w.1 w.2

/-- An equation `p ++ a ++ x = q ++ b ++ y` between two names `a` and `b`. -/
structure Equation where
  p : String
  x : String
  q : String
  y : String
  deriving DecidableEq

def Equation.Holds (e : Equation) (a b : String) : Prop := e.p ++ a ++ e.x = e.q ++ b ++ e.y

/-- One name is the other plus one of the ends. -/
def plus (ends : List String) : List Equation :=
  ends.flatMap fun e => [⟨"", e, "", ""⟩, ⟨"", "", "", e⟩]

/-- The second name, behind the beginning, is the first plus one of `ends`, or the other way round plus one of
`ends'`. -/
def behind (beginning : String) (ends ends' : List String) : List Equation :=
  (ends.map fun e => ⟨"", e, beginning, ""⟩) ++ ends'.map fun e => ⟨"", "", beginning, e⟩

/-- The same seen from the other name. -/
def flipped (l : List Equation) : List Equation := l.map fun e => ⟨e.q, e.y, e.p, e.x⟩

/-- The ends of the method checkers. -/
def methodEnds : List String := ["", "_v", "_noexcept", "_noexcept_v"]

/-- The ends of the method checkers with result type. -/
def rMethodEnds : List String :=
  ["", "_const"].flatMap fun c => ["", "_volatile"].flatMap fun v => ["", "_ref", "_rref"].flatMap fun r =>
    ["", "_noexcept"].flatMap fun n => ["", "_v"].map fun w => c ++ v ++ r ++ n ++ w

/-- The equations of two uses: they collide iff one of them holds. -/
def equationsOf : Macro → Macro → List Equation
  -- the same kind
  | .type, .type | .data, .data | .staticData, .staticData => plus ["", "_v"]
  | .method, .method => plus methodEnds
  | .rMethod, .rMethod => plus rMethodEnds
  | .staticMethod, .staticMethod =>
    plus methodEnds ++ behind "r_" methodEnds methodEnds ++ flipped (behind "r_" methodEnds methodEnds)
  | .freeFunction, .freeFunction => plus ["", "_noexcept"]
  -- `has_invocable_r_` is `has_invocable_` and the beginning of a name
  | .method, .rMethod => behind "r_" methodEnds rMethodEnds
  | .rMethod, .method => flipped (behind "r_" methodEnds rMethodEnds)
  -- the aliases `NAME_return_t` in `details` begin with the name
  | .freeFunction, .method => behind "is_invocable_" ["_return", "_noexcept_return"] []
  | .method, .freeFunction => flipped (behind "is_invocable_" ["_return", "_noexcept_return"] [])
  | .freeFunction, .staticMethod => behind "static_method_result_" ["_return", "_noexcept_return"] []
  | .staticMethod, .freeFunction =>
    flipped (behind "static_method_result_" ["_return", "_noexcept_return"] [])
  | .freeFunction, .data => behind "has_data_" ["_return_t", "_noexcept_return_t"] []
  | .data, .freeFunction => flipped (behind "has_data_" ["_return_t", "_noexcept_return_t"] [])
  | .freeFunction, .staticData => behind "has_static_data_" ["_return_t", "_noexcept_return_t"] []
  | .staticData, .freeFunction => flipped (behind "has_static_data_" ["_return_t", "_noexcept_return_t"] [])
  | _, _ => []

/-- Reserved for the implementation everywhere, [lex.name]: a double underscore, or an underscore and a capital
letter at the beginning. -/
def Reserved (s : String) : Prop :=
  (∃ a b, s.toList = a ++ ['_', '_'] ++ b) ∨ ∃ c b, s.toList = '_' :: c :: b ∧ c.isUpper = true

end Utils.Spec
