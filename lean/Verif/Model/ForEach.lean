/-!
# `for_each_arg` and `for_each_in_tuple` with any callable

common.h 648-661.  What a call does is up to the callable; what the two functions decide is which
expressions it is called with, what happens to its results, and when.
-/

namespace Utils.ForEach

/-- What an expression is: the object it denotes (any name for it), whether it is constant, and whether it
is an rvalue. -/
structure Expr where
  obj : Nat
  const : Bool
  rvalue : Bool
  deriving DecidableEq

/-- `T`, `T &`, `T &&`. -/
inductive Ref
  | none | l | r
  deriving DecidableEq

/-- Reference collapsing: a reference of kind `b` to a type that is `a`. -/
def collapse : Ref → Ref → Ref
  | .l, _ => .l
  | _, .l => .l
  | .r, _ => .r
  | _, .r => .r
  | .none, .none => .none

/-- A type, as far as it matters here: a reference or none, to something constant or not. -/
structure Ty where
  ref : Ref
  const : Bool
  deriving DecidableEq

/-- The template argument that is deduced for a parameter `T &&` (also `auto &&`). -/
def deduce (e : Expr) : Ty := ⟨if e.rvalue then .none else .l, e.const⟩

/-- `std::forward<T>(x)` for the parameter `x` that refers to `obj`. -/
def fwd (T : Ty) (obj : Nat) : Expr := ⟨obj, T.const, collapse T.ref .r == .r⟩

/-- An element of a tuple: its type, and the object that it is or refers to. -/
structure Elem where
  ty : Ty
  obj : Nat
  deriving DecidableEq

/-- `std::get<I>(std::forward<T>(t))`: a reference of the kind of the tuple expression `t` to the element;
the constness of the tuple is that of its elements, but not of what they refer to. -/
def get (t : Expr) (e : Elem) : Expr :=
  ⟨e.obj, e.ty.const || (e.ty.ref == .none && t.const),
    collapse e.ty.ref (if t.rvalue then .r else .l) == .r⟩

/-- How an evaluation ends: with a result, whose destructor is `destroy`, or with an exception. -/
inductive Res (ω : Type)
  | returned (w : ω) (destroy : ω → ω)
  | thrown (w : ω)

/-- How a function ends that returns nothing. -/
inductive End (ω : Type)
  | returned (w : ω)
  | thrown (w : ω)
  deriving DecidableEq

/-- The comma operator between the result of a call and an `int`: the built-in one, or an overload, which
is a call itself, whose result does or does not initialise an `int` in braces. -/
inductive Comma (ω : Type)
  | builtin
  | overloaded (run : ω → Res ω) (int : Bool)

/-- A call of the callable. -/
structure Call (ω : Type) where
  run : ω → Res ω
  comma : Comma ω

variable {ω : Type}

/-- The initialiser `(call, 0)` of an `int` in braces; `none` if it does not compile.  Temporaries are
destroyed in the reverse order. -/
def initialiser (c : Call ω) : Option (ω → Res ω) :=
  match c.comma with
  | .builtin => some c.run
  | .overloaded _ false => none
  | .overloaded run true => some fun w =>
    match c.run w with
    | .thrown w => .thrown w
    | .returned w d =>
      match run w with
      | .thrown w => .thrown (d w)
      | .returned w d' => .returned w fun w => d (d' w)

/-- The initialisers of all arguments. -/
def initialisers (call : Expr → Option (Call ω)) : List Expr → Option (List (ω → Res ω))
  | [] => some []
  | x :: xs =>
    match (call (fwd (deduce x) x.obj)).bind initialiser, initialisers call xs with
    | some i, some is => some (i :: is)
    | _, _ => none

/-- Destroys temporaries, newest first. -/
def destroyAll (ds : List (ω → ω)) (w : ω) : ω := ds.foldl (fun w d => d w) w

/-- A braced list, evaluated from left to right.  It is a part of the statement, so the temporaries of its
elements (`ds`, newest first) live until the end of the statement, or until an exception leaves it. -/
def evaluate : List (ω → Res ω) → List (ω → ω) → ω → End ω
  | [], ds, w => .returned (destroyAll ds w)
  | i :: is, ds, w =>
    match i w with
    | .thrown w => .thrown (destroyAll ds w)
    | .returned w d => evaluate is (d :: ds) w

/-- `for_each_arg(f, ts...)`, common.h 648-653.  `call e x` is the call of the callable, as the expression
`e`, with `x`; `none` if it does not compile. -/
def forEachArg (call : Expr → Expr → Option (Call ω)) (f : Expr) (xs : List Expr) :
    Option (ω → End ω) :=
  (initialisers (call (fwd (deduce f) f.obj)) xs).map fun is w => evaluate is [] w

/-- `for_each_in_tuple(f, t)`, common.h 655-661: `std::apply` calls the lambda with the elements; in the
lambda `f` is a variable. -/
def forEachInTuple (call : Expr → Expr → Option (Call ω)) (f t : Expr) (es : List Elem) :
    Option (ω → End ω) :=
  forEachArg call ⟨f.obj, f.const, false⟩
    (es.map fun e => let x := get t e; fwd (deduce x) x.obj)

end Utils.ForEach
