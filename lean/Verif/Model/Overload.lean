/-!
# Overload resolution

The part of [over.match.best] that the constructors of the resources (simple_resource.h 178-207,
monotonic_buffer_resource.h 17-47) and the operators of allocator (allocator.h 88-98, 104-113) need.
Conversions are compared by rank only: 0 exact match, 2 standard conversion, 3 user-defined conversion;
two user-defined conversions never differ here (an ellipsis does not occur).
-/

namespace Utils.Overload

/-- A viable candidate: the ranks of its arguments, whether it is a template specialisation, and what
it does. -/
structure Candidate (α : Type) where
  ranks : List Nat
  isTemplate : Bool
  action : α

/-- Better viable function: no argument converts worse and one better, or all convert alike and only
the other one is a template. -/
def better {α : Type} (c c' : Candidate α) : Bool :=
  (c.ranks.zip c'.ranks).all (fun x => decide (x.1 ≤ x.2)) &&
    ((c.ranks.zip c'.ranks).any (fun x => decide (x.1 < x.2)) ||
      !c.isTemplate && c'.isTemplate && c.ranks == c'.ranks)

/-- The viable candidate that is better than every other; `none` if there is none. -/
def pick {α : Type} (viable : List (Candidate α)) : Option α :=
  match viable.zipIdx.filter fun x =>
    viable.zipIdx.all fun y => x.2 == y.2 || better x.1 y.1 with
  | [x] => some x.1.action
  | _ => none

end Utils.Overload
