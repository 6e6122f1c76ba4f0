import Verif.Model.CInt

/-!
# `delete_object` through a pointer to a base class

/repo/sources/include/utils/memory/allocator.h 76-84: `delete_object<U>(aPtr)` calls `aPtr->~U()` and gives
`aPtr` to `deallocate_bytes(void *)` (allocator.h 50).  If `aPtr` points to a base class subobject of the object
that `new_object` made, the destructor may be virtual, and the address may be another one.

Simplifications: inheritance is not virtual; data members and virtual table pointers are words of eight bytes,
so that there is no padding; the layout is the one of the Itanium C++ ABI, where an empty base takes no place.
-/

namespace Utils.Delete

/-- A class: whether it declares its destructor virtual, whether it declares another virtual function, how many
words of data it has, and its direct bases. -/
inductive Cls
  | mk (virtualDtor otherVirtual : Bool) (data : Nat) (bases : List Cls)

def Cls.bases : Cls → List Cls
  | .mk _ _ _ bases => bases

mutual
/-- The class has virtual functions, its own or inherited ones. -/
def Cls.polymorphic : Cls → Bool
  | .mk d o _ bases => d || o || anyPolymorphic bases
def anyPolymorphic : List Cls → Bool
  | [] => false
  | b :: bases => b.polymorphic || anyPolymorphic bases
end

mutual
/-- The destructor is virtual: declared so, or so in a base class. -/
def Cls.hasVirtualDtor : Cls → Bool
  | .mk d _ _ bases => d || anyVirtualDtor bases
def anyVirtualDtor : List Cls → Bool
  | [] => false
  | b :: bases => b.hasVirtualDtor || anyVirtualDtor bases
end

mutual
/-- The size in words: bases, a virtual table pointer unless one is shared with a base, data. -/
def Cls.words : Cls → Nat
  | .mk d o n bases => (if (d || o) && !anyPolymorphic bases then 1 else 0) + wordsOf bases + n
def wordsOf : List Cls → Nat
  | [] => 0
  | b :: bases => b.words + wordsOf bases
end

/-- Where the `i`-th base lies, in words.  The first polymorphic base is the primary base and comes first, the
others follow in their order. -/
def baseOffset (c : Cls) (i : Nat) : Nat :=
  match c.bases.findIdx? Cls.polymorphic with
  | none => (if c.polymorphic then 1 else 0) + wordsOf (c.bases.take i)
  | some k =>
    if i = k then 0
    else if i < k then wordsOf ((c.bases.drop k).take 1) + wordsOf (c.bases.take i)
    else wordsOf (c.bases.take i)

/-- The class of the subobject that is reached by going from base to base. -/
def sub : Cls → List Nat → Option Cls
  | c, [] => some c
  | c, i :: path => match c.bases[i]? with
    | none => none
    | some b => sub b path

/-- Where that subobject lies, in words. -/
def offset : Cls → List Nat → Nat
  | _, [] => 0
  | c, i :: path => baseOffset c i + match c.bases[i]? with
    | none => 0
    | some b => offset b path

mutual
/-- The subobjects, given by their paths, in the order in which their destructors run: first the class itself,
then its bases, the last one first. -/
def Cls.destroy (at_ : List Nat) : Cls → List (List Nat)
  | .mk _ _ _ bases => at_ :: destroyBases at_ 0 bases
def destroyBases (at_ : List Nat) (i : Nat) : List Cls → List (List Nat)
  | [] => []
  | b :: bases => destroyBases at_ (i + 1) bases ++ b.destroy (at_ ++ [i])
end

/-- `delete_object(p)`, allocator.h 76-84, where `p` was converted to a pointer to the subobject at `path` of an
object of class `cls` at `address`: which destructors run, and which address `deallocate` is given.  A pointer
to const converts to no `void *`, so that the call does not compile (allocator.h 50, 82); nor does it if there
is no such base. -/
def deleteObject (cls : Cls) (path : List Nat) (address : Nat) (isConst : Bool) :
    Option (List (List Nat) × Nat) :=
  if isConst then none
  else (sub cls path).map fun u =>
    (if u.hasVirtualDtor then cls.destroy [] else u.destroy path, address + 8 * offset cls path)

end Utils.Delete
