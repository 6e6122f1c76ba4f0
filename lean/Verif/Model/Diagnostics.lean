import Verif.Model.CInt
import Verif.Model.SimpleResource

/-!
# What is printed before an abort

`utils::abort_if`, the macro `UTILS_ABORT_IF` and the messages of `simple_resource`, with the part of
`vfprintf` (C17 7.21.6.1, not a part of /repo) that they use.

Not modelled of `vfprintf`: flags, field widths, precisions and conversions other than `%%`, `%d`, `%u`,
`%zu`, `%s`, `%p`; a format with one of them counts as undefined here.  `%p` takes a pointer to any object
(the standard asks for `void *`; `data_` is a `std::byte *`).  What `%p` prints is up to the
implementation, `showPtr`.  Output errors are left out.
-/

namespace Utils.Diag

/-- A further argument of a function with an ellipsis, after the default argument promotions. -/
inductive PArg
  | int (t : CTy) (v : Int)
  | str (s : List Char)
  | ptr (a : Nat)
  deriving DecidableEq

/-- An integer that is passed: [expr.call] 11, integral promotion. -/
def PArg.pass (t : CTy) (v : Int) : PArg := .int t.promote v

/-- A decimal number. -/
def decimal (v : Int) : List Char :=
  if v < 0 then '-' :: Nat.toDigits 10 v.natAbs else Nat.toDigits 10 v.natAbs

/-- Reading an argument with `va_arg` at an integer type: the type itself, or the type that differs in
signedness if both hold the value (C17 7.16.1.1). -/
def readInt (t t' : CTy) (a : PArg) : Option (List Char) :=
  match a with
  | .int u v => if (u = t ∨ u = t') ∧ t.InRange v ∧ t'.InRange v ∨ u = t then some (decimal v) else none
  | _ => none

/-- `vfprintf`: the text; `none` if the behaviour is undefined.  Arguments that are left over are
ignored. -/
def printf (showPtr : Nat → List Char) : List Char → List PArg → Option (List Char)
  | [], _ => some []
  | '%' :: '%' :: f, args => (printf showPtr f args).map ('%' :: ·)
  | '%' :: 'd' :: f, a :: args => do
    let t ← readInt .int .uint a
    (printf showPtr f args).map (t ++ ·)
  | '%' :: 'u' :: f, a :: args => do
    let t ← readInt .uint .int a
    (printf showPtr f args).map (t ++ ·)
  | '%' :: 'z' :: 'u' :: f, a :: args => do
    let t ← readInt .ulong .long a
    (printf showPtr f args).map (t ++ ·)
  | '%' :: 's' :: f, .str t :: args => (printf showPtr f args).map (t ++ ·)
  | '%' :: 'p' :: f, .ptr a :: args => (printf showPtr f args).map (showPtr a ++ ·)
  | '%' :: _, _ => none
  | c :: f, args => (printf showPtr f args).map (c :: ·)

/-- How a call of `abort_if` ends: it returns, it ends the program after writing to `stderr`, or the
behaviour is undefined. -/
inductive Ends
  | returns
  | aborts (err : List Char)
  | undefined
  deriving DecidableEq

/-- `utils::abort_if`, common.h 445-460; no format stands for the null pointer. -/
def abortIf (showPtr : Nat → List Char) (cond : Bool) (fmt : Option (List Char)) (args : List PArg) :
    Ends :=
  if cond then
    match fmt with
    | none => .aborts []
    | some f =>
      match printf showPtr f args with
      | some t => .aborts t
      | none => .undefined
  else .returns

/-- Where the macro is used: `__FILE__`, `__LINE__` and `UTILS_FUNC`. -/
structure Place where
  file : List Char
  line : Nat
  func : List Char

/-- The string literals of common.h 42 and 50. -/
def textError : List Char := "[ERROR]\n".toList
/-- See `textError`. -/
def textFile : List Char := "file: ".toList
/-- See `textError`. -/
def textLine : List Char := "\nline: ".toList
/-- See `textError`. -/
def textFunc : List Char := "\nfunc: %s".toList

/-- The format that the macro puts before the one of the user, common.h 42, 50: string literals that are
joined, with the name of the file and the number of the line among them. -/
def Place.format (w : Place) : List Char :=
  textError ++ (textFile ++ w.file ++ textLine ++ Nat.toDigits 10 w.line) ++ textFunc

/-- `UTILS_ABORT_IF(cond)` and `UTILS_ABORT_IF(cond, fmt, args...)`, common.h 47-52: two empty strings are
appended to the arguments of the macro; the first stands in for the format if there is none. -/
def abortIfMacro (showPtr : Nat → List Char) (w : Place) (cond : Bool) :
    Option (List Char × List PArg) → Ends
  | none => abortIf showPtr cond (some (w.format ++ [])) (.str w.func :: [.str []])
  | some (fmt, args) =>
    abortIf showPtr cond (some (w.format ++ fmt)) (.str w.func :: (args ++ [.str [], .str []]))

end Utils.Diag

namespace Utils.SR

open Utils.Diag

/-- The type `BIndex`, simple_resource.h 150. -/
def Params.indexTy (p : Params) : CTy :=
  if p.width = 8 then .uchar else if p.width = 16 then .ushort else if p.width = 32 then .uint else .ulong

/-- The messages of simple_resource.h. -/
inductive Message
  /-- 171-175 -/
  | destroyed (busy : Nat)
  /-- 341-345 -/
  | unaligned (ptr : Nat)
  /-- 359-363 -/
  | below (ptr data : Nat)
  /-- 365-371 -/
  | above (ptr endOfData : Nat)
  /-- 378-381 -/
  | notAllocated (index : Nat)
  deriving DecidableEq

/-- Format and arguments. -/
def Message.call (p : Params) : Message → List Char × List PArg
  | .destroyed b =>
    ("\nreason: simple_resource is being destroyed while %d of its regions are in use.".toList,
      [.pass .ulong b])
  | .unaligned q =>
    ("\nreason: pointer(%p) which is being deallocated must be aligned at least as one block size(%d)".toList,
      [.ptr q, .pass .ulong p.blockSize])
  | .below q d =>
    ("\nreason: deallocating pointer(%p) is less than simple_resource's left boundary(%p)".toList,
      [.ptr q, .ptr d])
  | .above q e =>
    ("\nreason: deallocating pointer(%p) is more than simple_resource's right boundary(%p)".toList,
      [.ptr q, .ptr e])
  | .notAllocated i =>
    ("\nreason: trying to deallocate block(%d) that was not marked as allocated".toList,
      [.pass p.indexTy i])

/-- The message with which `deallocate_impl` ends, simple_resource.h 334-390, if it aborts; the order of
the checks is that of the code.  The assertions are left out. -/
def deallocateSays (p : Params) (hasUpstream : Bool) (s : State) (ptr : Nat) : Option Message :=
  if ptr = 0 then none
  else if ptr % p.blockSize ≠ 0 then some (.unaligned ptr)
  else if s.data ≤ ptr ∧ ptr < (s.data + size p s) % 2 ^ 64 then
    let i := p.trunc ((ptr - s.data) / p.blockSize)
    if s.inUse i then none else some (.notAllocated i)
  else if hasUpstream then none
  else if ptr < s.data then some (.below ptr s.data)
  else if (s.data + size p s) % 2 ^ 64 ≤ ptr then some (.above ptr ((s.data + size p s) % 2 ^ 64))
  else none

/-- The message of the destructor, simple_resource.h 169-176; `busy_count_` is converted to `bool`. -/
def destroySays (s : State) : Option Message :=
  if s.busyCount ≠ 0 then some (.destroyed s.busyCount) else none

end Utils.SR
