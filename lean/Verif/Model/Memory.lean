import Verif.Model.Outcome

/-!
# Raw memory helpers

Memory is a partial map from addresses to bytes: an address without a byte is not accessible, and
touching it is undefined behaviour (in a constant expression: a compilation error, also `ub` here).
Addresses are natural numbers; the null pointer is address 0.
-/

namespace Utils.Memory

/-- Memory: the accessible bytes. -/
abbrev Mem := Nat → Option UInt8

/-- `*p` as an rvalue. -/
def load (m : Mem) (a : Nat) : Outcome UInt8 :=
  match m a with
  | some b => .ok b
  | none => .ub

/-- `*p = b`. -/
def store (m : Mem) (a : Nat) (b : UInt8) : Outcome Mem :=
  match m a with
  | some _ => .ok fun x => if x = a then some b else m x
  | none => .ub

/-- The `n` bytes from `a` on, in order. -/
def loadBytes (m : Mem) : (a n : Nat) → Outcome (List UInt8)
  | _, 0 => .ok []
  | a, n + 1 => do
    let b ← load m a
    let l ← loadBytes m (a + 1) n
    pure (b :: l)

/-- Storing bytes in order. -/
def storeBytes (m : Mem) : (a : Nat) → List UInt8 → Outcome Mem
  | _, [] => .ok m
  | a, b :: l => do
    let m ← store m a b
    storeBytes m (a + 1) l

/-- Lexicographic comparison of unsigned bytes, as C's `memcmp` orders them. -/
def compareBytes : List UInt8 → List UInt8 → Int
  | a :: l, b :: r => if a < b then -1 else if b < a then 1 else compareBytes l r
  | _, _ => 0

/-- Contract of C's `memcmp(p, q, n)`: reads both ranges, which must be accessible. -/
def cMemcmp (m : Mem) (p q n : Nat) : Outcome Int := do
  let l ← loadBytes m p n
  let r ← loadBytes m q n
  pure (compareBytes l r)

/-- Contract of C's `memmove`: as if through a temporary; the pointers must not be null. -/
def cMemmove (m : Mem) (dst src n : Nat) : Outcome Mem :=
  if dst = 0 ∨ src = 0 then .ub
  else do
    let l ← loadBytes m src n
    storeBytes m dst l

/-- Contract of C's `memcpy`: undefined for overlapping ranges and null pointers. -/
def cMemcpy (m : Mem) (dst src n : Nat) : Outcome Mem :=
  if dst = 0 ∨ src = 0 then .ub
  else if dst < src + n ∧ src < dst + n then .ub
  else do
    let l ← loadBytes m src n
    storeBytes m dst l

/-- `memvcmp`, /repo/sources/include/utils/common.h 359-368. -/
def memvcmp (m : Mem) (ptr : Nat) (val : UInt8) (size : Nat) : Outcome Bool :=
  if size = 0 ∨ ptr = 0 then .ok false
  else do
    let b ← load m ptr
    if b = val then do
      let c ← cMemcmp m ptr (ptr + 1) (size - 1)
      pure (c == 0)
    else pure false

/-- The loop `handmade_zero_mem` of `secure_zero_memory` from index `i` on,
/repo/sources/include/utils/memory/memory.h 48-55. -/
def zeroLoop (m : Mem) (ptr i : Nat) : (left : Nat) → Outcome Mem
  | 0 => .ok m
  | left + 1 => do
    let m ← store m (ptr + i) 0
    zeroLoop m ptr (i + 1) left

/-- `secure_zero_memory`, memory.h 45-73.  Both branches run the loop on the modelled platform
(neither `_MSC_VER` nor `__STDC_LIB_EXT1__`). -/
def secureZeroMemory (m : Mem) (ptr size : Nat) : Outcome Mem := zeroLoop m ptr 0 size

/-- `secure_zero_memory_safe`, memory.h 75-90: return code and memory afterwards. -/
def secureZeroMemorySafe (m : Mem) (ptr size : Nat) : Outcome (Int × Mem) :=
  if ptr = 0 then .ok (-1, m)
  else if size = 0 then .ok (-2, m)
  else do
    let m ← secureZeroMemory m ptr size
    pure (0, m)

/-- The copy loop `*(aDst + i) = *(aSrc + i)` of `memmove` (memory.h 101-104) from index `i` on. -/
def copyLoop (m : Mem) (dst src i : Nat) : (left : Nat) → Outcome Mem
  | 0 => .ok m
  | left + 1 => do
    let b ← load m (src + i)
    let m ← store m (dst + i) b
    copyLoop m dst src (i + 1) left

/-- `memmove`, memory.h 92-111; `constEval` is `__builtin_is_constant_evaluated()`. The returned
pointer is `dst`. -/
def memmove (constEval : Bool) (m : Mem) (dst src n : Nat) : Outcome (Nat × Mem) :=
  if constEval then
    if dst = src then .ok (dst, m)
    else do
      let m ← copyLoop m dst src 0 n
      pure (dst, m)
  else do
    let m ← cMemmove m dst src n
    pure (dst, m)

/-- The byte-sized types `memcpy` (memory.h 121-155) may be used with. Enumerations of one byte
behave like `byte` (with underlying type `bool` like `bool`); classes of one byte, whose conversion
may be any function, are not modelled. -/
inductive ByteTy
  | bool | char | schar | uchar | byte
  deriving DecidableEq, Repr

/-- `static_cast<To>(x)` of memory.h 147 on the bytes: the cast to `bool` compares with zero, the
others keep the bits. -/
def ByteTy.cast : (to : ByteTy) → UInt8 → UInt8
  | .bool, b => if b = 0 then 0 else 1
  | _, b => b

/-- The bytes an object of the type may hold: a `bool` is `false` or `true`, and reading one that is
neither is undefined. -/
def ByteTy.holds : ByteTy → UInt8 → Bool
  | .bool, b => b = 0 || b = 1
  | _, _ => true

/-- The loop `*(aTo + i) = static_cast<To>(*(aFrom + i))` of `memcpy`, memory.h 145-148, from index
`i` on. -/
def castLoop (to from_ : ByteTy) (m : Mem) (dst src i : Nat) : (left : Nat) → Outcome Mem
  | 0 => .ok m
  | left + 1 => do
    let b ← load m (src + i)
    if from_.holds b then
      let m ← store m (dst + i) (to.cast b)
      castLoop to from_ m dst src (i + 1) left
    else .ub

/-- `memcpy<To, From>`, memory.h 121-155, for byte-sized `To` and `From` (the `static_assert`s) or
`void`; `types` is `none` when one of them is `void`.  Then a constant expression would call
`std::memcpy` (memory.h 141), which is not `constexpr`: a compilation error, `ub` here. -/
def memcpy (debug constEval : Bool) (types : Option (ByteTy × ByteTy)) (m : Mem)
    (dst src n : Nat) : Outcome Mem := do
  cassert debug (dst != 0)
  cassert debug (src != 0)
  if constEval then
    match types with
    | none => .ub
    | some (to, from_) => castLoop to from_ m dst src 0 n
  else cMemcpy m dst src n

/-- ObjRepresentation of the values of a trivially copyable type: `size` bytes; `read` is what the
bytes mean.  Different bytes may mean the same value (padding). -/
structure ObjRepr (α : Type) where
  size : Nat
  read : List UInt8 → α

/-- `bit_cast<To, From>`, /repo/sources/include/utils/common.h 663-677, on object representations:
`src` holds the bytes of an object of type `From` at address `from`, `dst` is a fresh object. `none`
when the `enable_if` on the sizes removes the function. -/
def bitCast {α β : Type} (To : ObjRepr α) (From : ObjRepr β) (m : Mem) (dst src : Nat) :
    Option (Outcome Mem) :=
  if To.size = From.size then some (cMemcpy m dst src To.size) else none

end Utils.Memory
