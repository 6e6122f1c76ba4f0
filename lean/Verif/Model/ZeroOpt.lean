import Verif.Model.Memory

/-!
# `secure_zero_memory` in a program that is optimised

/repo/sources/include/utils/memory/memory.h 45-73.

A program is a list of accesses to memory.  Only some of them can be observed: those that talk to the outside, and
those that the implementation must carry out as written.  A compiler may change everything else.

Simplifications: no branches, no arithmetic on the bytes, all memory is accessible.
-/

namespace Utils.Opt

/-- An access to memory. -/
inductive Instr
  /-- `*a = v`, an ordinary store -/
  | write (a : Nat) (v : UInt8)
  /-- `*dst = *src` -/
  | copy (dst src : Nat)
  /-- a byte comes from outside and is stored at `a` -/
  | input (a : Nat)
  /-- the byte at `a` goes outside -/
  | output (a : Nat)
  /-- a store that is carried out as written, in `memset_s` (C11 K.3.7.4.1) and `SecureZeroMemory` -/
  | strict (a : Nat) (v : UInt8)
  deriving DecidableEq

/-- What can be observed. -/
inductive Event
  | input (v : UInt8)
  | output (v : UInt8)
  | strict (a : Nat) (v : UInt8)
  deriving DecidableEq

/-- Memory, and the bytes that will come from outside (0 behind the end of the list). -/
structure Machine where
  mem : Nat → UInt8
  coming : List UInt8

/-- Memory with `v` at `a`. -/
def put (m : Nat → UInt8) (a : Nat) (v : UInt8) : Nat → UInt8 := fun x => if x = a then v else m x

/-- What an access does. -/
def next (s : Machine) : Instr → Machine
  | .write a v => ⟨put s.mem a v, s.coming⟩
  | .copy dst src => ⟨put s.mem dst (s.mem src), s.coming⟩
  | .input a => ⟨put s.mem a (s.coming.headD 0), s.coming.tail⟩
  | .output _ => s
  | .strict a v => ⟨put s.mem a v, s.coming⟩

/-- What can be observed of it. -/
def emit (s : Machine) : Instr → List Event
  | .write _ _ => []
  | .copy _ _ => []
  | .input _ => [.input (s.coming.headD 0)]
  | .output a => [.output (s.mem a)]
  | .strict a v => [.strict a v]

/-- The machine after a program. -/
def after : List Instr → Machine → Machine
  | [], s => s
  | i :: is, s => after is (next s i)

/-- What can be observed of a program. -/
def events : List Instr → Machine → List Event
  | [], _ => []
  | i :: is, s => emit s i ++ events is (next s i)

/-- Which of the three ways of zeroing was compiled, memory.h 61-71. -/
inductive Lib
  /-- `_MSC_VER` -/
  | secureZeroMemory
  /-- `__STDC_LIB_EXT1__` -/
  | memsetS
  /-- neither: the loop `handmade_zero_mem`, 48-55 -/
  | handmade
  deriving DecidableEq

/-- The accesses of `secure_zero_memory(ptr, n)` at run time, memory.h 45-73.  Those of the loop are ordinary
stores: `aBuf` is a `std::byte *`, not a `volatile std::byte *`. -/
def zeroCode (lib : Lib) (ptr n : Nat) : List Instr :=
  (List.range n).map fun i =>
    match lib with
    | .handmade => .write (ptr + i) 0
    | .memsetS => .strict (ptr + i) 0
    | .secureZeroMemory => .strict (ptr + i) 0

end Utils.Opt
