import Verif.Model.Padding
import Verif.Model.TypeList

/-!
# The unit tests of the type and value lists, run on the model

/repo/tests/src/type_list_tests.cpp, value_list_tests.cpp and padding_checker_tests.cpp.  These are
tests, not proofs: they check that the model behaves as the repository says the code behaves.
-/

namespace Utils.Tests

open Utils

/-- The types in the tests. -/
inductive T
  | file | reader | writer | i8 | u8 | i16 | u16 | i32 | i64 | u64 | flt | dbl | chr | bool | void
  deriving DecidableEq

/-- `sizeof`. -/
def size : T → Nat
  | .file | .reader | .writer | .i8 | .u8 | .chr | .bool => 1
  | .i16 | .u16 => 2
  | .i32 | .flt => 4
  | .i64 | .u64 | .dbl => 8
  | .void => 0

/-- `std::is_enum`. -/
def isEnum : T → Bool
  | .file | .reader | .writer => true
  | _ => false

/-- `std::is_floating_point`. -/
def isFloating : T → Bool
  | .flt | .dbl => true
  | _ => false

/-- `std::is_signed`. -/
def isSigned : T → Bool
  | .i8 | .i16 | .i32 | .i64 | .flt | .dbl | .chr => true
  | _ => false

/-- `std::is_integral`. -/
def isIntegral (t : T) : Bool := !isEnum t && !isFloating t && t != .void

/-! `At`, type_list_tests.cpp 43-70. -/

/-- The list of lines 45-46. -/
def six : List T := [.file, .i32, .reader, .flt, .file, .writer]
/-- The list of lines 204-206. -/
def eight : List T := [.file, .i32, .reader, .flt, .file, .writer, .dbl, .file]
/-- The list of lines 485-487. -/
def nine : List T := [.file, .i32, .reader, .flt, .i16, .flt, .writer, .u8, .dbl]

example : (List.range 6).map (TL.atImpl · six) = six.map some := by decide +kernel
example : TL.atWithPredicate (· == T.file) 0 six = some .file := by decide +kernel
example : TL.atWithPredicate (· == T.file) 1 six = some .file := by decide +kernel
example : (List.range 4).map (TL.atWithPredicate isEnum · six)
    = [some .file, some .reader, some .file, some .writer] := by decide +kernel

/-! `IndexOf`, `FirstIndexOfType`, 72-151; the size means absent. -/

example : [isEnum, isSigned, (· == T.void)].map (TL.indexOf · []) = [0, 0, 0] := by decide +kernel
example : [isEnum, isSigned, (· == T.void)].map (TL.indexOf · [.file]) = [0, 1, 1] := by decide +kernel
example : [isSigned, isFloating, isEnum, (· == T.void)].map (TL.indexOf · six) = [1, 3, 0, 6] := by
  decide +kernel
example : [T.flt, .i32, .file].map (TL.firstIndexOfType · []) = [0, 0, 0] := by decide +kernel
example : [T.file, .i32, .chr].map (TL.firstIndexOfType · [.file]) = [0, 1, 1] := by decide +kernel
example : [T.file, .i32, .reader, .flt, .writer, .u16].map (TL.firstIndexOfType · six)
    = [0, 1, 2, 3, 5, 6] := by decide +kernel

/-! `IsSame`, `CountOf`, `CountOfPredicateCompliant`, 153-260. -/

example : TL.isSame ([] : List T) = true := by decide +kernel
example : TL.isSame [T.file] = true := by decide +kernel
example : TL.isSame six = false := by decide +kernel
example : TL.isSame [T.i32, .i32, .i32, .i32, .i32, .i32] = true := by decide +kernel
example : [T.file, .i32, .reader].map (TL.countOf · []) = [0, 0, 0] := by decide +kernel
example : [T.file, .i32, .reader].map (TL.countOf · [.file]) = [1, 0, 0] := by decide +kernel
example : [T.file, .i32, .reader, .flt, .writer, .dbl].map (TL.countOf · (six ++ [.file]))
    = [3, 1, 1, 1, 1, 0] := by decide +kernel
example : [isEnum, isIntegral, isFloating].map (TL.countOfPredicateCompliant · []) = [0, 0, 0] := by
  decide +kernel
example : [isEnum, isIntegral, isFloating].map (TL.countOfPredicateCompliant · [.file])
    = [1, 0, 0] := by decide +kernel
example : [isEnum, isFloating, isIntegral, (· == .void)].map (TL.countOfPredicateCompliant · eight)
    = [5, 2, 1, 0] := by decide +kernel

/-! `Contains`, 262-355; a query that is itself a `type_list` asks for each of its types. -/

/-- Names for `contains`. -/
def ty (t : T) : TL.Ty := .base (match t with
  | .file => 0 | .reader => 1 | .writer => 2 | .i8 => 3 | .u8 => 4 | .i16 => 5 | .u16 => 6
  | .i32 => 7 | .i64 => 8 | .u64 => 9 | .flt => 10 | .dbl => 11 | .chr => 12 | .bool => 13
  | .void => 14)

/-- `type_list<ts...>` as a query. -/
def tys (ts : List T) : TL.Ty := .tlist (ts.map ty)

example : [T.void, .i32, .reader].map (TL.contains [] ∘ ty) = [false, false, false] := by decide +kernel
example : [T.file, .i32, .reader].map (TL.contains [ty .file] ∘ ty) = [true, false, false] := by
  decide +kernel
example : [T.file, .i32, .reader, .flt, .writer, .dbl, .u8, .void].map
    (TL.contains (eight.map ty) ∘ ty) = [true, true, true, true, true, true, false, false] := by
  decide +kernel
example : TL.contains [] (tys []) = true := by decide +kernel
example : TL.contains (eight.map ty) (tys []) = true := by decide +kernel
example : TL.contains [] (tys eight) = false := by decide +kernel
example : TL.contains (eight.map ty) (tys [.i32, .writer]) = true := by decide +kernel
example : TL.contains (eight.map ty) (tys [.i32, .writer, .bool]) = false := by decide +kernel
example : TL.contains ([.file, .i32, .reader, .flt].map ty) (tys [.file, .i32, .reader, .flt])
    = true := by decide +kernel
example : TL.contains ([.file, .i32, .reader, .flt].map ty)
    (tys [.flt, .file, .i32, .reader, .flt, .reader]) = true := by decide +kernel

/-! `ContainsPredicateCompliant`, `ContainsCopies`, `ListOfPredicateCompliant`, 357-514. -/

example : [isEnum, isIntegral, isFloating].map (TL.containsPredicateCompliant · [])
    = [false, false, false] := by decide +kernel
example : [isEnum, isIntegral, isFloating].map (TL.containsPredicateCompliant · [.file])
    = [true, false, false] := by decide +kernel
example : [isEnum, isFloating, isIntegral, (· == .void)].map
    (TL.containsPredicateCompliant · eight) = [true, true, true, false] := by decide +kernel
example : TL.containsCopies ([] : List T) = false := by decide +kernel
example : TL.containsCopies [T.file] = false := by decide +kernel
example : TL.containsCopies eight = true := by decide +kernel
example : TL.containsCopies [T.file, .i32, .reader, .flt, .i16, .writer, .dbl] = false := by decide +kernel
example : TL.listOfPredicateCompliant isEnum [] = some [] := by decide +kernel
example : TL.listOfPredicateCompliant isEnum [.file] = some [.file] := by decide +kernel
example : TL.listOfPredicateCompliant isIntegral [.file] = some [] := by decide +kernel
example : TL.listOfPredicateCompliant isEnum eight
    = some [.file, .reader, .file, .writer, .file] := by decide +kernel
example : TL.listOfPredicateCompliant isFloating eight = some [.flt, .dbl] := by decide +kernel
example : TL.listOfPredicateCompliant isIntegral eight = some [.i32] := by decide +kernel
example : TL.listOfPredicateCompliant isEnum nine = some [.file, .reader, .writer] := by decide +kernel
example : TL.listOfPredicateCompliant isFloating nine = some [.flt, .flt, .dbl] := by decide +kernel
example : TL.listOfPredicateCompliant isIntegral nine = some [.i32, .i16, .u8] := by decide +kernel
example : TL.listOfPredicateCompliant (fun _ => false) nine = some [] := by decide +kernel

/-! `Concatenate`, 516-588. -/

example : TL.concatenate [([] : List T)] = some [] := by decide +kernel
example : TL.concatenate [[T.i32]] = some [.i32] := by decide +kernel
example : TL.concatenate [([] : List T), []] = some [] := by decide +kernel
example : TL.concatenate [[], [T.i32]] = some [.i32] := by decide +kernel
example : TL.concatenate [[T.i32], [.i32]] = some [.i32, .i32] := by decide +kernel
example : TL.concatenate [[T.i32, .reader, .u8], [.writer, .file, .i16]]
    = some [.i32, .reader, .u8, .writer, .file, .i16] := by decide +kernel
example : TL.concatenate
    [[[T.i32, .reader, .u8], [.writer, .file, .i16]], [[.dbl, .i32, .chr], [.flt, .reader, .u64]]]
    = some [[.i32, .reader, .u8], [.writer, .file, .i16], [.dbl, .i32, .chr],
        [.flt, .reader, .u64]] := by decide +kernel

/-! `MinSizeofIndex`, `MaxSizeofIndex`, `Sublist`, `ExcludeAt`, `SortSizeofAscending`,
`SortSizeofDescending`, 590-800. -/

example : TL.minSizeofIndex size ([.chr] : List T) = some 0 := by decide +kernel
example : TL.minSizeofIndex size ([.chr, .u8] : List T) = some 0 := by decide +kernel
example : TL.minSizeofIndex size ([.bool, .chr, .u8] : List T) = some 0 := by decide +kernel
example : TL.minSizeofIndex size ([.bool, .chr, .i16, .u8] : List T) = some 0 := by decide +kernel
example : TL.minSizeofIndex size ([.i64, .i32, .bool, .u8] : List T) = some 2 := by decide +kernel
example : TL.minSizeofIndex size ([.i64, .i32, .i32, .u8] : List T) = some 3 := by decide +kernel
example : TL.maxSizeofIndex size ([.chr] : List T) = some 0 := by decide +kernel
example : TL.maxSizeofIndex size ([.chr, .u8] : List T) = some 0 := by decide +kernel
example : TL.maxSizeofIndex size ([.bool, .chr, .u8] : List T) = some 0 := by decide +kernel
example : TL.maxSizeofIndex size ([.bool, .chr, .i16, .u8] : List T) = some 2 := by decide +kernel
example : TL.maxSizeofIndex size ([.i64, .i32, .bool, .u8] : List T) = some 0 := by decide +kernel
example : TL.maxSizeofIndex size ([.bool, .u64, .i64, .i32, .i32, .u8] : List T) = some 1 := by decide +kernel
example : TL.sublist ([] : List T) 0 0 = some [] := by decide +kernel
example : TL.sublist ([.chr] : List T) 0 1 = some [.chr] := by decide +kernel
example : TL.sublist ([.chr] : List T) 0 0 = some [] := by decide +kernel
example : TL.sublist ([.chr, .bool, .flt, .chr] : List T) 0 0 = some [] := by decide +kernel
example : TL.sublist ([.chr, .bool, .flt, .chr] : List T) 0 1 = some [.chr] := by decide +kernel
example : TL.sublist ([.chr, .bool, .flt, .chr] : List T) 0 2 = some [.chr, .bool] := by decide +kernel
example : TL.sublist ([.chr, .bool, .flt, .chr] : List T) 0 3 = some [.chr, .bool, .flt] := by decide +kernel
example : TL.sublist ([.chr, .bool, .flt, .chr] : List T) 0 4 = some [.chr, .bool, .flt, .chr] := by decide +kernel
example : TL.sublist ([.chr, .bool, .flt, .chr] : List T) 1 0 = some [] := by decide +kernel
example : TL.sublist ([.chr, .bool, .flt, .chr] : List T) 1 1 = some [.bool] := by decide +kernel
example : TL.sublist ([.chr, .bool, .flt, .chr] : List T) 1 2 = some [.bool, .flt] := by decide +kernel
example : TL.sublist ([.chr, .bool, .flt, .chr] : List T) 1 3 = some [.bool, .flt, .chr] := by decide +kernel
example : TL.sublist ([.chr, .bool, .flt, .chr] : List T) 2 0 = some [] := by decide +kernel
example : TL.sublist ([.chr, .bool, .flt, .chr] : List T) 2 1 = some [.flt] := by decide +kernel
example : TL.sublist ([.chr, .bool, .flt, .chr] : List T) 2 2 = some [.flt, .chr] := by decide +kernel
example : TL.sublist ([.chr, .bool, .flt, .chr] : List T) 3 0 = some [] := by decide +kernel
example : TL.sublist ([.chr, .bool, .flt, .chr] : List T) 3 1 = some [.chr] := by decide +kernel
example : TL.excludeAt ([.chr] : List T) 0 = some [] := by decide +kernel
example : TL.excludeAt ([.chr, .u8] : List T) 0 = some [.u8] := by decide +kernel
example : TL.excludeAt ([.chr, .u8] : List T) 1 = some [.chr] := by decide +kernel
example : TL.excludeAt ([.bool, .chr, .u8] : List T) 0 = some [.chr, .u8] := by decide +kernel
example : TL.excludeAt ([.bool, .chr, .u8] : List T) 1 = some [.bool, .u8] := by decide +kernel
example : TL.excludeAt ([.bool, .chr, .u8] : List T) 2 = some [.bool, .chr] := by decide +kernel
example : TL.excludeAt ([.flt, .chr, .i16, .u8] : List T) 0 = some [.chr, .i16, .u8] := by decide +kernel
example : TL.excludeAt ([.flt, .chr, .i16, .u8] : List T) 1 = some [.flt, .i16, .u8] := by decide +kernel
example : TL.excludeAt ([.flt, .chr, .i16, .u8] : List T) 2 = some [.flt, .chr, .u8] := by decide +kernel
example : TL.excludeAt ([.flt, .chr, .i16, .u8] : List T) 3 = some [.flt, .chr, .i16] := by decide +kernel
example : TL.sortAscending size ([] : List T)
    = some [] := by decide +kernel
example : TL.sortAscending size ([.bool] : List T)
    = some [.bool] := by decide +kernel
example : TL.sortAscending size ([.bool, .chr] : List T)
    = some [.bool, .chr] := by decide +kernel
example : TL.sortAscending size ([.bool, .chr, .i8] : List T)
    = some [.bool, .chr, .i8] := by decide +kernel
example : TL.sortAscending size ([.bool, .i16] : List T)
    = some [.bool, .i16] := by decide +kernel
example : TL.sortAscending size ([.i16, .bool] : List T)
    = some [.bool, .i16] := by decide +kernel
example : TL.sortAscending size ([.flt, .bool, .i16] : List T)
    = some [.bool, .i16, .flt] := by decide +kernel
example : TL.sortAscending size ([.flt, .i16, .bool] : List T)
    = some [.bool, .i16, .flt] := by decide +kernel
example : TL.sortAscending size ([.flt, .i16, .bool, .chr] : List T)
    = some [.bool, .chr, .i16, .flt] := by decide +kernel
example : TL.sortAscending size ([.u16, .flt, .i16, .bool, .chr] : List T)
    = some [.bool, .chr, .u16, .i16, .flt] := by decide +kernel
example : TL.sortDescending size ([] : List T)
    = some [] := by decide +kernel
example : TL.sortDescending size ([.bool] : List T)
    = some [.bool] := by decide +kernel
example : TL.sortDescending size ([.bool, .chr] : List T)
    = some [.bool, .chr] := by decide +kernel
example : TL.sortDescending size ([.bool, .chr, .i8] : List T)
    = some [.bool, .chr, .i8] := by decide +kernel
example : TL.sortDescending size ([.bool, .i16] : List T)
    = some [.i16, .bool] := by decide +kernel
example : TL.sortDescending size ([.i16, .bool] : List T)
    = some [.i16, .bool] := by decide +kernel
example : TL.sortDescending size ([.flt, .bool, .i16] : List T)
    = some [.flt, .i16, .bool] := by decide +kernel
example : TL.sortDescending size ([.flt, .i16, .bool] : List T)
    = some [.flt, .i16, .bool] := by decide +kernel
example : TL.sortDescending size ([.flt, .i16, .bool, .chr] : List T)
    = some [.flt, .i16, .bool, .chr] := by decide +kernel
example : TL.sortDescending size ([.u16, .flt, .i16, .bool, .chr] : List T)
    = some [.flt, .u16, .i16, .bool, .chr] := by decide +kernel

/-! `CartesianProduct`, 802-892 and value_list_tests.cpp 434-496; the products of values have the same
shape. -/

example : CP.product [[1], [4, 5]] = some [[1, 4], [1, 5]] := by decide +kernel
example : CP.product [[1, 2, 3], [4, 5]] = some [[1, 4], [1, 5], [2, 4], [2, 5], [3, 4], [3, 5]] := by
  decide +kernel
example : CP.product [[1, 2, 3], [4, 5], [6, 7]] = some [[1, 4, 6], [1, 4, 7], [1, 5, 6], [1, 5, 7],
    [2, 4, 6], [2, 4, 7], [2, 5, 6], [2, 5, 7], [3, 4, 6], [3, 4, 7], [3, 5, 6], [3, 5, 7]] := by
  decide +kernel
example : CP.product [[1, 2, 3], [4, 5], [6]]
    = some [[1, 4, 6], [1, 5, 6], [2, 4, 6], [2, 5, 6], [3, 4, 6], [3, 5, 6]] := by decide +kernel
example : CP.product [[111], [222]] = some [[111, 222]] := by decide +kernel

/-! Value lists, value_list_tests.cpp 28-330. -/

/-- `eFileError::k…` -/
def file (v : Int) : VL.TVal T := ⟨.file, v⟩
def reader (v : Int) : VL.TVal T := ⟨.reader, v⟩
def writer (v : Int) : VL.TVal T := ⟨.writer, v⟩
def int (v : Int) : VL.TVal T := ⟨.i32, v⟩

example : [0, 1, 2].map (VL.at' · [file 1, int 10, reader 1])
    = [some (file 1), some (int 10), some (reader 1)] := by decide +kernel
example : [file 1, int 10].map (VL.indexOf · []) = [0, 0] := by decide +kernel
example : [file 6, int 1, file 3].map (VL.indexOf · [file 6]) = [0, 1, 1] := by decide +kernel
example : [file 1, int 8, reader 1, file 0, writer 0, int 0].map
    (VL.indexOf · [file 1, int 8, reader 1, file 0, writer 0, file 1]) = [0, 1, 2, 3, 4, 6] := by
  decide +kernel
example : VL.isSame ([] : List (VL.TVal T)) = true := by decide +kernel
example : VL.isSame [file 3] = true := by decide +kernel
example : VL.isSame [file 1, int 0, reader 0, file 3] = false := by decide +kernel
example : VL.isSame [int 0, int 0, int 0, int 0, int 0, int 0] = true := by decide +kernel
example : [file 3, int 1, reader 1].map (VL.countOf · []) = [0, 0, 0] := by decide +kernel
example : [file 3, int 0, reader 0].map (VL.countOf · [file 3]) = [1, 0, 0] := by decide +kernel
example : [file 3, int 10, reader 1, writer 1, file 0, ⟨.i8, 3⟩].map
    (VL.countOf · [file 3, int 10, reader 1, file 3, writer 1, file 0]) = [2, 1, 1, 1, 1, 0] := by
  decide +kernel
example : [int 0, file 1, ⟨.i8, 1⟩].map (VL.contains · []) = [false, false, false] := by decide +kernel
example : [file 2, int 10, reader 1].map (VL.contains · [file 2]) = [true, false, false] := by decide +kernel
example : [file 1, int 10, reader 0, file 0, writer 0, ⟨.i8, 15⟩, int 1].map
    (VL.contains · [file 1, int 10, reader 0, file 0, writer 0, file 0])
    = [true, true, true, true, true, false, false] := by decide +kernel
example : VL.containsCopies ([] : List (VL.TVal T)) = false := by decide +kernel
example : VL.containsCopies [file 3] = false := by decide +kernel
example : VL.containsCopies [file 1, int 10, reader 1, file 3, writer 2, file 1] = true := by decide +kernel
example : VL.containsCopies [file 1, int 10, reader 1, file 3, writer 2, file 6] = false := by decide +kernel
example : [T.file, .i32, .reader].map (VL.containsType · []) = [false, false, false] := by decide +kernel
example : [T.file, .i32, .reader].map (VL.containsType · [file 3]) = [true, false, false] := by decide +kernel
example : [T.file, .i32, .reader, .writer, .u8].map
    (VL.containsType · [file 3, int 10, reader 1, file 3, writer 1, file 0])
    = [true, true, true, true, false] := by decide +kernel

/-- The list of `MinValueOfTypeT` and `MaxValueOfTypeT`, lines 285-288 and 319-322. -/
def seven : List (VL.TVal T) := [file 1, int 10, reader 1, file 3, writer 2, reader 0, file 1]

example : VL.min T.file [file 3] = some 3 := by decide +kernel
example : [T.file, .i32, .reader].map (VL.min · seven) = [some 1, some 10, some 0] := by decide +kernel
example : VL.min T.file [file 6, int 10, reader 1, file 3, writer 2, file 1] = some 1 := by decide +kernel
example : VL.max T.file [file 3] = some 3 := by decide +kernel
example : [T.file, .i32, .reader, .writer].map (VL.max · seven)
    = [some 3, some 10, some 1, some 2] := by decide +kernel
example : VL.max T.file [file 1, int 10, reader 1, file 3, writer 2, file 6] = some 6 := by decide +kernel
example : [T.file, .i32].map (VL.allOf · []) = [some [], some []] := by decide +kernel
example : [T.file, .i32].map (VL.allOf · [file 3]) = [some [file 3], some []] := by decide +kernel
example : [T.file, .reader, .writer, .flt].map (VL.allOf · seven)
    = [some [file 1, file 3, file 1], some [reader 1, reader 0], some [writer 2], some []] := by
  decide +kernel
example : TL.concatenate [[int 111, reader 1, ⟨.u8, 3⟩], [writer 1, file 2, ⟨.i16, 0⟩],
    [⟨.chr, 116⟩, int 333]]
    = some [int 111, reader 1, ⟨.u8, 3⟩, writer 1, file 2, ⟨.i16, 0⟩, ⟨.chr, 116⟩, int 333] := by
  decide +kernel

/-! padding_checker_tests.cpp. -/

namespace Layout

open Padding

def int : Ty := .scalar 4 4
def char : Ty := .scalar 1 1
def withPadding : Ty := .cls true 1 [char, int, char]
def noPadding : Ty := .cls true 1 [int, int, int]

example : hasPadding true (.scalar 4 4) = some false := by decide +kernel
example : hasPadding true withPadding = some true := by decide +kernel
example : hasPadding true noPadding = some false := by decide +kernel
example : hasPadding true (.cls true 1 [int, int, int, withPadding]) = some true := by decide +kernel
example : hasPadding true (.cls true 1 [int, noPadding, int, int]) = some false := by decide +kernel
example : hasPadding false (.cls false 1 [.scalar 4 4, char, int]) = some true := by decide +kernel
example : hasPadding false (.cls false 1 [char, char, char]) = some true := by decide +kernel

end Layout

end Utils.Tests
