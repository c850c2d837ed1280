import Verif.Mapped.Several.Props
import Verif.Mapped.Pointer.Props
import Verif.Mapped.Str.Props
import Verif.Mapped.DualStr.Props
import Verif.Mapped.DualPtr.Props

/-
Unit tests of the repository transcribed to the models of the mapped containers.  These are evaluations on literals:
tests of the models, not proofs; no claim of the manifest rests on them.  Each line is a call and its expected result.
Doubles are represented by natural numbers: 32 is 3.2.  The hash map implementations and the values left in moved-from maps
vary from test to test.
-/
namespace Verif.Mapped.UnitTests
open Verif.Mapped

/-- run the calls and compare with the expected results -/
def passes {O R : Type} [DecidableEq R] (run : List O → Option (List R)) (test : List (O × R)) : Bool :=
  decide (run (test.map (·.1)) = some (test.map (·.2)))

/-- `std::vector<double>(n)` -/
def zeros (n : Nat) : List Nat := List.replicate n 0
/-- `std::vector<double>(3, 1.7)` -/
def threes : List Nat := [17, 17, 17]

/-! ### tests/MappedVectorTests.cpp, tests/MappedVectorTestsStable.cpp -/
section Vector
open Verif.Mapped.Several Verif.Mapped.Vector

def unstable {V : Type} (ops : List (Several.Op (Vector.Op String V))) : Option (List (Obs V)) :=
  (runMapped MapImpl.atEnd (some "") id ops).map (·.2)
def stable {V : Type} (ops : List (Several.Op (Vector.Op String V))) : Option (List (Obs V)) :=
  (runMappedStable 5 MapImpl.atFront (some "") (fun _ => []) ops).map (·.2)

-- definition_tests
def definition : List (Several.Op (Vector.Op String Nat) × Obs Nat) := [
  (.new 0, .done), (.call 0 .size, .num 0),
  (.new 2, .done), (.moveAssign 2 0, .done), (.new 3, .done), (.copyAssign 3 2, .done),
  (.destroy 3, .done), (.destroy 2, .done), (.destroy 0, .done)]
#guard passes unstable definition
#guard passes stable definition

-- insertion_tests
def insertion : List (Several.Op (Vector.Op String (List Nat)) × Obs (List Nat)) := [
  (.new 0, .done),
  (.call 0 (.insert "el1" threes), .index (some 0)), (.call 0 .size, .num 1),
  (.call 0 (.insert "a2" (zeros 45)), .index (some 1)), (.call 0 .size, .num 2),
  (.call 0 (.get 0), .val threes), (.call 0 (.get 1), .val (zeros 45)),
  (.call 0 (.find "el1"), .found (some threes)), (.call 0 (.find "a2"), .found (some (zeros 45))),
  (.call 0 (.insert "a2" (zeros 14)), .index none),
  (.call 0 (.find "not_available"), .found none),
  (.call 0 .back, .val (zeros 45)), (.destroy 0, .done)]
#guard passes unstable insertion
#guard passes stable insertion

-- insert_or_assign
def insertOrAssign : List (Several.Op (Vector.Op String (List Nat)) × Obs (List Nat)) := [
  (.new 0, .done),
  (.call 0 (.insert "el1" threes), .index (some 0)), (.call 0 .size, .num 1),
  (.call 0 (.insert "a2" (zeros 45)), .index (some 1)), (.call 0 .size, .num 2),
  (.call 0 (.get 0), .val threes), (.call 0 (.get 1), .val (zeros 45)),
  (.call 0 (.insert "a2" (zeros 14)), .index none),
  (.call 0 (.insertOrAssign "a2" (zeros 14)), .index (some 1)),
  (.call 0 (.find "a2"), .found (some (zeros 14))), (.call 0 .back, .val (zeros 14)),
  (.call 0 (.insertOrAssign "a3" (zeros 16)), .index (some 2)),
  (.call 0 .back, .val (zeros 16)), (.call 0 (.get 2), .val (zeros 16)), (.call 0 .size, .num 3), (.destroy 0, .done)]
#guard passes unstable insertOrAssign
#guard passes stable insertOrAssign

-- insertion_tests_nomap
def nomap : List (Several.Op (Vector.Op String (List Nat)) × Obs (List Nat)) := [
  (.new 0, .done),
  (.call 0 (.insert "el1" threes), .index (some 0)), (.call 0 (.insert "a2" (zeros 45)), .index (some 1)),
  (.call 0 (.insertNoKey (zeros 22)), .index (some 2)), (.call 0 (.get 2), .val (zeros 22)), (.destroy 0, .done)]
#guard passes unstable nomap
#guard passes stable nomap

def four : List (Several.Op (Vector.Op String Nat) × Obs Nat) := [
  (.new 0, .done), (.call 0 (.insert "s1" 32), .index (some 0)), (.call 0 (.insert "s2" 43), .index (some 1)),
  (.call 0 (.insert "s3" 97), .index (some 2)), (.call 0 (.insert "s4" 114), .index (some 3)), (.call 0 .size, .num 4)]

-- apply_tests, iterator_tests (stable)
def applyTest : List (Several.Op (Vector.Op String Nat) × Obs Nat) := four ++ [
  (.call 0 .apply, .vals [32, 43, 97, 114]), (.call 0 (.transform (· + 10)), .done),
  (.call 0 (.get 0), .val 42), (.call 0 (.get 1), .val 53), (.call 0 (.get 2), .val 107),
  (.call 0 .apply, .vals [42, 53, 107, 124]), (.destroy 0, .done)]
#guard passes unstable applyTest
#guard passes stable applyTest

-- modify_tests
def modifyTest : List (Several.Op (Vector.Op String Nat) × Obs Nat) := four ++ [
  (.call 0 (.modify (· + 10)), .done),
  (.call 0 (.get 0), .val 42), (.call 0 (.get 1), .val 53), (.call 0 (.get 2), .val 107), (.destroy 0, .done)]
#guard passes unstable modifyTest
#guard passes stable modifyTest

-- remove_tests, unstable
#guard passes unstable <| four ++ [
  (.call 0 (.removeIndex 1), .done), (.call 0 .size, .num 3), (.call 0 (.removeIndex 45), .done), (.call 0 .size, .num 3),
  (.call 0 (.find "s2"), .found none), (.call 0 (.get 1), .val 97), (.call 0 (.find "s4"), .found (some 114)),
  (.call 0 (.remove "s1"), .done), (.call 0 .size, .num 2), (.call 0 (.find "s4"), .found (some 114)),
  (.call 0 (.get 0), .val 97), (.call 0 (.remove "s1"), .done), (.call 0 .size, .num 2),
  (.moveNew 2 0, .done), (.call 2 .size, .num 2),
  (.copyNew 3 2, .done), (.call 2 .size, .num 2), (.call 3 .size, .num 2),
  (.call 3 .clear, .done), (.call 2 .size, .num 2), (.call 3 .size, .num 0),
  (.destroy 3, .done), (.destroy 2, .done), (.destroy 0, .done)]

-- remove_tests, stable
#guard passes stable <| four ++ [
  (.call 0 (.removeIndex 1), .done), (.call 0 (.find "s2"), .found none), (.call 0 (.get 1), .val 43),
  (.call 0 (.find "s4"), .found (some 114)), (.call 0 (.removeIndex 3), .done), (.call 0 (.find "s4"), .found none),
  (.call 0 (.remove "s1"), .done), (.call 0 (.find "s3"), .found (some 97)), (.call 0 (.get 0), .val 32),
  (.moveNew 2 0, .done), (.call 2 .size, .num 3),
  (.copyNew 3 2, .done), (.call 2 .size, .num 3), (.call 3 .size, .num 3),
  (.call 3 .clear, .done), (.call 2 .size, .num 3), (.call 3 .size, .num 0),
  (.destroy 3, .done), (.destroy 2, .done), (.destroy 0, .done)]

-- empty_find
def emptyFind : List (Several.Op (Vector.Op String Nat) × Obs Nat) := [
  (.new 0, .done), (.call 0 (.find "string1"), .found none), (.destroy 0, .done)]
#guard passes unstable emptyFind
#guard passes stable emptyFind

end Vector

/-! ### tests/DualMappedVectorTests.cpp, tests/DualMappedVectorTestsStable.cpp -/
section Dual
open Verif.Mapped.Several
open Verif.Mapped.Vector (Obs)

def dualUnstable {V : Type} (ops : List (Several.Op (Dual.Op String Int V))) : Option (List (Obs V)) :=
  (runDual MapImpl.atEnd MapImpl.atFront id ops).map (·.2)
def dualStable {V : Type} (ops : List (Several.Op (Dual.Op String Int V))) : Option (List (Obs V)) :=
  (runDualStable 5 MapImpl.atFront MapImpl.atEnd (fun _ => ([], [])) ops).map (·.2)

-- definition_tests
def dualDefinition : List (Several.Op (Dual.Op String Int Nat) × Obs Nat) := [
  (.new 0, .done), (.call 0 .size, .num 0),
  (.new 2, .done), (.moveAssign 2 0, .done), (.new 3, .done), (.copyAssign 3 2, .done),
  (.destroy 3, .done), (.destroy 2, .done), (.destroy 0, .done)]
#guard passes dualUnstable dualDefinition
#guard passes dualStable dualDefinition

-- insertion_tests
def dualInsertionCalls : List (Dual.Op String Int (List Nat) × Obs (List Nat)) := [
  (.insert (some "el1") (some 41) threes, .index (some 0)), (.size, .num 1),
  (.insert (some "a2") (some 27) (zeros 45), .index (some 1)), (.size, .num 2),
  (.get 0, .val threes), (.get 1, .val (zeros 45)),
  (.find (.inl "el1"), .found (some threes)), (.find (.inl "a2"), .found (some (zeros 45))),
  (.find (.inr 41), .found (some threes))]

-- insertion_tests2
def dualInsertionCalls2 : List (Dual.Op String Int Nat × Obs Nat) := [
  (.insert (some "el1") (some 0) 17, .index (some 0)), (.insert (some "el2") (some 1) 34, .index (some 1)),
  (.insert (some "el2") (some 1) 222, .index none),
  (.insert (some "el3") none 51, .index (some 2)), (.insert (some "el3") none 98, .index none),
  (.insert none (some 3) 99, .index (some 3)), (.insert none (some 3) 147, .index none),
  (.insert none none 999, .index (some 4)), (.get 4, .val 999)]

-- assign_tests2
def dualAssignCalls : List (Dual.Op String Int Nat × Obs Nat) := [
  (.insert (some "el1") (some 0) 17, .index (some 0)), (.insert (some "el2") (some 1) 34, .index (some 1)),
  (.insertOrAssign "el2" 1 222, .index (some 1)),
  (.insertOrAssignOne (.inl "el3") 51, .index (some 2)), (.insertOrAssignOne (.inl "el3") 98, .index (some 2)),
  (.get 2, .val 98),
  (.insertOrAssignOne (.inr 3) 99, .index (some 3)), (.insertOrAssignOne (.inr 3) 147, .index (some 3)), (.get 3, .val 147)]

-- assign_tests2, stable
def dualAssignCallsStable : List (Dual.Op String Int Nat × Obs Nat) := [
  (.insertOrAssign "el1" 0 17, .index (some 0)), (.insertOrAssign "el2" 1 34, .index (some 1)),
  (.insertOrAssign "el2" 1 222, .index (some 1)), (.insertOrAssign "el2" 4 222, .index (some 1)),
  (.insertOrAssignOne (.inl "el3") 51, .index (some 2)), (.insertOrAssignOne (.inl "el3") 98, .index (some 2)),
  (.get 2, .val 98),
  (.insertOrAssignOne (.inr 3) 99, .index (some 3)), (.insertOrAssignOne (.inr 3) 147, .index (some 3)), (.get 3, .val 147)]

def dualFour : List (Dual.Op String Int Nat × Obs Nat) := [
  (.insert (some "s1") (some 64) 32, .index (some 0)), (.insert (some "s2") (some 63) 43, .index (some 1)),
  (.insert (some "s3") (some 47) 97, .index (some 2)), (.insert (some "s4") (some 92) 114, .index (some 3))]

-- additional_searchTerm_tests
def dualTerms : List (Dual.Op String Int Nat × Obs Nat) := dualFour ++ [
  (.size, .num 4), (.addTerm (.inl "s5") (.inl "s1"), .bool true), (.size, .num 4), (.find (.inl "s5"), .found (some 32)),
  (.addTerm (.inr 93) (.inr 47), .bool true), (.find (.inr 93), .found (some 97)),
  (.addTerm (.inr 143) (.inl "s3"), .bool true), (.find (.inr 143), .found (some 97)),
  (.addTerm (.inl "extra") (.inr 63), .bool true), (.find (.inl "extra"), .found (some 43)),
  (.addTermForIndex (.inl "astring") 3, .bool true), (.find (.inl "astring"), .found (some 114)),
  (.addTermForIndex (.inr 99) 2, .bool true), (.find (.inr 99), .found (some 97)),
  (.addTermForIndex (.inr 99) 99, .bool false), (.addTermForIndex (.inl "bob") 127, .bool false),
  (.addTerm (.inl "missing") (.inl "none"), .bool false), (.addTerm (.inr 1241) (.inr 98), .bool false),
  (.addTerm (.inl "missing") (.inr 98), .bool false), (.addTerm (.inr 1241) (.inl "none"), .bool false)]

-- iterator_tests, transform_tests (stable)
def dualIterator : List (Dual.Op String Int Nat × Obs Nat) := dualFour ++ [
  (.size, .num 4), (.transform (· + 10), .done), (.get 0, .val 42), (.get 1, .val 53), (.get 2, .val 107),
  (.apply, .vals [42, 53, 107, 124])]

-- modify_tests (stable)
def dualModify : List (Dual.Op String Int Nat × Obs Nat) := dualFour ++ [
  (.size, .num 4), (.modify (· + 10), .done), (.get 0, .val 42), (.get 1, .val 53), (.get 2, .val 107)]

-- const_find_tests
def dualFind : List (Dual.Op String Int Nat × Obs Nat) := dualFour ++ [
  (.find (.inl "s1"), .found (some 32)), (.find (.inl "s7"), .found none),
  (.find (.inr 63), .found (some 43)), (.find (.inr 99), .found none)]

-- apply_tests
def dualApply : List (Dual.Op String Int Nat × Obs Nat) := dualFour ++ [
  (.back, .val 114), (.size, .num 4), (.apply, .vals [32, 43, 97, 114]), (.transform (· + 10), .done),
  (.get 0, .val 42), (.get 1, .val 53), (.get 2, .val 107), (.apply, .vals [42, 53, 107, 124])]

-- empty_find
def dualEmptyFind : List (Dual.Op String Int Nat × Obs Nat) := [(.find (.inl "string1"), .found none)]

/-- one object -/
def one {C V : Type} (calls : List (C × Obs V)) : List (Several.Op C × Obs V) :=
  (.new 0, .done) :: calls.map (fun c => (.call 0 c.1, c.2)) ++ [(.destroy 0, .done)]

#guard passes dualUnstable (one dualInsertionCalls)
#guard passes dualStable (one dualInsertionCalls)
#guard passes dualUnstable (one dualInsertionCalls2)
#guard passes dualStable (one dualInsertionCalls2)
#guard passes dualUnstable (one dualAssignCalls)
#guard passes dualUnstable (one dualAssignCallsStable)
#guard passes dualStable (one dualAssignCalls)
#guard passes dualStable (one dualAssignCallsStable)
#guard passes dualUnstable (one dualTerms)
#guard passes dualStable (one dualTerms)
#guard passes dualUnstable (one dualIterator)
#guard passes dualStable (one dualIterator)
#guard passes dualUnstable (one dualModify)
#guard passes dualStable (one dualModify)
#guard passes dualUnstable (one dualFind)
#guard passes dualStable (one dualFind)
#guard passes dualUnstable (one dualApply)
#guard passes dualStable (one dualApply)
#guard passes dualUnstable (one dualEmptyFind)
#guard passes dualStable (one dualEmptyFind)

-- remove_tests, unstable
#guard passes dualUnstable <| (.new 0, .done) :: dualFour.map (fun c => (.call 0 c.1, c.2)) ++ [
  (.call 0 (.addTerm (.inl "s5") (.inr 64)), .bool true), (.call 0 (.addTermForIndex (.inr 107) 2), .bool true),
  (.call 0 .size, .num 4), (.call 0 (.addTermForIndex (.inl "test") 207), .bool false),
  (.call 0 (.addTermForIndex (.inr 99) 207), .bool false), (.call 0 (.removeIndex 1), .done), (.call 0 .size, .num 3),
  (.call 0 (.removeIndex 99), .done), (.call 0 .size, .num 3),
  (.call 0 (.find (.inl "s2")), .found none), (.call 0 (.get 1), .val 97), (.call 0 (.find (.inl "s4")), .found (some 114)),
  (.call 0 (.find (.inl "s5")), .found (some 32)), (.call 0 (.remove (.inl "s1")), .done), (.call 0 .size, .num 2),
  (.call 0 (.remove (.inl "s1")), .done), (.call 0 .size, .num 2),
  (.call 0 (.find (.inl "s4")), .found (some 114)), (.call 0 (.get 0), .val 97), (.call 0 (.find (.inl "s5")), .found none),
  (.call 0 (.find (.inr 107)), .found (some 97)),
  (.moveNew 2 0, .done), (.call 2 .size, .num 2), (.copyNew 3 2, .done), (.call 2 .size, .num 2), (.call 3 .size, .num 2),
  (.call 3 (.remove (.inr 92)), .done), (.call 2 .size, .num 2), (.call 3 (.remove (.inr 92)), .done),
  (.call 2 .size, .num 2), (.call 3 .size, .num 1), (.call 3 .clear, .done), (.call 2 .size, .num 2),
  (.call 3 .size, .num 0), (.destroy 3, .done), (.destroy 2, .done), (.destroy 0, .done)]

-- remove_tests, stable
#guard passes dualStable <| (.new 0, .done) :: dualFour.map (fun c => (.call 0 c.1, c.2)) ++ [
  (.call 0 (.addTerm (.inl "s5") (.inr 64)), .bool true), (.call 0 (.addTermForIndex (.inr 107) 2), .bool true),
  (.call 0 .size, .num 4), (.call 0 (.removeIndex 1), .done),
  (.call 0 (.find (.inl "s2")), .found none), (.call 0 (.get 3), .val 114), (.call 0 (.find (.inl "s4")), .found (some 114)),
  (.call 0 (.find (.inl "s5")), .found (some 32)), (.call 0 (.remove (.inl "s4")), .done), (.call 0 .size, .num 3),
  (.call 0 (.find (.inl "s4")), .found none), (.call 0 (.get 2), .val 97), (.call 0 (.find (.inr 107)), .found (some 97)),
  (.moveNew 2 0, .done), (.call 2 .size, .num 3), (.copyNew 3 2, .done), (.call 2 .size, .num 3), (.call 3 .size, .num 3),
  (.call 3 (.remove (.inr 47)), .done), (.call 2 .size, .num 3), (.call 3 .size, .num 2),
  (.call 3 .clear, .done), (.call 2 .size, .num 3), (.call 3 .size, .num 0),
  (.destroy 3, .done), (.destroy 2, .done), (.destroy 0, .done)]

end Dual

/-! ### tests/StringMappedVectorTests.cpp (its copies are the subject of `Str.copy_violation`) -/
section Str
open Verif.Mapped.Vector (Obs)
open Verif.Mapped.Str
open Verif.Block

def strStable {V : Type} (ops : List (Str.Op V)) : Option (List (Obs V)) :=
  (run (stableEnv 5 MapImpl.atEnd (fun s => s.length)) (SMV.init (stableEnv 5 MapImpl.atEnd (fun s => s.length))) Heap.empty ops).map
    (·.2.2)

-- insertion_tests
#guard passes strStable [
  (.insert "el1" threes, .index (some 0)), (.size, .num 1), (.insert "a2" (zeros 45), .index (some 1)), (.size, .num 2),
  (.get 0, .val threes), (.get 1, .val (zeros 45)), (.find "el1", .found (some threes)), (.find "a2", .found (some (zeros 45))),
  (.insert "a2" (zeros 14), .index none), (.find "not_available", .found none), (.back, .val (zeros 45))]
-- insert_or_assign
#guard passes strStable [
  (.insert "el1" threes, .index (some 0)), (.insert "a2" (zeros 45), .index (some 1)),
  (.insert "a2" (zeros 14), .index none), (.insertOrAssign "a2" (zeros 14), .index (some 1)),
  (.find "a2", .found (some (zeros 14))), (.back, .val (zeros 14)), (.insertOrAssign "a3" (zeros 16), .index (some 2)),
  (.back, .val (zeros 16)), (.get 2, .val (zeros 16)), (.size, .num 3)]
-- insertion_tests_nomap
#guard passes strStable [
  (.insert "el1" threes, .index (some 0)), (.insert "a2" (zeros 45), .index (some 1)),
  (.insertNoKey (zeros 22), .index (some 2)), (.get 2, .val (zeros 22))]

def strFour : List (Str.Op Nat × Obs Nat) := [
  (.insert "s1" 32, .index (some 0)), (.insert "s2" 43, .index (some 1)), (.insert "s3" 97, .index (some 2)),
  (.insert "s4" 114, .index (some 3)), (.size, .num 4)]
-- apply_tests
#guard passes strStable <| strFour ++ [
  (.apply, .vals [32, 43, 97, 114]), (.transform (· + 10), .done), (.get 0, .val 42), (.get 1, .val 53), (.get 2, .val 107),
  (.apply, .vals [42, 53, 107, 124])]
-- modify_tests
#guard passes strStable <| strFour ++ [
  (.modify (· + 10), .done), (.get 0, .val 42), (.get 1, .val 53), (.get 2, .val 107)]
-- remove_tests
#guard passes strStable <| strFour ++ [
  (.removeIndex 1, .done), (.find "s2", .found none), (.get 1, .val 43), (.find "s4", .found (some 114)),
  (.removeIndex 3, .done), (.find "s4", .found none), (.remove "s1", .done), (.find "s3", .found (some 97)),
  (.get 0, .val 32), (.size, .num 3), (.clear, .done), (.size, .num 0)]
-- empty_find
#guard passes (R := Obs Nat) strStable [(.find "string1", .found none)]

end Str

/-! ### tests/DualStringMappedVectorTests.cpp -/
section DualStr
open Verif.Mapped.Vector (Obs)
open Verif.Mapped.DualStr
open Verif.Block

def dualStrStable {V : Type} (ops : List (Dual.Op String Int V)) : Option (List (Obs V)) :=
  let E := stableEnv 5 MapImpl.atEnd MapImpl.atFront (fun s => s.length)
  (run E (DSV.init E) Heap.empty ops).map (·.2.2)

#guard passes dualStrStable dualInsertionCalls
#guard passes dualStrStable dualInsertionCalls2
#guard passes dualStrStable dualAssignCalls
#guard passes dualStrStable dualTerms
#guard passes dualStrStable dualIterator
#guard passes dualStrStable dualFind
#guard passes dualStrStable dualApply
-- remove_tests
#guard passes dualStrStable <| dualFour ++ [
  (.addTerm (.inl "s5") (.inr 64), .bool true), (.addTermForIndex (.inr 107) 2, .bool true), (.size, .num 4),
  (.removeIndex 1, .done), (.find (.inl "s2"), .found none), (.get 3, .val 114), (.find (.inl "s4"), .found (some 114)),
  (.find (.inl "s5"), .found (some 32)), (.remove (.inl "s4"), .done), (.size, .num 3), (.find (.inl "s4"), .found none),
  (.get 2, .val 97), (.find (.inr 107), .found (some 97)), (.remove (.inr 47), .done), (.size, .num 2), (.clear, .done),
  (.size, .num 0)]

end DualStr

/-! ### tests/MappedPointerVectorTests.cpp -/
section Pointer
open Verif.Mapped.Pointer

def pointers {V : Type} (ops : List (Pointer.Op String V)) : Option (List (Pointer.Obs V)) :=
  (run MapImpl.atEnd (some "") World.init ops).map (·.2)

-- insertion
#guard passes pointers [
  (.insert "el1" threes, .index (some 0)), (.size, .num 1), (.insert "a2" (zeros 45), .index (some 1)), (.size, .num 2),
  (.get 0, .ptr (some (0, threes))), (.get 1, .ptr (some (1, zeros 45))),
  (.find "el1", .ptr (some (0, threes))), (.find "a2", .ptr (some (1, zeros 45)))]
-- insertion_no_search
#guard passes pointers [
  (.insert "el1" threes, .index (some 0)), (.size, .num 1), (.insertNoKey (zeros 45), .index (some 1)), (.size, .num 2),
  (.get 0, .ptr (some (0, threes))), (.get 1, .ptr (some (1, zeros 45))), (.find "el1", .ptr (some (0, threes))),
  (.find "a2", .ptr none), (.addTerm "a2" 1, .bool true), (.find "a2", .ptr (some (1, zeros 45)))]

def pointersFour : List (Pointer.Op String Nat × Pointer.Obs Nat) := [
  (.insert "s1" 32, .index (some 0)), (.insert "s2" 43, .index (some 1)), (.insert "s3" 97, .index (some 2)),
  (.insert "s4" 114, .index (some 3)), (.size, .num 4)]
-- iterator (the function passed to apply writes through its pointer)
#guard passes pointers <| pointersFour ++ [
  (.apply, .ptrs [some (0, 32), some (1, 43), some (2, 97), some (3, 114)]),
  (.write 0 42, .done), (.write 1 53, .done), (.write 2 107, .done), (.write 3 124, .done),
  (.get 0, .ptr (some (0, 42))), (.get 1, .ptr (some (1, 53))), (.get 2, .ptr (some (2, 107)))]
-- remove
#guard passes pointers <| pointersFour ++ [
  (.removeIndex 1, .done), (.size, .num 3), (.find "s2", .ptr none), (.get 1, .ptr (some (2, 97))),
  (.find "s4", .ptr (some (3, 114))), (.remove "s1", .done), (.size, .num 2), (.find "s4", .ptr (some (3, 114))),
  (.get 0, .ptr (some (2, 97))), (.clear, .done), (.size, .num 0)]

end Pointer

/-! ### tests/DualMappedPointerVectorTests.cpp -/
section DualPtr
open Verif.Mapped.DualPtr
open Verif.Mapped.Pointer (Obs)

def dualPointers {V : Type} (ops : List (DualPtr.Op String Int V)) : Option (List (Obs V)) :=
  (run ⟨MapImpl.atEnd, MapImpl.atFront, some "", some 0⟩ World.init ops).map (·.2)

-- insertion_tests
#guard passes dualPointers [
  (.insert "el1" 41 threes, .index (some 0)), (.size, .num 1), (.insert "a2" 27 (zeros 45), .index (some 1)), (.size, .num 2),
  (.get 0, .ptr (some (0, threes))), (.get 1, .ptr (some (1, zeros 45))),
  (.find (.inl "el1"), .ptr (some (0, threes))), (.find (.inl "a2"), .ptr (some (1, zeros 45))),
  (.find (.inr 41), .ptr (some (0, threes)))]

def dualPointersFour : List (DualPtr.Op String Int Nat × Obs Nat) := [
  (.insert "s1" 64 32, .index (some 0)), (.insert "s2" 63 43, .index (some 1)), (.insert "s3" 47 97, .index (some 2)),
  (.insert "s4" 92 114, .index (some 3)), (.size, .num 4)]
-- iterator_tests
#guard passes dualPointers <| dualPointersFour ++ [
  (.apply, .ptrs [some (0, 32), some (1, 43), some (2, 97), some (3, 114)]),
  (.write 0 42, .done), (.write 1 53, .done), (.write 2 107, .done), (.write 3 124, .done),
  (.get 0, .ptr (some (0, 42))), (.get 1, .ptr (some (1, 53))), (.get 2, .ptr (some (2, 107)))]
-- remove_tests
#guard passes dualPointers <| dualPointersFour ++ [
  (.removeIndex 1, .done), (.size, .num 3), (.find (.inl "s2"), .ptr none), (.find (.inr 63), .ptr none),
  (.get 1, .ptr (some (2, 97))), (.find (.inl "s4"), .ptr (some (3, 114))), (.remove (.inl "s1"), .done), (.size, .num 2),
  (.find (.inl "s4"), .ptr (some (3, 114))), (.get 0, .ptr (some (2, 97))), (.remove (.inr 92), .done), (.size, .num 1),
  (.clear, .done), (.size, .num 0)]

end DualPtr
end Verif.Mapped.UnitTests
