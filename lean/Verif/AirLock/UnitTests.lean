import Verif.Conc.OneThread
import Verif.AirLock.Model

/-
The unit tests of tests/AirLockTests.cpp, replayed on the model.  These are checks of the model, not proofs of properties.
-/
namespace Verif.AirLock.UnitTests
open Verif.Conc

/-- AirLockTests.cpp:24-38 basic_tests -/
example : (sys Nat).results [.tryLoad 45, .tryLoad 54, .isLoaded, .tryUnload, .isLoaded, .tryLoad 54] =
    some [.bool true, .bool false, .bool true, .val (some 45), .bool false, .bool true] := rfl

/-- AirLockTests.cpp:41-56 empty_load_test -/
example : (sys Nat).results [.load 45, .tryLoad 54, .isLoaded, .tryUnload, .isLoaded, .tryLoad 54] =
    some [.unit, .bool false, .bool true, .val (some 45), .bool false, .bool true] := rfl

/-- AirLockTests.cpp:59-73 move_only_tests -/
example : (sys Nat).results [.tryLoad 4534, .isLoaded, .tryUnload, .tryUnload, .isLoaded] =
    some [.bool true, .bool true, .val (some 4534), .val none, .bool false] := rfl

/-- thread `t` begins a call and takes `n` steps -/
def begin (t : Nat) (op : Op String) (n : Nat) : List (Act (Op String)) := .call t op :: List.replicate n (.move t 0)

/-- thread `t` takes `n` steps -/
def go (t n : Nat) : List (Act (Op String)) := List.replicate n (.move t 0)

set_option maxRecDepth 8000 in
/-- AirLockTests.cpp:76-104 move_mthread_tests: a schedule in which both threads wait in load before the first try_unload -/
example : ∃ as s, (sys String).run (sys String).init as = some (s, [.call 0 (.tryLoad "load 1"), .ret 0 (.bool true),
    .call 0 .isLoaded, .ret 0 (.bool true), .call 1 (.load "load 2"), .call 2 (.load "load 2"), .call 0 .tryUnload,
    .ret 0 (.val (some "load 1")), .ret 2 .unit, .call 0 .isLoaded, .ret 0 (.bool true), .call 0 .tryUnload,
    .ret 0 (.val (some "load 2")), .ret 1 .unit, .call 0 .isLoaded, .ret 0 (.bool true)]) :=
  ⟨begin 0 (.tryLoad "load 1") 7 ++ begin 0 .isLoaded 2 ++ begin 1 (.load "load 2") 4 ++ begin 2 (.load "load 2") 4 ++
    begin 0 .tryUnload 8 ++ go 2 7 ++ begin 0 .isLoaded 2 ++ begin 0 .tryUnload 8 ++ go 1 7 ++ begin 0 .isLoaded 2, _, rfl⟩

end Verif.AirLock.UnitTests
