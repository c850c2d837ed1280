import Verif.Conc.OneThread
import Verif.SimpleQueue.Model

/-
The single threaded unit tests of tests/SimpleQueueTests.cpp, replayed on the model.  These are checks of the model, not
proofs of properties.
-/
namespace Verif.SimpleQueue.UnitTests
open Verif.Conc

/-- SimpleQueueTests.cpp:20-38 basic_tests (also 41-62 move_only_tests) -/
example : (sys Nat).results [.ins (.push 45), .ins (.push 54), .empty, .size, .pop, .pop, .pop, .empty] =
    some [.unit, .unit, .bool false, .num 2, .val (some 45), .val (some 54), .val none, .bool true] := rfl

set_option maxRecDepth 8000 in
/-- SimpleQueueTests.cpp:65-88 ordering_tests -/
example : (sys Nat).results ((List.range' 1 9).map (.ins ∘ .push) ++ List.replicate 6 .pop ++
      (List.range' 10 10).map (.ins ∘ .push) ++ List.replicate 13 .pop ++ [.empty]) =
    some (List.replicate 9 .unit ++ (List.range' 1 6).map (.val ∘ some) ++ List.replicate 10 .unit ++
      (List.range' 7 13).map (.val ∘ some) ++ [.bool true]) := by decide +kernel

/-- SimpleQueueTests.cpp:90-105 emplace_tests -/
example : (sys (Nat × String)).results [.ins (.emplace (10, "45.4")), .ins (.emplace (11, "34.1")), .ins (.emplace (12, "34.2")),
      .size, .pop, .pop] =
    some [.unit, .unit, .unit, .num 3, .val (some (10, "45.4")), .val (some (11, "34.1"))] := by decide +kernel

/-- the queue after push(54), push(55) -/
def two : Option (State Nat) := ((sys Nat).inTurn 100 (sys Nat).init [(0, .ins (.push 54)), (0, .ins (.push 55))]).map (·.1)

/-- SimpleQueueTests.cpp:246-259 move_construct -/
example : two.bind (fun s => ((sys Nat).inTurn 100 s.moveFrom.1 [(0, .pop), (0, .pop), (0, .pop)]).map (·.2)) =
    some [.val (some 54), .val (some 55), .val none] := rfl

/-- SimpleQueueTests.cpp:262-281 move_assign -/
example : two.bind (fun s => ((sys Nat).inTurn 100 s.moveFrom.1 [(0, .peek), (0, .pop), (0, .pop), (0, .pop), (0, .peek)]).map (·.2)) =
    some [.val (some 54), .val (some 54), .val (some 55), .val none, .val none] := rfl

/-- SimpleQueueTests.cpp:284-299 pop_test -/
example : (sys Nat).results [.ins (.push 54), .ins (.push 55), .ins (.push 56), .ins (.pushVector [57, 58, 59]), .pop, .pop,
      .ins (.push 60), .pop, .pop, .pop, .pop, .pop] =
    some [.unit, .unit, .unit, .unit, .val (some 54), .val (some 55), .unit, .val (some 56), .val (some 57), .val (some 58),
      .val (some 59), .val (some 60)] := rfl

end Verif.SimpleQueue.UnitTests
