import Verif.Conc.OneThread
import Verif.Blocking.Model

/-
The single threaded unit tests of tests/BlockingQueueTests.cpp and tests/PriorityBlockingQueueTests.cpp, replayed on the
model.  These are checks of the model, not proofs of properties.
-/
namespace Verif.Blocking.UnitTests
open Verif.Conc

/-- push -/
def psh (n : Nat) : Op Nat := .ins (.push n)

/-- BlockingQueueTests.cpp:20-38 basic (also 41-62 move_only) -/
example : (sys false Nat).results [psh 45, psh 54, .empty, .size, .tryPop, .tryPop, .tryPop, .empty] =
    some [.unit, .unit, .bool false, .num 2, .val (some 45), .val (some 54), .val none, .bool true] := rfl

/-- BlockingQueueTests.cpp:65-88 ordering -/
example : (sys false Nat).results ((List.range' 1 9).map psh ++ List.replicate 6 .tryPop ++ (List.range' 10 10).map psh ++
      List.replicate 13 .tryPop ++ [.empty]) =
    some (List.replicate 9 .unit ++ (List.range' 1 6).map (.val ∘ some) ++ List.replicate 10 .unit ++
      (List.range' 7 13).map (.val ∘ some) ++ [.bool true]) := by decide +kernel

/-- BlockingQueueTests.cpp:90-105 emplace -/
example : (sys false (Nat × String)).results [.ins (.emplace (10, "45.4")), .ins (.emplace (11, "34.1")),
      .ins (.emplace (12, "34.2")), .size, .tryPop, .tryPop] =
    some [.unit, .unit, .unit, .num 3, .val (some (10, "45.4")), .val (some (11, "34.1"))] := by decide +kernel

/-- thread `t` begins a call and takes `n` steps -/
def begin (t : Nat) (op : Op Nat) (n : Nat) : List (Act (Op Nat)) := .call t op :: List.replicate n (.move t 0)

/-- One round of BlockingQueueTests.cpp:329-351 pop_callback_tests: popOrCall finds nothing and calls its function, which
pushes 7 (as thread 1), and then takes it. -/
def round : List (Act (Op Nat)) := begin 0 .popOrCall 8 ++ begin 1 (psh 7) 11 ++ List.replicate 7 (.move 0 0)

/-- the history of a round -/
def roundHist : List (Event (Op Nat) (Out Nat)) := [.call 0 .popOrCall, .call 1 (psh 7), .ret 1 .unit, .ret 0 (.val (some 7))]

/-- BlockingQueueTests.cpp:329-351 pop_callback_tests, 25 rounds -/
example : ((sys false Nat).run (sys false Nat).init (List.replicate 25 round).flatten).map (·.2) =
    some (List.replicate 25 roundHist).flatten := by decide +kernel

/-- PriorityBlockingQueueTests.cpp:22-50 basic_tests -/
example : (sys true Nat).results [psh 45, psh 54, .empty, .tryPop, .tryPop, .tryPop, .empty, psh 45, psh 54, .prio (.push 65),
      .tryPop, .tryPop] =
    some [.unit, .unit, .bool false, .val (some 45), .val (some 54), .val none, .bool true, .unit, .unit, .unit,
      .val (some 65), .val (some 45)] := by decide +kernel

/-- PriorityBlockingQueueTests.cpp:53-76 move_only_tests -/
example : (sys true Nat).results [psh 4534, psh 34, .empty, .tryPop, .tryPop, .prio (.push 29), .tryPop, .tryPop, .empty] =
    some [.unit, .unit, .bool false, .val (some 4534), .val (some 34), .unit, .val (some 29), .val none, .bool true] := by
  decide +kernel

/-- PriorityBlockingQueueTests.cpp:80-106 ordering_tests -/
example : (sys true Nat).results ((List.range' 1 9).map psh ++ List.replicate 6 .tryPop ++ (List.range' 10 10).map psh ++
      [.prio (.push 99)] ++ List.replicate 14 .tryPop ++ [.empty]) =
    some (List.replicate 9 .unit ++ (List.range' 1 6).map (.val ∘ some) ++ List.replicate 10 .unit ++ [.unit, .val (some 99)] ++
      (List.range' 7 13).map (.val ∘ some) ++ [.bool true]) := by decide +kernel

/-- PriorityBlockingQueueTests.cpp:108-127 emplace_tests -/
example : (sys true (Nat × String)).results [.ins (.emplace (10, "45.4")), .ins (.emplace (11, "34.1")),
      .ins (.emplace (12, "34.2")), .prio (.emplace (14, "19.99")), .tryPop, .tryPop, .tryPop] =
    some [.unit, .unit, .unit, .unit, .val (some (14, "19.99")), .val (some (10, "45.4")), .val (some (11, "34.1"))] := by
  decide +kernel

/-- PriorityBlockingQueueTests.cpp:129-143 clear_tests -/
example : (sys true Nat).results [psh 10, psh 100, psh 1000, .pop, psh 20, psh 20, .prio (.push 9), .prio (.push 18), .empty,
      .clear, .empty] =
    some [.unit, .unit, .unit, .val (some 10), .unit, .unit, .unit, .unit, .bool false, .unit, .bool true] := by decide +kernel

/-- One round of PriorityBlockingQueueTests.cpp:442-464 pop_callback_tests. -/
def roundP : List (Act (Op Nat)) := begin 0 .popOrCall 9 ++ begin 1 (psh 7) 11 ++ List.replicate 8 (.move 0 0)

/-- PriorityBlockingQueueTests.cpp:442-464 pop_callback_tests, 25 rounds -/
example : ((sys true Nat).run (sys true Nat).init (List.replicate 25 roundP).flatten).map (·.2) =
    some (List.replicate 25 roundHist).flatten := by decide +kernel

end Verif.Blocking.UnitTests
