import Verif.Conc.OneThread
import Verif.WorkQueue.Full.Model

/-
Unit tests of tests/WorkQueueTests.cpp, replayed on the models.  These are checks of the model, not proofs of properties.
-/
namespace Verif.WorkQueue.UnitTests
open Verif.Conc

/-- client 9 makes the calls, the workers do not move; at most 100 steps each -/
def client (n : Nat) (s : State) (ops : List Op) : Option (State × List Out) := (sys n).inTurn 100 s (ops.map (9, ·))

/-- worker 0 moves `m` times: the state reached and the functions it ran -/
def worker (n : Nat) : Nat → State → State × List Nat
  | 0, s => (s, [])
  | m + 1, s => match (sys n).move 0 0 s with
    | none => (s, [])
    | some (s', _) =>
      let r := worker n m s'
      (r.1, match s.loc 0 with | .eRun i _ => i :: r.2 | _ => r.2)

/-- a block -/
def task (i : Nat) : Option Blk := some (.task i)

/-- WorkQueueTests.cpp:32-64 WorkQueue_test1: the number of workers; closing needs the worker to move. -/
example : (client 1 (State.init 1) [.workerCount]).map (·.2) = some [.num 1] := rfl

/-- the given threads move in turn, `n` rounds; a thread that cannot move is skipped -/
def rounds (k : Nat) (ts : List Nat) : Nat → State → State × List (Event Op Out)
  | 0, s => (s, [])
  | n + 1, s =>
    let r := ts.foldl (fun (r : State × List (Event Op Out)) t => match (sys k).exec r.1 (.move t 0) with
      | none => r
      | some (s', e) => (s', r.2 ++ e)) (s, [])
    let q := rounds k ts n r.1
    (q.1, r.2 ++ q.2)

/-- WorkQueueTests.cpp:36-39: closeWorkerQueue while the worker moves; then getWorkerCount. -/
example : (((sys 1).exec (sys 1).init (.call 9 .close)).map fun r => rounds 1 [0, 9] 40 r.1).bind (fun r =>
      (client 1 r.1 [.workerCount]).map fun q => (r.2, q.2)) =
    some ([.ret 9 .unit], [.num 0]) := by decide +kernel

/-- WorkQueueTests.cpp:66-109 WorkQueue_test2: without workers a block runs at once, and only once. -/
example : (client 0 (State.init 0) [.add (task 0) .medium, .add (task 0) .medium]).map (fun r => (r.1.runs 0, r.2)) =
    some (1, [.unit, .unit]) := rfl

/-- WorkQueueTests.cpp:111-177 WorkQueue_test3: block 0 is the sleeper; blocks 1 and 2 have high, 10-18 medium, 20-22 low
priority. -/
def test3 : List Op := [.add (task 20) .low, .add (task 21) .low, .add (task 22) .low] ++
  (List.range' 10 9).map (fun i => .add (task i) .medium) ++ [.add (task 1) .high, .add (task 2) .high]

/-- the order in which the functions run while client 9 has added them all -/
def order (ops : List Op) : Option (List Nat) :=
  (client 1 (State.init 1) [.setRatio 3, .add (task 0) .high]).bind fun r =>
    let w := worker 1 4 r.1   -- the worker begins to run the sleeper
    (client 1 w.1 ops).map fun r => w.2 ++ (worker 1 400 r.1).2

/-- WorkQueueTests.cpp:168: {1, 1, 2, 2, 2, 3, 2, 2, 2, 3, 2, 2, 2, 3} after the sleeper -/
example : order test3 = some [0, 1, 2, 10, 11, 12, 20, 13, 14, 15, 21, 16, 17, 18, 22] := by decide +kernel

/-- WorkQueueTests.cpp:180-253 WorkQueue_test3_vector -/
example : order [.addVector [task 20, task 21, task 22] .low, .addVector ((List.range' 10 9).map task) .medium,
      .addVector [task 1, task 2] .high] =
    some [0, 1, 2, 10, 11, 12, 20, 13, 14, 15, 21, 16, 17, 18, 22] := by decide +kernel

/-! The same with the model that includes the steps of the three queues. -/

/-- client 9 makes the calls -/
def clientF (n : Nat) (s : Full.State) (ops : List Op) : Option (Full.State × List Out) :=
  (Full.sys n).inTurn 200 s (ops.map (9, ·))

/-- worker 0 moves `m` times: the state reached and the functions it ran -/
def workerF (n : Nat) : Nat → Full.State → Full.State × List Nat
  | 0, s => (s, [])
  | m + 1, s => match (Full.sys n).move 0 0 s with
    | none => (s, [])
    | some (s', _) =>
      let r := workerF n m s'
      (r.1, match s.w.loc 0 with | .eRun i _ => i :: r.2 | _ => r.2)

/-- the order in which the functions run -/
def orderF (ops : List Op) : Option (List Nat) :=
  (clientF 1 (Full.State.init 1) [.setRatio 3, .add (task 0) .high]).bind fun r =>
    let w := workerF 1 16 r.1
    (clientF 1 w.1 ops).map fun r => w.2 ++ (workerF 1 1500 r.1).2

/-- WorkQueueTests.cpp:111-177 WorkQueue_test3 -/
example : orderF test3 = some [0, 1, 2, 10, 11, 12, 20, 13, 14, 15, 21, 16, 17, 18, 22] := by decide +kernel

end Verif.WorkQueue.UnitTests
