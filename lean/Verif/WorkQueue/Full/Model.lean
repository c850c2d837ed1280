import Verif.SimpleQueue.Model
import Verif.WorkQueue.Model

/-
Model of WorkQueue (gmlc/containers/WorkQueue.hpp lines 261-518) together with the code of its three queues
(gmlc/containers/SimpleQueue.hpp): a call of a queue's member function takes as many steps as it takes in the model of
SimpleQueue, interleaved with the steps of all other threads, in the work queue and in the queues.  Everything else is as in
Verif.WorkQueue.Model.
-/
namespace Verif.WorkQueue.Full
open Verif.Conc

/-- The call of a queue's member function that a thread makes at a position; see `Loc` for the lines. -/
def queueOp : Loc → Option (Que × SimpleQueue.Op (Option Blk))
  | .aSize _ p _ => some (State.ofPrio p, .size)
  | .aPush b p _ _ => some (State.ofPrio p, .ins (.push (some b)))
  | .vPush bs p => some (State.ofPrio p, .ins (.pushVector bs))
  | .cClear q => some (q, .clear)
  | .iE q => some (q, .empty)
  | .nB q _ => some (q, .size)
  | .gHigh => some (.high, .pop)
  | .gLowE => some (.low, .empty)
  | .gLowPop => some (.low, .pop)
  | .gMed => some (.med, .pop)
  | .gLow => some (.low, .pop)
  | .wE q => some (q, .empty)
  | _ => none

/-- Lines 437-465: where thread `t` goes on when getWorkBlock returns. -/
def gotLoc (n t : Nat) (b : Option Blk) : Loc := if t < n then .wChk b else .ret (.blk b)

/-- Where thread `t` goes on when the member function called at a position has returned; see `Loc` for the lines.  (A result
of the wrong type does not occur.) -/
def next (n t : Nat) : Loc → SimpleQueue.Out (Option Blk) → Loc
  | .aSize b p r, .num k => .aPush b p r k
  | .aPush _ _ r k, _ => .aNotify r k
  | .vPush _ _, _ => .vNotify
  | .cClear .high, _ => .cClear .med
  | .cClear .med, _ => .cClear .low
  | .cClear .low, _ => .cNotify1
  | .iE .high, .bool b => if b then .iE .med else .ret (.bool false)
  | .iE .med, .bool b => if b then .iE .low else .ret (.bool false)
  | .iE .low, .bool b => .ret (.bool b)
  | .nB .high k, .num m => .nB .med (k + m)
  | .nB .med k, .num m => .nB .low (k + m)
  | .nB .low k, .num m => .ret (.num (k + m))
  | .gHigh, .val (some b) => gotLoc n t b
  | .gHigh, .val none => .gCnt
  | .gLowE, .bool b => if b then .gMed else .gLowPop
  | .gLowPop, .val (some b) => .gReset b
  | .gLowPop, .val none => .gMed
  | .gMed, .val (some b) => .gInc b
  | .gMed, .val none => .gLow
  | .gLow, .val (some b) => gotLoc n t b
  | .gLow, .val none => gotLoc n t none
  | .wE .high, .bool b => if b then .wE .med else .gHigh
  | .wE .med, .bool b => if b then .wE .low else .gHigh
  | .wE .low, .bool b => if b then .wLock else .gHigh
  | _, _ => .crash

/-- Lines 496-517: the members and the positions of the threads (`w`, whose own queues are not used) and the three queues. -/
structure State where
  w : WorkQueue.State
  q : Que → SimpleQueue.State (Option Blk)

/-- replace a queue -/
def setQ {A : Type} (q : Que → A) (x : Que) (a : A) : Que → A := fun y => if y = x then a else q y

/-- Lines 284-296: a new queue with `n` workers. -/
def State.init (n : Nat) : State := ⟨WorkQueue.State.init n, fun _ => SimpleQueue.State.init⟩

namespace State

/-- A step of thread `t`: a step of the work queue, or the beginning, a step, or the last step of a call of a queue's member
function. -/
def step (n : Nat) (f : State) (t c : Nat) : Option (State × Option Out) :=
  match queueOp (f.w.loc t) with
  | none => (f.w.stepAt n t c (f.w.loc t)).map fun r => ({ f with w := r.1 }, r.2)
  | some (x, op) =>
    if (f.q x).loc t = .idle then
      ((SimpleQueue.sys _).call t op (f.q x)).map fun s => ({ f with q := setQ f.q x s }, none)
    else
      ((SimpleQueue.sys _).move t c (f.q x)).map fun r =>
        match r.2 with
        | none => ({ f with q := setQ f.q x r.1 }, none)
        | some o => ({ w := f.w.goto t (next n t (f.w.loc t) o), q := setQ f.q x r.1 }, none)

end State

/-- a work queue with `n` workers and its three queues as a concurrent system -/
def sys (n : Nat) : Sys State Op Out where
  init := State.init n
  call t op f := (f.w.call n t op).map fun w => { f with w := w }
  move t c f := f.step n t c

end Verif.WorkQueue.Full
