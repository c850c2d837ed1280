import Verif.WorkQueue.Throw.Model

/-
WorkQueue whose work blocks close it: the model of Verif.WorkQueue in which the functions of some blocks call closeWorkerQueue
(WorkQueue.hpp lines 313-338) of the queue that runs them.

A worker that runs such a function makes the steps of closeWorkerQueue.  When it comes to its own thread object, `join` throws
std::system_error (resource_deadlock_would_occur: the standard requires it if the thread is that of the caller).  The exception
destroys `lv`, which gives up the lock if it is held, and leaves the function; the packaged task of the work block (lines 89, 171)
keeps it for the future, so execute() goes on as if the function had returned.

Thread `n + t` stands for the call of closeWorkerQueue that the function run by worker `t` makes: worker `t` waits at the call while
`n + t` has its position in closeWorkerQueue.  Clients have the numbers from `2 * n`.

Simplifications: such a function calls closeWorkerQueue once and does nothing else.  After an exception `n + t` keeps its position,
which is not looked at until the next call.  If there are no workers, functions are run by the clients (line 374), who can make any
calls (Verif.WorkQueue); so these positions matter only for n > 0.
-/
namespace Verif.WorkQueue.Inner
open Verif.Conc

/-- how a call ends: with a result or with an exception -/
abbrev Res := Throw.Res

/-- `inside t`: the function that worker `t` is running is in closeWorkerQueue -/
structure State where
  q : WorkQueue.State
  inside : Nat → Bool

/-- Lines 284-297: a new queue with `n` workers. -/
def State.init (n : Nat) : State := ⟨.init n, fun _ => false⟩

namespace State

/-- a step of thread `t` outside of such a call -/
def plain (n : Nat) (s : State) (t c : Nat) : Option (State × Option Res) :=
  (s.q.stepAt n t c (s.q.loc t)).map fun r => ({ s with q := r.1 }, r.2.map .ret)

/-- Lines 313-338: a step of the call of closeWorkerQueue made by worker `t` -/
def closeStep (n : Nat) (s : State) (t c : Nat) : Option (State × Option Res) :=
  (s.q.stepAt n (n + t) c (s.q.loc (n + t))).map fun r => ({ s with q := r.1 }, none)

/-- Lines 89-91, 171-173: the function that worker `t` is running, that of block `i`, ends, with what is left of its call of closeWorkerQueue. -/
def finish (s : State) (t i : Nat) (bs : List (Option Blk)) (r : Res) : Option (State × Option Res) :=
  some (⟨{ s.q with runs := upd s.q.runs i (s.q.runs i + 1) }.goto t (.eDone i bs), upd s.inside t false⟩, some r)

/-- Lines 89, 171, 313-338: a step of worker `t` in the function of block `i`, which closes the queue. -/
def inner (n : Nat) (s : State) (t c i : Nat) (bs : List (Option Blk)) : Option (State × Option Res) :=
  if s.inside t then
    match s.q.loc (n + t) with
    | .ret o => finish s t i bs (.ret o)
    | .cJoin k locked =>
      -- lines 332-333, 336
      if k = t ∧ s.q.joined k = false then
        finish (if locked then { s with q := { s.q with owner := none } } else s) t i bs .threw
      else s.closeStep n t c
    | _ => s.closeStep n t c
  else some ({ s with q := s.q.goto (n + t) .cLock, inside := upd s.inside t true }, none)

/-- a step of thread `t`; `closes i`: the function of block `i` closes the queue -/
def step (n : Nat) (closes : Nat → Bool) (s : State) (t c : Nat) : Option (State × Option Res) :=
  if t < n then
    match s.q.loc t with
    | .eRun i bs => if closes i then s.inner n t c i bs else s.plain n t c
    | _ => s.plain n t c
  else if t < 2 * n then none
  else s.plain n t c

end State

/-- A work queue with `n` workers, with blocks that close it. -/
def sys (n : Nat) (closes : Nat → Bool) : Sys State Op Res where
  init := .init n
  call t op s := if t < 2 * n then none else (s.q.call n t op).map fun q => { s with q := q }
  move t c s := s.step n closes t c

end Verif.WorkQueue.Inner
