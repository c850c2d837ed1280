import Verif.WorkQueue.Model

/-
WorkQueue when memory or threads cannot be allocated: the model of Verif.WorkQueue with allocations that may fail.

The allocations are those of push and pushVector of the queues (SimpleQueue.hpp lines 129, 139, 152-153, 164: a vector grows; the
elements are shared pointers, whose copies and moves do not throw, so nothing has changed when it fails) and of the block that
closeWorkerQueue makes (WorkQueue.hpp line 319).  A call of addWorkBlock or closeWorkerQueue that meets such a failure ends with
the exception; unwinding touches nothing that is shared.  In the destructor, which does not admit exceptions, it ends the program
(std::terminate), and so does the destructor of the vector of threads, after the body of the destructor, if a thread has not been
joined.

Simplifications: a client whose closeWorkerQueue has failed makes no further calls (what it does then is done by another client);
the vector that holds the threads is allocated.
-/
namespace Verif.WorkQueue.Throw
open Verif.Conc

/-- how a call ends: with a result or with an exception -/
inductive Res where
  | ret (o : Out)
  | threw
  deriving DecidableEq

/-- `dtor`: the threads in the destructor; `failed`: those whose closeWorkerQueue has thrown; `dead`: std::terminate was called -/
structure State where
  q : WorkQueue.State
  dtor : Nat → Bool
  failed : Nat → Bool
  dead : Bool

/-- Lines 284-297: a new queue with `n` workers. -/
def State.init (n : Nat) : State := ⟨.init n, fun _ => false, fun _ => false, false⟩

/-- Lines 356-367, 385-397: a client is about to add to a queue, which may need memory. -/
def addAllocates : Loc → Bool
  | .aPush _ _ .client _ | .vPush _ _ => true
  | _ => false

/-- Lines 319, 327 (358): closeWorkerQueue is about to make its block, or to add it to the queue. -/
def closeAllocates : Loc → Bool
  | .cClear .high | .aPush _ _ (.close _) _ => true
  | _ => false

namespace State

/-- an allocation of thread `t` fails -/
def fail (s : State) (t : Nat) : Option (State × Option Res) :=
  if addAllocates (s.q.loc t) then some ({ s with q := s.q.goto t .idle }, some .threw)
  else if closeAllocates (s.q.loc t) then
    if s.dtor t then some ({ s with dead := true }, none)
    else some ({ s with failed := upd s.failed t true }, some .threw)
  else none

/-- lines 301-306, 511: the destructor of a queue with `n` workers has come to the threads, and one of them is still joinable -/
def abandons (n : Nat) (s : State) (t : Nat) : Bool := s.dtor t && (List.range n).any fun k => !s.q.joined k

/-- a step of thread `t` in which no allocation fails -/
def step (n : Nat) (s : State) (t c : Nat) : Option (State × Option Res) :=
  match s.q.stepAt n t c (s.q.loc t) with
  | none => none
  | some (q', none) => some ({ s with q := q' }, none)
  | some (q', some o) =>
    if s.abandons n t then some ({ s with dead := true }, none)
    else some ({ s with q := q', dtor := upd s.dtor t false }, some (.ret o))

end State

/-- A work queue with `n` workers whose allocations may fail.  Choice 0: the allocation that comes next fails. -/
def sys (n : Nat) : Sys State Op Res where
  init := .init n
  call t op s :=
    if s.dead || s.failed t then none
    else (s.q.call n t op).map fun q => { s with q := q, dtor := upd s.dtor t (op = .destroy) }
  move t c s :=
    if s.dead || s.failed t then none
    else match c with
      | 0 => s.fail t
      | c + 1 => s.step n t c

/-! ### The constructor -/

/-- how a construction ends: with a queue with that many threads, with an exception, or with the end of the program -/
inductive Built where
  | ok (threads : Nat)
  | threw
  | terminated
  deriving DecidableEq

/-- Lines 292-294: the loop, at thread `kk`, with `k` threads to go; `fails kk`: the thread cannot be started.  The exception destroys
the vector of threads (line 511), and the destructor of a thread that has been started ends the program. -/
def startThreads (fails : Nat → Bool) (kk : Nat) : Nat → Built
  | 0 => .ok kk
  | k + 1 => if fails kk then (if 0 < kk then .terminated else .threw) else startThreads fails (kk + 1) k

/-- Lines 284-297: `memory`: the vector of threads can be allocated. -/
def construct (memory : Bool) (fails : Nat → Bool) (n : Nat) : Built :=
  if n ≠ 0 then (if memory then startThreads fails 0 n else .threw) else .ok 0

end Verif.WorkQueue.Throw
