import Verif.SimpleQueue.Spec

/-
Model of WorkQueue (gmlc/containers/WorkQueue.hpp lines 261-518) as an interleaving of atomic steps.  The threads
0, ..., n-1 are the workers, all other threads are clients.  Each operation on a mutex, on an atomic variable, on the
condition variable, on a thread object, on one of the three SimpleQueues, and each access to the flag of a work block is
one step.  The queues are objects with atomic operations that behave as `SimpleQueue.actual`; Verif.WorkQueue.Full composes
this model with that of SimpleQueue instead and proves that it has no other histories (`Full.refines`).  wait_for gives up the lock and begins to wait in one step; a waiting worker can wake
up at any time (timeout or spuriously); notify_one wakes an arbitrary waiting worker.

A work block is a NullWorkBlock or a block with a function, identified by a number; execute() of the latter is that of
WorkBlock (lines 85-93, 167-175), with one step for the whole run of its function.  Functions end; the calls
of the queue that they make are calls of another client made before that step.  `runs` counts the calls of the function; a second call
without a reset in between runs the function of a block class of the user's again, but the packaged task of a WorkBlock throws
std::future_error instead, which ends the program if a worker makes the call.  (What running the function of a WorkBlock yields is the subject of Verif.WorkBlock.)

Not modelled: exceptions (see Verif.WorkQueue.Throw for allocations that fail), the lifetime of the queue after its destructor, clients using blocks other than by giving them
to the queue and by asking whether they are finished.
-/
namespace Verif.WorkQueue
open Verif.Conc

/-- Lines 48-53: NullWorkBlock; or a block with a function. -/
inductive Blk where
  | dummy
  | task (i : Nat)
  deriving DecidableEq

/-- Lines 270-278: WorkPriority. -/
inductive Prio where
  | medium | low | high | required
  deriving DecidableEq

/-- Calls; `none` is a null pointer; `finished i`: isFinished() of block `i`. -/
inductive Op where
  | add (b : Option Blk) (p : Prio)
  | addVector (bs : List (Option Blk)) (p : Prio)
  | close
  | destroy
  | workerCount
  | isEmpty
  | numBlock
  | setRatio (r : Int)
  | get
  | finished (i : Nat)
  deriving DecidableEq

/-- Results. -/
inductive Out where
  | unit
  | num (n : Nat)
  | bool (b : Bool)
  | blk (b : Option Blk)
  deriving DecidableEq

/-- Where addWorkBlock was called: by a client, or by closeWorkerQueue with `k` iterations of its loop left. -/
inductive Ret where
  | client
  | close (k : Nat)
  deriving DecidableEq

/-- The three queues: workToDoHigh, workToDoMed, workToDoLow. -/
inductive Que where
  | high | med | low
  deriving DecidableEq

/-- Positions of a thread: what it does next (lines of WorkQueue.hpp). -/
inductive Loc where
  | idle
  -- addWorkBlock of a block
  | aCheck (b : Option Blk) (p : Prio) (r : Ret)        -- 348-349 null or isFinished()
  | aSize (b : Blk) (p : Prio) (r : Ret)                -- 352-366 size()
  | aPush (b : Blk) (p : Prio) (r : Ret) (ccount : Nat) -- 358, 362, 367 push
  | aNotify (r : Ret) (ccount : Nat)                    -- 370-371
  -- addWorkBlock of a vector
  | vPush (bs : List (Option Blk)) (p : Prio)           -- 385-397 pushVector
  | vNotify                                             -- 398
  | vExec (bs : List (Option Blk))                      -- 400-402 the rest of the loop
  -- closeWorkerQueue and the destructor
  | dTest                                               -- 303 halt
  | cLock                                               -- 315
  | cTest                                               -- 316
  | cHalt                                               -- 317
  | cUnlock                                             -- 318
  | cClear (q : Que)                                    -- 321-323
  | cNotify1                                            -- 325
  | cLoop (k : Nat)                                     -- 326, `k` iterations left
  | cNotify2                                            -- 329
  | cJoin (k : Nat) (locked : Bool)                     -- 331-335 thread k; `locked`: still holding queueLock
  | cOut                                                -- 336 lv is destroyed, holding queueLock
  -- observers
  | count                                               -- 311
  | iE (q : Que)                                        -- 413-414
  | nB (q : Que) (sum : Nat)                            -- 423
  | setR (r : Int)                                      -- 431-432
  | pFin (i : Nat)                                      -- 119, 196 isFinished(), called by a client
  -- getWorkBlock
  | gHigh                                               -- 440
  | gCnt                                                -- 445 MedCounter
  | gRat (c : Int)                                      -- 445 priorityRatio
  | gLowE                                               -- 446
  | gLowPop                                             -- 447
  | gReset (b : Option Blk)                             -- 449
  | gMed                                                -- 454
  | gInc (b : Option Blk)                               -- 456
  | gLow                                                -- 459
  -- workerLoop
  | wE (q : Que)                                        -- 472 isEmpty()
  | wLock                                               -- 473
  | wHalt                                               -- 474
  | wEnter                                              -- 477-478 begin to wait, giving up the lock
  | wSleep                                              -- 477-478 waiting
  | wRelock                                             -- 477-478 end of wait
  | wHalt2                                              -- 479
  | wUnlock                                             -- 482
  | wChk (b : Option Blk)                               -- 486 null or isFinished()
  | wOut                                                -- 475, 480 lv is destroyed
  | exited
  -- execute() of a block, then (clients) the rest of a vector
  | eTest (i : Nat) (bs : List (Option Blk))            -- 87, 169
  | eRun (i : Nat) (bs : List (Option Blk))             -- 89, 171
  | eDone (i : Nat) (bs : List (Option Blk))            -- 91, 173
  | ret (o : Out)                                       -- the call returns
  | crash                                               -- 401 null pointer dereferenced
  deriving DecidableEq

/-- Lines 496-517, the members, the blocks, and the positions of the threads.  `owner`: the thread holding queueLock;
`fin`: the flag of each block with a function; `runs`: how often its function has run; `joined`: thread k has been joined.
The waiting workers are those at wSleep. -/
structure State where
  high : List (Option Blk) × Bool
  med : List (Option Blk) × Bool
  low : List (Option Blk) × Bool
  ratio : Int
  counter : Int
  halt : Bool
  owner : Option Nat
  joined : Nat → Bool
  fin : Nat → Bool
  runs : Nat → Nat
  loc : Nat → Loc

/-- Lines 284-296: a new queue with `n` workers, all at the beginning of workerLoop; `n` is the argument of the constructor or, if
that is negative, `hardware_concurrency() + 1`. -/
def State.init (n : Nat) : State where
  high := ([], false)
  med := ([], false)
  low := ([], false)
  ratio := 4
  counter := 0
  halt := false
  owner := none
  joined := fun _ => false
  fin := fun _ => false
  runs := fun _ => 0
  loc := fun t => if t < n then .wE .high else .idle

/-- the value of an `int` (32 bits, two's complement) -/
def wrap (i : Int) : Int := (i + 2147483648) % 4294967296 - 2147483648

namespace State

/-- one of the queues -/
def que (s : State) : Que → List (Option Blk) × Bool
  | .high => s.high
  | .med => s.med
  | .low => s.low

/-- an operation on one of the queues -/
def setQue (s : State) (q : Que) (x : List (Option Blk) × Bool) : State :=
  match q with
  | .high => { s with high := x }
  | .med => { s with med := x }
  | .low => { s with low := x }

/-- Lines 354-368, 385-397: the queue of a priority. -/
def ofPrio : Prio → Que
  | .high => .high
  | .required => .high
  | .medium => .med
  | .low => .low

/-- SimpleQueue::push -/
def push (s : State) (q : Que) (b : Option Blk) : State := s.setQue q (SimpleQueue.actual (s.que q) (.ins (.push b))).1

/-- SimpleQueue::pushVector -/
def pushVector (s : State) (q : Que) (bs : List (Option Blk)) : State :=
  s.setQue q (SimpleQueue.actual (s.que q) (.ins (.pushVector bs))).1

/-- SimpleQueue::pop, the state after -/
def popped (s : State) (q : Que) : State := s.setQue q (SimpleQueue.actual (s.que q) .pop).1

/-- SimpleQueue::pop, its result -/
def front (s : State) (q : Que) : Option (Option Blk) :=
  match (SimpleQueue.actual (s.que q) .pop).2 with | .val v => v | _ => none

/-- SimpleQueue::empty -/
def isEmpty (s : State) (q : Que) : Bool :=
  match (SimpleQueue.actual (s.que q) .empty).2 with | .bool b => b | _ => false

/-- SimpleQueue::size -/
def size (s : State) (q : Que) : Nat :=
  match (SimpleQueue.actual (s.que q) .size).2 with | .num k => k | _ => 0

/-- SimpleQueue::clear -/
def clear (s : State) (q : Que) : State := s.setQue q (SimpleQueue.actual (s.que q) .clear).1

/-- thread `t` goes on at `l` -/
def goto (s : State) (t : Nat) (l : Loc) : State := { s with loc := upd s.loc t l }

/-- std::mutex::lock -/
def lock (s : State) (t : Nat) (l : Loc) : Option (State × Option Out) :=
  match s.owner with
  | none => some ({ s with owner := some t }.goto t l, none)
  | some _ => none

/-- std::mutex::unlock -/
def unlock (s : State) (t : Nat) (l : Loc) : State := { s with owner := none }.goto t l

/-- the waiting workers -/
def sleeping (n : Nat) (s : State) : List Nat := (List.range n).filter fun k => s.loc k = .wSleep

/-- condition_variable::notify_one; `c` selects the worker. -/
def notifyOne (n c : Nat) (s : State) : State :=
  match (sleeping n s)[c % (sleeping n s).length]? with
  | some k => s.goto k .wRelock
  | none => s

/-- condition_variable::notify_all -/
def notifyAll (s : State) : State := { s with loc := fun k => if s.loc k = .wSleep then .wRelock else s.loc k }

/-- Lines 437-465: getWorkBlock returns, to a worker or a client. -/
def got (n : Nat) (s : State) (t : Nat) (b : Option Blk) : State := s.goto t (if t < n then .wChk b else .ret (.blk b))

/-- addWorkBlock returns -/
def back (s : State) (t : Nat) : Ret → State
  | .client => s.goto t (.ret .unit)
  | .close k => s.goto t (.cLoop k)

/-- Lines 52, 119, 196: isFinished. -/
def isFinished (s : State) : Blk → Bool
  | .dummy => true
  | .task i => s.fin i

/-- execute() returns -/
def executed (n : Nat) (s : State) (t : Nat) (bs : List (Option Blk)) : State :=
  s.goto t (if t < n then .wE .high else .vExec bs)

/-- A step of thread `t` at position `l`; see `Loc` for the lines. -/
def stepAt (n : Nat) (s : State) (t c : Nat) : Loc → Option (State × Option Out)
  | .idle => none
  | .aCheck none _ r => some (s.back t r, none)
  | .aCheck (some b) p r =>
    if s.isFinished b ∧ p ≠ .required then some (s.back t r, none)
    else if n > 0 then some (s.goto t (.aSize b p r), none)
    else match b with
      | .dummy => some (s.back t r, none)
      | .task i => some (s.goto t (.eTest i []), none)
  | .aSize b p r => some (s.goto t (.aPush b p r (s.size (ofPrio p))), none)
  | .aPush b p r k => some ((s.push (ofPrio p) (some b)).goto t (.aNotify r k), none)
  | .aNotify r k => some (((if wrap k ≤ n then notifyOne n c s else s) : State).back t r, none)
  | .vPush bs p => some ((s.pushVector (ofPrio p) bs).goto t .vNotify, none)
  | .vNotify => some (s.notifyAll.goto t (.ret .unit), none)
  | .vExec [] => some (s.goto t (.ret .unit), none)
  | .vExec (none :: _) => some (s.goto t .crash, none)
  | .vExec (some .dummy :: bs) => some (s.goto t (.vExec bs), none)
  | .vExec (some (.task i) :: bs) => some (s.goto t (.eTest i bs), none)
  | .dTest => some (s.goto t (if s.halt then .ret .unit else .cLock), none)
  | .cLock => s.lock t .cTest
  | .cTest => some (s.goto t (if s.halt then .cJoin 0 true else .cHalt), none)
  | .cHalt => some ({ s with halt := true }.goto t .cUnlock, none)
  | .cUnlock => some (s.unlock t (.cClear .high), none)
  | .cClear .high => some ((s.clear .high).goto t (.cClear .med), none)
  | .cClear .med => some ((s.clear .med).goto t (.cClear .low), none)
  | .cClear .low => some ((s.clear .low).goto t .cNotify1, none)
  | .cNotify1 => some (s.notifyAll.goto t (.cLoop n), none)
  | .cLoop 0 => some (s.goto t .cNotify2, none)
  | .cLoop (k + 1) => some (s.goto t (.aCheck (some .dummy) .required (.close k)), none)
  | .cNotify2 => some (s.notifyAll.goto t (.cJoin 0 false), none)
  | .cJoin k locked =>
    if k = n then some (s.goto t (if locked then .cOut else .ret .unit), none)
    else if s.joined k then some (s.goto t (.cJoin (k + 1) locked), none)
    else if s.loc k = .exited then some ({ s with joined := upd s.joined k true }.goto t (.cJoin (k + 1) locked), none)
    else none
  | .cOut => some (s.unlock t (.ret .unit), none)
  | .count => some (s.goto t (.ret (.num (if s.halt then 0 else n))), none)
  | .iE .high => some (s.goto t (if s.isEmpty .high then .iE .med else .ret (.bool false)), none)
  | .iE .med => some (s.goto t (if s.isEmpty .med then .iE .low else .ret (.bool false)), none)
  | .iE .low => some (s.goto t (.ret (.bool (s.isEmpty .low))), none)
  | .nB .high k => some (s.goto t (.nB .med (k + s.size .high)), none)
  | .nB .med k => some (s.goto t (.nB .low (k + s.size .med)), none)
  | .nB .low k => some (s.goto t (.ret (.num (k + s.size .low))), none)
  | .setR r => some ({ s with ratio := if r > 0 then r else 4 }.goto t (.ret .unit), none)
  | .pFin i => some (s.goto t (.ret (.bool (s.fin i))), none)
  | .gHigh =>
    match s.front .high with
    | some b => some (got n (s.popped .high) t b, none)
    | none => some ((s.popped .high).goto t .gCnt, none)
  | .gCnt => some (s.goto t (.gRat s.counter), none)
  | .gRat k => some (s.goto t (if k ≥ s.ratio then .gLowE else .gMed), none)
  | .gLowE => some (s.goto t (if s.isEmpty .low then .gMed else .gLowPop), none)
  | .gLowPop =>
    match s.front .low with
    | some b => some ((s.popped .low).goto t (.gReset b), none)
    | none => some ((s.popped .low).goto t .gMed, none)
  | .gReset b => some (got n { s with counter := 0 } t b, none)
  | .gMed =>
    match s.front .med with
    | some b => some ((s.popped .med).goto t (.gInc b), none)
    | none => some ((s.popped .med).goto t .gLow, none)
  | .gInc b => some (got n { s with counter := wrap (s.counter + 1) } t b, none)
  | .gLow =>
    match s.front .low with
    | some b => some (got n (s.popped .low) t b, none)
    | none => some (got n (s.popped .low) t none, none)
  | .wE .high => some (s.goto t (if s.isEmpty .high then .wE .med else .gHigh), none)
  | .wE .med => some (s.goto t (if s.isEmpty .med then .wE .low else .gHigh), none)
  | .wE .low => some (s.goto t (if s.isEmpty .low then .wLock else .gHigh), none)
  | .wLock => s.lock t .wHalt
  | .wHalt => some (s.goto t (if s.halt then .wOut else .wEnter), none)
  | .wEnter => some (s.unlock t .wSleep, none)
  | .wSleep => some (s.goto t .wRelock, none)
  | .wRelock => s.lock t .wHalt2
  | .wHalt2 => some (s.goto t (if s.halt then .wOut else .wUnlock), none)
  | .wUnlock => some (s.unlock t .gHigh, none)
  | .wChk none => some (s.goto t (.wE .high), none)
  | .wChk (some .dummy) => some (s.goto t (.wE .high), none)
  | .wChk (some (.task i)) => some (s.goto t (if s.fin i then .wE .high else .eTest i []), none)
  | .wOut => some (s.unlock t .exited, none)
  | .exited => none
  | .eTest i bs => if s.fin i then some (executed n s t bs, none) else some (s.goto t (.eRun i bs), none)
  | .eRun i bs => some ({ s with runs := upd s.runs i (s.runs i + 1) }.goto t (.eDone i bs), none)
  | .eDone i bs => some (executed n { s with fin := upd s.fin i true } t bs, none)
  | .ret o => some (s.goto t .idle, some o)
  | .crash => none

/-- where a call begins -/
def start (n : Nat) : Op → Loc
  | .add b p => .aCheck b p .client
  | .addVector bs p => if n > 0 then .vPush bs p else .vExec bs
  | .close => .cLock
  | .destroy => .dTest
  | .workerCount => .count
  | .isEmpty => .iE .high
  | .numBlock => .nB .high 0
  | .setRatio r => .setR r
  | .get => .gHigh
  | .finished i => .pFin i

/-- a client begins a call -/
def call (n : Nat) (s : State) (t : Nat) (op : Op) : Option State :=
  match s.loc t with
  | .idle => some (s.goto t (start n op))
  | _ => none

end State

/-- a work queue with `n` workers as a concurrent system -/
def sys (n : Nat) : Sys State Op Out where
  init := State.init n
  call t op s := s.call n t op
  move t c s := s.stepAt n t c (s.loc t)

end Verif.WorkQueue
