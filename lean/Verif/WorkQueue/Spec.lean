import Verif.WorkQueue.Model

/-
Specification of WorkQueue: what is counted in a history, what a thread holds at a position.
-/
namespace Verif.WorkQueue
open Verif.Conc

/-- how often block `i` is submitted by a call -/
def Op.adds (i : Nat) : Op → Nat
  | .add b _ => if b = some (.task i) then 1 else 0
  | .addVector bs _ => bs.count (some (.task i))
  | _ => 0

/-- how often block `i` has been submitted -/
def adds (i : Nat) : List (Event Op Out) → Nat
  | [] => 0
  | .call _ op :: h => op.adds i + adds i h
  | .ret _ _ :: h => adds i h

/-- how often block `i` has been returned by getWorkBlock to a client -/
def handed (i : Nat) : List (Event Op Out) → Nat
  | [] => 0
  | .ret _ o :: h => (if o = .blk (some (.task i)) then 1 else 0) + handed i h
  | .call _ _ :: h => handed i h

/-- how often block `i` is queued -/
def State.queued (s : State) (i : Nat) : Nat :=
  s.high.1.count (some (.task i)) + s.med.1.count (some (.task i)) + s.low.1.count (some (.task i))

/-- Positions of a thread that has fetched block `i` from a queue and has not yet run its function or returned it. -/
def fetched (i : Nat) : Loc → Bool
  | .gReset b | .gInc b | .wChk b => b = some (.task i)
  | .ret o => o = .blk (some (.task i))
  | .eTest j _ | .eRun j _ => j = i
  | _ => false

/-- Positions between the beginning of a fetch and the end of the execution of what it fetched. -/
def busy : Loc → Bool
  | .gHigh | .gCnt | .gRat _ | .gLowE | .gLowPop | .gReset _ | .gMed | .gInc _ | .gLow | .wChk _
  | .eTest _ _ | .eRun _ _ | .eDone _ _ => true
  | _ => false

/-- no call closes the queue -/
def notClosed (h : List (Event Op Out)) : Prop := ∀ t, .call t .close ∉ h ∧ .call t .destroy ∉ h

/-- closeWorkerQueue and the destructor -/
def Op.closes : Op → Bool
  | .close | .destroy => true
  | _ => false

/-- who is closing the queue after an event: `f` says who was before -/
def closers (f : Nat → Bool) : Event Op Out → Nat → Bool
  | .call t op => if op.closes then upd f t true else f
  | .ret t _ => upd f t false

/-- no closing call begins while another one is in progress, `f` saying who is closing in the beginning -/
def inTurn (f : Nat → Bool) : List (Event Op Out) → Prop
  | [] => True
  | e :: h => (∀ t op, e = .call t op → op.closes = true → ∀ u, f u = false) ∧ inTurn (closers f e) h

/-- Closing calls, if there are several, do not overlap. -/
def closedInTurn (h : List (Event Op Out)) : Prop := inTurn (fun _ => false) h

/-- only thread `x` closes the queue -/
def closedBy (x : Nat) (h : List (Event Op Out)) : Prop := ∀ t op, .call t op ∈ h → op.closes = true → t = x

/-- the schedule has no calls -/
def onlyMoves (as : List (Act Op)) : Prop := ∀ t op, .call t op ∉ as

/-- no thread can go on, except by the timeout of a waiting worker -/
def stuck (n : Nat) (s : State) : Prop := ∀ t c, s.loc t ≠ .wSleep → (sys n).move t c s = none

/-- how many blocks are queued -/
def State.blocks (s : State) : Nat := s.high.1.length + s.med.1.length + s.low.1.length

/-- how many blocks are queued before each step of a schedule, and at its end -/
def sizes (n : Nat) (s : State) : List (Act Op) → List Nat
  | [] => [s.blocks]
  | a :: as => s.blocks :: match (sys n).exec s a with | some (s', _) => sizes n s' as | none => []

/-! ### The order of fetches -/

/-- what a fetch depends on -/
structure Queues where
  high : List (Option Blk)
  med : List (Option Blk)
  low : List (Option Blk)
  ratio : Int
  counter : Int

/-- of a work queue -/
def State.queues (s : State) : Queues := ⟨s.high.1, s.med.1, s.low.1, s.ratio, s.counter⟩

/-- The rule: high priority first; else low, if it is its turn; else medium, else low.  With the queue it came from. -/
def Queues.fetch (q : Queues) : Queues × Option (Que × Option Blk) :=
  match q.high with
  | b :: bs => ({ q with high := bs }, some (.high, b))
  | [] =>
    match q.med, q.low with
    | [], [] => (q, none)
    | [], b :: bs => ({ q with low := bs, counter := if q.counter ≥ q.ratio then 0 else q.counter }, some (.low, b))
    | b :: bs, [] => ({ q with med := bs, counter := wrap (q.counter + 1) }, some (.med, b))
    | m :: ms, b :: bs =>
      if q.counter ≥ q.ratio then ({ q with low := bs, counter := 0 }, some (.low, b))
      else ({ q with med := ms, counter := wrap (q.counter + 1) }, some (.med, m))

/-- what can happen to a queue used by one client -/
inductive Ev where
  | add (i : Nat) (p : Prio)
  | setRatio (r : Int)
  | fetch
  deriving DecidableEq

/-- one of them, and what a fetch yields -/
def Queues.step (q : Queues) : Ev → Queues × List (Option (Que × Option Blk))
  | .add i .medium => ({ q with med := q.med ++ [some (.task i)] }, [])
  | .add i .low => ({ q with low := q.low ++ [some (.task i)] }, [])
  | .add i _ => ({ q with high := q.high ++ [some (.task i)] }, [])
  | .setRatio r => ({ q with ratio := if r > 0 then r else 4 }, [])
  | .fetch => (q.fetch.1, [q.fetch.2])

/-- a history -/
def Queues.run (q : Queues) : List Ev → Queues × List (Option (Que × Option Blk))
  | [] => (q, [])
  | e :: es => (((q.step e).1.run es).1, (q.step e).2 ++ ((q.step e).1.run es).2)

/-- of a new queue -/
def Queues.new : Queues := ⟨[], [], [], 4, 0⟩

/-- the number of fetches -/
def fetches (es : List Ev) : Nat := es.count .fetch

/-- whether a fetch took a block from queue `x` -/
def isFrom (x : Que) (r : Option (Que × Option Blk)) : Bool :=
  match r with
  | some (y, _) => y = x
  | none => false

/-- the calls of a history -/
def Ev.op : Ev → Op
  | .add i p => .add (some (.task i)) p
  | .setRatio r => .setRatio r
  | .fetch => .get

/-- the calls made, in order -/
def called : List (Event Op Out) → List Op
  | [] => []
  | .call _ op :: h => op :: called h
  | .ret _ _ :: h => called h

/-- the steps and calls of thread `t` -/
def byThread (t : Nat) : Act Op → Prop
  | .call u _ => u = t
  | .move u _ => u = t

/-- the blocks returned by getWorkBlock, in order -/
def returned : List (Event Op Out) → List (Option Blk)
  | [] => []
  | .ret _ (.blk b) :: h => b :: returned h
  | _ :: h => returned h

/-- the priority with which a call submits blocks -/
def Op.prio : Op → Option Prio
  | .add _ p | .addVector _ p => some p
  | _ => none

/-- What the next step of a thread appends to queue `q`. -/
def appends (q : Que) : Loc → List (Option Blk)
  | .aPush b p _ _ => if State.ofPrio p = q then [some b] else []
  | .vPush bs p => if State.ofPrio p = q then bs else []
  | _ => []

/-- whether the next step of a thread takes an element from queue `q` -/
def takes (q : Que) : Loc → Bool
  | .gHigh => q = .high
  | .gMed => q = .med
  | .gLowPop | .gLow => q = .low
  | _ => false

/-- What a schedule appends to and takes from queue `q`, in order. -/
def traffic (n : Nat) (q : Que) (s : State) : List (Act Op) → List (Option Blk) × List (Option Blk)
  | [] => ([], [])
  | a :: as =>
    match (sys n).exec s a with
    | none => ([], [])
    | some (s', _) =>
      match a with
      | .call _ _ => traffic n q s' as
      | .move t _ =>
        (appends q (s.loc t) ++ (traffic n q s' as).1,
         (if takes q (s.loc t) then (s.que q).1.head?.toList else []) ++ (traffic n q s' as).2)

/-- how many blocks a schedule takes from queue `q` -/
def taken (n : Nat) (q : Que) (s : State) (as : List (Act Op)) : Nat := (traffic n q s as).2.length

/-- A thread executes `getWorkBlock`: it has begun to look for a block and has not got one yet. -/
def inFetch : Loc → Bool
  | .gHigh | .gCnt | .gRat _ | .gLowE | .gLowPop | .gReset _ | .gMed | .gInc _ | .gLow => true
  | _ => false

/-- how many steps of thread `t` are in a schedule -/
def movesOf (t : Nat) : List (Act Op) → Nat
  | [] => 0
  | .call _ _ :: as => movesOf t as
  | .move u _ :: as => (if u = t then 1 else 0) + movesOf t as

/-- `P` holds in every state of an execution. -/
def always (n : Nat) (P : State → Prop) (s : State) : List (Act Op) → Prop
  | [] => P s
  | a :: as => P s ∧ match (sys n).exec s a with
    | none => True
    | some (s', _) => always n P s' as

/-! ### Data races -/

/-- What is shared by threads but neither atomic nor locked nor part of a SimpleQueue: the flag of a block, its function
(with what the function uses), the thread objects. -/
inductive Datum where
  | flag (i : Nat)
  | function (i : Nat)
  | thread (k : Nat)
  deriving DecidableEq

/-- What the next step of a thread at a position accesses, and whether it writes it.  (join of a thread that has been joined
only reads.) -/
def accesses (n : Nat) (s : State) : Loc → Option (Datum × Bool)
  | .aCheck (some (.task i)) _ _ | .wChk (some (.task i)) | .pFin i | .eTest i _ => some (.flag i, false)
  | .eDone i _ => some (.flag i, true)
  | .eRun i _ => some (.function i, true)
  | .cJoin k _ => if k < n then some (.thread k, !s.joined k) else none
  | _ => none

/-- Two different threads are about to access `d`, and one of them writes. -/
def race (n : Nat) (s : State) (d : Datum) : Prop :=
  ∃ t u b, t ≠ u ∧ accesses n s (s.loc t) = some (d, true) ∧ accesses n s (s.loc u) = some (d, b)

/-- no client asks whether block `i` is finished -/
def notPolled (i : Nat) (h : List (Event Op Out)) : Prop := ∀ t, .call t (.finished i) ∉ h

end Verif.WorkQueue
