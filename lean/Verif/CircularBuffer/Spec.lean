import Verif.CircularBuffer.Model

/-
Specification of a bounded message FIFO and of client programs, used to state the
CircularBuffer properties.  Nothing here depends on how the buffer stores messages.
-/
namespace Verif.CircularBuffer

/-- Calls a client can make. `push d` is `push(d.data(), d.size())`. -/
inductive Op where
  | push (d : Msg)
  | pop (max : Int)
  | nextDataSize
  | empty
  | clear
deriving DecidableEq

/-- What the client sees. -/
inductive Obs where
  | pushed (ok : Bool)
  | popped (ret : Int) (bytes : Option Msg)
  | size (n : Int)
  | isEmpty (b : Bool)
  | done
deriving DecidableEq

/-- One call on an ideal message queue holding `q` (oldest first): which observation is
allowed and what the queue holds afterwards.  A push may be refused (the buffer is
bounded), in which case nothing changes. -/
inductive Fifo : List Msg → Op → Obs → List Msg → Prop
  | push (q d) : Fifo q (.push d) (.pushed true) (q ++ [d])
  | refused (q d) : Fifo q (.push d) (.pushed false) q
  | popEmpty (max) : Fifo [] (.pop max) (.popped 0 none) []
  | pop (d q max) (h : (d.length : Int) ≤ max) :
      Fifo (d :: q) (.pop max) (.popped d.length (some d)) q
  | popTooSmall (d q max) (h : max < (d.length : Int)) :
      Fifo (d :: q) (.pop max) (.popped (-(d.length : Int)) none) (d :: q)
  | sizeEmpty : Fifo [] .nextDataSize (.size 0) []
  | size (d q) : Fifo (d :: q) .nextDataSize (.size d.length) (d :: q)
  | empty (q) : Fifo q .empty (.isEmpty q.isEmpty) q
  | clear (q) : Fifo q .clear .done []

/-- A whole session on the ideal queue. -/
inductive Session : List Msg → List Op → List Obs → List Msg → Prop
  | nil (q) : Session q [] [] q
  | cons {q op o q' ops os q''} : Fifo q op o q' → Session q' ops os q'' →
      Session q (op :: ops) (o :: os) q''

/-- One call on the modelled buffer; `none` is undefined behaviour. -/
def Raw.call (b : Raw) : Op → Option (Obs × Raw)
  | .push d => (b.push (some d) d.length).map fun r => (.pushed r.1, r.2)
  | .pop max => (b.pop max).map fun r => (.popped r.1 r.2.1, r.2.2)
  | .nextDataSize => b.nextDataSize.map fun n => (.size n, b)
  | .empty => some (.isEmpty b.empty, b)
  | .clear => some (.done, b.clear)

/-- A careful client: it calls `push` only after `isSpaceAvailable(size + 8)` answered
true, and otherwise treats the message as refused. All other calls are unrestricted. -/
def Raw.carefulCall (b : Raw) : Op → Option (Obs × Raw)
  | .push d => if b.isSpaceAvailable (d.length + 8) then b.call (.push d)
               else some (.pushed false, b)
  | op => b.call op

/-- Pushing `n` bytes where there is room for them would overfill the buffer: the message would end exactly where the oldest message
begins, or it would leave less than 8 bytes at the end of the block while the oldest message is at its beginning. -/
def Raw.overfills (b : Raw) (n : Int) : Bool :=
  b.isSpaceAvailable n &&
  (if b.nw ≥ b.nr then
    if b.cap - b.nw ≥ n + 4 then decide (b.nr = 0 ∧ b.cap - b.nw < n + 12)
    else decide (b.nr = n + 4)
  else decide (b.nr - b.nw = n + 4))

/-- The client that avoids just those pushes and treats the message as refused. -/
def Raw.exactCall (b : Raw) : Op → Option (Obs × Raw)
  | .push d => if b.overfills d.length then some (.pushed false, b) else b.call (.push d)
  | op => b.call op

/-- Running a list of calls. -/
def runCalls (call : Raw → Op → Option (Obs × Raw)) : Raw → List Op → Option (List Obs × Raw)
  | b, [] => some ([], b)
  | b, op :: ops =>
    match call b op with
    | none => none
    | some (o, b') =>
      match runCalls call b' ops with
      | none => none
      | some (os, b'') => some (o :: os, b'')

/-- Messages accepted by the buffer in a session, in order. -/
def accepted : List Op → List Obs → List Msg
  | .push d :: ops, .pushed true :: os => d :: accepted ops os
  | _ :: ops, _ :: os => accepted ops os
  | _, _ => []

/-- Messages delivered by the buffer in a session, in order. -/
def delivered : List Obs → List Msg
  | .popped _ (some d) :: os => d :: delivered os
  | _ :: os => delivered os
  | [] => []

end Verif.CircularBuffer
