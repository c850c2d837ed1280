import Verif.Blocking.Model

/-
Specification of the blocking queues: a FIFO queue, and a FIFO queue with a priority channel.
-/
namespace Verif.Blocking
open Verif.Conc

variable {α : Type}

/-- A FIFO queue: the list of its elements, oldest first.  `none` as result: the call has to wait.  pop(timeout) returns
nothing only if the queue is empty.  A call that throws has no effect, except that a pop that throws when it moves the
element into its result has removed the element. -/
def fifo (q : List α) : Op α → Option (List α × Out α)
  | .ins (.thrown _) => some (q, .threw)
  | .ins i => some (q ++ [i.val], .unit)
  | .prio _ => none
  | .tryPop | .timedPop => some (q.tail, .val q.head?)
  | .tryPopX lost | .timedPopX lost => match q with
    | [] => some ([], .val none)
    | x :: q => some (if lost then q else x :: q, .threw)
  | .pop | .popOrCall => match q with
    | [] => none
    | x :: q => some (q, .val (some x))
  | .popX lost | .popOrCallX lost => match q with
    | [] => none
    | x :: q => some (if lost then q else x :: q, .threw)
  | .popOrCallF => match q with
    | [] => some ([], .threw)
    | x :: q => some (q, .val (some x))
  | .peek => some (q, .peek q.head?)
  | .peekX => match q with
    | [] => some ([], .peek none)
    | x :: q => some (x :: q, .threw)
  | .size => some (q, .num q.length)
  | .empty => some (q, .bool q.isEmpty)
  | .clear => some ([], .unit)
  | .reserve => some (q, .unit)

/-- the same as a specification -/
def fifoSpec (α : Type) : Spec (List α) (Op α) (Out α) := ⟨[], fifo⟩

/-- the element that is next, and the rest: the oldest priority element if there is one, else the oldest normal one -/
def next? : List α × List α → Option (α × (List α × List α))
  | (x :: p, q) => some (x, (p, q))
  | ([], x :: q) => some (x, ([], q))
  | ([], []) => none

/-- A FIFO queue with a priority channel: the priority elements and the normal elements, oldest first. -/
def two (q : List α × List α) : Op α → Option ((List α × List α) × Out α)
  | .ins (.thrown _) | .prio (.thrown _) => some (q, .threw)
  | .ins i => some ((q.1, q.2 ++ [i.val]), .unit)
  | .prio i => some ((q.1 ++ [i.val], q.2), .unit)
  | .tryPop | .timedPop => match next? q with
    | some (x, q') => some (q', .val (some x))
    | none => some (q, .val none)
  | .tryPopX lost | .timedPopX lost => match next? q with
    | some (_, q') => some (if lost then q' else q, .threw)
    | none => some (q, .val none)
  | .pop | .popOrCall => match next? q with
    | some (x, q') => some (q', .val (some x))
    | none => none
  | .popX lost | .popOrCallX lost => match next? q with
    | some (_, q') => some (if lost then q' else q, .threw)
    | none => none
  | .popOrCallF => match next? q with
    | some (x, q') => some (q', .val (some x))
    | none => some (q, .threw)
  | .peek => some (q, .peek ((next? q).map (·.1)))
  | .peekX => match next? q with
    | some _ => some (q, .threw)
    | none => some (q, .peek none)
  | .size => some (q, .num (q.1.length + q.2.length))
  | .empty => some (q, .bool (q.1.isEmpty && q.2.isEmpty))
  | .clear => some (([], []), .unit)
  | .reserve => some (q, .unit)

/-- the same as a specification -/
def twoSpec (α : Type) : Spec (List α × List α) (Op α) (Out α) := ⟨([], []), two⟩

/-- try_peek, size and empty -/
def Op.observes : Op α → Bool
  | .peek | .peekX | .size | .empty => true
  | _ => false

/-- pop, pop(timeout) and popOrCall: the calls that may wait -/
def Op.waits : Op α → Bool
  | .pop | .popX _ | .timedPop | .timedPopX _ | .popOrCall | .popOrCallX _ | .popOrCallF => true
  | _ => false

/-- try_pop -/
def Op.tries : Op α → Bool
  | .tryPop | .tryPopX _ => true
  | _ => false

/-- a pop that throws when it moves the element, already removed from the queue, into its result -/
def Op.loses : Op α → Bool
  | .tryPopX lost | .popX lost | .timedPopX lost | .popOrCallX lost => lost
  | _ => false

/-- The values that calls put into the queue, in the order in which they take effect; calls that throw put in nothing. -/
def inserted : List (TEvent (Op α) (Out α)) → List α
  | [] => []
  | .lin _ (.ins i) .unit :: tr | .lin _ (.prio i) .unit :: tr => i.val :: inserted tr
  | _ :: tr => inserted tr

/-- The values that calls take out of the queue, in the order in which they take effect. -/
def removed : List (TEvent (Op α) (Out α)) → List α
  | [] => []
  | .lin _ _ (.val (some x)) :: tr => x :: removed tr
  | _ :: tr => removed tr

/-- How many calls threw having removed an element that then was lost. -/
def losses : List (TEvent (Op α) (Out α)) → Nat
  | [] => 0
  | .lin _ op .threw :: tr => (if op.loses then 1 else 0) + losses tr
  | _ :: tr => losses tr

end Verif.Blocking
