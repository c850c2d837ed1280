import Verif.SimpleQueue.Model

/-
Specification of SimpleQueue: a FIFO queue.
-/
namespace Verif.SimpleQueue
open Verif.Conc

variable {α : Type}

/-- what an insertion appends -/
def Ins.vals : Ins α → List α
  | .push v => [v]
  | .emplace v => [v]
  | .pushVector vs => vs
  | .thrown => []

/-- A sequential FIFO queue: the list of its elements, oldest first.  A call that throws has no effect. -/
def fifo (q : List α) : Op α → List α × Out α
  | .ins .thrown => (q, .threw)
  | .ins i => (q ++ i.vals, .unit)
  | .pop => (q.tail, .val q.head?)
  | .popX => (q, if q.isEmpty then .val none else .threw)
  | .peek => (q, .val q.head?)
  | .peekX => (q, if q.isEmpty then .val none else .threw)
  | .size => (q, .num q.length)
  | .empty => (q, .bool q.isEmpty)
  | .clear => ([], .unit)
  | .reserve => (q, .unit)
  | .assign v => (v.contents, .unit)

/-- the same as a specification -/
def spec (α : Type) : Spec (List α) (Op α) (Out α) := ⟨[], fun q op => some (fifo q op)⟩

/-- What the code does: a FIFO queue, except that pushVector of an empty vector, called on an empty queue, makes empty()
return false (the flag in the state) until the next pop, clear, move assignment or insertion that does not throw. -/
def actual (q : List α × Bool) : Op α → (List α × Bool) × Out α
  | .ins .thrown => (q, .threw)
  | .ins i => ((q.1 ++ i.vals, q.1.isEmpty && i.vals.isEmpty), .unit)
  | .pop => ((q.1.tail, false), .val q.1.head?)
  | .popX => if q.1.isEmpty then (([], false), .val none) else (q, .threw)
  | .empty => (q, .bool (q.1.isEmpty && !q.2))
  | .clear => (([], false), .unit)
  | .assign v => ((v.contents, false), .unit)
  | op => (q, (fifo q.1 op).2)

/-- the same as a specification -/
def actualSpec (α : Type) : Spec (List α × Bool) (Op α) (Out α) := ⟨([], false), fun q op => some (actual q op)⟩

/-! ### Traces: what was inserted and removed, in the order in which the calls took effect -/

/-- the values inserted; a move assignment inserts the contents of the other queue -/
def inserted : List (TEvent (Op α) (Out α)) → List α
  | [] => []
  | .lin _ (.ins i) _ :: tr => i.vals ++ inserted tr
  | .lin _ (.assign v) _ :: tr => v.contents ++ inserted tr
  | _ :: tr => inserted tr

/-- the calls that discard what the queue holds -/
def drops : Op α → Bool
  | .clear | .assign _ => true
  | _ => false

/-- the values returned by pop -/
def popped : List (TEvent (Op α) (Out α)) → List α
  | [] => []
  | .lin _ .pop (.val (some x)) :: tr => x :: popped tr
  | _ :: tr => popped tr

/-! ### Accesses to the two vectors -/

/-- Source positions with an access to pushElements: 125, 138 (and 148, 163, 174, 188), 241, 243, 93, 101, 114, 74. -/
def usesPush : Loc α → Bool
  | .pTest _ | .pAppend _ | .oCheck .testPush _ | .oCheck .swap _ | .sPush _ | .cPush | .rPush | .aPush _ => true
  | _ => false

/-- Source positions with an access to pullElements: 128, 129 (and 152-154, 178, 179), 238, 243, 247, 206-207, 210,
224, 228, 93, 100, 113, 75, 76. -/
def usesPull : Loc α → Bool
  | .pTestPull _ | .pPull _ | .oCheck .test _ | .oCheck .swap _ | .oCheck .reverse _ | .oBack _ | .oPop _ | .kTest _
  | .kBack _
  | .sPull | .cPull | .rPull | .aPull _ | .aFlag _ => true
  | _ => false

end Verif.SimpleQueue
