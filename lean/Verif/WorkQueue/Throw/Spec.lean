import Verif.WorkQueue.Throw.Model
import Verif.WorkQueue.Spec
import Verif.Conc.Without

/-
Specification of the failures of WorkQueue.
-/
namespace Verif.WorkQueue.Throw
open Verif.Conc

/-- addWorkBlock -/
def isAdd : Op → Bool
  | .add _ _ | .addVector _ _ => true
  | _ => false

/-- The history without the calls of addWorkBlock that threw, and with the calls of closeWorkerQueue that threw as calls that have not
returned. -/
def calm : List (Event Op Res) → List (Event Op Out)
  | [] => []
  | .call t op :: h => if isAdd op = true ∧ ends t h = some .threw then calm h else .call t op :: calm h
  | .ret _ .threw :: h => calm h
  | .ret t (.ret o) :: h => .ret t o :: calm h

/-- the number of calls that close the queue -/
def closings : List (Event Op Res) → Nat
  | [] => 0
  | .call _ op :: h => (if op.closes then 1 else 0) + closings h
  | .ret _ _ :: h => closings h

/-- nobody can make a step, not even by a timeout -/
def rest (n : Nat) (s : State) : Prop := ∀ t c, (sys n).move t c s = none

end Verif.WorkQueue.Throw
