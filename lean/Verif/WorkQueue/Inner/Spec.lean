import Verif.WorkQueue.Inner.Model
import Verif.WorkQueue.Spec

/-
Specification of closing a WorkQueue from inside a work block.
-/
namespace Verif.WorkQueue.Inner
open Verif.Conc

/-- how often block `i` has been submitted -/
def submitted (i : Nat) : List (Event Op Res) → Nat
  | [] => 0
  | .call _ op :: h => op.adds i + submitted i h
  | .ret _ _ :: h => submitted i h

/-- no client closes or destroys the queue -/
def notByClients (h : List (Event Op Res)) : Prop := ∀ t op, .call t op ∈ h → op.closes = false

/-- no thread can go on, except by the timeout of a waiting worker -/
def stuck (n : Nat) (closes : Nat → Bool) (s : State) : Prop :=
  ∀ t c, s.q.loc t ≠ .wSleep → (sys n closes).move t c s = none

/-- Lines 301-306, 511: destroying the queue ends the program, because halt is set, so the destructor does not close it, and a thread
object that has not been joined is destroyed. -/
def destroyTerminates (n : Nat) (s : State) : Prop := s.q.halt = true ∧ ∃ k, k < n ∧ s.q.joined k = false

end Verif.WorkQueue.Inner
