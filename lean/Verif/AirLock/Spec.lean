import Verif.AirLock.Model

/-
Specification of AirLock: a buffer with one place.
-/
namespace Verif.AirLock
open Verif.Conc

variable {α : Type}

/-- One place, empty or full.  `none` as result: the call has to wait.  A call that throws has no effect. -/
def slot (q : Option α) : Op α → Option (Option α × Out α)
  | .tryLoad v => match q with
    | none => some (some v, .bool true)
    | some x => some (some x, .bool false)
  | .tryLoadX => match q with
    | none => some (none, .threw)
    | some x => some (some x, .bool false)
  | .load v => match q with
    | none => some (some v, .unit)
    | some _ => none
  | .loadX => match q with
    | none => some (none, .threw)
    | some _ => none
  | .tryUnload => some (none, .val q)
  | .tryUnloadX | .tryUnloadTorn => match q with
    | none => some (none, .val none)
    | some x => some (some x, .threw)
  | .isLoaded => some (q, .bool q.isSome)

/-- the same as a specification -/
def spec (α : Type) : Spec (Option α) (Op α) (Out α) := ⟨none, slot⟩

/-- the thread is asleep in load (68) -/
def asleep (s : State α) (t : Nat) : Prop := t ∈ s.waiting

/-- the thread is inside load, past line 67 at least once or about to test it, and not asleep: it will see the empty slot -/
def awakeLoader (s : State α) (t : Nat) : Prop :=
  t ∉ s.waiting ∧ match s.loc t with
    | .lSleep _ | .lRelock _ | .lLoop _ | .lData _ | .lFlag _ => True
    | _ => False

/-- the thread is inside try_unload, has emptied the slot (86) and will notify (87) -/
def willNotify (s : State α) (t : Nat) : Prop := match s.loc t with | .uNotify _ => True | _ => False

/-- the assignment of a load that has waited (70) is about to throw -/
def failsAfterWaiting : Loc α → Bool
  | .lData none => true
  | _ => false

/-- The executions in which no load that has waited throws; all other calls may throw. -/
def sysWake (α : Type) : Sys (State α) (Op α) (Out α) :=
  { sys α with move := fun t c s => if failsAfterWaiting (s.loc t) then none else (sys α).move t c s }

/-- every call but a load that may throw -/
def Op.loadSucceeds : Op α → Bool
  | .loadX => false
  | _ => true

/-- Source positions with an access to `data`: 48, 64, 70, 85. -/
def usesData : Loc α → Bool
  | .tData _ | .lFirst _ | .lData _ | .uData _ => true
  | _ => false

/-- the values loaded, in the order in which the calls took effect -/
def loads : List (TEvent (Op α) (Out α)) → List α
  | [] => []
  | .lin _ (.tryLoad v) (.bool true) :: tr => v :: loads tr
  | .lin _ (.load v) _ :: tr => v :: loads tr
  | _ :: tr => loads tr

/-- the values unloaded -/
def unloads : List (TEvent (Op α) (Out α)) → List α
  | [] => []
  | .lin _ .tryUnload (.val (some x)) :: tr => x :: unloads tr
  | _ :: tr => unloads tr

end Verif.AirLock
