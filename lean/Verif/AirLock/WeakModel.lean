import Verif.AirLock.Model
import Verif.Conc.HappensBefore

/-
AirLock in the C++ memory model.  `loaded` is read with memory_order_acquire and written with memory_order_release
(AirLock.hpp:45, 47, 49, 63, 65, 67, 71, 81, 84, 86, 97), so the interleaving semantics of Verif/AirLock/Model.lean does not
cover all executions: a read may yield an older value of `loaded` than the one stored last.

Here an execution is a sequence of numbered steps (0: construction of the object), in an order compatible with "happens
before".  Each thread knows the steps that happen before its next one (`seen`), each step has the set of the steps that
happen before it or are it (`log`).  Threads learn of steps of other threads:
* by locking `door`: what the thread that unlocked it last knew,
* by reading `loaded`: what the thread that stored the value read knew then (release and acquire),
* between calls, by any means outside the airlock: what has happened before some step (`idle` in `move`).
The stores to `loaded` have a modification order (`mem`): a store takes any place after those that happen before it; a read
yields any store that is not followed by another one that happens before the read.  These are the coherence rules of the
standard ([intro.races]); since every read is an acquire operation and every store a release operation, a store that is read
happens before the read, hence precedes it in the sequence, and all executions of the standard are covered.
`data` is not atomic: an access that does not happen after all previous ones is a data race (`race`).
-/
namespace Verif.AirLock
open Verif.Conc

variable {α : Type}

/-- what a step does to memory -/
inductive Access where
  | nothing
  | read
  | write
  | use
  | lock
  | unlock
  deriving DecidableEq

/-- AirLock.hpp: reads of `loaded` (45, 47, 63, 67, 81, 84, 97), stores to it (49, 65, 71, 86), accesses to `data` (48, 64, 70,
85), locking (46, 62, 82, end of 68) and unlocking (50, 52, beginning of 68, 73, 88, 90) of `door`. -/
def access : Loc α → Access
  | .tRead _ | .tTest _ | .lTest _ | .lLoop _ | .uRead _ | .uTest _ | .iRead => .read
  | .tFlag _ | .lFlag _ | .uFlag _ => .write
  | .tData _ | .lFirst _ | .lData _ | .uData _ => .use
  | .tLock _ | .lLock _ | .lRelock _ | .uLock _ => .lock
  | .tUn _ | .lUn | .lEnter _ | .uUn _ | .xUn => .unlock
  | .idle | .lSleep _ | .uNotify _ | .ret _ | .garbage => .nothing

/-- The airlock (`base`; `base.loaded` is the value of the last store in modification order), and: `mem`: the stores to
`loaded` in modification order, each with the number of its step; `uses`: the steps that have accessed `data`; `door`: what
happens before the next locking of `door`; `seen`: what happens before the next step of a thread; `log`: for each step, what
happens before it, and itself; `race`: there has been a data race. -/
structure Weak (α : Type) where
  base : State α
  mem : List (Nat × Bool)
  uses : List Nat
  door : List Nat
  seen : Nat → List Nat
  log : List (List Nat)
  race : Bool

/-- AirLock.hpp:38; the construction happens before everything else. -/
def Weak.init : Weak α := ⟨State.init, [(0, false)], [0], [0], fun _ => [0], [[0]], false⟩

namespace Weak

/-- thread `t` takes a step, knowing also `p` -/
def tick (w : Weak α) (t : Nat) (p : List Nat) : Weak α :=
  { w with seen := upd w.seen t (w.log.length :: (p ++ w.seen t)), log := w.log ++ [w.log.length :: (p ++ w.seen t)] }

/-- one of these stores happens before the next step of `t` -/
def anySeen (w : Weak α) (t : Nat) (m : List (Nat × Bool)) : Bool := m.any fun x => decide (x.1 ∈ w.seen t)

/-- the value of the last store -/
def newest (m : List (Nat × Bool)) : Bool := (m.getLast?.map Prod.snd).getD false

/-- A step of thread `t` at position `l`, inside a call; the positions are those of `State.stepAt`.  `c` selects the store that a
read yields, the place of a store, or the thread that is notified. -/
def moveAt (t c : Nat) (w : Weak α) (l : Loc α) : Option (Weak α × Option (Out α)) :=
  match access l with
  | .nothing => (w.base.stepAt t c l).map fun r => ({ w with base := r.1 }.tick t [], r.2)
  | .lock => (w.base.stepAt t c l).map fun r => ({ w with base := r.1 }.tick t w.door, r.2)
  | .unlock => (w.base.stepAt t c l).map fun r => ({ ({ w with base := r.1 }.tick t []) with door := w.log.length :: w.seen t }, r.2)
  | .use => (w.base.stepAt t c l).map fun r => ({ w with
      base := r.1, uses := w.log.length :: w.uses, race := w.race || !(w.uses.all fun u => decide (u ∈ w.seen t)) }.tick t [], r.2)
  | .read => match w.mem[c]? with
    | none => none
    | some (e, b) => if w.anySeen t (w.mem.drop (c + 1)) then none
      else (State.stepAt { w.base with loaded := b } t c l).map fun r =>
        ({ w with base := { r.1 with loaded := w.base.loaded } }.tick t ((w.log[e]?).getD []), r.2)
  | .write => if c > w.mem.length ∨ w.anySeen t (w.mem.drop c) then none
    else (w.base.stepAt t c l).map fun r =>
      ({ w with
        base := { r.1 with loaded := newest (w.mem.take c ++ (w.log.length, r.1.loaded) :: w.mem.drop c) }
        mem := w.mem.take c ++ (w.log.length, r.1.loaded) :: w.mem.drop c }.tick t [], r.2)

/-- The next step of thread `t`; between calls `c` selects what it learns of. -/
def move (t c : Nat) (w : Weak α) : Option (Weak α × Option (Out α)) :=
  match w.base.loc t with
  | .idle => (w.log[c]?).map fun p => (w.tick t p, none)
  | l => w.moveAt t c l

/-- a thread begins a call -/
def call (t : Nat) (op : Op α) (w : Weak α) : Option (Weak α) :=
  if op.tears then none else (w.base.call t op).map fun s => { w with base := s }.tick t []

end Weak

/-- the airlock in the C++ memory model, with element types for which moving an object either succeeds or leaves it its value -/
def weak (α : Type) : Sys (Weak α) (Op α) (Out α) := ⟨Weak.init, Weak.call, Weak.move⟩

/-- step `m` happens before step `n` -/
def happensBefore (log : List (List Nat)) (m n : Nat) : Prop := m ≠ n ∧ ∃ k, log[n]? = some k ∧ m ∈ k

/-- does a call with this result fill or empty the airlock? -/
def changes : Op α → Out α → Bool
  | .load _, .unit => true
  | .tryLoad _, .bool true => true
  | .tryUnload, .val (some _) => true
  | _, _ => false

end Verif.AirLock
