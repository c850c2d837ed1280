import Verif.Conc.Linearizable

/-
Model of gmlc/containers/AirLock.hpp as an interleaving of atomic steps: each lock or unlock operation, each access to
`data`, each access to the atomic `loaded`, and the condition variable's operations are one step each.  Waiting gives up
the lock and begins to wait in one step; a waiting thread can wake up spuriously at any time; notify_one wakes an
arbitrary waiting thread.

Exceptions: assigning the new value to `data` (48, 64, 70) or moving `data` out (85) may throw; the guard is then
destroyed and the exception reaches the caller.  Whether it throws is part of the call (`tryLoadX`, `loadX`, `tryUnloadX`,
`tryUnloadTorn`), so all patterns are covered.  An assignment that throws leaves no usable value in `data`.
-/
namespace Verif.AirLock
open Verif.Conc

variable {α : Type}

/-- Calls.  `tryLoadX`, `loadX`: calls of try_load and load with a value whose assignment to `data` throws.  `tryUnloadX`,
`tryUnloadTorn`: calls of try_unload in which moving `data` out throws; after `tryUnloadX` the object still has its value (as
if it has been copied), after `tryUnloadTorn` it has lost it (as if one of its members has been moved and then moving
another one has thrown). -/
inductive Op (α : Type) where
  | tryLoad (v : α)
  | tryLoadX
  | load (v : α)
  | loadX
  | tryUnload
  | tryUnloadX
  | tryUnloadTorn
  | isLoaded
  deriving DecidableEq

/-- Results; `threw`: an exception. -/
inductive Out (α : Type) where
  | unit
  | bool (b : Bool)
  | val (v : Option α)
  | threw
  deriving DecidableEq

/-- What becomes of moving `data` out (85): it succeeds, throws and leaves the value, throws and loses the value. -/
inductive Fate where
  | moves
  | keeps
  | tears
  deriving DecidableEq

/-- Positions of a thread: what it does next (lines of AirLock.hpp).  The value to be assigned to `data` is `none` if the
assignment throws. -/
inductive Loc (α : Type) where
  | idle
  | tRead (v : Option α)   -- 45 loaded.load
  | tLock (v : Option α)   -- 46 lock door
  | tTest (v : Option α)   -- 47 loaded.load
  | tData (v : Option α)   -- 48 data = val
  | tFlag (v : α)      -- 49 loaded.store(true)
  | tUn (b : Bool)     -- 50, 52 lock is destroyed
  | lLock (v : Option α)   -- 62 lock door
  | lTest (v : Option α)   -- 63 loaded.load
  | lLoop (v : Option α)   -- 67 loaded.load
  | lEnter (v : Option α)  -- 68 begin to wait, giving up the lock
  | lSleep (v : Option α)  -- 68 waiting or just notified
  | lRelock (v : Option α) -- 68 end of wait: lock door
  | lFirst (v : Option α)  -- 64 data = val
  | lData (v : Option α)   -- 70 data = val
  | lFlag (v : α)      -- 65, 71 loaded.store(true)
  | lUn                -- 73 lock is destroyed
  | uRead (f : Fate)   -- 81 loaded.load
  | uLock (f : Fate)   -- 82 lock door
  | uTest (f : Fate)   -- 84 loaded.load
  | uData (f : Fate)   -- 85 std::move(data)
  | uFlag (x : α)      -- 86 loaded.store(false)
  | uNotify (x : α)    -- 87 condition.notify_one()
  | uUn (r : Option α) -- 88, 90 lock is destroyed
  | iRead              -- 97 loaded.load
  | xUn                -- 48, 64, 70 or 85 has thrown: lock is destroyed
  | ret (o : Out α)    -- the call returns
  | garbage            -- 85 has read an object that was never loaded or has been moved from
  deriving DecidableEq

/-- AirLock.hpp:100-104, the members, and the positions of the threads.  `data` is `none` while it is default
constructed, moved from or damaged by an exception; `owner`: the thread holding `door`; `waiting`: the threads waiting on `condition`. -/
structure State (α : Type) where
  loaded : Bool
  data : Option α
  owner : Option Nat
  waiting : List Nat
  loc : Nat → Loc α

/-- AirLock.hpp:38. -/
def State.init : State α := ⟨false, none, none, [], fun _ => .idle⟩

namespace State

/-- thread `t` goes on at `l` -/
def goto (s : State α) (t : Nat) (l : Loc α) : State α := { s with loc := upd s.loc t l }

/-- std::mutex::lock -/
def lock (s : State α) (t : Nat) (l : Loc α) : Option (State α) :=
  match s.owner with
  | none => some ({ s with owner := some t }.goto t l)
  | some _ => none

/-- std::mutex::unlock -/
def unlock (s : State α) (t : Nat) (l : Loc α) : State α := { s with owner := none }.goto t l

/-- A step of thread `t` at position `l`; see `Loc` for the lines.  `c` selects the thread that notify_one wakes. -/
def stepAt (s : State α) (t c : Nat) : Loc α → Option (State α × Option (Out α))
  | .idle => none
  | .tRead v => some (s.goto t (if s.loaded then .ret (.bool false) else .tLock v), none)
  | .tLock v => (s.lock t (.tTest v)).map (·, none)
  | .tTest v => some (s.goto t (if s.loaded then .tUn false else .tData v), none)
  | .tData (some v) => some ({ s with data := some v }.goto t (.tFlag v), none)
  | .tData none => some ({ s with data := none }.goto t .xUn, none)
  | .tFlag _ => some ({ s with loaded := true }.goto t (.tUn true), none)
  | .tUn b => some (s.unlock t (.ret (.bool b)), none)
  | .lLock v => (s.lock t (.lTest v)).map (·, none)
  | .lTest v => some (s.goto t (if s.loaded then .lLoop v else .lFirst v), none)
  | .lLoop v => some (s.goto t (if s.loaded then .lEnter v else .lData v), none)
  | .lEnter v => some ({ s with waiting := t :: s.waiting }.unlock t (.lSleep v), none)
  | .lSleep v => some ({ s with waiting := s.waiting.erase t }.goto t (.lRelock v), none)
  | .lRelock v => (s.lock t (.lLoop v)).map (·, none)
  | .lFirst (some v) => some ({ s with data := some v }.goto t (.lFlag v), none)
  | .lFirst none => some ({ s with data := none }.goto t .xUn, none)
  | .lData (some v) => some ({ s with data := some v }.goto t (.lFlag v), none)
  | .lData none => some ({ s with data := none }.goto t .xUn, none)
  | .lFlag _ => some ({ s with loaded := true }.goto t .lUn, none)
  | .lUn => some (s.unlock t (.ret .unit), none)
  | .uRead f => some (s.goto t (if s.loaded then .uLock f else .ret (.val none)), none)
  | .uLock f => (s.lock t (.uTest f)).map (·, none)
  | .uTest f => some (s.goto t (if s.loaded then .uData f else .uUn none), none)
  | .uData .keeps => some (s.goto t .xUn, none)
  | .uData .tears => some ({ s with data := none }.goto t .xUn, none)
  | .uData .moves => some ({ s with data := none }.goto t (match s.data with | some x => .uFlag x | none => .garbage), none)
  | .uFlag x => some ({ s with loaded := false }.goto t (.uNotify x), none)
  | .uNotify x => some ({ s with waiting := s.waiting.eraseIdx (c % s.waiting.length) }.goto t (.uUn (some x)), none)
  | .uUn r => some (s.unlock t (.ret (.val r)), none)
  | .iRead => some (s.goto t (.ret (.bool s.loaded)), none)
  | .xUn => some (s.unlock t (.ret .threw), none)
  | .ret o => some (s.goto t .idle, some o)
  | .garbage => none

/-- where a call begins -/
def start : Op α → Loc α
  | .tryLoad v => .tRead (some v)
  | .tryLoadX => .tRead none
  | .load v => .lLock (some v)
  | .loadX => .lLock none
  | .tryUnload => .uRead .moves
  | .tryUnloadX => .uRead .keeps
  | .tryUnloadTorn => .uRead .tears
  | .isLoaded => .iRead

/-- a thread begins a call -/
def call (s : State α) (t : Nat) (op : Op α) : Option (State α) :=
  match s.loc t with
  | .idle => some (s.goto t (start op))
  | _ => none

end State

/-- is this one of the calls in which the value is lost by an exception? -/
def Op.tears : Op α → Bool
  | .tryUnloadTorn => true
  | _ => false

/-- the airlock as a concurrent system, with element types for which moving an object either succeeds or leaves it its
value -/
def sys (α : Type) : Sys (State α) (Op α) (Out α) where
  init := State.init
  call t op s := if op.tears then none else s.call t op
  move t c s := s.stepAt t c (s.loc t)

/-- the airlock as a concurrent system, with any element types -/
def sysTorn (α : Type) : Sys (State α) (Op α) (Out α) where
  init := State.init
  call t op s := s.call t op
  move t c s := s.stepAt t c (s.loc t)

end Verif.AirLock
