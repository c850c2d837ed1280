import Verif.Conc.Linearizable

/-
Model of gmlc/containers/SimpleQueue.hpp as an interleaving of atomic steps: each lock or unlock operation, each access
to one of the two vectors and each access to the atomic flag is one step.  A lock can be taken only while it is free.

Exceptions: a call may end with an exception thrown when an element is constructed (or memory allocated) inside
push_back, emplace_back, insert or std::optional's constructor; the unwinding destroys the lock objects.  Which calls
throw is part of the call (`Ins.thrown`, `popX`, `peekX`), so all patterns are covered.  Simplification: the std::vector
functions have no effect when they throw (so they are for push_back and emplace_back; for insert at the end this is what
the usual implementations do), and an element whose move constructor throws keeps its value.

Not modelled: the destructor (it must not run concurrently with anything), exceptions in `reserve`, capacities (`reserve`
has no effect on the contents; its locking is modelled).
-/
namespace Verif.SimpleQueue
open Verif.Conc

variable {α : Type}

/-- The three inserting calls, whose control flow is the same; `thrown`: any of them, when inserting into the std::vector
throws. -/
inductive Ins (α : Type) where
  | push (v : α)
  | emplace (v : α)
  | pushVector (vs : List α)
  | thrown
  deriving DecidableEq

/-- The vectors (pushElements, pullElements) of a queue that is moved from while no call on it is in progress; that they
satisfy the condition is `source_sound`. -/
abbrev Src (α : Type) := { v : List α × List α // v.2 = [] → v.1 = [] }

/-- the contents of that queue, oldest first -/
def Src.contents (v : Src α) : List α := v.1.2.reverse ++ v.1.1

/-- Calls.  `assign v`: move assignment to this queue from a queue with the vectors `v`.  `popX`, `peekX`: a pop or peek in which moving or copying the element out of the std::vector throws. -/
inductive Op (α : Type) where
  | ins (i : Ins α)
  | pop
  | popX
  | peek
  | peekX
  | size
  | empty
  | clear
  | reserve
  | assign (v : Src α)
  deriving DecidableEq

/-- Results. -/
inductive Out (α : Type) where
  | unit
  | val (v : Option α)
  | num (n : Nat)
  | bool (b : Bool)
  | threw
  deriving DecidableEq

/-- Positions in checkPullandSwap, SimpleQueue.hpp:236-252. -/
inductive Chk where
  | test        -- 238 pullElements.empty()
  | lock        -- 239-240
  | testPush    -- 241
  | swap        -- 243
  | unlockSwap  -- 246
  | reverse     -- 247
  | setFlag     -- 249
  | unlockFlag  -- end of 249: pushLock is destroyed (250-251)
  deriving DecidableEq

/-- Positions of a thread: what it does next.  Line numbers are those of push; emplace (170-189) and pushVector (144-164)
correspond line by line. -/
inductive Loc (α : Type) where
  | idle
  | pLock (i : Ins α)       -- 123 lock m_pushLock
  | pTest (i : Ins α)       -- 125 pushElements.empty()
  | pUnlock (i : Ins α)     -- 126 pushLock.unlock()
  | pLockPull (i : Ins α)   -- 127 lock m_pullLock
  | pTestPull (i : Ins α)   -- 128 pullElements.empty()
  | pPull (i : Ins α)       -- 129 insert into pullElements
  | pFlag (i : Ins α)       -- 130 queueEmptyFlag.store(false)
  | pUnPull (i : Ins α)     -- 131 return: pullLock is destroyed
  | pLock2 (i : Ins α)      -- 135 pushLock.lock(), m_pullLock still held
  | pUnPull2 (i : Ins α)    -- 137 end of block: pullLock is destroyed
  | pAppend (i : Ins α)     -- 138 insert into pushElements
  | pUnPush (i : Ins α)     -- 139 return: pushLock is destroyed
  | pUnPullX                -- 129 threw: pullLock is destroyed
  | pUnPushX                -- 138 threw: pushLock is destroyed
  | oLock (x : Bool)        -- 201 lock m_pullLock
  | oCheck (c : Chk) (r : Bool ⊕ α)  -- 202 (`r` is inl) or 211 (`r` is the value moved out)
  | oFlag (x : Bool)        -- 203 read queueEmptyFlag
  | oBack (x : Bool)        -- 206-207 std::move(pullElements.back()); `x`: it throws
  | oPop (x : α)            -- 210 pop_back()
  | oUnPull (r : Option α)  -- 204, 212 return: pullLock is destroyed
  | oUnPullX                -- 206-207 threw: pullLock is destroyed
  | kLock (x : Bool)        -- 222 lock m_pullLock
  | kTest (x : Bool)        -- 224 pullElements.empty()
  | kBack (x : Bool)        -- 228 pullElements.back(); `x`: copying it throws
  | kUnPull (r : Option α)  -- 225, 229 return: lock is destroyed
  | kUnPullX                -- 228 threw: lock is destroyed
  | sLock1                  -- 91 lock m_pullLock
  | sLock2                  -- 92 lock m_pushLock
  | sPull                   -- 93 pullElements.size()
  | sPush (n : Nat)         -- 93 pushElements.size()
  | sUn1 (n : Nat)          -- 94 pushLock is destroyed
  | sUn2 (n : Nat)          -- 94 pullLock is destroyed
  | cLock1                  -- 98 lock m_pullLock
  | cLock2                  -- 99 lock m_pushLock
  | cPull                   -- 100 pullElements.clear()
  | cPush                   -- 101 pushElements.clear()
  | cFlag                   -- 102 queueEmptyFlag.store(true)
  | cUn1                    -- 103 pushLock is destroyed
  | cUn2                    -- 103 pullLock is destroyed
  | rLock1                  -- 111 lock m_pullLock
  | rLock2                  -- 112 lock m_pushLock
  | rPull                   -- 113 pullElements.reserve
  | rPush                   -- 114 pushElements.reserve
  | rUn1                    -- 115 pushLock is destroyed
  | rUn2                    -- 115 pullLock is destroyed
  | aLock1 (v : Src α)      -- 72 lock m_pullLock
  | aLock2 (v : Src α)      -- 73 lock m_pushLock
  | aPush (v : Src α)       -- 74 pushElements = std::move(sq.pushElements)
  | aPull (v : Src α)       -- 75 pullElements = std::move(sq.pullElements)
  | aFlag (v : Src α)       -- 76 queueEmptyFlag = pullElements.empty()
  | aUn1                    -- 77 pushLock is destroyed
  | aUn2                    -- 77 pullLock is destroyed
  | eRead                   -- 87 queueEmptyFlag.load()
  | ret (o : Out α)         -- the call returns
  | crash                   -- undefined behaviour: back() or pop_back() of an empty vector
  deriving DecidableEq

/-- SimpleQueue.hpp:32-38, the members (`pullOwner`, `pushOwner`: the threads holding m_pullLock, m_pushLock), and the
positions of the threads. -/
structure State (α : Type) where
  push : List α
  pull : List α
  flag : Bool
  pushOwner : Option Nat
  pullOwner : Option Nat
  loc : Nat → Loc α

/-- SimpleQueue.hpp:41 (and 56-60: capacities are not modelled). -/
def State.init : State α := ⟨[], [], true, none, none, fun _ => .idle⟩

/-- 129 push_back, 179 emplace_back, 153-154 insert from rbegin to rend. -/
def Ins.intoPull (pull : List α) : Ins α → List α
  | .push v => pull ++ [v]
  | .emplace v => pull ++ [v]
  | .pushVector vs => pull ++ vs.reverse
  | .thrown => pull

/-- 138 push_back, 188 emplace_back, 163 insert. -/
def Ins.intoPush (push : List α) : Ins α → List α
  | .push v => push ++ [v]
  | .emplace v => push ++ [v]
  | .pushVector vs => push ++ vs
  | .thrown => push

/-- does inserting throw? -/
def Ins.throws : Ins α → Bool
  | .thrown => true
  | _ => false

namespace State

/-- thread `t` goes on at `l` -/
def goto (s : State α) (t : Nat) (l : Loc α) : State α := { s with loc := upd s.loc t l }

/-- std::mutex::lock -/
def lockPull (s : State α) (t : Nat) (l : Loc α) : Option (State α) :=
  match s.pullOwner with
  | none => some ({ s with pullOwner := some t }.goto t l)
  | some _ => none

def lockPush (s : State α) (t : Nat) (l : Loc α) : Option (State α) :=
  match s.pushOwner with
  | none => some ({ s with pushOwner := some t }.goto t l)
  | some _ => none

/-- std::mutex::unlock -/
def unlockPull (s : State α) (t : Nat) (l : Loc α) : State α := { s with pullOwner := none }.goto t l

def unlockPush (s : State α) (t : Nat) (l : Loc α) : State α := { s with pushOwner := none }.goto t l

/-- after checkPullandSwap: 203 or 212 -/
def afterCheck : Bool ⊕ α → Loc α
  | .inl x => .oFlag x
  | .inr v => .oUnPull (some v)

/-- A step of thread `t` at position `l`; see `Loc` for the lines.  `none`: it has to wait for a lock (or is idle, or
has crashed). -/
def stepAt (s : State α) (t : Nat) : Loc α → Option (State α × Option (Out α))
  | .idle => none
  | .pLock i => (s.lockPush t (.pTest i)).map (·, none)
  | .pTest i => some (s.goto t (if s.push.isEmpty then .pUnlock i else .pAppend i), none)
  | .pUnlock i => some (s.unlockPush t (.pLockPull i), none)
  | .pLockPull i => (s.lockPull t (.pTestPull i)).map (·, none)
  | .pTestPull i => some (s.goto t (if s.pull.isEmpty then .pPull i else .pLock2 i), none)
  | .pPull i => some (if i.throws then s.goto t .pUnPullX
      else { s with pull := i.intoPull s.pull }.goto t (.pFlag i), none)
  | .pFlag i => some ({ s with flag := false }.goto t (.pUnPull i), none)
  | .pUnPull _ => some (s.unlockPull t (.ret .unit), none)
  | .pLock2 i => (s.lockPush t (.pUnPull2 i)).map (·, none)
  | .pUnPull2 i => some (s.unlockPull t (.pAppend i), none)
  | .pAppend i => some (if i.throws then s.goto t .pUnPushX
      else { s with push := i.intoPush s.push }.goto t (.pUnPush i), none)
  | .pUnPush _ => some (s.unlockPush t (.ret .unit), none)
  | .pUnPullX => some (s.unlockPull t (.ret .threw), none)
  | .pUnPushX => some (s.unlockPush t (.ret .threw), none)
  | .oLock x => (s.lockPull t (.oCheck .test (.inl x))).map (·, none)
  | .oCheck .test r => some (s.goto t (if s.pull.isEmpty then .oCheck .lock r else afterCheck r), none)
  | .oCheck .lock r => (s.lockPush t (.oCheck .testPush r)).map (·, none)
  | .oCheck .testPush r => some (s.goto t (if s.push.isEmpty then .oCheck .setFlag r else .oCheck .swap r), none)
  | .oCheck .swap r => some ({ s with push := s.pull, pull := s.push }.goto t (.oCheck .unlockSwap r), none)
  | .oCheck .unlockSwap r => some (s.unlockPush t (.oCheck .reverse r), none)
  | .oCheck .reverse r => some ({ s with pull := s.pull.reverse }.goto t (afterCheck r), none)
  | .oCheck .setFlag r => some ({ s with flag := true }.goto t (.oCheck .unlockFlag r), none)
  | .oCheck .unlockFlag r => some (s.unlockPush t (afterCheck r), none)
  | .oFlag x => some (s.goto t (if s.flag then .oUnPull none else .oBack x), none)
  | .oBack x => some (s.goto t (match s.pull.getLast? with
      | some v => if x then .oUnPullX else .oPop v
      | none => .crash), none)
  | .oPop x => some (if s.pull.isEmpty then s.goto t .crash
      else { s with pull := s.pull.dropLast }.goto t (.oCheck .test (.inr x)), none)
  | .oUnPull r => some (s.unlockPull t (.ret (.val r)), none)
  | .oUnPullX => some (s.unlockPull t (.ret .threw), none)
  | .kLock x => (s.lockPull t (.kTest x)).map (·, none)
  | .kTest x => some (s.goto t (if s.pull.isEmpty then .kUnPull none else .kBack x), none)
  | .kBack x => some (s.goto t (match s.pull.getLast? with
      | some v => if x then .kUnPullX else .kUnPull (some v)
      | none => .crash), none)
  | .kUnPullX => some (s.unlockPull t (.ret .threw), none)
  | .kUnPull r => some (s.unlockPull t (.ret (.val r)), none)
  | .sLock1 => (s.lockPull t .sLock2).map (·, none)
  | .sLock2 => (s.lockPush t .sPull).map (·, none)
  | .sPull => some (s.goto t (.sPush s.pull.length), none)
  | .sPush n => some (s.goto t (.sUn1 (n + s.push.length)), none)
  | .sUn1 n => some (s.unlockPush t (.sUn2 n), none)
  | .sUn2 n => some (s.unlockPull t (.ret (.num n)), none)
  | .cLock1 => (s.lockPull t .cLock2).map (·, none)
  | .cLock2 => (s.lockPush t .cPull).map (·, none)
  | .cPull => some ({ s with pull := [] }.goto t .cPush, none)
  | .cPush => some ({ s with push := [] }.goto t .cFlag, none)
  | .cFlag => some ({ s with flag := true }.goto t .cUn1, none)
  | .cUn1 => some (s.unlockPush t .cUn2, none)
  | .cUn2 => some (s.unlockPull t (.ret .unit), none)
  | .rLock1 => (s.lockPull t .rLock2).map (·, none)
  | .rLock2 => (s.lockPush t .rPull).map (·, none)
  | .rPull => some (s.goto t .rPush, none)
  | .rPush => some (s.goto t .rUn1, none)
  | .rUn1 => some (s.unlockPush t .rUn2, none)
  | .rUn2 => some (s.unlockPull t (.ret .unit), none)
  | .aLock1 v => (s.lockPull t (.aLock2 v)).map (·, none)
  | .aLock2 v => (s.lockPush t (.aPush v)).map (·, none)
  | .aPush v => some ({ s with push := v.1.1 }.goto t (.aPull v), none)
  | .aPull v => some ({ s with pull := v.1.2 }.goto t (.aFlag v), none)
  | .aFlag _ => some ({ s with flag := s.pull.isEmpty }.goto t .aUn1, none)
  | .aUn1 => some (s.unlockPush t .aUn2, none)
  | .aUn2 => some (s.unlockPull t (.ret .unit), none)
  | .eRead => some (s.goto t (.ret (.bool s.flag)), none)
  | .ret o => some (s.goto t .idle, some o)
  | .crash => none

/-- where a call begins -/
def start : Op α → Loc α
  | .ins i => .pLock i
  | .pop => .oLock false
  | .popX => .oLock true
  | .peek => .kLock false
  | .peekX => .kLock true
  | .size => .sLock1
  | .empty => .eRead
  | .clear => .cLock1
  | .reserve => .rLock1
  | .assign v => .aLock1 v

/-- a thread begins a call -/
def call (s : State α) (t : Nat) (op : Op α) : Option (State α) :=
  match s.loc t with
  | .idle => some (s.goto t (start op))
  | _ => none

/-- SimpleQueue.hpp:62-67 and 70-78 (new object or assigned-to object, moved-from object): the vectors are moved, the
flag of the moved-from object is not touched.  No thread is inside a call. -/
def moveFrom (s : State α) : State α × State α :=
  (⟨s.push, s.pull, s.pull.isEmpty, none, none, fun _ => .idle⟩, { s with push := [], pull := [] })

end State

/-- the queue as a concurrent system -/
def sys (α : Type) : Sys (State α) (Op α) (Out α) where
  init := State.init
  call t op s := s.call t op
  move t _ s := s.stepAt t (s.loc t)

end Verif.SimpleQueue
