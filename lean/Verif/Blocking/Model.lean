import Verif.Conc.Linearizable

/-
Model of gmlc/containers/BlockingQueue.hpp and gmlc/containers/BlockingPriorityQueue.hpp as an interleaving of atomic
steps: each lock or unlock operation, each access to one of the two vectors or to the priority queue, each access to the
atomic flag and the condition variable's operations are one step each.  A lock can be taken only while it is free; waiting
gives up the lock and begins to wait in one step; a waiting thread can wake up at any time, spuriously or by timeout.

The two classes have the same members and the same code but for the priority channel, so there is one model with a
parameter `prio`: `true` is BlockingPriorityQueue, `false` BlockingQueue.  Line numbers are given as Q<line> for
BlockingQueue.hpp and P<line> for BlockingPriorityQueue.hpp.

The function passed to popOrCall is one step without effect; what it does to the queue appears as calls of another
thread that run during this step.

Exceptions: an insertion may end with an exception, thrown when the element is constructed in its container (or memory for
it is allocated); a pop may end with one thrown when the element is moved out of its container, or when it is moved into the
result after it has been removed from the container, or by the function passed to popOrCall; a try_peek may end with one
thrown when the element is copied.  The locks are then released, in the order in which their guards are destroyed, and
the exception reaches the caller.  Whether it throws is part of the call (`Ins.thrown` and the calls whose names end in X or
F), so all patterns are covered.  Simplifications: the insertion functions of the standard containers have no effect when
they throw (so they have, for insertions at the end); an element whose move constructor throws keeps its value; swapping
elements (std::reverse) does not throw.

Not modelled: destructors (they must not run concurrently with anything), capacities (`reserve` has no effect
on the contents; its locking is modelled), the moved-from value that stays in a container between std::move and pop.
-/
namespace Verif.Blocking
open Verif.Conc

variable {α : Type}

/-- push and emplace, or pushPriority and emplacePriority, whose control flow is the same; `thrown`: any of them, when
inserting the element into its container throws. -/
inductive Ins (α : Type) where
  | push (v : α)
  | emplace (v : α)
  | thrown (v : α)
  deriving DecidableEq

/-- Calls.  `ins`: push, emplace; `prio`: pushPriority, emplacePriority.  `tryPopX` and so on: the call throws when it moves
an element, out of its container or (`lost`) into the result, the element having been removed from the container.
`popOrCallF`: the function passed to popOrCall throws.  `peekX`: copying the element throws. -/
inductive Op (α : Type) where
  | ins (i : Ins α)
  | prio (i : Ins α)
  | tryPop
  | tryPopX (lost : Bool)
  | pop
  | popX (lost : Bool)
  | timedPop
  | timedPopX (lost : Bool)
  | popOrCall
  | popOrCallX (lost : Bool)
  | popOrCallF
  | peek
  | peekX
  | size
  | empty
  | clear
  | reserve
  deriving DecidableEq

/-- Results; `val (some x)` is also the result of pop and popOrCall, `peek` that of try_peek; `threw`: an exception. -/
inductive Out (α : Type) where
  | unit
  | val (v : Option α)
  | num (n : Nat)
  | bool (b : Bool)
  | peek (v : Option α)
  | threw
  deriving DecidableEq

/-- What becomes of the call: nothing throws, moving the element out of its container throws, moving it into the result
throws, the function passed to popOrCall throws (of no importance for the other calls). -/
inductive Fate where
  | ok
  | out
  | lost
  | fn
  deriving DecidableEq

/-- The function in which a call of try_pop is: try_pop itself, pop() (Q213, P261), pop(timeout) (Q241, P301), popOrCall
(Q278, P351).  `last`: the wait before (Q253, P318) has ended with a timeout. -/
inductive Kind where
  | try (f : Fate)
  | pop (f : Fate)
  | timed (f : Fate) (last : Bool)
  | orCall (f : Fate)
  deriving DecidableEq

/-- Positions in checkPullAndSwap, Q320-336, P398-414. -/
inductive Chk where
  | test        -- Q322 P400 pullElements.empty()
  | lock        -- Q323 P401 lock m_pushLock
  | testPush    -- Q325 P403 pushElements.empty()
  | swap        -- Q327 P405
  | unlockSwap  -- Q330 P408 pushLock.unlock()
  | reverse     -- Q331 P409
  | setFlag     -- Q333 P411 queueEmptyFlag = true
  | unlockFlag  -- Q335 P413 pushLock is destroyed
  deriving DecidableEq

/-- Positions of a thread: what it does next. -/
inductive Loc (α : Type) where
  | idle
  -- push (Q116-149, P115-148), emplace (Q153-187, P176-210); the lines are those of push
  | pLock (i : Ins α)      -- Q118 P117 lock m_pushLock
  | pTest (i : Ins α)      -- Q120 P119 pushElements.empty()
  | pCas (i : Ins α)       -- Q122 P121 queueEmptyFlag.compare_exchange_strong(true, false)
  | pUnlock (i : Ins α)    -- Q125 P124 pushLock.unlock()
  | pLockPull (i : Ins α)  -- Q126 P125 lock m_pullLock
  | pFlag (i : Ins α)      -- Q128 P127 queueEmptyFlag = false
  | pTestPull (i : Ins α)  -- Q129 P128 pullElements.empty()
  | pPull (i : Ins α)      -- Q130 P129 insert into pullElements
  | pLock2 (i : Ins α)     -- Q132 P132 pushLock.lock(), m_pullLock still held
  | pPush2 (i : Ins α)     -- Q133 P133 insert into pushElements
  | pNotify (b : Bool)     -- Q136 P135 condition.notify_all(); b: pushLock is held
  | pUnPull (b : Bool)     -- Q137 P136 return: pullLock is destroyed
  | pAppend (i : Ins α)    -- Q139 P138 insert into pushElements
  | pCas2                  -- Q141 P140 queueEmptyFlag.compare_exchange_strong(true, false)
  | pNotify2               -- Q143 P142 condition.notify_all()
  | pAppend0 (i : Ins α)   -- Q148 P147 insert into pushElements
  | pUnPush                -- Q137, Q145, Q149, P136, P144, P148: pushLock is destroyed
  -- an insertion has thrown: the guards are destroyed
  | xUnPull (b : Bool)     -- Q137, P136, P164, P171 pullLock is destroyed; b: pushLock is held
  | xUnPush                -- Q149, P148 pushLock is destroyed
  -- pushPriority (P154-172), emplacePriority (P216-234); the lines are those of pushPriority
  | fCas (i : Ins α)       -- P157 queueEmptyFlag.compare_exchange_strong(true, false)
  | fLock (i : Ins α)      -- P158 lock m_pullLock
  | fFlag (i : Ins α)      -- P159 queueEmptyFlag = false
  | fPush (i : Ins α)      -- P161 priorityQueue.push
  | fNotify                -- P163, P169 condition.notify_all()
  | gLock (i : Ins α)      -- P165 lock m_pullLock
  | gPush (i : Ins α)      -- P166 priorityQueue.push
  | gCas (i : Ins α)       -- P168 queueEmptyFlag.compare_exchange_strong(true, false)
  | fUn                    -- P164, P171 pullLock is destroyed
  -- an element could not be moved out or copied
  | yUn                    -- Q204, Q223, Q230, Q345, P252, P271, P277, P283, P289, P424, P434 pullLock is destroyed
  -- try_pop (Q340-353, P418-435)
  | oLock (k : Kind)                          -- Q342 P420 lock m_pullLock
  | oPrio (k : Kind)                          -- P421 priorityQueue.empty()
  | oPFront (k : Kind)                        -- P422 std::move(priorityQueue.front())
  | oPPop (k : Kind) (x : α)                  -- P423 priorityQueue.pop()
  | oCheck (c : Chk) (k : Kind) (r : Option α)  -- Q343 P426 (`r` is none), Q351 P433 (`r` is the value moved out)
  | oTest (k : Kind)                          -- Q344 P427 pullElements.empty()
  | oBack (k : Kind)                          -- Q347-348 P431 std::move(pullElements.back())
  | oPop (k : Kind) (x : α)                   -- Q350 P432 pop_back()
  | oUnPull (k : Kind) (r : Option α)         -- Q345, Q352, P424, P428, P434 return: pullLock is destroyed
  -- the rest of pop (Q216-236, P265-296), pop(timeout) (Q244-267, P304-340), popOrCall (Q281-302, P354-385); the lines
  -- are those of pop().  `w`: none before the wait, some b after it (b: it ended with a timeout)
  | wCall (f : Fate)                          -- Q283 P356 callOnWaitFunction()
  | wLock (k : Kind)                          -- Q217 P266 lock m_pullLock
  | wPrio (k : Kind) (w : Option Bool)        -- P268, P280 priorityQueue.empty()
  | wPFront (k : Kind)                        -- P269, P281 std::move(priorityQueue.front())
  | wPPop (k : Kind) (x : α)                  -- P270, P282 priorityQueue.pop()
  | wTest (k : Kind) (w : Option Bool)        -- Q219, Q226, P273, P285 pullElements.empty()
  | wBack (k : Kind)                          -- Q221, Q228, P275, P287 std::move(pullElements.back())
  | wPop (k : Kind) (x : α)                   -- Q222, Q229, P276, P288 pop_back()
  | wUn (k : Kind) (x : α)                    -- Q223, Q230, P271, P277, P283, P289 return: pullLock is destroyed
  | wEnter (k : Kind)                         -- Q225 P279 begin to wait, giving up the lock
  | wSleep (k : Kind)                         -- Q225 P279 waiting or just notified
  | wRelock (k : Kind) (b : Bool)             -- Q225 P279 end of wait: lock m_pullLock
  | wUnlock (k : Kind) (b : Bool)             -- Q232 P291 pullLock.unlock()
  -- try_peek (Q194-204, P240-252)
  | kLock (x : Bool)                          -- Q196 P242 lock m_pullLock; `x`: copying the element throws
  | kPrio (x : Bool)                          -- P243 priorityQueue.empty()
  | kPFront (x : Bool)                        -- P244 priorityQueue.front()
  | kTest (x : Bool)                          -- Q198 P246 pullElements.empty()
  | kBack (x : Bool)                          -- Q202 P250 pullElements.back()
  | kUn (v : α)                               -- Q203, P244, P251 return: lock is destroyed
  | kUnNone (x : Bool)                        -- Q199, P247 return: lock is destroyed
  | kNone (x : Bool)                          -- the call returns nothing
  -- size (Q356-361)
  | sLock1                                    -- Q358 lock m_pullLock
  | sLock2                                    -- Q359 lock m_pushLock
  | sPull                                     -- Q360 pullElements.size()
  | sPush (n : Nat)                           -- Q360 pushElements.size()
  | sUn1 (n : Nat)                            -- Q361 pushLock is destroyed
  | sUn2 (n : Nat)                            -- Q361 pullLock is destroyed
  -- clear (Q91-98, P51-61)
  | cLock1                                    -- Q93 P53 lock m_pullLock
  | cLock2                                    -- Q94 P54 lock m_pushLock
  | cPull                                     -- Q95 P55 pullElements.clear()
  | cPush                                     -- Q96 P56 pushElements.clear()
  | cPrio                                     -- P57-59 while (!priorityQueue.empty()) priorityQueue.pop()
  | cFlag                                     -- Q97 P60 queueEmptyFlag = true
  | cUn1                                      -- Q98 P61 pushLock is destroyed
  | cUn2                                      -- Q98 P61 pullLock is destroyed
  -- reserve (Q104-110, P103-109)
  | rLock1                                    -- Q106 P105 lock m_pullLock
  | rLock2                                    -- Q107 P106 lock m_pushLock
  | rPull                                     -- Q108 P107 pullElements.reserve
  | rPush                                     -- Q109 P108 pushElements.reserve
  | rUn1                                      -- Q110 P109 pushLock is destroyed
  | rUn2                                      -- Q110 P109 pullLock is destroyed
  | eRead                                     -- Q366 P440 queueEmptyFlag.load()
  | ret (o : Out α)                           -- the call returns
  | crash                                     -- undefined behaviour: back/pop_back/front/pop of an empty container
  deriving DecidableEq

/-- Q37-45, P36-45, the members (`pullOwner`, `pushOwner`: the threads holding m_pullLock, m_pushLock; `waiting`: the
threads waiting on `condition`; `prio` is not used by BlockingQueue), and the positions of the threads. -/
structure State (α : Type) where
  push : List α
  pull : List α
  prio : List α
  flag : Bool
  pushOwner : Option Nat
  pullOwner : Option Nat
  waiting : List Nat
  loc : Nat → Loc α

/-- Q48, P48 (and Q63-67, P69-73: capacities are not modelled). -/
def State.init : State α := ⟨[], [], [], true, none, none, [], fun _ => .idle⟩

/-- the value inserted -/
def Ins.val : Ins α → α
  | .push v => v
  | .emplace v => v
  | .thrown v => v

/-- does inserting throw? -/
def Ins.throws : Ins α → Bool
  | .thrown _ => true
  | _ => false

/-- The try_pop at the end of the loop, Q233, Q261, Q300, P292, P332, P383. -/
def Kind.again (b : Bool) : Kind → Kind
  | .timed f _ => .timed f b
  | k => k

/-- what becomes of moving the element -/
def Kind.fate : Kind → Fate
  | .try f | .pop f | .timed f _ | .orCall f => f

/-- The result of a pop that has removed `x` from its container: Q236, Q223, Q230, Q267, Q302, Q352 and the corresponding
lines of the other class move it into the result, unless the compiler elides this. -/
def Kind.result (k : Kind) (x : α) : Out α :=
  match k.fate with
  | .lost => .threw
  | _ => .val (some x)

namespace State

/-- thread `t` goes on at `l` -/
def goto (s : State α) (t : Nat) (l : Loc α) : State α := { s with loc := upd s.loc t l }

/-- std::mutex::lock -/
def lockPull (s : State α) (t : Nat) (l : Loc α) : Option (State α) :=
  match s.pullOwner with
  | none => some ({ s with pullOwner := some t }.goto t l)
  | some _ => none

def lockPush (s : State α) (t : Nat) (l : Loc α) : Option (State α) :=
  match s.pushOwner with
  | none => some ({ s with pushOwner := some t }.goto t l)
  | some _ => none

/-- std::mutex::unlock -/
def unlockPull (s : State α) (t : Nat) (l : Loc α) : State α := { s with pullOwner := none }.goto t l

def unlockPush (s : State α) (t : Nat) (l : Loc α) : State α := { s with pushOwner := none }.goto t l

/-- After checkPullAndSwap: Q344 P427 or Q352 P434. -/
def afterCheck (k : Kind) : Option α → Loc α
  | none => .oTest k
  | some x => .oUnPull k (some x)

/-- After try_pop has returned `r`: try_pop itself returns; the loops of pop (Q216, P265), pop(timeout) (Q244, Q262, P304,
P333) and popOrCall (Q281, P354). -/
def afterTry : Kind → Option α → Loc α
  | k, some x => .ret (k.result x)
  | .try _, none => .ret (.val none)
  | .timed _ true, none => .ret (.val none)
  | .orCall f, none => .wCall f
  | k, none => .wLock k

/-- The element `x` is moved out of its container (or that throws). -/
def moveOut (k : Kind) (next : α → Loc α) : Option α → Loc α
  | some x => if k.fate = .out then .yUn else next x
  | none => .crash

/-- A step of thread `t` at position `l`; see `Loc` for the lines.  `none`: it has to wait for a lock (or is idle, or has
crashed).  `c`: whether wait_for ends with a timeout (Q253, P318). -/
def stepAt (prio : Bool) (s : State α) (t c : Nat) : Loc α → Option (State α × Option (Out α))
  | .idle => none
  | .pLock i => (s.lockPush t (.pTest i)).map (·, none)
  | .pTest i => some (s.goto t (if s.push.isEmpty then .pCas i else .pAppend0 i), none)
  | .pCas i => some (if s.flag then { s with flag := false }.goto t (.pUnlock i) else s.goto t (.pAppend i), none)
  | .pUnlock i => some (s.unlockPush t (.pLockPull i), none)
  | .pLockPull i => (s.lockPull t (.pFlag i)).map (·, none)
  | .pFlag i => some ({ s with flag := false }.goto t (.pTestPull i), none)
  | .pTestPull i => some (s.goto t (if s.pull.isEmpty then .pPull i else .pLock2 i), none)
  | .pPull i => some (if i.throws then s.goto t (.xUnPull false)
      else { s with pull := s.pull ++ [i.val] }.goto t (.pNotify false), none)
  | .pLock2 i => (s.lockPush t (.pPush2 i)).map (·, none)
  | .pPush2 i => some (if i.throws then s.goto t (.xUnPull true)
      else { s with push := s.push ++ [i.val] }.goto t (.pNotify true), none)
  | .pNotify b => some ({ s with waiting := [] }.goto t (.pUnPull b), none)
  | .pUnPull b => some (s.unlockPull t (if b then .pUnPush else .ret .unit), none)
  | .pAppend i => some (if i.throws then s.goto t .xUnPush
      else { s with push := s.push ++ [i.val] }.goto t .pCas2, none)
  | .pCas2 => some (if s.flag then { s with flag := false }.goto t .pNotify2 else s.goto t .pUnPush, none)
  | .pNotify2 => some ({ s with waiting := [] }.goto t .pUnPush, none)
  | .pAppend0 i => some (if i.throws then s.goto t .xUnPush
      else { s with push := s.push ++ [i.val] }.goto t .pUnPush, none)
  | .pUnPush => some (s.unlockPush t (.ret .unit), none)
  | .xUnPull b => some (s.unlockPull t (if b then .xUnPush else .ret .threw), none)
  | .xUnPush => some (s.unlockPush t (.ret .threw), none)
  | .fCas i => some (if s.flag then { s with flag := false }.goto t (.fLock i) else s.goto t (.gLock i), none)
  | .fLock i => (s.lockPull t (.fFlag i)).map (·, none)
  | .fFlag i => some ({ s with flag := false }.goto t (.fPush i), none)
  | .fPush i => some (if i.throws then s.goto t (.xUnPull false)
      else { s with prio := s.prio ++ [i.val] }.goto t .fNotify, none)
  | .fNotify => some ({ s with waiting := [] }.goto t .fUn, none)
  | .gLock i => (s.lockPull t (.gPush i)).map (·, none)
  | .gPush i => some (if i.throws then s.goto t (.xUnPull false)
      else { s with prio := s.prio ++ [i.val] }.goto t (.gCas i), none)
  | .gCas _ => some (if s.flag then { s with flag := false }.goto t .fNotify else s.goto t .fUn, none)
  | .fUn => some (s.unlockPull t (.ret .unit), none)
  | .oLock k => (s.lockPull t (if prio then .oPrio k else .oCheck .test k none)).map (·, none)
  | .oPrio k => some (s.goto t (if s.prio.isEmpty then .oCheck .test k none else .oPFront k), none)
  | .oPFront k => some (s.goto t (moveOut k (.oPPop k) s.prio.head?), none)
  | .oPPop k x => some (if s.prio.isEmpty then s.goto t .crash
      else { s with prio := s.prio.tail }.goto t (.oUnPull k (some x)), none)
  | .oCheck .test k r => some (s.goto t (if s.pull.isEmpty then .oCheck .lock k r else afterCheck k r), none)
  | .oCheck .lock k r => (s.lockPush t (.oCheck .testPush k r)).map (·, none)
  | .oCheck .testPush k r => some (s.goto t (if s.push.isEmpty then .oCheck .setFlag k r else .oCheck .swap k r), none)
  | .oCheck .swap k r => some ({ s with push := s.pull, pull := s.push }.goto t (.oCheck .unlockSwap k r), none)
  | .oCheck .unlockSwap k r => some (s.unlockPush t (.oCheck .reverse k r), none)
  | .oCheck .reverse k r => some ({ s with pull := s.pull.reverse }.goto t (afterCheck k r), none)
  | .oCheck .setFlag k r => some ({ s with flag := true }.goto t (.oCheck .unlockFlag k r), none)
  | .oCheck .unlockFlag k r => some (s.unlockPush t (afterCheck k r), none)
  | .oTest k => some (s.goto t (if s.pull.isEmpty then .oUnPull k none else .oBack k), none)
  | .oBack k => some (s.goto t (moveOut k (.oPop k) s.pull.getLast?), none)
  | .oPop k x => some (if s.pull.isEmpty then s.goto t .crash
      else { s with pull := s.pull.dropLast }.goto t (.oCheck .test k (some x)), none)
  | .oUnPull k r => some (s.unlockPull t (afterTry k r), none)
  | .yUn => some (s.unlockPull t (.ret .threw), none)
  | .wCall f => some (s.goto t (if f = .fn then .ret .threw else .wLock (.orCall f)), none)
  | .wLock k => (s.lockPull t (if prio then .wPrio k none else .wTest k none)).map (·, none)
  | .wPrio k w => some (s.goto t (if s.prio.isEmpty then .wTest k w else .wPFront k), none)
  | .wPFront k => some (s.goto t (moveOut k (.wPPop k) s.prio.head?), none)
  | .wPPop k x => some (if s.prio.isEmpty then s.goto t .crash
      else { s with prio := s.prio.tail }.goto t (.wUn k x), none)
  | .wTest k w => some (s.goto t (if s.pull.isEmpty then (match w with | none => .wEnter k | some b => .wUnlock k b)
      else .wBack k), none)
  | .wBack k => some (s.goto t (moveOut k (.wPop k) s.pull.getLast?), none)
  | .wPop k x => some (if s.pull.isEmpty then s.goto t .crash
      else { s with pull := s.pull.dropLast }.goto t (.wUn k x), none)
  | .wUn k x => some (s.unlockPull t (.ret (k.result x)), none)
  | .wEnter k => some ({ s with waiting := t :: s.waiting }.unlockPull t (.wSleep k), none)
  | .wSleep k => some ({ s with waiting := s.waiting.erase t }.goto t (.wRelock k (c % 2 == 1)), none)
  | .wRelock k b => (s.lockPull t (if prio then .wPrio k (some b) else .wTest k (some b))).map (·, none)
  | .wUnlock k b => some (s.unlockPull t (.oLock (k.again b)), none)
  | .kLock x => (s.lockPull t (if prio then .kPrio x else .kTest x)).map (·, none)
  | .kPrio x => some (s.goto t (if s.prio.isEmpty then .kTest x else .kPFront x), none)
  | .kPFront x => some (s.goto t (match s.prio.head? with | some v => if x then .yUn else .kUn v | none => .crash), none)
  | .kTest x => some (s.goto t (if s.pull.isEmpty then .kUnNone x else .kBack x), none)
  | .kBack x => some (s.goto t (match s.pull.getLast? with | some v => if x then .yUn else .kUn v | none => .crash), none)
  | .kUn v => some (s.unlockPull t (.ret (.peek (some v))), none)
  | .kUnNone x => some (s.unlockPull t (.kNone x), none)
  | .kNone _ => some (s.goto t .idle, some (.peek none))
  | .sLock1 => (s.lockPull t .sLock2).map (·, none)
  | .sLock2 => (s.lockPush t .sPull).map (·, none)
  | .sPull => some (s.goto t (.sPush s.pull.length), none)
  | .sPush n => some (s.goto t (.sUn1 (n + s.push.length)), none)
  | .sUn1 n => some (s.unlockPush t (.sUn2 n), none)
  | .sUn2 n => some (s.unlockPull t (.ret (.num n)), none)
  | .cLock1 => (s.lockPull t .cLock2).map (·, none)
  | .cLock2 => (s.lockPush t .cPull).map (·, none)
  | .cPull => some ({ s with pull := [] }.goto t .cPush, none)
  | .cPush => some ({ s with push := [] }.goto t (if prio then .cPrio else .cFlag), none)
  | .cPrio => some (if s.prio.isEmpty then s.goto t .cFlag else { s with prio := s.prio.tail }.goto t .cPrio, none)
  | .cFlag => some ({ s with flag := true }.goto t .cUn1, none)
  | .cUn1 => some (s.unlockPush t .cUn2, none)
  | .cUn2 => some (s.unlockPull t (.ret .unit), none)
  | .rLock1 => (s.lockPull t .rLock2).map (·, none)
  | .rLock2 => (s.lockPush t .rPull).map (·, none)
  | .rPull => some (s.goto t .rPush, none)
  | .rPush => some (s.goto t .rUn1, none)
  | .rUn1 => some (s.unlockPush t .rUn2, none)
  | .rUn2 => some (s.unlockPull t (.ret .unit), none)
  | .eRead => some (s.goto t (.ret (.bool s.flag)), none)
  | .ret o => some (s.goto t .idle, some o)
  | .crash => none

/-- Where a call begins; pushPriority and emplacePriority exist only in BlockingPriorityQueue, size only in
BlockingQueue. -/
def start (prio : Bool) : Op α → Option (Loc α)
  | .ins i => some (.pLock i)
  | .prio i => if prio then some (.fCas i) else none
  | .tryPop => some (.oLock (.try .ok))
  | .tryPopX l => some (.oLock (.try (if l then .lost else .out)))
  | .pop => some (.oLock (.pop .ok))
  | .popX l => some (.oLock (.pop (if l then .lost else .out)))
  | .timedPop => some (.oLock (.timed .ok false))
  | .timedPopX l => some (.oLock (.timed (if l then .lost else .out) false))
  | .popOrCall => some (.oLock (.orCall .ok))
  | .popOrCallX l => some (.oLock (.orCall (if l then .lost else .out)))
  | .popOrCallF => some (.oLock (.orCall .fn))
  | .peek => some (.kLock false)
  | .peekX => some (.kLock true)
  | .size => if prio then none else some .sLock1
  | .empty => some .eRead
  | .clear => some .cLock1
  | .reserve => some .rLock1

/-- a thread begins a call -/
def call (prio : Bool) (s : State α) (t : Nat) (op : Op α) : Option (State α) :=
  match s.loc t with
  | .idle => (start prio op).map (s.goto t)
  | _ => none

/-- Q69-85, P75-93 (new object or assigned-to object, moved-from object): the containers are moved, the flag of the
moved-from object is not touched.  No thread is inside a call. -/
def moveFrom (s : State α) : State α × State α :=
  (⟨s.push, s.pull, s.prio, s.pull.isEmpty && s.prio.isEmpty, none, none, [], fun _ => .idle⟩,
   { s with push := [], pull := [], prio := [] })

end State

/-- the queue as a concurrent system -/
def sys (prio : Bool) (α : Type) : Sys (State α) (Op α) (Out α) where
  init := State.init
  call t op s := s.call prio t op
  move t c s := s.stepAt prio t c (s.loc t)

end Verif.Blocking
