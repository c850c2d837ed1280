import Verif.WorkBlock.Spec

/-
Programs that use any number of WorkBlocks and of futures taken from them, with move construction, move assignment and
destruction: what the code does (`PS.step`, from the definitions of Model.lean), and the specification (`User.step`).
-/
namespace Verif.WorkBlock

variable {V : Type}

/-- What a program does; `v` and `u` name blocks, `k` is a future: the k-th one taken, counting from 0. -/
inductive POp where
  | make (v f : Nat)              -- WorkBlock v(f)
  | moveMake (v u : Nat)          -- WorkBlock v(std::move(u))
  | assign (v u : Nat)            -- v = std::move(u)
  | destroy (v : Nat)
  | execute (v : Nat)
  | reset (v : Nat)
  | update (v f : Nat)            -- v.updateWorkFunction(f)
  | isFinished (v : Nat)
  | getReturnVal (v : Nat)
  | getFuture (v : Nat)           -- the future is kept
  | get (k : Nat)                 -- get() of a future taken before
  deriving DecidableEq

/-- a function with one value changed -/
def upd {α : Type} (g : Nat → α) (v : Nat) (x : α) : Nat → α := fun y => if y = v then x else g y

/-! ### The code -/

/-- Shared states, blocks (`none`: no such object) and futures taken (`none`: not valid). -/
structure PS (V : Type) where
  w : World V
  blocks : Nat → Option Block
  held : List (Option Nat)

/-- Answer of a call: `none` stands for undefined behaviour (no such object, or use of a future that is not valid;
a block that is moved to itself is left out too). -/
abbrev POut (V : Type) := Option (Out V)

/-- what get() of a future answers -/
def World.answer (w : World V) : Option Nat → POut V
  | none => none
  | some i => some (match w.read (some i) with | some r => .result r | none => .blocks)

/-- a member function that may throw -/
def PS.call (s : PS V) (v : Nat) : World V × Block × Option Exc → PS V × POut V
  | (w, b, none) => (⟨w, upd s.blocks v (some b), s.held⟩, some .unit)
  | (w, b, some e) => (⟨w, upd s.blocks v (some b), s.held⟩, some (.throws e))

/-- One statement.  WorkQueue.hpp lines 59-139: each case uses the model of the member function; destruction (implicit
destructor) makes the task give up its shared state. -/
def PS.step (eval : List Nat → Nat → Res V) (s : PS V) : POp → PS V × POut V
  | .make v f =>
    match s.blocks v with
    | some _ => (s, none)
    | none =>
      match Block.ofFn s.w f with
      | (w, some b) => (⟨w, upd s.blocks v (some b), s.held⟩, some .unit)
      | (w, none) => (⟨w, s.blocks, s.held⟩, some (.throws .noState))
  | .moveMake v u =>
    match s.blocks v, s.blocks u with
    | none, some b => (⟨s.w, upd (upd s.blocks u (some b.moveFrom.2)) v (some b.moveFrom.1), s.held⟩, some .unit)
    | _, _ => (s, none)
  | .assign v u =>
    if v = u then (s, none)
    else
      match s.blocks v, s.blocks u with
      | some a, some b =>
        (⟨(a.moveAssign s.w b).1, upd (upd s.blocks u (some (a.moveAssign s.w b).2.2)) v (some (a.moveAssign s.w b).2.1), s.held⟩,
          some .unit)
      | _, _ => (s, none)
  | .destroy v =>
    match s.blocks v with
    | some b => (⟨s.w.abandon b.task.state, upd s.blocks v none, s.held⟩, some .unit)
    | none => (s, none)
  | .execute v =>
    match s.blocks v with
    | some b => s.call v (b.execute eval s.w)
    | none => (s, none)
  | .reset v =>
    match s.blocks v with
    | some b => s.call v (b.reset s.w)
    | none => (s, none)
  | .update v f =>
    match s.blocks v with
    | some b => s.call v (b.updateWorkFunction s.w f)
    | none => (s, none)
  | .isFinished v => (s, (s.blocks v).map fun b => .bool b.isFinished)
  | .getReturnVal v => (s, (s.blocks v).bind fun b => s.w.answer b.future)
  | .getFuture v =>
    match s.blocks v with
    | some b => (⟨s.w, s.blocks, s.held ++ [b.getFuture]⟩, some .unit)
    | none => (s, none)
  | .get k => (s, (s.held[k]?).bind s.w.answer)

/-- a program -/
def PS.run (eval : List Nat → Nat → Res V) (s : PS V) : List POp → PS V × List (POut V)
  | [] => (s, [])
  | op :: ops => (((s.step eval op).1.run eval ops).1, (s.step eval op).2 :: ((s.step eval op).1.run eval ops).2)

/-- at the start there are no blocks -/
def PS.init : PS V := ⟨⟨[], []⟩, fun _ => none, []⟩

/-! ### The specification

A job is one planned run of a function: construction, reset and updateWorkFunction make a new one.  A job belongs to one
block, moves with it, and ends in one of two ways: it is run, or the block gives it up before (reset, update, assignment to
the block, destruction) and it is broken.  The result of a job never changes; futures are futures of jobs. -/

/-- What a name stands for: no object, a block that was moved from (and whether it had been finished), or a block with the
function `f` and the job `j`. -/
inductive Slot where
  | gone
  | hollow (finished : Bool)
  | live (f j : Nat)
  deriving DecidableEq

/-- The program as its user sees it: the names, the jobs in the order in which they were made with their results (`none`:
none yet), the futures taken (jobs, or `none`) and the runs of functions so far. -/
structure User (V : Type) where
  slots : Nat → Slot
  jobs : List (Option (Res V))
  held : List (Option Nat)
  log : List Nat

/-- whether job `j` has a result -/
def User.ended (a : User V) (j : Nat) : Bool := a.jobs[j]?.join.isSome

/-- job `j` ends with `r`, if it has not ended -/
def User.settle (a : User V) (j : Nat) (r : Res V) : User V :=
  if a.ended j then a else { a with jobs := a.jobs.set j (some r) }

/-- the block of this name gives up its job -/
def User.giveUp (a : User V) (v : Nat) : User V :=
  match a.slots v with
  | .live _ j => a.settle j .broken
  | _ => a

/-- the block of this name gets a new job -/
def User.newJob (a : User V) (v f : Nat) : User V :=
  { a with jobs := a.jobs ++ [none], slots := upd a.slots v (.live f a.jobs.length) }

/-- what is left of a block when it is moved from -/
def User.remains (a : User V) : Slot → Slot
  | .live _ j => .hollow (a.ended j)
  | x => x

/-- what get() of a future of this job answers -/
def User.answer (a : User V) : Option Nat → POut V
  | none => none
  | some j => some (match a.jobs[j]?.join with | some r => .result r | none => .blocks)

/-- One statement. -/
def User.step (eval : List Nat → Nat → Res V) (a : User V) : POp → User V × POut V
  | .make v f => if a.slots v = .gone then (a.newJob v f, some .unit) else (a, none)
  | .moveMake v u =>
    if a.slots v = .gone ∧ a.slots u ≠ .gone then
      ({ a with slots := upd (upd a.slots u (a.remains (a.slots u))) v (a.slots u) }, some .unit)
    else (a, none)
  | .assign v u =>
    if v ≠ u ∧ a.slots v ≠ .gone ∧ a.slots u ≠ .gone then
      ({ a.giveUp v with slots := upd (upd a.slots u (a.remains (a.slots u))) v (a.slots u) }, some .unit)
    else (a, none)
  | .destroy v => if a.slots v = .gone then (a, none) else ({ a.giveUp v with slots := upd a.slots v .gone }, some .unit)
  | .execute v =>
    match a.slots v with
    | .gone => (a, none)
    | .hollow true => (a, some .unit)
    | .hollow false => (a, some (.throws .noState))
    | .live f j =>
      if a.ended j then (a, some .unit) else ({ a.settle j (eval a.log f) with log := a.log ++ [f] }, some .unit)
  | .reset v =>
    match a.slots v with
    | .gone => (a, none)
    | .hollow _ => (a, some (.throws .noState))
    | .live f _ => ((a.giveUp v).newJob v f, some .unit)
  | .update v f => if a.slots v = .gone then (a, none) else ((a.giveUp v).newJob v f, some .unit)
  | .isFinished v =>
    (a, match a.slots v with
      | .gone => none
      | .hollow b => some (.bool b)
      | .live _ j => some (.bool (a.ended j)))
  | .getReturnVal v =>
    (a, match a.slots v with
      | .live _ j => a.answer (some j)
      | _ => none)
  | .getFuture v =>
    match a.slots v with
    | .gone => (a, none)
    | .hollow _ => ({ a with held := a.held ++ [none] }, some .unit)
    | .live _ j => ({ a with held := a.held ++ [some j] }, some .unit)
  | .get k => (a, (a.held[k]?).bind a.answer)

/-- a program -/
def User.run (eval : List Nat → Nat → Res V) (a : User V) : List POp → User V × List (POut V)
  | [] => (a, [])
  | op :: ops => (((a.step eval op).1.run eval ops).1, (a.step eval op).2 :: ((a.step eval op).1.run eval ops).2)

/-- at the start there is nothing -/
def User.init : User V := ⟨fun _ => .gone, [], [], []⟩

end Verif.WorkBlock
