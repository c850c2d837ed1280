import Verif.WorkBlock.ProgSpec

/-
Programs that use any number of WorkBlocks, of futures, and of std::packaged_task objects of their own, which they run, reset,
move, and give to blocks (constructor WorkQueue.hpp lines 67-71, 149-153; updateTask lines 111-117, 189-195).
-/
namespace Verif.WorkBlock.Tasks

variable {V : Type}

/-- What a program does: a statement about blocks and futures (`POp`), or one with a packaged_task; `p` and `q` name tasks, `v` a
block. -/
inductive TOp where
  | blk (op : POp)
  | task (p f : Nat)            -- std::packaged_task p(f)
  | taskMove (p q : Nat)        -- std::packaged_task p(std::move(q))
  | taskAssign (p q : Nat)      -- p = std::move(q)
  | taskDestroy (p : Nat)
  | taskFuture (p : Nat)        -- p.get_future(); the future is kept
  | taskRun (p : Nat)           -- p()
  | taskReset (p : Nat)
  | give (v p : Nat)            -- WorkBlock v(std::move(p))
  | updateTask (v p : Nat)      -- v.updateTask(std::move(p))
  deriving DecidableEq

/-- Blocks, futures and shared states (`PS`), and the tasks of the program (`none`: no such object). -/
structure TS (V : Type) where
  ps : PS V
  tasks : Nat → Option Task

/-- what std::move leaves of a task -/
def emptied (t : Task) : Task := { t with state := none }

/-- One statement; the answer `none` stands for undefined behaviour or a statement that is not possible (no such object, or
the name is in use; an object moved to itself is left out).  The task's members are modelled from the standard (Model.lean). -/
def TS.step (eval : List Nat → Nat → Res V) (s : TS V) : TOp → TS V × POut V
  | .blk op => (⟨(s.ps.step eval op).1, s.tasks⟩, (s.ps.step eval op).2)
  | .task p f =>
    match s.tasks p with
    | some _ => (s, none)
    | none => (⟨{ s.ps with w := (Task.make s.ps.w f).1 }, upd s.tasks p (some (Task.make s.ps.w f).2)⟩, some .unit)
  | .taskMove p q =>
    match s.tasks p, s.tasks q with
    | none, some t => (⟨s.ps, upd (upd s.tasks q (some (emptied t))) p (some t)⟩, some .unit)
    | _, _ => (s, none)
  | .taskAssign p q =>
    if p = q then (s, none)
    else
      match s.tasks p, s.tasks q with
      | some t, some u => (⟨{ s.ps with w := s.ps.w.abandon t.state }, upd (upd s.tasks q (some (emptied u))) p (some u)⟩, some .unit)
      | _, _ => (s, none)
  | .taskDestroy p =>
    match s.tasks p with
    | some t => (⟨{ s.ps with w := s.ps.w.abandon t.state }, upd s.tasks p none⟩, some .unit)
    | none => (s, none)
  | .taskFuture p =>
    match s.tasks p with
    | some t =>
      match t.getFuture with
      | (t', .ok i) => (⟨{ s.ps with held := s.ps.held ++ [some i] }, upd s.tasks p (some t')⟩, some .unit)
      | (_, .error e) => (s, some (.throws e))
    | none => (s, none)
  | .taskRun p =>
    match s.tasks p with
    | some t => (⟨{ s.ps with w := (t.run eval s.ps.w).1 }, s.tasks⟩, some (match (t.run eval s.ps.w).2 with | none => .unit | some e => .throws e))
    | none => (s, none)
  | .taskReset p =>
    match s.tasks p with
    | some t =>
      (⟨{ s.ps with w := (t.reset s.ps.w).1 }, upd s.tasks p (some (t.reset s.ps.w).2.1)⟩,
        some (match (t.reset s.ps.w).2.2 with | none => .unit | some e => .throws e))
    | none => (s, none)
  | .give v p =>
    match s.ps.blocks v, s.tasks p with
    | none, some t =>
      match Block.ofTask s.ps.w t with
      | (w, some b) => (⟨⟨w, upd s.ps.blocks v (some b), s.ps.held⟩, upd s.tasks p (some (emptied t))⟩, some .unit)
      | (w, none) => (⟨⟨w, s.ps.blocks, s.ps.held⟩, upd s.tasks p (some (emptied t))⟩, some (.throws .noState))
    | _, _ => (s, none)
  | .updateTask v p =>
    match s.ps.blocks v, s.tasks p with
    | some b, some t =>
      (⟨(s.ps.call v (b.updateTask s.ps.w t)).1, upd s.tasks p (some (emptied t))⟩, (s.ps.call v (b.updateTask s.ps.w t)).2)
    | _, _ => (s, none)

/-- a program -/
def TS.run (eval : List Nat → Nat → Res V) (s : TS V) : List TOp → TS V
  | [] => s
  | op :: ops => (s.step eval op).1.run eval ops

/-- at the start there is nothing -/
def TS.init : TS V := ⟨PS.init, fun _ => none⟩

/-! ### Specification -/

/-- the statement uses the task `p` -/
def TOp.uses (p : Nat) : TOp → Bool
  | .blk _ => false
  | .task q _ | .taskDestroy q | .taskFuture q | .taskRun q | .taskReset q | .give _ q | .updateTask _ q => q = p
  | .taskMove q r | .taskAssign q r => q = p ∨ r = p

/-- what get() of the `k`-th future answers after the program `ops` -/
def answer (eval : List Nat → Nat → Res V) (ops : List TOp) (k : Nat) : POut V := ((TS.init.run eval ops).step eval (.blk (.get k))).2

/-- how the program `ops` has to go on for `op` to answer `o` -/
def answers (eval : List Nat → Nat → Res V) (ops : List TOp) (op : TOp) (o : POut V) : Prop := ((TS.init.run eval ops).step eval op).2 = o

/-- how many futures have been taken in the program `ops` -/
def futures (eval : List Nat → Nat → Res V) (ops : List TOp) : Nat := (TS.init.run eval ops).ps.held.length

/-- after the program `ops` all blocks and tasks have been destroyed -/
def allGone (eval : List Nat → Nat → Res V) (ops : List TOp) : Prop :=
  ∀ v, (TS.init.run eval ops).ps.blocks v = none ∧ (TS.init.run eval ops).tasks v = none

end Verif.WorkBlock.Tasks
