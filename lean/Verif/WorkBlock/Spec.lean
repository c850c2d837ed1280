import Verif.WorkBlock.Model

/-
Specification of WorkBlock: a function, whether it is done, and its result.
-/
namespace Verif.WorkBlock

variable {V : Type}

/-- calls on a block -/
inductive Op where
  | execute
  | reset
  | updateWorkFunction (f : Nat)
  | updateTask (t : Task)
  | isFinished
  | getReturnVal
  deriving DecidableEq

/-- results; `blocks`: getReturnVal does not return -/
inductive Out (V : Type) where
  | unit
  | bool (b : Bool)
  | result (r : Res V)
  | blocks
  | throws (e : Exc)
  deriving DecidableEq

/-- A block as its user sees it. -/
structure Abs (V : Type) where
  fn : Nat
  finished : Bool
  result : Option (Res V)
  log : List Nat

/-- What each call does; tasks given to updateTask are new ones (their future has not been taken, they have not run). -/
def Abs.step (eval : List Nat → Nat → Res V) (a : Abs V) : Op → Abs V × Out V
  | .execute => if a.finished then (a, .unit)
      else ({ a with finished := true, result := some (eval a.log a.fn), log := a.log ++ [a.fn] }, .unit)
  | .reset => ({ a with finished := false, result := none }, .unit)
  | .updateWorkFunction f => ({ a with fn := f, finished := false, result := none }, .unit)
  | .updateTask t => ({ a with fn := t.fn, finished := false, result := none }, .unit)
  | .isFinished => (a, .bool a.finished)
  | .getReturnVal => (a, match a.result with | some r => .result r | none => .blocks)

/-- a history -/
def Abs.run (eval : List Nat → Nat → Res V) (a : Abs V) : List Op → Abs V × List (Out V)
  | [] => (a, [])
  | op :: ops => (((a.step eval op).1.run eval ops).1, (a.step eval op).2 :: ((a.step eval op).1.run eval ops).2)

/-- The code: a call on a block. -/
def step (eval : List Nat → Nat → Res V) (s : World V × Block) : Op → (World V × Block) × Out V
  | .execute => fin (s.2.execute eval s.1)
  | .reset => fin (s.2.reset s.1)
  | .updateWorkFunction f => fin (s.2.updateWorkFunction s.1 f)
  | .updateTask t => fin (s.2.updateTask s.1 t)
  | .isFinished => (s, .bool s.2.isFinished)
  | .getReturnVal => (s, match s.2.returnVal s.1 with | some r => .result r | none => .blocks)
where
  fin : World V × Block × Option Exc → (World V × Block) × Out V
    | (w, b, none) => ((w, b), .unit)
    | (w, b, some e) => ((w, b), .throws e)

/-- the code: a history -/
def run (eval : List Nat → Nat → Res V) (s : World V × Block) : List Op → (World V × Block) × List (Out V)
  | [] => (s, [])
  | op :: ops => ((run eval (step eval s op).1 ops).1, (step eval s op).2 :: (run eval (step eval s op).1 ops).2)

/-- The task is a new one: valid, its shared state is its own and not ready, its future has not been taken. -/
def Task.new (w : World V) (t : Task) : Prop := ∃ i, t.state = some i ∧ w.states[i]? = some none ∧ t.retrieved = false

/-- Every task given to updateTask is a new one at that moment, and is not the block's own. -/
def fresh (eval : List Nat → Nat → Res V) (s : World V × Block) : List Op → Prop
  | [] => True
  | .updateTask t :: ops => (t.new s.1 ∧ t.state ≠ s.2.task.state) ∧ fresh eval (step eval s (.updateTask t)).1 ops
  | op :: ops => fresh eval (step eval s op).1 ops

end Verif.WorkBlock
