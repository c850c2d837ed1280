import Verif.WorkBlock.Props

/-
WorkBlock (gmlc/containers/WorkQueue.hpp:59-213) when memory runs out.  The calls that allocate are those that make a shared state:
the constructor of std::packaged_task from a function and packaged_task::reset.  If these get no memory they throw std::bad_alloc and
leave their object as it was.  (This is an assumption about packaged_task::reset: [futures.task.members] says that it acts as if
assigning a new packaged_task, whose construction throws here, but does not say that the stored function survives.)  A function that
throws when it is copied into a packaged_task has the same effect.
-/
namespace Verif.WorkBlock
variable {V : Type}

/-- calls on a block, some of which get no memory -/
inductive MOp where
  | ok (op : Op)                        -- the call gets the memory it needs
  | resetFails                          -- reset, no memory available
  | updateFails (f : Nat)               -- updateWorkFunction, no memory available
  deriving DecidableEq

/-- results -/
inductive MOut (V : Type) where
  | out (o : Out V)
  | badAlloc                            -- throws std::bad_alloc
  deriving DecidableEq

/-! ### The code -/

/-- Lines 123-130, 198-205, without memory: line 126 (201) throws; a block that is not loaded does not get there. -/
def Block.resetFails (w : World V) (b : Block) : (World V × Block) × MOut V :=
  if b.loaded then
    match b.task.state with
    | none => ((w, b), .out (.throws .noState))
    | some _ => ((w, b), .badAlloc)
  else ((step.fin (b.reset w)).1, .out (step.fin (b.reset w)).2)

/-- Lines 98-108, 178-188, without memory: line 104 (184) throws after line 103 (183). -/
def Block.updateFails (w : World V) (b : Block) : (World V × Block) × MOut V := ((w, { b with loaded := false }), .badAlloc)

/-- Lines 73-81, 155-163, without memory for the packaged_task (75, 157), or for the reset (80, 162): the members made so far are
destroyed, which abandons the shared state of the task. -/
def Block.ofFnFails (w : World V) (f : Nat) (inReset : Bool) : World V :=
  if inReset then (Task.make w f).1.abandon (Task.make w f).2.state else w

/-- Lines 67-71, 149-153, without memory for the reset: the task has been moved into the member `task`, which is destroyed. -/
def Block.ofTaskFails (w : World V) (t : Task) : World V := w.abandon t.state

/-- a call -/
def mstep (eval : List Nat → Nat → Res V) (s : World V × Block) : MOp → (World V × Block) × MOut V
  | .ok op => ((step eval s op).1, .out (step eval s op).2)
  | .resetFails => s.2.resetFails s.1
  | .updateFails _ => s.2.updateFails s.1

/-- a history -/
def mrun (eval : List Nat → Nat → Res V) (s : World V × Block) : List MOp → (World V × Block) × List (MOut V)
  | [] => (s, [])
  | op :: ops => ((mrun eval (mstep eval s op).1 ops).1, (mstep eval s op).2 :: (mrun eval (mstep eval s op).1 ops).2)

/-- As `fresh`: every task given to updateTask is a new one at that moment, and is not the block's own. -/
def mfresh (eval : List Nat → Nat → Res V) (s : World V × Block) : List MOp → Prop
  | [] => True
  | op :: ops => (∀ t, op = .ok (.updateTask t) → t.new s.1 ∧ t.state ≠ s.2.task.state) ∧ mfresh eval (mstep eval s op).1 ops

/-! ### What a user expects: a call that throws has no effect -/

/-- one call -/
def Abs.mstep (eval : List Nat → Nat → Res V) (a : Abs V) : MOp → Abs V × MOut V
  | .ok op => ((a.step eval op).1, .out (a.step eval op).2)
  | .resetFails => (a, .badAlloc)
  | .updateFails _ => (a, .badAlloc)

/-- a history -/
def Abs.mrun (eval : List Nat → Nat → Res V) (a : Abs V) : List MOp → Abs V × List (MOut V)
  | [] => (a, [])
  | op :: ops => (((a.mstep eval op).1.mrun eval ops).1, (a.mstep eval op).2 :: ((a.mstep eval op).1.mrun eval ops).2)

/-! ### What the code does, in the same terms -/

/-- A block that may have lost its function. -/
structure Lossy (V : Type) where
  abs : Abs V
  lost : Bool

/-- One call.  A failing updateWorkFunction loses the function.  A block without function becomes finished when executed, without a
result; resetting it throws; a successful update makes it whole. -/
def Lossy.step (eval : List Nat → Nat → Res V) (a : Lossy V) : MOp → Lossy V × MOut V
  | .ok .execute =>
    if a.lost then ({ a with abs := { a.abs with finished := true } }, .out .unit)
    else (⟨(a.abs.step eval .execute).1, false⟩, .out .unit)
  | .ok .reset =>
    if a.lost then ({ a with abs := { a.abs with finished := false } }, .out (.throws .alreadyRetrieved))
    else (⟨{ a.abs with finished := false, result := none }, false⟩, .out .unit)
  | .resetFails =>
    if a.lost then ({ a with abs := { a.abs with finished := false } }, .out (.throws .alreadyRetrieved)) else (a, .badAlloc)
  | .ok (.updateWorkFunction f) => (⟨⟨f, false, none, a.abs.log⟩, false⟩, .out .unit)
  | .ok (.updateTask t) => (⟨⟨t.fn, false, none, a.abs.log⟩, false⟩, .out .unit)
  | .ok op => (a, .out (a.abs.step eval op).2)
  | .updateFails _ => ({ a with lost := true }, .badAlloc)

/-- a history -/
def Lossy.run (eval : List Nat → Nat → Res V) (a : Lossy V) : List MOp → Lossy V × List (MOut V)
  | [] => (a, [])
  | op :: ops => (((a.step eval op).1.run eval ops).1, (a.step eval op).2 :: ((a.step eval op).1.run eval ops).2)

end Verif.WorkBlock
