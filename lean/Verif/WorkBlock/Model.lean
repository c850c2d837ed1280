/-
Model of WorkBlock<retType> (gmlc/containers/WorkQueue.hpp lines 59-139) and WorkBlock<void> (lines 145-213), used by one
thread at a time.  std::packaged_task, std::shared_future and their shared states are modelled from the C++ standard
([futures.task.members], [futures.state]).

Functions are identified by numbers.  What a run of a function yields, a value or an exception, may depend on all runs
before (parameter `eval`); the functions do not use the block themselves.

Simplifications: bad_alloc is modelled in Memory.lean; copies of functions are identical; the void variant has the same members and
control flow, and differs only in getReturnVal (`returnVoid`).
-/
namespace Verif.WorkBlock

/-- what a shared state can hold: a value, an exception thrown by the function, or broken_promise -/
inductive Res (V : Type) where
  | value (v : V)
  | error (e : Nat)
  | broken
  deriving DecidableEq

/-- what the member functions can throw -/
inductive Exc where
  | noState            -- std::future_errc::no_state
  | alreadyRetrieved   -- std::future_errc::future_already_retrieved
  | alreadySatisfied   -- std::future_errc::promise_already_satisfied
  deriving DecidableEq

/-- Everything outside the block: the shared states (`none`: not ready) and the runs of functions so far. -/
structure World (V : Type) where
  states : List (Option (Res V))
  log : List Nat

/-- std::packaged_task: its function, its shared state if it has one, and whether get_future has been called. -/
structure Task where
  fn : Nat
  state : Option Nat
  retrieved : Bool
  deriving DecidableEq

variable {V : Type}

/-- a new shared state -/
def World.alloc (w : World V) : World V × Nat := ({ w with states := w.states ++ [none] }, w.states.length)

/-- make a shared state ready, if it is not -/
def World.set (w : World V) (i : Nat) (r : Res V) : World V :=
  match w.states[i]? with
  | some none => { w with states := w.states.set i (some r) }
  | _ => w

/-- a task gives up its shared state ([futures.state] abandon): broken_promise unless it is ready -/
def World.abandon (w : World V) : Option Nat → World V
  | some i => w.set i .broken
  | none => w

/-- packaged_task(f) -/
def Task.make (w : World V) (f : Nat) : World V × Task := (w.alloc.1, ⟨f, some w.alloc.2, false⟩)

/-- packaged_task::reset -/
def Task.reset (w : World V) (t : Task) : World V × Task × Option Exc :=
  match t.state with
  | none => (w, t, some .noState)
  | some i => ((w.alloc.1).abandon (some i), ⟨t.fn, some w.alloc.2, false⟩, none)

/-- packaged_task::get_future -/
def Task.getFuture (t : Task) : Task × Except Exc Nat :=
  match t.state with
  | none => (t, .error .noState)
  | some i => if t.retrieved then (t, .error .alreadyRetrieved) else ({ t with retrieved := true }, .ok i)

/-- packaged_task::operator() -/
def Task.run (eval : List Nat → Nat → Res V) (w : World V) (t : Task) : World V × Option Exc :=
  match t.state with
  | none => (w, some .noState)
  | some i =>
    match w.states[i]? with
    | some none => (({ w with log := w.log ++ [t.fn] } : World V).set i (eval w.log t.fn), none)
    | _ => (w, some .alreadySatisfied)

/-- Lines 135-138, 209-212: the members (`future`: the shared state of future_ret, if any). -/
structure Block where
  task : Task
  future : Option Nat
  finished : Bool
  loaded : Bool
  deriving DecidableEq

/-- Lines 123-130, 198-205: reset. -/
def Block.reset (w : World V) (b : Block) : World V × Block × Option Exc :=
  match (if b.loaded then b.task.reset w else (w, b.task, none) : World V × Task × Option Exc) with
  | (w, t, some e) => (w, { b with task := t }, some e)
  | (w, t, none) =>
    match t.getFuture with
    | (t, .ok f) => (w, ⟨t, some f, false, b.loaded⟩, none)
    | (t, .error e) => (w, { b with task := t, finished := false }, some e)

/-- Lines 62, 148: the default constructor.  `none`: it throws. -/
def Block.default (w : World V) : World V × Option Block :=
  match ({ task := ⟨0, none, false⟩, future := none, finished := false, loaded := false } : Block).reset w with
  | (w, b, none) => (w, some b)
  | (w, _, some _) => (w, none)

/-- Lines 67-71, 149-153: construction from a packaged_task. -/
def Block.ofTask (w : World V) (t : Task) : World V × Option Block :=
  match ({ task := t, future := none, finished := false, loaded := true } : Block).reset w with
  | (w, b, none) => (w, some b)
  | (w, _, some _) => (w, none)

/-- Lines 73-81, 155-163: construction from a function. -/
def Block.ofFn (w : World V) (f : Nat) : World V × Option Block := Block.ofTask (Task.make w f).1 (Task.make w f).2

/-- Lines 85-93, 167-175: execute. -/
def Block.execute (eval : List Nat → Nat → Res V) (w : World V) (b : Block) : World V × Block × Option Exc :=
  if b.finished then (w, b, none)
  else if b.loaded then
    match b.task.run eval w with
    | (w, none) => (w, { b with finished := true }, none)
    | (w, some e) => (w, b, some e)
  else (w, { b with finished := true }, none)

/-- Lines 111-117, 189-195: updateTask. -/
def Block.updateTask (w : World V) (b : Block) (t : Task) : World V × Block × Option Exc :=
  match ({ b with loaded := false, task := t } : Block).reset (w.abandon b.task.state) with
  | (w, b, none) => (w, { b with loaded := true }, none)
  | (w, b, some e) => (w, b, some e)

/-- Lines 98-108, 178-188: updateWorkFunction. -/
def Block.updateWorkFunction (w : World V) (b : Block) (f : Nat) : World V × Block × Option Exc :=
  b.updateTask (Task.make w f).1 (Task.make w f).2

/-- Lines 119, 196: isFinished. -/
def Block.isFinished (b : Block) : Bool := b.finished

/-- What get() or wait() of a future finds (wait: lines 121, 197): `none` if it blocks (until somebody makes it ready). -/
def World.read (w : World V) (f : Option Nat) : Option (Res V) := f.bind fun i => w.states[i]?.join

/-- Line 95: getReturnVal, returning the value or throwing the stored exception. -/
def Block.returnVal (w : World V) (b : Block) : Option (Res V) := w.read b.future

/-- Line 176: getReturnVal of WorkBlock<void>, which only waits: a stored exception is not thrown. -/
def Block.returnVoid (w : World V) (b : Block) : Option Unit := (w.read b.future).map fun _ => ()

/-- Lines 132, 206: get_future. -/
def Block.getFuture (b : Block) : Option Nat := b.future

/-- Lines 65, 165: the move constructor; the new block and what remains of the old one (packaged_task and shared_future
lose their shared state when moved from, flags are copied). -/
def Block.moveFrom (b : Block) : Block × Block :=
  (b, { b with task := { b.task with state := none }, future := none })

/-- Lines 83, 166: move assignment to `a`, whose task gives up its shared state. -/
def Block.moveAssign (w : World V) (a b : Block) : World V × Block × Block :=
  (w.abandon a.task.state, b.moveFrom.1, b.moveFrom.2)

end Verif.WorkBlock
