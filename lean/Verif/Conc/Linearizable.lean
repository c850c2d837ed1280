/-
Concurrent systems and linearizability, independently of any container.

A system is a shared state and two kinds of atomic step: a thread begins a call, or a thread inside a call takes its
next step, which may end the call with a result.  Any number of threads (natural numbers) run in any interleaving; steps
are sequentially consistent.  A history records the beginnings and ends of calls.

A history is linearizable with respect to a sequential specification if each call can be given one moment between its
beginning and its end (calls that have not ended may be given none) such that the calls, in the order of these moments,
are a run of the specification with the recorded results.
-/
namespace Verif.Conc

/-- function update -/
def upd {α : Type} (f : Nat → α) (t : Nat) (x : α) : Nat → α := fun u => if u = t then x else f u

/-- What an observer sees: thread `t` calls `op`, the call of thread `t` returns `o`. -/
inductive Event (Op Out : Type) where
  | call (t : Nat) (op : Op)
  | ret (t : Nat) (o : Out)

/-! ### Systems -/

/-- `call t op s`: thread `t` begins the call `op`; `move t c s`: thread `t` takes its next step (`c` resolves a choice
of the environment, where there is one), possibly returning a result.  `none`: impossible in state `s`. -/
structure Sys (S Op Out : Type) where
  init : S
  call : Nat → Op → S → Option S
  move : Nat → Nat → S → Option (S × Option Out)

/-- What a scheduler can do. -/
inductive Act (Op : Type) where
  | call (t : Nat) (op : Op)
  | move (t : Nat) (c : Nat)

namespace Sys
variable {S Op Out : Type} (M : Sys S Op Out)

/-- one step, with the events seen -/
def exec (s : S) : Act Op → Option (S × List (Event Op Out))
  | .call t op => (M.call t op s).map fun s => (s, [.call t op])
  | .move t c => (M.move t c s).map fun r => (r.1, match r.2 with | some o => [.ret t o] | none => [])

/-- a schedule, with the history -/
def run : S → List (Act Op) → Option (S × List (Event Op Out))
  | s, [] => some (s, [])
  | s, a :: as => (M.exec s a).bind fun r => (run r.1 as).map fun r' => (r'.1, r.2 ++ r'.2)

/-- the states of all executions -/
def Reachable (s : S) : Prop := ∃ as h, M.run M.init as = some (s, h)

/-- The system used by one thread at a time: a call begins only when no call is in progress. -/
def oneAtATime : Sys (S × Bool) Op Out where
  init := (M.init, false)
  call t op s := if s.2 then none else (M.call t op s.1).map fun s' => (s', true)
  move t c s := (M.move t c s.1).map fun r => ((r.1, s.2 && r.2.isNone), r.2)

end Sys

/-- the calls a schedule begins -/
def calls {Op : Type} : List (Act Op) → List Op
  | [] => []
  | .call _ op :: as => op :: calls as
  | .move _ _ :: as => calls as

/-! ### Linearizability -/

/-- A sequential specification: `step q op` is the new state and the result of `op` in state `q`; `none`: the call
cannot take effect in this state (it has to wait). -/
structure Spec (Q Op Out : Type) where
  init : Q
  step : Q → Op → Option (Q × Out)

/-- Events with the moments at which calls take effect. -/
inductive TEvent (Op Out : Type) where
  | call (t : Nat) (op : Op)
  | lin (t : Nat) (op : Op) (o : Out)
  | ret (t : Nat) (o : Out)

/-- What a thread is doing: nothing, a call that has not taken effect, a call that has. -/
inductive Status (Op Out : Type) where
  | idle
  | pending (op : Op)
  | done (o : Out)
  deriving DecidableEq

/-- the state of the specification and of the threads -/
structure Ghost (Q Op Out : Type) where
  q : Q
  st : Nat → Status Op Out

variable {Q Op Out : Type}

/-- One event: a thread calls only if it is doing nothing; it takes effect once, according to the specification; it
returns the result it had when taking effect. -/
inductive TStep (sp : Spec Q Op Out) : Ghost Q Op Out → TEvent Op Out → Ghost Q Op Out → Prop
  | call {q st t op} : st t = .idle → TStep sp ⟨q, st⟩ (.call t op) ⟨q, upd st t (.pending op)⟩
  | lin {q st t op q' o} : st t = .pending op → sp.step q op = some (q', o) →
      TStep sp ⟨q, st⟩ (.lin t op o) ⟨q', upd st t (.done o)⟩
  | ret {q st t o} : st t = .done o → TStep sp ⟨q, st⟩ (.ret t o) ⟨q, upd st t .idle⟩

/-- a sequence of events -/
def TSteps (sp : Spec Q Op Out) : Ghost Q Op Out → List (TEvent Op Out) → Ghost Q Op Out → Prop
  | g, [], g' => g' = g
  | g, e :: es, g' => ∃ g1, TStep sp g e g1 ∧ TSteps sp g1 es g'

/-- what the observer sees of it -/
def erase : List (TEvent Op Out) → List (Event Op Out)
  | [] => []
  | .call t op :: es => .call t op :: erase es
  | .lin _ _ _ :: es => erase es
  | .ret t o :: es => .ret t o :: erase es

/-- before any event -/
def Spec.ghost (sp : Spec Q Op Out) : Ghost Q Op Out := ⟨sp.init, fun _ => .idle⟩

/-- `h` is linearizable. -/
def Linearizable (sp : Spec Q Op Out) (h : List (Event Op Out)) : Prop :=
  ∃ tr g, TSteps sp sp.ghost tr g ∧ erase tr = h

end Verif.Conc
