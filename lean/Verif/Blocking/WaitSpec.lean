import Verif.Blocking.Model

/-
Specification of what the calls of the blocking queues do besides their effect on the queue: waiting on the condition
variable and calling the function passed to popOrCall.
-/
namespace Verif.Blocking
open Verif.Conc

variable {α : Type}

/-- What one thread does, as far as somebody sees it who watches the condition variable and the function passed to
popOrCall: it begins a call; it begins to wait; its wait ends, by notification or spuriously; its wait ends by timeout; it
calls the function; its call ends. -/
inductive Mark (α : Type) where
  | call (op : Op α)
  | waits
  | woken
  | timeout
  | fn
  | ret (o : Out α)
  deriving DecidableEq

/-- the end of a wait: only wait_for (Q253, P318) can end with a timeout -/
def wakeMark (b : Bool) : Kind → Mark α
  | .timed _ _ => if b then .timeout else .woken
  | _ => .woken

/-- what is seen of a step at a position other than its result: Q225, Q253, Q292, P279, P318, P373; Q283, P356 -/
def stepMark (c : Nat) : Loc α → List (Mark α)
  | .wEnter _ => [.waits]
  | .wSleep k => [wakeMark (c % 2 == 1) k]
  | .wCall _ => [.fn]
  | _ => []

/-- what is seen of thread `t` in one step -/
def seen (t : Nat) (s : State α) (o : Option (Out α)) : Act (Op α) → List (Mark α)
  | .call u op => if u = t then [.call op] else []
  | .move u c => if u = t then stepMark c (s.loc t) ++ (o.map Mark.ret).toList else []

/-- the result of a step, if it ends a call -/
def resultOf (b : Bool) (s : State α) : Act (Op α) → Option (Out α)
  | .call _ _ => none
  | .move u c => (s.stepAt b u c (s.loc u)).bind (·.2)

/-- what is seen of thread `t` in an execution beginning in state `s` -/
def watch (b : Bool) (t : Nat) : State α → List (Act (Op α)) → List (Mark α)
  | _, [] => []
  | s, a :: as =>
    match (sys b α).exec s a with
    | none => []
    | some r => seen t s (resultOf b s a) a ++ watch b t r.1 as

/-- `m` is any number of repetitions of `w` -/
def Rounds (w m : List (Mark α)) : Prop := ∃ n, m = (List.replicate n w).flatten

/-- What is seen of a call `op` with the result `o`:
- pop waits any number of times;
- pop(timeout) waits any number of times; once a wait has ended with a timeout it does not wait again; it returns nothing
  only if a wait has ended with a timeout;
- popOrCall calls the function each time before it waits, and at most once more, in the end; if the function throws the
  call ends at once;
- no other call waits. -/
def waiting (op : Op α) (o : Out α) (m : List (Mark α)) : Prop :=
  match op with
  | .pop | .popX _ => Rounds [.waits, .woken] m
  | .timedPop | .timedPopX _ => (Rounds [.waits, .woken] m ∧ o ≠ .val none) ∨ ∃ m', Rounds [.waits, .woken] m' ∧ m = m' ++ [.waits, .timeout]
  | .popOrCall | .popOrCallX _ => ∃ m', Rounds [.fn, .waits, .woken] m' ∧ (m = m' ∨ m = m' ++ [.fn])
  | .popOrCallF => (m = [] ∧ o ≠ .threw) ∨ (m = [.fn] ∧ o = .threw)
  | _ => m = []

/-- not the beginning or end of a call -/
def Mark.inner : Mark α → Bool
  | .call _ | .ret _ => false
  | _ => true

end Verif.Blocking
