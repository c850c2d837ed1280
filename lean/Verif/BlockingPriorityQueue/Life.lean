import Verif.BlockingPriorityQueue.Props
import Verif.Blocking.SeqLife

/-
C162: a BlockingPriorityQueue followed through any number of moves from object to object, `std::swap` included.
-/
namespace Verif.BlockingPriorityQueue
open Verif.Conc Verif.Blocking

variable {α : Type}

/-! ## C162 -/

/-- C162.  A queue behaves as one two level queue throughout its life, whatever objects it is moved to and however many threads
use it in each of them: the history of all calls on it is linearizable.  An object that was moved from and is used again
begins a new life.  Missing: empty(), size() and try_peek, see `move_violation`. -/
theorem life_partial (s s' : State α) (h h' : List (Event (Op α) (Out α))) (as : List (Act (Op α))) (l : Life true s h)
    (e : (queue α).run s as = some (s', h')) (hn : ∀ t op, .call t op ∈ h ++ h' → op.observes = false) :
    Linearizable (twoSpec α) (h ++ h') := by
  obtain ⟨tr, g, h1, h2⟩ := l.linearizable e hn
  exact ⟨tr, g, h1, h2⟩

/-- C162, `std::swap(x, y)` while no call is in progress: what is done with `x` afterwards continues the history of `y`,
and what is done with `y` continues that of `x`.  Missing: empty(), size() and try_peek. -/
theorem std_swap_partial (x0 x y0 y : State α) (hx0 hx hy0 hy : List (Event (Op α) (Out α))) (as bs : List (Act (Op α)))
    (lx : Life true x0 hx0) (ex : (queue α).run x0 as = some (x, hx)) (ix : x.idle)
    (ly : Life true y0 hy0) (ey : (queue α).run y0 bs = some (y, hy)) (iy : y.idle)
    (as' bs' : List (Act (Op α))) (x' y' : State α) (hx' hy' : List (Event (Op α) (Out α)))
    (ex' : (queue α).run (stdSwap x y).1 as' = some (x', hx')) (ey' : (queue α).run (stdSwap x y).2 bs' = some (y', hy'))
    (hnx : ∀ t op, .call t op ∈ hy0 ++ hy ++ hx' → op.observes = false)
    (hny : ∀ t op, .call t op ∈ hx0 ++ hx ++ hy' → op.observes = false) :
    Linearizable (twoSpec α) (hy0 ++ hy ++ hx') ∧ Linearizable (twoSpec α) (hx0 ++ hx ++ hy') := by
  refine ⟨life_partial _ _ _ _ _ (ly.moved ey iy) ex' hnx, life_partial _ _ _ _ _ ?_ ey' hny⟩
  have := (lx.moved ex ix).moved (as := []) rfl (fun _ => rfl)
  rwa [List.append_nil] at this

/-- A queue with two elements and an empty one are exchanged. -/
example : ∃ (x y : State Nat) (hx : List (Event (Op Nat) (Out Nat))), (queue Nat).run State.init
      (begin 0 (.ins (.push 8)) 11 ++ begin 0 (.ins (.push 9)) 7) = some (x, hx) ∧ x.idle ∧
    Life true (State.init : State Nat) [] ∧ (queue Nat).run State.init [] = some (y, []) ∧ y.idle ∧
    ∃ y', (queue Nat).run (stdSwap x y).2 (begin 3 .tryPop 14) = some (y', [.call 3 .tryPop, .ret 3 (.val (some 8))]) := by
  refine ⟨_, _, _, rfl, ?_, .new, rfl, fun _ => rfl, _, rfl⟩
  intro t; match t with
  | 0 => rfl
  | n + 1 => rfl

/-- C162 for calls made one at a time: all calls, empty() and try_peek included.  Missing: the priority channel
(`move_violation`) and insertions that throw (C79). -/
theorem life_sequential_partial (s : State α × Bool) (h : List (Event (Op α) (Out α))) (l : SeqLife true s h)
    (hp : ∀ t i, .call t (.prio i) ∉ h) (hx : ∀ t v, .call t (.ins (.thrown v)) ∉ h) : Linearizable (twoSpec α) h := by
  obtain ⟨tr, h1, k⟩ := l.trace hp hx
  obtain ⟨g, h4, _⟩ := k.rel
  exact ⟨tr, g, h4, h1⟩

/-- A queue with two elements is moved twice; empty() and try_peek still answer right. -/
example : ∃ (s s' : State Nat × Bool) (h : List (Event (Op Nat) (Out Nat))), SeqLife true s h ∧
    (queue Nat).oneAtATime.run s (begin 3 .empty 2 ++ begin 3 .peek 6) =
      some (s', [.call 3 .empty, .ret 3 (.bool false), .call 3 .peek, .ret 3 (.peek (some 8))]) := by
  refine ⟨_, _, _, ((SeqLife.new.use (as := begin 0 (.ins (.push 8)) 11 ++ begin 0 (.ins (.push 9)) 7) rfl).moved).moved, rfl⟩

end Verif.BlockingPriorityQueue
