import Verif.BlockingQueue.Props
import Verif.Blocking.SeqLife

/-
C161: a BlockingQueue followed through any number of moves from object to object, `std::swap` included.
-/
namespace Verif.BlockingQueue
open Verif.Conc Verif.Blocking

variable {α : Type}

theorem Life.no_prio {s : State α} {h : List (Event (Op α) (Out α))} (l : Life false s h) : ∀ t i, .call t (.prio i) ∉ h := by
  induction l with
  | new => intro t i hm; cases hm
  | moved _ e _ ih =>
    intro t i hm
    rcases List.mem_append.1 hm with hm | hm
    · exact ih t i hm
    · exact no_prio_calls _ e t i hm
  | reused _ _ _ _ => intro t i hm; cases hm

/-! ## C161 -/

/-- C161.  A queue behaves as one FIFO queue throughout its life, whatever objects it is moved to and however many threads
use it in each of them: the history of all calls on it is linearizable.  An object that was moved from and is used again
begins a new life.  Missing: empty(), size() and try_peek, see `move_violation`. -/
theorem life_partial (s s' : State α) (h h' : List (Event (Op α) (Out α))) (as : List (Act (Op α))) (l : Life false s h)
    (e : (queue α).run s as = some (s', h')) (hn : ∀ t op, .call t op ∈ h ++ h' → op.observes = false) :
    Linearizable (fifoSpec α) (h ++ h') := by
  obtain ⟨tr, g, h1, h2⟩ := l.linearizable e hn
  refine ⟨tr, _, to_fifo h1 (fun t i hm => ?_), h2⟩
  rw [h2] at hm
  rcases List.mem_append.1 hm with hm | hm
  · exact Life.no_prio l t i hm
  · exact no_prio_calls as e t i hm

/-- C161, `std::swap(x, y)` while no call is in progress: what is done with `x` afterwards continues the history of `y`,
and what is done with `y` continues that of `x`.  Missing: empty(), size() and try_peek. -/
theorem std_swap_partial (x0 x y0 y : State α) (hx0 hx hy0 hy : List (Event (Op α) (Out α))) (as bs : List (Act (Op α)))
    (lx : Life false x0 hx0) (ex : (queue α).run x0 as = some (x, hx)) (ix : x.idle)
    (ly : Life false y0 hy0) (ey : (queue α).run y0 bs = some (y, hy)) (iy : y.idle)
    (as' bs' : List (Act (Op α))) (x' y' : State α) (hx' hy' : List (Event (Op α) (Out α)))
    (ex' : (queue α).run (stdSwap x y).1 as' = some (x', hx')) (ey' : (queue α).run (stdSwap x y).2 bs' = some (y', hy'))
    (hnx : ∀ t op, .call t op ∈ hy0 ++ hy ++ hx' → op.observes = false)
    (hny : ∀ t op, .call t op ∈ hx0 ++ hx ++ hy' → op.observes = false) :
    Linearizable (fifoSpec α) (hy0 ++ hy ++ hx') ∧ Linearizable (fifoSpec α) (hx0 ++ hx ++ hy') := by
  refine ⟨life_partial _ _ _ _ _ (ly.moved ey iy) ex' hnx, life_partial _ _ _ _ _ ?_ ey' hny⟩
  have := (lx.moved ex ix).moved (as := []) rfl (fun _ => rfl)
  rwa [List.append_nil] at this

/-- A queue with two elements and an empty one are exchanged. -/
example : ∃ (x y : State Nat) (hx : List (Event (Op Nat) (Out Nat))), (queue Nat).run State.init
      (begin 0 (.ins (.push 8)) 11 ++ begin 0 (.ins (.push 9)) 7) = some (x, hx) ∧ x.idle ∧
    Life false (State.init : State Nat) [] ∧ (queue Nat).run State.init [] = some (y, []) ∧ y.idle ∧
    ∃ y', (queue Nat).run (stdSwap x y).2 (begin 3 .tryPop 13) = some (y', [.call 3 .tryPop, .ret 3 (.val (some 8))]) := by
  refine ⟨_, _, _, rfl, ?_, .new, rfl, fun _ => rfl, _, rfl⟩
  intro t; match t with
  | 0 => rfl
  | n + 1 => rfl

theorem SeqLife.no_prio {s : State α × Bool} {h : List (Event (Op α) (Out α))} (l : SeqLife false s h) :
    ∀ t i, .call t (.prio i) ∉ h := by
  induction l with
  | new => intro t i hm; cases hm
  | use _ e ih =>
    intro t i hm
    rcases List.mem_append.1 hm with hm | hm
    · exact ih t i hm
    · exact no_prio_calls _ (Sys.oneAtATime_run _ e) t i hm
  | moved _ ih => exact ih

/-- C161 for calls made one at a time: all calls, size(), empty() and try_peek included.  Missing: insertions that throw
(C78). -/
theorem life_sequential_partial (s : State α × Bool) (h : List (Event (Op α) (Out α))) (l : SeqLife false s h)
    (hx : ∀ t v, .call t (.ins (.thrown v)) ∉ h) : Linearizable (fifoSpec α) h := by
  have hp := SeqLife.no_prio l
  obtain ⟨tr, h1, k⟩ := l.trace hp hx
  obtain ⟨g, h4, _⟩ := k.rel
  exact ⟨tr, _, to_fifo h4 (fun t i hm => hp t i (h1 ▸ hm)), h1⟩

/-- C161, `std::swap(x, y)` of queues whose calls are made one at a time. -/
theorem std_swap_sequential_partial (x y : State α) (hx hy : List (Event (Op α) (Out α))) (lx : SeqLife false (x, false) hx)
    (ly : SeqLife false (y, false) hy) (as bs : List (Act (Op α))) (x' y' : State α × Bool)
    (hx' hy' : List (Event (Op α) (Out α))) (ex : (queue α).oneAtATime.run ((stdSwap x y).1, false) as = some (x', hx'))
    (ey : (queue α).oneAtATime.run ((stdSwap x y).2, false) bs = some (y', hy'))
    (nx : ∀ t v, .call t (.ins (.thrown v)) ∉ hy ++ hx') (ny : ∀ t v, .call t (.ins (.thrown v)) ∉ hx ++ hy') :
    Linearizable (fifoSpec α) (hy ++ hx') ∧ Linearizable (fifoSpec α) (hx ++ hy') :=
  ⟨life_sequential_partial x' _ (ly.moved.use ex) nx, life_sequential_partial y' _ (lx.moved.moved.use ey) ny⟩

/-- A queue with two elements is moved twice; empty() and try_peek still answer right. -/
example : ∃ (s s' : State Nat × Bool) (h : List (Event (Op Nat) (Out Nat))), SeqLife false s h ∧
    (queue Nat).oneAtATime.run s (begin 3 .empty 2 ++ begin 3 .peek 5) =
      some (s', [.call 3 .empty, .ret 3 (.bool false), .call 3 .peek, .ret 3 (.peek (some 8))]) := by
  refine ⟨_, _, _, ((SeqLife.new.use (as := begin 0 (.ins (.push 8)) 11 ++ begin 0 (.ins (.push 9)) 7) rfl).moved).moved, rfl⟩

end Verif.BlockingQueue
