import Verif.SimpleQueue.Moves

/-
C167: move assignment to a SimpleQueue that other threads are using (SimpleQueue.hpp:70-78).

The queue that is moved from must have no call in progress: operator= does not lock it.
-/
namespace Verif.SimpleQueue
open Verif.Conc

variable {α : Type}

/-- C167: the vectors of a queue without calls in progress, whatever was done with it and however often it was moved, can be
the argument of `assign`. -/
theorem source_sound {b : Bool} {a : State α} {h : List (Event (Op α) (Out α))} (l : Life b a h) (hq : a.quiet) :
    a.pull = [] → a.push = [] := by
  obtain ⟨g, r⟩ := life_related l
  exact fun e => ((r.quiet hq).2.2.2.1 e).1

/-- what is moved from a queue without calls in progress -/
def State.source {b : Bool} {a : State α} {h : List (Event (Op α) (Out α))} (l : Life b a h) (hq : a.quiet) : Src α :=
  ⟨(a.push, a.pull), source_sound l hq⟩

/-- C167, for all calls: `b = std::move(a)` on a queue `b` that any number of threads are using takes effect at one moment
during the call, at which the contents of `b` become those of `a`, in the order in which the history of `a` leaves them;
from then on empty() is exact. -/
theorem assign_actual (as : List (Act (Op α))) (a : State α) (ha : List (Event (Op α) (Out α)))
    (ea : (sys α).run (sys α).init as = some (a, ha)) (hq : a.quiet) :
    ∃ v : Src α, v.1 = (a.push, a.pull) ∧
      (∃ tr z, TSteps (actualSpec α) (actualSpec α).ghost tr ⟨(v.contents, z), fun _ => .idle⟩ ∧ erase tr = ha) ∧
      (∀ q z, (actualSpec α).step (q, z) (.assign v) = some ((v.contents, false), .unit)) ∧
      ∀ bs b hb, (sys α).run (sys α).init bs = some (b, hb) → Linearizable (actualSpec α) hb := by
  have l : Life false a ([] ++ ha) := .use .new ea
  refine ⟨State.source l hq, rfl, ?_, fun _ _ => rfl, linearizable_actual⟩
  obtain ⟨tr, g, h1, h2, r⟩ := simulation.run_from as simulation.init (fun _ _ => trivial) ea
  refine ⟨tr, g.q.2, ?_, h2⟩
  have e : g = ⟨((State.source l hq).contents, g.q.2), fun _ => .idle⟩ := by
    rw [← r.idle hq]
    show g = ⟨(a.pull.reverse ++ a.push, g.q.2), g.st⟩
    rw [← r.contents hq]
  rw [← e]; exact h1

/-- C167 for queues followed through moves, when pushVector is not called with an empty vector: exactly the FIFO queue (for
pushVector of an empty vector see C45). -/
theorem assign_fifo (a : State α) (ha : List (Event (Op α) (Out α))) (la : Life false a ha) (hq : a.quiet)
    (hva : ∀ t, .call t (.ins (.pushVector [])) ∉ ha) :
    ∃ v : Src α, v.1 = (a.push, a.pull) ∧
      (∃ tr, TSteps (spec α) (spec α).ghost tr ⟨v.contents, fun _ => .idle⟩ ∧ erase tr = ha) ∧
      (∀ q, (spec α).step q (.assign v) = some (v.contents, .unit)) ∧
      ∀ b hb, Life false b hb → (∀ t, .call t (.ins (.pushVector [])) ∉ hb) → Linearizable (spec α) hb := by
  refine ⟨State.source la hq, rfl, ?_, fun _ => rfl, fun b hb lb hv => life_partial b hb lb hv⟩
  obtain ⟨tr, g, h1, h2, r, _⟩ := life_trace la hva
  rw [r.contents hq, r.idle hq] at h1
  exact ⟨tr, h1, h2⟩

/-- C167: two threads, a queue holding 1, and an assignment from a queue holding 7, 8.  The pop that begins before the
assignment has taken its locks, and ends after it, returns 7; the one after it 8; then empty() is true. -/
example : ∃ as s, (sys Nat).run (sys Nat).init as = some (s,
    [.call 0 (.ins (.push 1)), .ret 0 .unit, .call 1 .pop, .call 0 (.assign ⟨([8], [7]), by simp⟩), .ret 0 .unit,
     .ret 1 (.val (some 7)), .call 1 .pop, .ret 1 (.val (some 8)), .call 0 .empty, .ret 0 (.bool true)]) := by
  refine ⟨alone 0 (.ins (.push 1)) 9 ++ [.call 1 .pop] ++ alone 0 (.assign ⟨([8], [7]), by simp⟩) 8 ++
    List.replicate 13 (.move 1 0) ++ alone 1 .pop 12 ++ alone 0 .empty 2, _, rfl⟩

end Verif.SimpleQueue
