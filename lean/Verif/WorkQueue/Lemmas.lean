import Verif.WorkQueue.Spec
import Verif.Conc.Trace

/-
Lemmas on the steps of WorkQueue.
-/
namespace Verif.WorkQueue
open Verif.Conc State

variable {n t c : Nat} {s s' : State} {o : Option Out} {l : Loc}

/-! ### What a step does to the positions of threads -/

theorem loc_goto (s : State) (t : Nat) (l : Loc) : (s.goto t l).loc = upd s.loc t l := rfl
theorem loc_setQue (s : State) (q : Que) (x) : (s.setQue q x).loc = s.loc := by cases q <;> rfl
theorem loc_push (s : State) (q b) : (s.push q b).loc = s.loc := loc_setQue _ _ _
theorem loc_pushVector (s : State) (q b) : (s.pushVector q b).loc = s.loc := loc_setQue _ _ _
theorem loc_popped (s : State) (q) : (s.popped q).loc = s.loc := loc_setQue _ _ _
theorem loc_clear (s : State) (q) : (s.clear q).loc = s.loc := loc_setQue _ _ _

/-- the positions after a notification -/
structure Woken (a b : Nat → Loc) : Prop where
  all : ∀ u, b u = a u ∨ (a u = .wSleep ∧ b u = .wRelock)

theorem Woken.refl (a : Nat → Loc) : Woken a a := ⟨fun _ => .inl rfl⟩

theorem Woken.awake {a b : Nat → Loc} (w : Woken a b) {u : Nat} {l : Loc} (h : a u = l) (hl : l ≠ .wSleep) : b u = l := by
  rcases w.all u with h1 | ⟨h1, _⟩
  · rw [h1, h]
  · exact absurd (h.symm.trans h1) hl

theorem notifyAll_woken (s : State) : Woken s.loc s.notifyAll.loc := by
  refine ⟨fun u => ?_⟩
  simp only [notifyAll]
  split
  · next h => exact .inr ⟨h, rfl⟩
  · exact .inl rfl

theorem notifyOne_eq (n c : Nat) (s : State) : notifyOne n c s = s ∨
    ∃ k, k < n ∧ s.loc k = .wSleep ∧ notifyOne n c s = s.goto k .wRelock := by
  unfold notifyOne
  split
  · next k h =>
    have := List.mem_of_getElem? h
    simp only [sleeping, List.mem_filter, List.mem_range, decide_eq_true_eq] at this
    exact .inr ⟨k, this.1, this.2, rfl⟩
  · exact .inl rfl

theorem notifyOne_woken (n c : Nat) (s : State) : Woken s.loc (notifyOne n c s).loc := by
  rcases notifyOne_eq n c s with h | ⟨k, _, hk, h⟩
  · rw [h]; exact .refl _
  · rw [h]
    refine ⟨fun u => ?_⟩
    simp only [loc_goto]
    by_cases e : u = k
    · subst e; exact .inr ⟨hk, upd_same _ _ _⟩
    · exact .inl (upd_ne _ _ e)

/-- everything but the positions -/
def State.data (s : State) := (s.high, s.med, s.low, s.ratio, s.counter, s.halt, s.owner, s.joined, s.fin, s.runs)

theorem notifyOne_data (n c : Nat) (s : State) : (notifyOne n c s).data = s.data := by
  rcases notifyOne_eq n c s with h | ⟨k, _, hk, h⟩ <;> rw [h] <;> rfl

/-! ### Queues -/

theorem que_setQue (s : State) (q : Que) (x) : (s.setQue q x).que q = x := by cases q <;> rfl
theorem que_setQue_ne (s : State) {q q' : Que} (x) (h : q' ≠ q) : (s.setQue q x).que q' = s.que q' := by
  cases q <;> cases q' <;> first | rfl | exact absurd rfl h
theorem front_eq (s : State) (q) : s.front q = (s.que q).1.head? := rfl
theorem isEmpty_eq (s : State) (q) : s.isEmpty q = ((s.que q).1.isEmpty && !(s.que q).2) := rfl
theorem size_eq (s : State) (q) : s.size q = (s.que q).1.length := rfl
theorem popped_eq (s : State) (q) : s.popped q = s.setQue q ((s.que q).1.tail, false) := rfl
theorem clear_eq (s : State) (q) : s.clear q = s.setQue q ([], false) := rfl
theorem push_eq (s : State) (q b) : s.push q b = s.setQue q ((s.que q).1 ++ [b], false) := by
  simp [push, SimpleQueue.actual, SimpleQueue.Ins.vals]
theorem pushVector_eq (s : State) (q bs) :
    s.pushVector q bs = s.setQue q ((s.que q).1 ++ bs, (s.que q).1.isEmpty && bs.isEmpty) := rfl

/-- `c (que)` summed over the three queues -/
def State.sum (s : State) (f : List (Option Blk) × Bool → Nat) : Nat := f s.high + f s.med + f s.low

theorem sum_setQue (s : State) (q : Que) (x) (f) : (s.setQue q x).sum f + f (s.que q) = s.sum f + f x := by
  cases q <;> simp [State.sum, setQue, que] <;> omega

end Verif.WorkQueue
