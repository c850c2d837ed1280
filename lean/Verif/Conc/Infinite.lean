import Verif.Conc.Trace

/-
Infinite executions and fairness, independently of any container.
-/
namespace Verif.Conc
variable {S Op Out : Type} {M : Sys S Op Out}

/-- An execution that never ends: action `act i` leads from state `st i` to state `st (i + 1)`; an observer sees `out i`. -/
structure Infinite (M : Sys S Op Out) where
  act : Nat → Act Op
  st : Nat → S
  out : Nat → List (Event Op Out)
  start : st 0 = M.init
  step : ∀ i, M.exec (st i) (act i) = some (st (i + 1), out i)

namespace Infinite
variable (E : Infinite M)

/-- thread `t` can take a step at time `i` -/
def can (t i : Nat) : Prop := ∃ c, (M.move t c (E.st i)).isSome = true

/-- thread `t` takes a step at time `i` -/
def moves (t i : Nat) : Prop := ∃ c, E.act i = .move t c

/-- Fairness: a thread that can take a step again and again does so again and again. -/
def Fair : Prop := ∀ t, (∀ i, ∃ j, i ≤ j ∧ E.can t j) → ∀ i, ∃ j, i ≤ j ∧ E.moves t j

/-- `k` actions from time `i` on -/
def sched (i : Nat) : Nat → List (Act Op)
  | 0 => []
  | k + 1 => E.act i :: sched (i + 1) k

/-- what an observer sees of them -/
def hist (i : Nat) : Nat → List (Event Op Out)
  | 0 => []
  | k + 1 => E.out i ++ hist (i + 1) k

theorem run (k : Nat) : ∀ i, M.run (E.st i) (E.sched i k) = some (E.st (i + k), E.hist i k) := by
  induction k with
  | zero => intro i; rfl
  | succ k ih =>
    intro i
    simp only [sched, hist, Sys.run, E.step i, Option.bind_some]
    rw [ih (i + 1)]
    simp only [Option.map_some]
    rw [show i + 1 + k = i + (k + 1) by omega]

theorem sched_append (j k : Nat) : ∀ i, E.sched i (j + k) = E.sched i j ++ E.sched (i + j) k := by
  induction j with
  | zero => intro i; simp [sched]
  | succ j ih =>
    intro i
    rw [show j + 1 + k = (j + k) + 1 by omega]
    simp only [sched, List.cons_append]
    rw [ih (i + 1), show i + 1 + j = i + (j + 1) by omega]

theorem hist_append (j k : Nat) : ∀ i, E.hist i (j + k) = E.hist i j ++ E.hist (i + j) k := by
  induction j with
  | zero => intro i; simp [hist]
  | succ j ih =>
    intro i
    rw [show j + 1 + k = (j + k) + 1 by omega]
    simp only [hist, List.append_assoc]
    rw [ih (i + 1), show i + 1 + j = i + (j + 1) by omega]

theorem mem_sched {a : Act Op} (k : Nat) : ∀ {i}, a ∈ E.sched i k → ∃ j, i ≤ j ∧ j < i + k ∧ E.act j = a := by
  induction k with
  | zero => intro i h; simp [sched] at h
  | succ k ih =>
    intro i h
    simp only [sched, List.mem_cons] at h
    rcases h with h | h
    · exact ⟨i, by omega, by omega, h.symm⟩
    · obtain ⟨j, h1, h2, h3⟩ := ih h
      exact ⟨j, by omega, by omega, h3⟩

theorem mem_hist {e : Event Op Out} (k : Nat) : ∀ {i}, e ∈ E.hist i k → ∃ j, i ≤ j ∧ j < i + k ∧ e ∈ E.out j := by
  induction k with
  | zero => intro i h; simp [hist] at h
  | succ k ih =>
    intro i h
    simp only [hist, List.mem_append] at h
    rcases h with h | h
    · exact ⟨i, by omega, by omega, h⟩
    · obtain ⟨j, h1, h2, h3⟩ := ih h
      exact ⟨j, by omega, by omega, h3⟩

/-- the states of the execution are reachable -/
theorem reached (i : Nat) : M.run M.init (E.sched 0 i) = some (E.st i, E.hist 0 i) := by
  have := E.run i 0
  rw [E.start, Nat.zero_add] at this
  exact this

theorem reachable (i : Nat) : M.Reachable (E.st i) := ⟨_, _, E.reached i⟩

/-- what a state invariant gives -/
theorem always {P : S → Prop} (h0 : P M.init) (hs : ∀ i, P (E.st i) → P (E.st (i + 1))) (i : Nat) : P (E.st i) := by
  induction i with
  | zero => rw [E.start]; exact h0
  | succ i ih => exact hs i ih

/-- the least time from `i` on, if there is one -/
theorem least {P : Nat → Prop} {i : Nat} (h : ∃ j, i ≤ j ∧ P j) : ∃ j, i ≤ j ∧ P j ∧ ∀ k, i ≤ k → k < j → ¬ P k := by
  obtain ⟨j, h1, h2⟩ := h
  induction j using Nat.strongRecOn with
  | _ j ih =>
    by_cases h3 : ∃ k, i ≤ k ∧ k < j ∧ P k
    · obtain ⟨k, h4, h5, h6⟩ := h3
      exact ih k h5 h4 h6
    · exact ⟨j, h1, h2, fun k h4 h5 h6 => h3 ⟨k, h4, h5, h6⟩⟩

/-- A thread that can take a step as long as it does not take one takes one. -/
theorem next {E : Infinite M} (hf : E.Fair) {t i : Nat} (h : ∀ j, i ≤ j → (∀ k, i ≤ k → k < j → ¬ E.moves t k) → E.can t j) :
    ∃ j, i ≤ j ∧ E.moves t j ∧ ∀ k, i ≤ k → k < j → ¬ E.moves t k := by
  apply least
  apply Classical.byContradiction
  intro hn
  have hn : ∀ j, i ≤ j → ¬ E.moves t j := fun j h1 h2 => hn ⟨j, h1, h2⟩
  obtain ⟨j, h1, h2⟩ := hf t (fun k => ⟨max i k, by omega, h _ (by omega) fun k' h1 _ => hn k' h1⟩) i
  exact hn j h1 h2

end Infinite
end Verif.Conc
