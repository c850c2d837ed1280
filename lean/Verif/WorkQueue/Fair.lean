import Verif.WorkQueue.Alone

/-
Lemmas on the turns of the low priority queue.
-/
namespace Verif.WorkQueue
open Verif.Conc State

theorem run_append (q : Queues) (a b : List Ev) : q.run (a ++ b) = ((((q.run a).1).run b).1, (q.run a).2 ++ ((q.run a).1.run b).2) := by
  induction a generalizing q with
  | nil => simp [Queues.run]
  | cons e a ih => simp [Queues.run, ih]

theorem wrap_id {k : Int} (h0 : 0 ≤ k) (h1 : k < 2147483648) : wrap k = k := by unfold wrap; omega

/-- the counter is at most the number of fetches -/
theorem step_counter (q : Queues) (e : Ev) (h0 : 0 ≤ q.counter) (h1 : q.counter + fetches [e] < 2147483648) :
    0 ≤ (q.step e).1.counter ∧ (q.step e).1.counter ≤ q.counter + fetches [e] := by
  cases e with
  | add i p => cases p <;> simp [Queues.step, fetches] <;> exact h0
  | setRatio r => simp [Queues.step, fetches]; exact h0
  | fetch =>
    have hf : (fetches [.fetch] : Nat) = 1 := rfl
    have hw := wrap_id (k := q.counter + 1) (by omega) (by omega)
    rw [hf] at h1 ⊢
    obtain ⟨hi, me, lo, r, k⟩ := q
    simp only at *
    cases hi <;> cases me <;> cases lo <;> by_cases h : k ≥ r <;> simp [Queues.step, Queues.fetch, h, hw] <;> omega

theorem fetches_cons (e : Ev) (es : List Ev) : fetches (e :: es) = fetches [e] + fetches es := by
  unfold fetches; simp [List.count_cons]; omega

theorem run_counter (es : List Ev) : ∀ q : Queues, 0 ≤ q.counter → q.counter + fetches es < 2147483648 →
    0 ≤ (q.run es).1.counter ∧ (q.run es).1.counter ≤ q.counter + fetches es := by
  induction es with
  | nil => intro q h0 _; simp [Queues.run, fetches]; exact h0
  | cons e es ih =>
    intro q h0 h1
    rw [fetches_cons] at h1 ⊢
    have h2 := step_counter q e h0 (by omega)
    have h3 := ih (q.step e).1 h2.1 (by omega)
    simp only [Queues.run]
    omega

/-- the counter does not fall while no low priority block is fetched, and rises with medium ones -/
theorem run_turn (es : List Ev) : ∀ q : Queues, 0 ≤ q.counter → q.counter + fetches es < 2147483648 →
    (∀ r ∈ (q.run es).2, isFrom .low r = false) →
    (q.run es).1.counter = q.counter + ((q.run es).2.countP (isFrom .med) : Nat) := by
  induction es with
  | nil => intro q h0 _ _; simp [Queues.run]
  | cons e es ih =>
    intro q h0 h1 h2
    rw [fetches_cons] at h1
    have h3 := step_counter q e h0 (by omega)
    simp only [Queues.run, List.mem_append] at h2
    have h4 := ih (q.step e).1 h3.1 (by omega) (fun r hr => h2 r (.inr hr))
    simp only [Queues.run]
    rw [h4, List.countP_append]
    have h5 : (q.step e).1.counter = q.counter + ((q.step e).2.countP (isFrom .med) : Nat) := by
      have h6 := fun r hr => h2 r (.inl hr)
      cases e with
      | add i p => cases p <;> simp [Queues.step]
      | setRatio r => simp [Queues.step]
      | fetch =>
        have hf : (fetches [.fetch] : Nat) = 1 := rfl
        have hw := wrap_id (k := q.counter + 1) (by omega) (by omega)
        obtain ⟨hi, me, lo, r, k⟩ := q
        simp only at *
        cases hi <;> cases me <;> cases lo <;> by_cases h : k ≥ r <;>
          simp [Queues.step, Queues.fetch, h, hw, isFrom] at h6 ⊢
    omega

/-- without high priority blocks, each fetch while a low priority block waits is of a medium or low priority block -/
theorem run_noHigh (es : List Ev) : ∀ q : Queues, q.high = [] → q.low ≠ [] →
    (∀ i, .add i .high ∉ es ∧ .add i .required ∉ es) → (∀ r ∈ (q.run es).2, isFrom .low r = false) →
    (q.run es).2.countP (isFrom .med) = fetches es ∧ (q.run es).1.high = [] ∧ (q.run es).1.low ≠ [] := by
  induction es with
  | nil => intro q hh hl _ _; simp [Queues.run, fetches, hh, hl]
  | cons e es ih =>
    intro q hh hl hn h2
    simp only [Queues.run, List.mem_append] at h2
    have h6 := fun r hr => h2 r (.inl hr)
    have h5 : (q.step e).2.countP (isFrom .med) = fetches [e] ∧ (q.step e).1.high = [] ∧ (q.step e).1.low ≠ [] := by
      cases e with
      | add i p =>
        cases p with
        | high => exact absurd (List.mem_cons_self ..) (hn i).1
        | required => exact absurd (List.mem_cons_self ..) (hn i).2
        | medium => simp [Queues.step, fetches, hh, hl]
        | low => simp [Queues.step, fetches, hh]
      | setRatio r => simp [Queues.step, fetches, hh, hl]
      | fetch =>
        obtain ⟨hi, me, lo, r, k⟩ := q
        simp only at *
        subst hh
        cases me <;> cases lo <;> by_cases h : k ≥ r <;>
          simp [Queues.step, Queues.fetch, h, isFrom, fetches] at h6 hl ⊢
    have h7 := ih (q.step e).1 h5.2.1 h5.2.2
      (fun i => ⟨fun h => (hn i).1 (List.mem_cons_of_mem _ h), fun h => (hn i).2 (List.mem_cons_of_mem _ h)⟩)
      (fun r hr => h2 r (.inr hr))
    rw [fetches_cons]
    simp only [Queues.run, List.countP_append]
    exact ⟨by omega, h7.2.1, h7.2.2⟩

/-- the ratio is what it was set to -/
theorem run_ratio (es : List Ev) : ∀ q : Queues, (∀ r, .setRatio r ∉ es) → (q.run es).1.ratio = q.ratio := by
  induction es with
  | nil => intro q _; rfl
  | cons e es ih =>
    intro q hn
    simp only [Queues.run]
    rw [ih _ (fun r h => hn r (List.mem_cons_of_mem _ h))]
    cases e with
    | add i p => cases p <;> rfl
    | setRatio r => exact absurd (List.mem_cons_self ..) (hn r)
    | fetch =>
      obtain ⟨hi, me, lo, r, k⟩ := q
      cases hi <;> cases me <;> cases lo <;> by_cases h : k ≥ r <;> simp [Queues.step, Queues.fetch, h]

/-- whenever it is positive, as every setting is -/
theorem run_ratio_pos (es : List Ev) : ∀ q : Queues, 0 < q.ratio → 0 < (q.run es).1.ratio := by
  induction es with
  | nil => intro q h; exact h
  | cons e es ih =>
    intro q hn
    simp only [Queues.run]
    apply ih
    cases e with
    | add i p => cases p <;> exact hn
    | setRatio r => simp only [Queues.step]; split <;> omega
    | fetch =>
      obtain ⟨hi, me, lo, r, k⟩ := q
      simp only at hn
      cases hi <;> cases me <;> cases lo <;> by_cases h : k ≥ r <;> simp [Queues.step, Queues.fetch, h] <;> omega

/-- the counter rises at most with medium priority fetches -/
theorem run_turn_le (es : List Ev) : ∀ q : Queues, 0 ≤ q.counter → q.counter + fetches es < 2147483648 →
    (q.run es).1.counter ≤ q.counter + ((q.run es).2.countP (isFrom .med) : Nat) := by
  induction es with
  | nil => intro q h0 _; simp [Queues.run]
  | cons e es ih =>
    intro q h0 h1
    rw [fetches_cons] at h1
    have h3 := step_counter q e h0 (by omega)
    have h4 := ih (q.step e).1 h3.1 (by omega)
    simp only [Queues.run]
    rw [List.countP_append]
    have h5 : (q.step e).1.counter ≤ q.counter + ((q.step e).2.countP (isFrom .med) : Nat) := by
      cases e with
      | add i p => cases p <;> simp [Queues.step]
      | setRatio r => simp [Queues.step]
      | fetch =>
        have hf : (fetches [.fetch] : Nat) = 1 := rfl
        have hw := wrap_id (k := q.counter + 1) (by omega) (by omega)
        obtain ⟨hi, me, lo, r, k⟩ := q
        simp only at *
        cases hi <;> cases me <;> cases lo <;> by_cases h : k ≥ r <;>
          simp [Queues.step, Queues.fetch, h, hw, isFrom] <;> omega
    omega

/-- up to the last fetch -/
theorem last_fetch (es : List Ev) : 0 < fetches es → ∃ a b, es = a ++ .fetch :: b ∧ fetches a + 1 = fetches es := by
  induction es with
  | nil => intro h; cases h
  | cons e es ih =>
    intro h
    rw [fetches_cons] at h ⊢
    by_cases he : 0 < fetches es
    · obtain ⟨a, b, rfl, h2⟩ := ih he
      exact ⟨e :: a, b, rfl, by rw [fetches_cons]; omega⟩
    · have : e = .fetch := by
        apply Classical.byContradiction
        intro hne
        have : fetches [e] = 0 := by unfold fetches; simp [hne]
        omega
      subst this
      have h1 : fetches [.fetch] = 1 := rfl
      have h0 : fetches [] = 0 := rfl
      exact ⟨[], es, rfl, by omega⟩

/-! ### Overflow of the counter -/

/-- `k` times: add a new medium priority block, fetch it -/
def rounds (i : Nat) : Nat → List Ev
  | 0 => []
  | k + 1 => rounds i k ++ [.add (i + k) .medium, .fetch]

/-- what is fetched -/
def roundsOut (i : Nat) : Nat → List (Option (Que × Option Blk))
  | 0 => []
  | k + 1 => roundsOut i k ++ [some (.med, some (.task (i + k)))]

theorem wrap_succ (k : Nat) : wrap (wrap k + 1) = wrap (k + 1) := by unfold wrap; omega

theorem run_rounds (i k : Nat) : Queues.new.run (rounds i k) = ({ Queues.new with counter := wrap k }, roundsOut i k) := by
  induction k with
  | zero => rfl
  | succ k ih =>
    rw [rounds, run_append, ih]
    simp [Queues.run, Queues.step, Queues.fetch, Queues.new, wrap_succ, roundsOut]

/-- with the counter at its least, a low priority block is not fetched -/
theorem run_starve (b : Option Blk) (i m : Nat) : m ≤ 2147483648 →
    let q : Queues := { Queues.new with low := [b], counter := -2147483648 }
    q.run (rounds i m) = ({ q with counter := m - 2147483648 }, roundsOut i m) := by
  induction m with
  | zero => intro _; simp [rounds, Queues.run, roundsOut]
  | succ m ih =>
    intro hm
    have h1 := ih (by omega)
    simp only at h1 ⊢
    rw [rounds, run_append, h1]
    have h4 : wrap ((m : Int) - 2147483648 + 1) = (m : Int) + 1 - 2147483648 := by unfold wrap; omega
    have h5 : ¬ ((4 : Int) ≤ (m : Int) - 2147483648) := by omega
    simp [Queues.run, Queues.step, Queues.fetch, Queues.new, h5, h4, roundsOut]

theorem roundsOut_ne {i k j : Nat} (h : j < i) : some (.task j) ∉ (roundsOut i k).map fun r => r.bind (·.2) := by
  induction k with
  | zero => simp [roundsOut]
  | succ k ih =>
    simp only [roundsOut, List.map_append, List.mem_append, not_or]
    refine ⟨ih, ?_⟩
    simp; omega

theorem fetches_rounds (i k : Nat) : fetches (rounds i k) = k := by
  induction k with
  | zero => rfl
  | succ k ih => unfold fetches at *; rw [rounds, List.count_append, ih]; rfl

theorem rounds_mem {i k : Nat} {e : Ev} (h : e ∈ rounds i k) : e = .fetch ∨ ∃ j, e = .add j .medium := by
  induction k with
  | zero => cases h
  | succ k ih =>
    simp only [rounds, List.mem_append, List.mem_cons, List.not_mem_nil, or_false] at h
    rcases h with h | rfl | rfl
    · exact ih h
    · exact .inr ⟨_, rfl⟩
    · exact .inl rfl

end Verif.WorkQueue
