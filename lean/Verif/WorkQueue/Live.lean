import Verif.Conc.Infinite
import Verif.WorkQueue.PropsWait

/-
Lemmas for C121: infinite executions in which threads that can take steps do.
-/
namespace Verif.WorkQueue
open Verif.Conc State

variable {n t c : Nat} {s s' : State} {o : Option Out} {l : Loc} {E : Infinite (sys n)}

/-- positions from which a thread can always take the next step, and from which nobody else moves it -/
def ready : Loc → Bool
  | .idle | .crash | .exited | .wLock | .wRelock | .wSleep | .cLock | .cJoin _ _ => false
  | _ => true

theorem ready_moves (c : Nat) (hl : ready l = true) : (stepAt n s t c l).isSome = true := by
  unfold stepAt
  split
  all_goals (try (cases hl; done))
  all_goals (try rfl)
  all_goals (try split)
  all_goals (try rfl)
  all_goals (try split)
  all_goals (try rfl)
  all_goals (try split)
  all_goals rfl

/-- what a time step is -/
theorem step_cases (E : Infinite (sys n)) (i : Nat) :
    (∃ t op, E.act i = .call t op ∧ (E.st i).loc t = .idle ∧ E.st (i + 1) = (E.st i).goto t (start n op) ∧ E.out i = [.call t op]) ∨
    (∃ t c o, E.act i = .move t c ∧ stepAt n (E.st i) t c ((E.st i).loc t) = some (E.st (i + 1), o) ∧ E.out i = retEvents t o) := by
  have h := E.step i
  cases ha : E.act i with
  | call t op =>
    rw [ha] at h
    simp only [Sys.exec, Option.map_eq_some_iff] at h
    obtain ⟨s3, e1, e3⟩ := h
    obtain ⟨h1, h2⟩ := Prod.mk.inj e3
    obtain ⟨hid, h4⟩ := call_eq e1
    exact .inl ⟨t, op, rfl, hid, by rw [← h1, h4], h2.symm⟩
  | move t c =>
    rw [ha] at h
    simp only [Sys.exec, Option.map_eq_some_iff] at h
    obtain ⟨⟨s3, r⟩, e1, e3⟩ := h
    obtain ⟨h1, h2⟩ := Prod.mk.inj e3
    refine .inr ⟨t, c, r, rfl, ?_, ?_⟩
    · simp only at h1; rw [← h1]; exact e1
    · rw [← h2]; cases r <;> rfl

theorem keeps {i : Nat} (hm : ¬ E.moves t i) (hl : (E.st i).loc t = l) (h1 : l ≠ .idle) (h2 : l ≠ .wSleep) : (E.st (i + 1)).loc t = l := by
  rcases step_cases E i with ⟨u, op, ha, hid, hs, _⟩ | ⟨u, c, o, ha, hs, _⟩
  · rw [hs, loc_goto, upd_ne]; exact hl
    rintro rfl
    exact h1 (hl.symm.trans hid)
  · have : t ≠ u := by rintro rfl; exact hm ⟨c, ha⟩
    obtain ⟨a, l', e, w⟩ := step_loc hs
    rw [e, upd_ne _ _ this]
    rcases w.all t with h | ⟨h, _⟩
    · rw [h, hl]
    · exact absurd (hl.symm.trans h) h2

theorem keeps_until {i j : Nat} (hij : i ≤ j) (hm : ∀ k, i ≤ k → k < j → ¬ E.moves t k) (hl : (E.st i).loc t = l) (h1 : l ≠ .idle)
    (h2 : l ≠ .wSleep) : (E.st j).loc t = l := by
  induction j with
  | zero => cases Nat.le_zero.1 hij; exact hl
  | succ j ih =>
    by_cases h : i = j + 1
    · subst h; exact hl
    · exact keeps (hm j (by omega) (by omega)) (ih (by omega) fun k h1 h2 => hm k h1 (by omega)) h1 h2

/-- A thread that can take its next step takes it. -/
theorem advance (hf : E.Fair) {i : Nat} (hl : (E.st i).loc t = l) (hr : ready l = true) :
    ∃ j c o, i ≤ j ∧ (E.st j).loc t = l ∧ stepAt n (E.st j) t c l = some (E.st (j + 1), o) ∧ E.out j = retEvents t o := by
  have h1 : l ≠ .idle := by rintro rfl; cases hr
  have h2 : l ≠ .wSleep := by rintro rfl; cases hr
  obtain ⟨j, h3, ⟨c, h4⟩, h5⟩ := Infinite.next hf (t := t) (i := i) (fun j hj hm => ⟨0, by
    have := keeps_until hj hm hl h1 h2
    show (stepAt n (E.st j) t 0 ((E.st j).loc t)).isSome = true
    rw [this]; exact ready_moves 0 hr⟩)
  have h6 := keeps_until h3 h5 hl h1 h2
  rcases step_cases E j with ⟨u, op, ha, _⟩ | ⟨u, c', o, ha, hs, ho⟩
  · rw [ha] at h4; cases h4
  · rw [ha] at h4; cases h4
    rw [h6] at hs
    exact ⟨j, c, o, h3, h6, hs, ho⟩

/-! ### Nobody closes the queue -/

/-- nobody calls `closeWorkerQueue` or the destructor -/
def neverClosed (E : Infinite (sys n)) : Prop := ∀ i t, E.act i ≠ .call t .close ∧ E.act i ≠ .call t .destroy

theorem closes_false {op : Op} (h1 : op ≠ .close) (h2 : op ≠ .destroy) : op.closes = false := by
  cases op with
  | close => exact absurd rfl h1
  | destroy => exact absurd rfl h2
  | _ => rfl

theorem quiet_at (hn : neverClosed E) (i : Nat) : quiet (E.st i) := by
  refine E.always (P := quiet) init_quiet (fun i hq => ?_) i
  rcases step_cases E i with ⟨u, op, ha, hid, hs, _⟩ | ⟨u, c, o, ha, hs, _⟩
  · rw [hs]
    refine call_quiet hid (closes_false ?_ ?_) hq
    · rintro rfl; exact (hn i u).1 ha
    · rintro rfl; exact (hn i u).2 ha
  · exact step_quiet hs hq

theorem notClosed_hist (hn : neverClosed E) (i k : Nat) : notClosed (E.hist i k) := by
  have : ∀ t op, .call t op ∈ E.hist i k → ∃ j, E.act j = .call t op := by
    intro t op h
    obtain ⟨j, _, _, h⟩ := E.mem_hist k h
    rcases step_cases E j with ⟨u, op', ha, _, _, ho⟩ | ⟨u, c, o, ha, _, ho⟩
    · rw [ho] at h
      simp only [List.mem_singleton, Event.call.injEq] at h
      obtain ⟨rfl, rfl⟩ := h
      exact ⟨j, ha⟩
    · rw [ho] at h; cases o <;> simp [retEvents] at h
  intro t
  refine ⟨fun h => ?_, fun h => ?_⟩
  · obtain ⟨j, h⟩ := this _ _ h; exact (hn j t).1 h
  · obtain ⟨j, h⟩ := this _ _ h; exact (hn j t).2 h

/-- positions of a worker that leaves -/
def leaves : Loc → Bool
  | .wOut | .exited => true
  | _ => false

theorem step_leaves (h : stepAt n s t c l = some (s', o)) (hh : s.halt = false) (hl : leaves l = false) : leaves (s'.loc t) = false := by
  have back : ∀ {s1 : State} {r}, leaves ((s1.back t r).loc t) = false := by
    intro s1 r
    cases r <;> simp [State.back, loc_goto, upd_same, leaves]
  unfold stepAt at h
  split at h
  all_goals try (split at h)
  all_goals try (split at h)
  all_goals try (split at h)
  all_goals try (simp only [State.lock] at h; split at h)
  all_goals (first | (cases h; done) | skip)
  all_goals obtain ⟨rfl, rfl⟩ := Prod.mk.inj (Option.some.inj h)
  all_goals (try exact back)
  all_goals (try simp only [got, executed, unlock, loc_goto, upd_same])
  all_goals (try split)
  all_goals (try simp_all [leaves])

theorem stays_at (hn : neverClosed E) (i u : Nat) : leaves ((E.st i).loc u) = false := by
  have : ∀ i, ∀ u, leaves ((E.st i).loc u) = false := by
    refine E.always (P := fun s => ∀ u, leaves (s.loc u) = false) ?_ ?_
    · intro u
      show leaves (if u < n then .wE .high else .idle) = false
      split <;> rfl
    · intro i ih u
      rcases step_cases E i with ⟨v, op, ha, hid, hs, _⟩ | ⟨v, c, o, ha, hs, _⟩
      · rw [hs, loc_goto]
        by_cases e : u = v
        · subst e; rw [upd_same]
          cases op with
          | addVector bs p => simp only [start]; split <;> rfl
          | _ => rfl
        · rw [upd_ne _ _ e]; exact ih u
      · by_cases e : u = v
        · subst e; exact step_leaves hs (quiet_at hn i).2 (ih u)
        · obtain ⟨a, l', e1, w⟩ := step_loc hs
          rw [e1, upd_ne _ _ e]
          rcases w.all u with h | ⟨_, h⟩
          · rw [h]; exact ih u
          · rw [h]; rfl
  exact this i u

/-! ### Workers take steps -/

/-- the lock is given back again and again -/
theorem lock_free (hf : E.Fair) (hn : neverClosed E) (i : Nat) : ∃ j, i ≤ j ∧ (E.st j).owner = none := by
  have wEnter : ∀ {u i}, (E.st i).loc u = .wEnter → ∃ j, i ≤ j ∧ (E.st j).owner = none := by
    intro u i h
    obtain ⟨j, c, o, h1, h2, h3, _⟩ := advance hf h rfl
    simp only [stepAt, unlock, Option.some.injEq, Prod.mk.injEq] at h3
    exact ⟨j + 1, by omega, by rw [← h3.1]; rfl⟩
  have wUnlock : ∀ {u i}, (E.st i).loc u = .wUnlock → ∃ j, i ≤ j ∧ (E.st j).owner = none := by
    intro u i h
    obtain ⟨j, c, o, h1, h2, h3, _⟩ := advance hf h rfl
    simp only [stepAt, unlock, Option.some.injEq, Prod.mk.injEq] at h3
    exact ⟨j + 1, by omega, by rw [← h3.1]; rfl⟩
  cases ho : (E.st i).owner with
  | none => exact ⟨i, Nat.le_refl _, ho⟩
  | some u =>
    have k := inv_reachable (E.reachable i)
    have hh := (k.owns u).2 ho
    have hcl := (quiet_at hn i).1 u
    have hlv := stays_at hn i u
    revert hh hcl hlv
    generalize hl : (E.st i).loc u = l
    intro hh hcl hlv
    cases l with
    | wHalt =>
      obtain ⟨j, c, o, h1, h2, h3, _⟩ := advance hf hl rfl
      simp only [stepAt, (quiet_at hn j).2, Option.some.injEq, Prod.mk.injEq] at h3
      obtain ⟨j', h4, h5⟩ := wEnter (u := u) (i := j + 1) (by rw [← h3.1, loc_goto, upd_same]; rfl)
      exact ⟨j', by omega, h5⟩
    | wHalt2 =>
      obtain ⟨j, c, o, h1, h2, h3, _⟩ := advance hf hl rfl
      simp only [stepAt, (quiet_at hn j).2, Option.some.injEq, Prod.mk.injEq] at h3
      obtain ⟨j', h4, h5⟩ := wUnlock (u := u) (i := j + 1) (by rw [← h3.1, loc_goto, upd_same]; rfl)
      exact ⟨j', by omega, h5⟩
    | wEnter => exact wEnter hl
    | wUnlock => exact wUnlock hl
    | _ => first | (cases hh; done) | (cases hcl; done) | (cases hlv; done)

/-- a worker takes steps again and again -/
theorem worker_moves (hf : E.Fair) (hn : neverClosed E) (ht : t < n) (i : Nat) : ∃ j, i ≤ j ∧ E.moves t j := by
  refine hf t (fun i => ?_) i
  obtain ⟨j, h1, h2⟩ := lock_free hf hn i
  refine ⟨j, h1, 0, ?_⟩
  have hp := place_reachable (E.reachable j) t
  have hlv := stays_at hn j t
  show (stepAt n (E.st j) t 0 ((E.st j).loc t)).isSome = true
  revert hp hlv
  generalize (E.st j).loc t = l
  intro hp hlv
  by_cases hr : ready l = true
  · exact ready_moves 0 hr
  · cases l <;> first | (exact absurd rfl hr) | (cases hlv; done) | (simp only [stepAt, State.lock, h2]; rfl) | rfl |
      (simp only [place] at hp; omega) | skip

theorem movesOf_append (t : Nat) (as bs : List (Act Op)) : movesOf t (as ++ bs) = movesOf t as + movesOf t bs := by
  induction as with
  | nil => simp [movesOf]
  | cons a as ih => cases a <;> simp [movesOf, ih]; omega

/-- as many as one likes -/
theorem many_moves (hf : E.Fair) (hn : neverClosed E) (ht : t < n) (i m : Nat) : ∃ k, m ≤ movesOf t (E.sched i k) := by
  induction m with
  | zero => exact ⟨0, Nat.zero_le _⟩
  | succ m ih =>
    obtain ⟨k, h⟩ := ih
    obtain ⟨j, h1, c, h2⟩ := worker_moves hf hn ht (i + k)
    refine ⟨k + ((j - (i + k)) + 1), ?_⟩
    rw [E.sched_append, E.sched_append, movesOf_append, movesOf_append, show i + k + (j - (i + k)) = j by omega]
    simp only [Infinite.sched, h2, movesOf]
    simp
    omega

end Verif.WorkQueue
