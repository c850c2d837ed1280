import Verif.WorkQueue.Close

/-
When empty() of a queue is wrong.
-/
namespace Verif.WorkQueue
open Verif.Conc State

variable {n t c i x : Nat} {s s' : State} {o : Option Out} {l : Loc} {h : List (Event Op Out)}

/-- a step can only set the flag by adding an empty vector -/
theorem step_flag (h : stepAt n s t c l = some (s', o)) (q : Que) (hq : (s'.que q).2 = true) :
    (s.que q).2 = true ∨ ∃ p, l = .vPush [] p := by
  have g : ∀ (s1 : State) (l'), (s1.goto t l').que q = s1.que q := by intro s1 l'; cases q <;> rfl
  have back : ∀ {s1 : State} {r}, (s1.back t r).que q = s1.que q := by
    intro s1 r
    cases r <;> exact g _ _
  have set : ∀ (s1 : State) (q' : Que) (x), x.2 = false → ((s1.setQue q' x).que q).2 = true → (s1.que q).2 = true := by
    intro s1 q' x hx
    by_cases e : q = q'
    · subst e; rw [que_setQue, hx]; exact fun h => absurd h (by simp)
    · rw [que_setQue_ne _ _ e]; exact id
  have no : ∀ s1 : State, (notifyOne n c s1).que q = s1.que q := by
    intro s1; rcases notifyOne_eq n c s1 with h | ⟨k, _, hk, h⟩ <;> rw [h]
    cases q <;> rfl
  have na : (s.notifyAll).que q = s.que q := by cases q <;> rfl
  unfold stepAt at h
  split at h
  all_goals try (split at h)
  all_goals try (split at h)
  all_goals try (split at h)
  all_goals try (simp only [State.lock] at h; split at h)
  all_goals (first | (cases h; done) | skip)
  all_goals obtain ⟨rfl, rfl⟩ := Prod.mk.inj (Option.some.inj h)
  all_goals (try simp only [got, executed, unlock] at hq)
  all_goals (try simp only [g, back, no, na] at hq)
  all_goals (try (exact .inl hq))
  all_goals (try simp only [popped_eq, clear_eq, push_eq] at hq)
  all_goals (try (exact .inl (set _ _ _ rfl hq)))
  all_goals (try (cases q <;> exact .inl hq))
  rename_i bs p
  cases bs with
  | nil => exact .inr ⟨_, rfl⟩
  | cons b bs =>
    rw [pushVector_eq] at hq
    exact .inl (set _ _ _ (by simp) hq)

theorem step_vPush (h : stepAt n s t c l = some (s', o)) (bs p) : s'.loc t ≠ .vPush bs p := by
  have back : ∀ {s1 : State} {r}, (s1.back t r).loc t ≠ .vPush bs p := by
    intro s1 r
    cases r <;> simp only [State.back] <;> rw [loc_goto, upd_same] <;> simp
  unfold stepAt at h
  split at h
  all_goals try (split at h)
  all_goals try (split at h)
  all_goals try (split at h)
  all_goals try (simp only [State.lock] at h; split at h)
  all_goals (first | (cases h; done) | skip)
  all_goals obtain ⟨rfl, rfl⟩ := Prod.mk.inj (Option.some.inj h)
  all_goals (try (exact back))
  all_goals (try simp only [got, executed, unlock])
  all_goals (rw [loc_goto, upd_same])
  all_goals (try split)
  all_goals simp

/-- the flag is set only if an empty vector has been added -/
theorem flag_run (as : List (Act Op)) (e : (sys n).run (sys n).init as = some (s, h)) (q : Que) (hq : (s.que q).2 = true) :
    ∃ t p, .call t (.addVector [] p) ∈ h := by
  have key := Sys.run_history (M := sys n) (h0 := []) (I := fun s h => (∀ t p, s.loc t = .vPush [] p → ∃ t p, .call t (.addVector [] p) ∈ h) ∧
    ∀ q, (s.que q).2 = true → ∃ t p, .call t (.addVector [] p) ∈ h)
    (fun {s t op s' h} i hc => by
      obtain ⟨hid, rfl⟩ := call_eq hc
      refine ⟨fun u p hu => ?_, fun q hq => ?_⟩
      · by_cases e : u = t
        · subst e
          rw [loc_goto, upd_same] at hu
          have : op = .addVector [] p := by
            cases op with
            | addVector bs p' => simp only [start] at hu; split at hu <;> cases hu; rfl
            | _ => simp [start] at hu
          subst this
          exact ⟨u, p, by simp⟩
        · rw [loc_goto, upd_ne _ _ e] at hu
          obtain ⟨t', p', h'⟩ := i.1 u p hu
          exact ⟨t', p', List.mem_append_left _ h'⟩
      · obtain ⟨t', p', h'⟩ := i.2 q (by cases q <;> exact hq)
        exact ⟨t', p', List.mem_append_left _ h'⟩)
    (fun {s t c s' o h} i hm => by
      have hm : stepAt n s t c (s.loc t) = some (s', o) := hm
      have up : (∃ t p, Event.call t (Op.addVector [] p) ∈ h) → ∃ t' p, Event.call t' (Op.addVector [] p) ∈ h ++ retEvents t o :=
        fun ⟨t', p', h'⟩ => ⟨t', p', List.mem_append_left _ h'⟩
      refine ⟨fun u p hu => up ?_, fun q hq => up ?_⟩
      · by_cases e : u = t
        · subst e; exact absurd hu (step_vPush hm _ _)
        · obtain ⟨a, l', e1, w⟩ := step_loc hm
          rw [e1, upd_ne _ _ e] at hu
          rcases w.all u with h | ⟨_, h⟩
          · exact i.1 u p (h ▸ hu)
          · rw [h] at hu; cases hu
      · rcases step_flag hm q hq with h | ⟨p, h⟩
        · exact i.2 q h
        · exact i.1 t p h) as
    ⟨fun t p h => (by
      have : (State.init n).loc t = .vPush [] p := h
      simp only [State.init] at this; split at this <;> cases this), fun q h => (by cases q <;> cases h)⟩ e
  exact key.2 q hq

end Verif.WorkQueue
