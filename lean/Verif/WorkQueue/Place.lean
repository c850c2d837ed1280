import Verif.WorkQueue.Lemmas

/-
Which thread can be at which position.
-/
namespace Verif.WorkQueue
open Verif.Conc State

variable {n t c : Nat} {s s' : State} {o : Option Out} {l : Loc}

/-- positions of workers, of clients, and those for queues without workers -/
def place (n t : Nat) : Loc → Prop
  | .wE _ | .wLock | .wHalt | .wEnter | .wSleep | .wRelock | .wHalt2 | .wUnlock | .wChk _ | .wOut | .exited => t < n
  | .gHigh | .gCnt | .gRat _ | .gLowE | .gLowPop | .gReset _ | .gMed | .gInc _ | .gLow => True
  | .eTest _ bs | .eRun _ bs | .eDone _ bs => (t < n ∧ bs = []) ∨ n = 0
  | .vExec _ | .crash => n = 0
  | .aSize _ _ _ | .aPush _ _ _ _ | .aNotify _ _ | .vPush _ _ | .vNotify => n ≤ t ∧ 0 < n
  | _ => n ≤ t

/-- a step changes the position of its thread, and may wake others -/
theorem step_loc (h : stepAt n s t c l = some (s', o)) : ∃ a l', s'.loc = upd a t l' ∧ Woken s.loc a := by
  have key : ∀ {s1 : State} {l'}, Woken s.loc s1.loc → ∃ a l'', (s1.goto t l').loc = upd a t l'' ∧ Woken s.loc a :=
    fun {s1 l'} w => ⟨s1.loc, l', rfl, w⟩
  have keyB : ∀ {s1 : State} {r}, Woken s.loc s1.loc → ∃ a l'', (s1.back t r).loc = upd a t l'' ∧ Woken s.loc a := by
    intro s1 r w; cases r <;> exact key w
  have rfl' : Woken s.loc s.loc := .refl _
  unfold stepAt at h
  split at h
  all_goals try (split at h)
  all_goals try (split at h)
  all_goals try (split at h)
  all_goals try (simp only [State.lock] at h; split at h)
  all_goals (first | (cases h; done) | skip)
  all_goals obtain ⟨rfl, rfl⟩ := Prod.mk.inj (Option.some.inj h)
  all_goals first
    | exact keyB rfl'
    | exact key rfl'
    | exact keyB (notifyOne_woken _ _ _)
    | exact key (notifyAll_woken _)
    | (refine key ?_; rw [loc_push]; exact rfl')
    | (refine key ?_; rw [loc_pushVector]; exact rfl')
    | (refine key ?_; rw [loc_popped]; exact rfl')
    | (refine key ?_; rw [loc_clear]; exact rfl')

/-- the next position of a thread -/
theorem step_place (h : stepAt n s t c l = some (s', o)) (hl : place n t l) : place n t (s'.loc t) := by
  have back : ∀ {s1 : State} {r}, n ≤ t → place n t ((s1.back t r).loc t) := by
    intro s1 r hn
    cases r <;> simpa [State.back, loc_goto, upd_same, place] using hn
  unfold stepAt at h
  split at h
  all_goals try (split at h)
  all_goals try (split at h)
  all_goals try (split at h)
  all_goals try (simp only [State.lock] at h; split at h)
  all_goals (first | (cases h; done) | skip)
  all_goals obtain ⟨rfl, rfl⟩ := Prod.mk.inj (Option.some.inj h)
  all_goals simp only [place] at hl
  all_goals first
    | (refine back ?_; omega)
    | skip
  all_goals simp only [got, executed, unlock, loc_goto, upd_same]
  all_goals (try split)
  all_goals (try simp only [place])
  all_goals (try omega)
  all_goals (try (rcases hl with ⟨h1, rfl⟩ | h1 <;> simp_all <;> omega))

theorem place_init (n : Nat) : ∀ t, place n t ((State.init n).loc t) := by
  intro t
  simp only [State.init]
  split
  · assumption
  · simp only [place]; omega

theorem call_eq {op : Op} (h : s.call n t op = some s') : s.loc t = .idle ∧ s' = s.goto t (start n op) := by
  unfold State.call at h
  split at h
  · next e => exact ⟨e, (Option.some.inj h).symm⟩
  · cases h

theorem place_start (n t : Nat) (op : Op) (h : n ≤ t) : place n t (start n op) := by
  cases op with
  | addVector bs p =>
    simp only [start]
    split <;> simp only [place] <;> omega
  | get => trivial
  | _ => exact h

theorem place_run (as : List (Act Op)) {s0 s : State} {h : List (Event Op Out)} (h0 : ∀ t, place n t (s0.loc t))
    (e : (sys n).run s0 as = some (s, h)) : ∀ t, place n t (s.loc t) := by
  refine Sys.run_invariant (M := sys n) (I := fun s => ∀ t, place n t (s.loc t)) (allowed := fun _ _ => True) ?_ ?_ as h0 (fun _ _ _ => trivial) e
  · intro s t op s' i _ h u
    obtain ⟨hid, rfl⟩ := call_eq h
    rw [loc_goto]
    by_cases e : u = t
    · subst e; rw [upd_same]
      have := i u; rw [hid] at this
      exact place_start n u op this
    · rw [upd_ne _ _ e]; exact i u
  · intro s t c s' o i h u
    by_cases e : u = t
    · subst e; exact step_place h (i u)
    · obtain ⟨a, l', h1, h2⟩ := step_loc h
      rw [h1, upd_ne _ _ e]
      rcases h2.all u with h3 | ⟨h3, h4⟩
      · rw [h3]; exact i u
      · rw [h4]; have := i u; rw [h3] at this; exact this

theorem place_reachable (hs : (sys n).Reachable s) : ∀ t, place n t (s.loc t) := by
  obtain ⟨as, h, e⟩ := hs
  exact place_run as (place_init n) e

end Verif.WorkQueue
