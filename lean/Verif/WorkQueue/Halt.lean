import Verif.WorkQueue.Once
import Verif.Conc.Lock

/-
Invariants of closing.
-/
namespace Verif.WorkQueue
open Verif.Conc State

variable {n t c i : Nat} {s s' : State} {o : Option Out} {l : Loc} {h : List (Event Op Out)}

/-- positions with queueLock held -/
def holds : Loc → Bool
  | .cTest | .cHalt | .cUnlock | .cOut | .wHalt | .wEnter | .wHalt2 | .wUnlock | .wOut => true
  | .cJoin _ locked => locked
  | _ => false

theorem owner_setQue (s : State) (q : Que) (x) : (s.setQue q x).owner = s.owner := by cases q <;> rfl
theorem halt_setQue (s : State) (q : Que) (x) : (s.setQue q x).halt = s.halt := by cases q <;> rfl
theorem joined_setQue (s : State) (q : Que) (x) : (s.setQue q x).joined = s.joined := by cases q <;> rfl
theorem owner_notifyOne (s : State) : (notifyOne n c s).owner = s.owner := by
  rcases notifyOne_eq n c s with h | ⟨k, _, hk, h⟩ <;> rw [h] <;> rfl
theorem halt_notifyOne (s : State) : (notifyOne n c s).halt = s.halt := by
  rcases notifyOne_eq n c s with h | ⟨k, _, hk, h⟩ <;> rw [h] <;> rfl
theorem joined_notifyOne (s : State) : (notifyOne n c s).joined = s.joined := by
  rcases notifyOne_eq n c s with h | ⟨k, _, hk, h⟩ <;> rw [h] <;> rfl

theorem step_owner (h : stepAt n s t c l = some (s', o)) (ho : holds l = true → s.owner = some t) :
    s'.owner = (if holds (s'.loc t) then some t else if holds l then none else s.owner) ∧
    (holds (s'.loc t) = true → holds l = true ∨ s.owner = none) := by
  have back : ∀ {s1 : State} {r}, (s1.back t r).owner = s1.owner ∧ holds ((s1.back t r).loc t) = false := by
    intro s1 r
    cases r <;> simp [State.back, loc_goto, upd_same, holds, goto]
  unfold stepAt at h
  split at h
  all_goals try (split at h)
  all_goals try (split at h)
  all_goals try (split at h)
  all_goals try (simp only [State.lock] at h; split at h)
  all_goals (first | (cases h; done) | skip)
  all_goals obtain ⟨rfl, rfl⟩ := Prod.mk.inj (Option.some.inj h)
  all_goals (try (rw [back.1, back.2]; split <;> simp [holds, owner_notifyOne]; done))
  all_goals (try (rw [back.1, back.2]; simp [holds, owner_notifyOne]; done))
  all_goals (try simp only [got, executed, unlock, loc_goto, upd_same])
  all_goals (try simp only [goto, popped_eq, clear_eq, push_eq, pushVector_eq, owner_setQue, owner_notifyOne, notifyAll])
  all_goals (try split)
  all_goals simp_all [holds]

/-- positions that are not reached once the queue is halted -/
def stopped : Loc → Bool
  | .wEnter | .wUnlock | .cHalt => true
  | _ => false

/-- between setting halt and the first notification -/
def early : Loc → Bool
  | .cUnlock | .cClear _ | .cNotify1 => true
  | _ => false

theorem stopped_holds (h : stopped l = true) : holds l = true := by cases l <;> simp_all [stopped, holds]

theorem step_halt (h : stepAt n s t c l = some (s', o)) :
    (s'.halt = s.halt ∨ (l = .cHalt ∧ s'.halt = true ∧ s'.loc t = .cUnlock)) ∧
    (s.halt = true → stopped l = false → stopped (s'.loc t) = false) ∧
    (s'.loc t = .wSleep → l = .wEnter) ∧
    (early l = true → early (s'.loc t) = true ∨ ∀ u, s'.loc u ≠ .wSleep) ∧
    (∀ k, s'.joined k = true → s.joined k = true ∨ s.loc k = .exited) ∧ l ≠ .exited ∧ l ≠ .idle ∧ l ≠ .crash := by
  have back : ∀ {s1 : State} {r}, (s1.back t r).halt = s1.halt ∧ (s1.back t r).joined = s1.joined ∧
      stopped ((s1.back t r).loc t) = false ∧ ((s1.back t r).loc t ≠ .wSleep) := by
    intro s1 r
    cases r <;> simp [State.back, loc_goto, upd_same, stopped, goto]
  have all : ∀ l', l' ≠ .wSleep → ∀ u, (s.notifyAll.goto t l').loc u ≠ .wSleep := by
    intro l' hl' u
    rw [loc_goto]
    by_cases e : u = t
    · subst e; rw [upd_same]; exact hl'
    · rw [upd_ne _ _ e]; simp only [notifyAll]; split <;> simp_all
  unfold stepAt at h
  split at h
  all_goals try (split at h)
  all_goals try (split at h)
  all_goals try (split at h)
  all_goals try (simp only [State.lock] at h; split at h)
  all_goals (first | (cases h; done) | skip)
  all_goals obtain ⟨rfl, rfl⟩ := Prod.mk.inj (Option.some.inj h)
  all_goals (try (rw [back.1, back.2.1, back.2.2.1]; split <;> simp [early, halt_notifyOne, joined_notifyOne, back.2.2.2]; exact fun k h => .inl h))
  all_goals (try (rw [back.1, back.2.1, back.2.2.1]; simp [early, halt_notifyOne, joined_notifyOne, back.2.2.2]; exact fun k h => .inl h))
  all_goals (try (refine ⟨.inl rfl, fun _ _ => ?_, ?_, ?_, fun k h => .inl h, by simp, by simp, by simp⟩ <;>
    simp [got, executed, unlock, loc_goto, upd_same, stopped, early]; done))
  all_goals (try simp only [got, executed, loc_goto, upd_same])
  all_goals (try split)
  all_goals (try (simp [*, goto, push_eq, pushVector_eq, popped_eq, halt_setQue, joined_setQue, stopped, early]; done))
  all_goals (try (simp [*, goto, push_eq, pushVector_eq, popped_eq, halt_setQue, joined_setQue, stopped, early]; exact fun k h => .inl h))
  · refine ⟨.inl rfl, fun _ _ => rfl, by simp, fun _ => .inr fun u => ?_, fun k h => .inl h, by simp, by simp, by simp⟩
    have := all (.cLoop n) (by simp) u
    rwa [loc_goto] at this
  · rename_i _ k _ _ _ hk
    refine ⟨.inl rfl, fun _ _ => rfl, by simp, by simp [early], fun j h => ?_, by simp, by simp, by simp⟩
    simp only [goto] at h
    by_cases e : j = k
    · subst e; exact .inr hk
    · rw [upd_ne _ _ e] at h; exact .inl h

/-- what is always true -/
structure Inv (n : Nat) (s : State) : Prop where
  place : ∀ t, place n t (s.loc t)
  owns : Owns holds s.owner s.loc
  stop : s.halt = true → ∀ t, stopped (s.loc t) = false
  joined : ∀ k, s.joined k = true → s.loc k = .exited
  asleep : s.halt = true → (∀ t, s.loc t ≠ .wSleep) ∨ ∃ t, early (s.loc t) = true
  finite : ∃ ts : List Nat, ts.Nodup ∧ ∀ u, u ∉ ts → s.loc u = .idle

theorem inv_init (n : Nat) : Inv n (State.init n) := by
  refine ⟨place_init n, ?_, fun h => (by cases h), fun k h => (by simp [State.init] at h), fun h => (by cases h), ?_⟩
  · intro t
    simp only [State.init]
    split <;> simp [holds]
  · refine ⟨List.range n, List.nodup_range, fun u hu => ?_⟩
    simp only [List.mem_range] at hu
    simp [State.init, hu]

theorem holds_start (n : Nat) (op : Op) : holds (start n op) = false ∧ stopped (start n op) = false ∧ start n op ≠ .wSleep := by
  cases op with
  | addVector bs p => simp only [start]; split <;> exact ⟨rfl, rfl, by simp⟩
  | _ => exact ⟨rfl, rfl, by simp [start]⟩

theorem inv_call {op : Op} (k : Inv n s) (h : s.call n t op = some s') : Inv n s' := by
  obtain ⟨hid, rfl⟩ := call_eq h
  obtain ⟨h1, h2, h3⟩ := holds_start n op
  have hne : ∀ u, s.loc u ≠ .idle → (s.goto t (start n op)).loc u = s.loc u := by
    intro u hu
    rw [loc_goto, upd_ne]
    rintro rfl; exact hu hid
  refine ⟨?_, ?_, ?_, ?_, ?_, ?_⟩
  · intro u
    rw [loc_goto]
    by_cases e : u = t
    · subst e; rw [upd_same]
      have := k.place u; rw [hid] at this
      exact place_start n u op this
    · rw [upd_ne _ _ e]; exact k.place u
  · exact k.owns.step hid (by rw [h1]; rfl) (by simp [h1])
  · intro hh u
    rw [loc_goto]
    by_cases e : u = t
    · subst e; rw [upd_same]; exact h2
    · rw [upd_ne _ _ e]; exact k.stop hh u
  · intro j hj
    have := k.joined j hj
    rw [hne j (by rw [this]; simp)]; exact this
  · intro hh
    rcases k.asleep hh with h | ⟨u, h⟩
    · refine .inl fun u => ?_
      rw [loc_goto]
      by_cases e : u = t
      · subst e; rw [upd_same]; exact h3
      · rw [upd_ne _ _ e]; exact h u
    · exact .inr ⟨u, by rw [hne u (by intro e; rw [e] at h; cases h)]; exact h⟩
  · obtain ⟨ts, h4, h5⟩ := k.finite
    by_cases e : t ∈ ts
    · refine ⟨ts, h4, fun u hu => ?_⟩
      rw [loc_goto, upd_ne _ _ (by rintro rfl; exact hu e)]; exact h5 u hu
    · refine ⟨t :: ts, List.nodup_cons.2 ⟨e, h4⟩, fun u hu => ?_⟩
      simp only [List.mem_cons, not_or] at hu
      rw [loc_goto, upd_ne _ _ hu.1]; exact h5 u hu.2

theorem Woken.owns {a b : Nat → Loc} {own : Option Nat} (w : Woken a b) (k : Owns holds own a) : Owns holds own b := by
  intro u
  rcases w.all u with h | ⟨h1, h2⟩
  · rw [h]; exact k u
  · have := k u
    rw [h1] at this; rw [h2]; exact this

theorem inv_move (k : Inv n s) (h : stepAt n s t c (s.loc t) = some (s', o)) : Inv n s' := by
  obtain ⟨a, l', e1, w⟩ := step_loc h
  have el : s'.loc t = l' := by rw [e1, upd_same]
  have ne : ∀ u, u ≠ t → s'.loc u = s.loc u ∨ (s.loc u = .wSleep ∧ s'.loc u = .wRelock) := by
    intro u hu; rw [e1, upd_ne _ _ hu]; exact w.all u
  have nsl : ∀ u, u ≠ t → s.loc u ≠ .wSleep → s'.loc u = s.loc u := by
    intro u hu h1
    rcases ne u hu with h2 | ⟨h2, _⟩
    · exact h2
    · exact absurd h2 h1
  obtain ⟨o1, o2⟩ := step_owner h (k.owns t).1
  obtain ⟨q1, q2, q3, q4, q5, q6, q7, q8⟩ := step_halt h
  have hh' : s'.halt = true → s.halt = true ∨ (s.loc t = .cHalt ∧ s'.loc t = .cUnlock) := by
    intro hh
    rcases q1 with h1 | ⟨h1, _, h2⟩
    · rw [h1] at hh; exact .inl hh
    · exact .inr ⟨h1, h2⟩
  refine ⟨?_, ?_, ?_, ?_, ?_, ?_⟩
  · intro u
    by_cases e : u = t
    · subst e; exact step_place h (k.place u)
    · rcases ne u e with h1 | ⟨h1, h2⟩
      · rw [h1]; exact k.place u
      · rw [h2]; have := k.place u; rw [h1] at this; exact this
  · have k' := w.owns k.owns
    have ha : a t = s.loc t ∨ (s.loc t = .wSleep ∧ a t = .wRelock) := w.all t
    have hh : holds (a t) = holds (s.loc t) := by
      rcases ha with h1 | ⟨h1, h2⟩
      · rw [h1]
      · rw [h1, h2]; rfl
    rw [e1]
    rw [el] at o1 o2
    exact k'.step rfl (by rw [hh]; exact o1) (by rw [hh]; exact o2)
  · intro hh u
    rcases hh' hh with h1 | ⟨h1, h2⟩
    · by_cases e : u = t
      · subst e; exact q2 h1 (k.stop h1 u)
      · rcases ne u e with h3 | ⟨h3, h4⟩
        · rw [h3]; exact k.stop h1 u
        · rw [h4]; rfl
    · by_cases e : u = t
      · subst e; rw [h2]; rfl
      · have : stopped (s.loc u) = false := by
          apply Classical.byContradiction
          intro h5
          have h5 : stopped (s.loc u) = true := by simpa using h5
          exact e (k.owns.unique (stopped_holds h5) (by rw [h1]; rfl))
        rcases ne u e with h3 | ⟨h3, h4⟩
        · rw [h3]; exact this
        · rw [h4]; rfl
  · intro j hj
    have h1 : s.loc j = .exited := (q5 j hj).elim (k.joined j) id
    have : j ≠ t := by rintro rfl; exact q6 h1
    rw [nsl j this (by rw [h1]; simp)]; exact h1
  · intro hh
    rcases hh' hh with h1 | ⟨h1, h2⟩
    · rcases k.asleep h1 with h3 | ⟨u, h3⟩
      · refine .inl fun u => ?_
        by_cases e : u = t
        · subst e
          intro h4
          have := k.stop h1 u
          rw [q3 h4] at this; cases this
        · rw [nsl u e (h3 u)]; exact h3 u
      · by_cases e : u = t
        · subst e
          rcases q4 h3 with h4 | h4
          · exact .inr ⟨u, h4⟩
          · exact .inl h4
        · refine .inr ⟨u, ?_⟩
          rw [nsl u e (by intro h5; rw [h5] at h3; cases h3)]; exact h3
    · exact .inr ⟨t, by rw [h2]; rfl⟩
  · obtain ⟨ts, h4, h5⟩ := k.finite
    refine ⟨ts, h4, fun u hu => ?_⟩
    have : u ≠ t := by rintro rfl; exact q7 (h5 u hu)
    rw [nsl u this (by rw [h5 u hu]; simp)]; exact h5 u hu

theorem inv_reachable (hs : (sys n).Reachable s) : Inv n s := by
  obtain ⟨as, h, e⟩ := hs
  exact Sys.run_invariant (M := sys n) (I := Inv n) (allowed := fun _ _ => True)
    (fun k _ hc => inv_call k hc) (fun k hm => inv_move k hm) as (inv_init n) (fun _ _ _ => trivial) e

end Verif.WorkQueue
