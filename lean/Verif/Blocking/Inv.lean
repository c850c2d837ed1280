import Verif.Blocking.Trace

/-
The blocking queues: invariants of all reachable states, whatever is called and returned.
-/
namespace Verif.Blocking
open Verif.Conc

variable {α : Type} {s s' : State α} {t c : Nat} {w b : Bool} {g : Ghost (List α × List α) (Op α) (Out α)}

/-- the ghost state is determined by the state -/
theorem R.conv (w' : Bool) (r : R w b s g) : R w' b s ⟨s.split.all, fun t => Blocking.status w' s.pull.isEmpty (s.loc t)⟩ :=
  ⟨r.locks, fun _ => rfl, rfl, r.facts, r.cas, r.noPrio⟩

/-- what holds in every reachable state -/
structure Inv (b : Bool) (s : State α) : Prop where
  rel : ∃ g, R true b s g
  flag : Flag s

theorem Inv.locks (i : Inv b s) : Locks s := by obtain ⟨g, r⟩ := i.rel; exact r.locks
theorem Inv.facts (i : Inv b s) : Facts s.prio s.pull s.push s.puller := by obtain ⟨g, r⟩ := i.rel; exact r.facts
theorem Inv.cas (i : Inv b s) : ∀ t j, s.loc t = .pCas j → s.push = [] := by obtain ⟨g, r⟩ := i.rel; exact r.cas
theorem Inv.noPrio (i : Inv b s) : b = false → s.prio = [] ∧ ∀ t, isF (s.loc t) = false := by
  obtain ⟨g, r⟩ := i.rel; exact r.noPrio

theorem Inv.init : Inv b (State.init : State α) := ⟨⟨_, R.init⟩, Flag.init⟩

theorem Inv.call {op : Op α} (i : Inv b s) (h : s.call b t op = some s') : Inv b s' := by
  obtain ⟨g, r⟩ := i.rel
  exact ⟨⟨_, (r.call h).2.1⟩, i.flag.call r.locks h⟩

theorem Inv.move {o : Option (Out α)} (i : Inv b s) (h : s.stepAt b t c (s.loc t) = some (s', o)) : Inv b s' := by
  obtain ⟨g, r⟩ := i.rel
  refine ⟨?_, i.flag.move r h⟩
  have easy : ∀ w, Side w s (s.loc t) → ∃ g, R true b s' g := by
    intro w side
    obtain ⟨_, _, _, _, _, r', _⟩ := (r.conv w).move h side
    exact ⟨_, r'.conv true⟩
  cases hl : s.loc t with
  | pPull j =>
    have hc := stepAt_locks r.locks rfl h
    rw [hl] at h hc
    have hS := h
    obtain ⟨q, st⟩ := g
    cases hi : j.throws with
    | true =>
      cases j <;> first | (cases hi; done) | skip
      cases h
      obtain ⟨_, _, _, _, _, r', _⟩ := r.thrown hl hS (.xUnPull false) (upd_same _ _ _) _ _ (r.locks.puller_eq hl rfl) rfl _
        (fun _ => rfl) (fun _ => trivial)
      exact ⟨_, r'⟩
    | false =>
    simp only [State.stepAt, hi, Bool.false_eq_true, if_false] at h
    cases h
    have hpn : ({ s with pull := s.pull ++ [j.val] }.goto t (Loc.pNotify false)).puller = some (.pNotify false) := by
      rw [r.locks.step_puller hl hc]
      simp only [State.goto, upd_same]; rfl
    exact ⟨_, r.step hl hS (by intro j hj; simp only [State.goto, upd_same] at hj; cases hj)
        (fun hb => ⟨(r.noPrio hb).1, by simp only [State.goto, upd_same]; rfl⟩) (by rw [hpn]; simp [Facts, State.goto]) rfl⟩
  | sPush n =>
    have hc := stepAt_locks r.locks rfl h
    rw [hl] at h hc
    have hS := h
    cases h
    obtain ⟨q, st⟩ := g
    have hpn : (s.goto t (.sUn1 (n + s.push.length))).puller = some (.sUn1 (n + s.push.length)) := by
      rw [r.locks.step_puller hl hc]
      simp only [State.goto, upd_same]; rfl
    exact ⟨_, r.step hl hS (by intro j hj; simp only [State.goto, upd_same] at hj; cases hj)
        (fun hb => ⟨(r.noPrio hb).1, by simp only [State.goto, upd_same]; rfl⟩) (by rw [hpn]; trivial) rfl⟩
  | kTest d => exact easy true (by rw [hl]; exact fun h => by cases h)
  | kNone d => exact easy false (by rw [hl]; rfl)
  | eRead => exact easy true (by rw [hl]; exact ⟨fun hf => by rw [i.flag.contents hf]; rfl, fun h => by cases h⟩)
  | ret v => exact easy false (by rw [hl]; exact fun h => by cases h)
  | _ => exact easy true (by rw [hl]; trivial)

theorem inv_reachable (s : State α) (h : (sys b α).Reachable s) : Inv b s :=
  Sys.invariant (Inv b) Inv.init (fun i h => i.call h) (fun i h => i.move h) s h

end Verif.Blocking
