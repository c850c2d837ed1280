import Verif.Blocking.Wake

/-
The blocking queues: moves, and what holds of every object however it came about.
-/
namespace Verif.Blocking
open Verif.Conc

variable {α : Type} {s s' : State α} {t c : Nat} {w b : Bool}

/-- no call is in progress -/
def State.idle (s : State α) : Prop := ∀ t, s.loc t = .idle

/-- The states of an object: a new one, after any calls, and the two sides of a move construction or move assignment. -/
inductive Obtained (b : Bool) : State α → Prop
  | new : Obtained b State.init
  | use {s s' : State α} {as : List (Act (Op α))} {h : List (Event (Op α) (Out α))} :
    Obtained b s → (sys b α).run s as = some (s', h) → Obtained b s'
  | target {s : State α} : Obtained b s → s.idle → Obtained b s.moveFrom.1
  | source {s : State α} : Obtained b s → s.idle → Obtained b s.moveFrom.2

theorem Obtained.of_reachable (h : (sys b α).Reachable s) : Obtained b s := by
  obtain ⟨as, h, e⟩ := h
  exact .use .new e

/-- what holds of all of them -/
structure Sound (b : Bool) (s : State α) : Prop where
  rel : ∃ g, R true b s g
  sleeps : Sleeps s

theorem Sound.locks (i : Sound b s) : Locks s := by obtain ⟨g, r⟩ := i.rel; exact r.locks
theorem Sound.facts (i : Sound b s) : Facts s.prio s.pull s.push s.puller := by obtain ⟨g, r⟩ := i.rel; exact r.facts
theorem Sound.noPrio (i : Sound b s) : b = false → s.prio = [] ∧ ∀ t, isF (s.loc t) = false := by
  obtain ⟨g, r⟩ := i.rel; exact r.noPrio

theorem Sound.init : Sound b (State.init : State α) := ⟨⟨_, R.init⟩, ⟨fun _ h => (by cases h), List.nodup_nil⟩⟩

theorem Sound.call {op : Op α} (i : Sound b s) (h : s.call b t op = some s') : Sound b s' := by
  obtain ⟨g, r⟩ := i.rel
  exact ⟨⟨_, (r.call h).2.1⟩, i.sleeps.call h⟩

theorem Sound.move {o : Option (Out α)} (i : Sound b s) (h : s.stepAt b t c (s.loc t) = some (s', o)) : Sound b s' := by
  refine ⟨?_, i.sleeps.move h⟩
  obtain ⟨g, r⟩ := i.rel
  have easy : ∀ w, Side w s (s.loc t) → ∃ g, R true b s' g := by
    intro w side
    obtain ⟨_, _, _, _, _, r', _⟩ := (r.conv w).move h side
    exact ⟨_, r'.conv true⟩
  cases hl : s.loc t with
  | pPull j =>
    have hc := stepAt_locks r.locks rfl h
    rw [hl] at h hc
    have hS := h
    obtain ⟨q, st⟩ := g
    cases hi : j.throws
    · simp only [State.stepAt, hi, Bool.false_eq_true, if_false] at h
      cases h
      have hpn : ({ s with pull := s.pull ++ [j.val] }.goto t (Loc.pNotify false)).puller = some (.pNotify false) := by
        rw [r.locks.step_puller hl hc]
        simp only [State.goto, upd_same]; rfl
      exact ⟨_, r.step hl hS (by intro j hj; simp only [State.goto, upd_same] at hj; cases hj)
          (fun hb => ⟨(r.noPrio hb).1, by simp only [State.goto, upd_same]; rfl⟩) (by rw [hpn]; simp [Facts, State.goto]) rfl⟩
    · simp only [State.stepAt, hi, if_true] at h
      cases h
      have hpn : (s.goto t (Loc.xUnPull false)).puller = some (.xUnPull false) := by
        rw [r.locks.step_puller hl hc]
        simp only [State.goto, upd_same]; rfl
      exact ⟨_, r.step hl hS (by intro j hj; simp only [State.goto, upd_same] at hj; cases hj)
          (fun hb => ⟨(r.noPrio hb).1, by simp only [State.goto, upd_same]; rfl⟩) (by rw [hpn]; trivial) rfl⟩
  | sPush n =>
    have hc := stepAt_locks r.locks rfl h
    rw [hl] at h hc
    have hS := h
    cases h
    obtain ⟨q, st⟩ := g
    have hpn : (s.goto t (.sUn1 (n + s.push.length))).puller = some (.sUn1 (n + s.push.length)) := by
      rw [r.locks.step_puller hl hc]
      simp only [State.goto, upd_same]; rfl
    exact ⟨_, r.step hl hS (by intro j hj; simp only [State.goto, upd_same] at hj; cases hj)
        (fun hb => ⟨(r.noPrio hb).1, by simp only [State.goto, upd_same]; rfl⟩) (by rw [hpn]; trivial) rfl⟩
  | eRead =>
    have hc := stepAt_locks r.locks rfl h
    rw [hl] at h hc
    have hS := h
    cases h
    obtain ⟨q, st⟩ := g
    have hpn : (s.goto t (.ret (.bool s.flag))).puller = s.puller := by
      rw [r.locks.step_puller hl hc]
      simp only [State.goto, upd_same]; rfl
    exact ⟨_, r.step hl hS (by intro j hj; simp only [State.goto, upd_same] at hj; cases hj)
        (fun hb => ⟨(r.noPrio hb).1, by simp only [State.goto, upd_same]; rfl⟩) (by rw [hpn]; exact r.facts) rfl⟩
  | kNone d => exact easy false (by rw [hl]; exact rfl)
  | kTest d => exact easy true (by rw [hl]; exact fun h => by cases h)
  | ret v => exact easy false (by rw [hl]; exact fun h => by cases h)
  | _ => exact easy true (by rw [hl]; trivial)

theorem idle_locks (h : s.idle) (k : Locks s) : s.pushOwner = none ∧ s.pullOwner = none := by
  constructor
  · cases hp : s.pushOwner with
    | none => rfl
    | some u => have := (k.push u).2 hp; rw [h u] at this; cases this
  · cases hp : s.pullOwner with
    | none => rfl
    | some u => have := (k.pull u).2 hp; rw [h u] at this; cases this

theorem atRest_locks (h : s.atRest) (k : Locks s) : s.pullOwner = none ∧ s.pushOwner = none := by
  constructor
  · cases hp : s.pullOwner with
    | none => rfl
    | some u => have := (k.pull u).2 hp; rcases h u with h | ⟨d, h⟩ <;> rw [h] at this <;> cases this
  · cases hp : s.pushOwner with
    | none => rfl
    | some u => have := (k.push u).2 hp; rcases h u with h | ⟨d, h⟩ <;> rw [h] at this <;> cases this

theorem idle_rel {g : Ghost (List α × List α) (Op α) (Out α)} (h : s.idle) (h1 : s.pushOwner = none) (h2 : s.pullOwner = none)
    (hb : b = false → s.prio = []) (hq : g.q = s.contents) (hs : ∀ t, g.st t = .idle) : R w b s g := by
  have hp : s.puller = none := by simp [State.puller, h2]
  refine ⟨⟨?_, ?_⟩, ?_, ?_, ?_, ?_, ?_⟩
  · intro t; rw [h t, h2]; simp [holdsPull]
  · intro t; rw [h t, h1]; simp [holdsPush]
  · intro t; rw [h t, hs t]; rfl
  · rw [hq]; simp [State.split, hp, Blocking.split, Parts.all, State.contents]
  · rw [hp]; trivial
  · intro t i ht; rw [h t] at ht; cases ht
  · intro e; exact ⟨hb e, fun t => by rw [h t]; rfl⟩

theorem Sound.target (i : Sound b s) : Sound b s.moveFrom.1 :=
  ⟨⟨⟨s.moveFrom.1.contents, fun _ => .idle⟩, idle_rel (fun _ => rfl) rfl rfl (fun hb => (i.noPrio hb).1) rfl (fun _ => rfl)⟩,
    ⟨fun _ h => (by cases h), List.nodup_nil⟩⟩

theorem Sound.source (i : Sound b s) (hi : s.idle) : Sound b s.moveFrom.2 := by
  obtain ⟨h1, h2⟩ := idle_locks hi i.locks
  exact ⟨⟨⟨([], []), fun _ => .idle⟩, idle_rel hi h1 h2 (fun _ => rfl) rfl (fun _ => rfl)⟩, ⟨i.sleeps.at_, i.sleeps.nodup⟩⟩

theorem sound_obtained (h : Obtained b s) : Sound b s := by
  induction h with
  | new => exact .init
  | use _ e ih =>
    exact Sys.run_invariant (M := sys b α) (Sound b) (fun _ _ => True) (fun k _ h => k.call h) (fun k h => k.move h) _ ih
      (fun _ _ _ => trivial) e
  | target _ _ ih => exact ih.target
  | source _ hi ih => exact ih.source hi

/-- an object without calls in progress is a queue with its contents -/
theorem K.idle (i : Sound b s) (hi : s.idle) : K false b s.contents s [] := by
  obtain ⟨h1, h2⟩ := idle_locks hi i.locks
  have hp : s.puller = none := by simp [State.puller, h2]
  have hs : s.split = (s.prio, s.pull.reverse, s.push) := by simp [State.split, hp, Blocking.split]
  refine ⟨[], [], ⟨s.contents, fun _ => .idle⟩, ⟨s.contents, fun _ => .idle⟩, s.split, rfl, rfl, rfl,
    idle_rel hi h1 h2 (fun hb => (i.noPrio hb).1) rfl (fun _ => rfl), fun h => (by cases h), ?_, ?_, rfl, ?_, ?_⟩
  · rw [hs]; rfl
  · intro u j hu; rw [hi u] at hu; cases hu
  · intro u j hu; rw [hi u] at hu; cases hu
  · intro u; rw [hi u]; rfl

theorem Quiet.idle (hi : s.idle) : Quiet s := fun u => by rw [hi u]; exact ⟨by simp [cls], by simp [cls], by simp⟩

/-- A step leads closer to the end of the call or its next wait, or takes an element out of the priority queue (P57-59). -/
theorem stepAt_closer {o : Option (Out α)} (h : s.stepAt b t c (s.loc t) = some (s', o)) (h1 : ∀ k, s.loc t ≠ .wSleep k) :
    rank (s'.loc t) < rank (s.loc t) ∨ (rank (s'.loc t) = rank (s.loc t) ∧ s'.prio.length < s.prio.length) := by
  by_cases h2 : s.loc t = .cPrio
  · rw [h2] at h ⊢
    cases hp : s.prio with
    | nil =>
      simp only [State.stepAt, hp] at h
      cases h; simp [State.goto, upd_same, rank]
    | cons x xs =>
      simp only [State.stepAt, hp] at h
      cases h; simp [State.goto, upd_same]
  · exact .inl (stepAt_rank h h1 h2)

end Verif.Blocking
