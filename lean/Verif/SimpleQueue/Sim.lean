import Verif.SimpleQueue.Lemmas

/-
SimpleQueue: every step preserves the simulation relation.
-/
namespace Verif.SimpleQueue
open Verif.Conc

variable {α : Type}

theorem intoPull_nil (i : Ins α) : i.intoPull [] = i.vals.reverse := by cases i <;> rfl
theorem throws_eq {i : Ins α} (h : i.throws = true) : i = .thrown := by cases i <;> first | rfl | cases h
theorem intoPush_eq (i : Ins α) (push : List α) : i.intoPush push = push ++ i.vals := by
  cases i <;> simp [Ins.intoPush, Ins.vals]

theorem actual_ins {i : Ins α} (h : i.throws = false) (q : List α × Bool) :
    actual q (.ins i) = ((q.1 ++ i.vals, q.1.isEmpty && i.vals.isEmpty), .unit) := by
  cases i <;> first | rfl | cases h

theorem lockPull_some {s s' : State α} {t : Nat} {l : Loc α} (h : s.lockPull t l = some s') :
    s.pullOwner = none ∧ s' = { s with pullOwner := some t, loc := upd s.loc t l } := by
  simp only [State.lockPull] at h
  split at h
  · rename_i h0; cases h; exact ⟨h0, rfl⟩
  · cases h

theorem lockPush_some {s s' : State α} {t : Nat} {l : Loc α} (h : s.lockPush t l = some s') :
    s.pushOwner = none ∧ s' = { s with pushOwner := some t, loc := upd s.loc t l } := by
  simp only [State.lockPush] at h
  split at h
  · rename_i h0; cases h; exact ⟨h0, rfl⟩
  · cases h

/-- every step of the code changes the locks as its position says -/
theorem stepAt_locks {s s' : State α} {t : Nat} {l : Loc α} {o : Option (Out α)} (k : Locks s) (hl : s.loc t = l)
    (h : s.stepAt t l = some (s', o)) : ∃ l', LockStep s s' t l l' := by
  have hp := k.pull t
  have hq := k.push t
  rw [hl] at hp hq
  cases l with
  | oCheck c r =>
    cases c <;> simp only [State.stepAt, Option.map_eq_some_iff] at h
    case lock =>
      obtain ⟨s1, h, e⟩ := h; cases e
      obtain ⟨h1, rfl⟩ := lockPush_some h
      refine ⟨_, rfl, ?_, ?_, ?_, ?_⟩ <;> simp_all [holdsPull, holdsPush]
    case test =>
      cases h
      refine ⟨_, rfl, ?_, ?_, ?_, ?_⟩ <;> split <;> cases r <;> simp_all [holdsPull, holdsPush, State.goto, State.afterCheck]
    case testPush =>
      cases h
      refine ⟨_, rfl, ?_, ?_, ?_, ?_⟩ <;> split <;> simp_all [holdsPull, holdsPush, State.goto]
    all_goals
      cases h
      refine ⟨_, rfl, ?_, ?_, ?_, ?_⟩ <;> cases r <;>
        simp_all [holdsPull, holdsPush, State.goto, State.unlockPush, State.afterCheck]
  | oPop x =>
    simp only [State.stepAt] at h
    cases h
    split
    · refine ⟨_, rfl, ?_, ?_, ?_, ?_⟩ <;> simp_all [holdsPull, holdsPush, State.goto]
    · refine ⟨_, rfl, ?_, ?_, ?_, ?_⟩ <;> simp_all [holdsPull, holdsPush, State.goto]
  | oBack x =>
    simp only [State.stepAt] at h
    cases h
    refine ⟨_, rfl, ?_, ?_, ?_, ?_⟩ <;> split <;> cases x <;> simp_all [holdsPull, holdsPush, State.goto]
  | kBack x =>
    simp only [State.stepAt] at h
    cases h
    refine ⟨_, rfl, ?_, ?_, ?_, ?_⟩ <;> split <;> cases x <;> simp_all [holdsPull, holdsPush, State.goto]
  | pPull i =>
    simp only [State.stepAt] at h
    cases h
    split
    · refine ⟨_, rfl, ?_, ?_, ?_, ?_⟩ <;> simp_all [holdsPull, holdsPush, State.goto]
    · refine ⟨_, rfl, ?_, ?_, ?_, ?_⟩ <;> simp_all [holdsPull, holdsPush, State.goto]
  | pAppend i =>
    simp only [State.stepAt] at h
    cases h
    split
    · refine ⟨_, rfl, ?_, ?_, ?_, ?_⟩ <;> simp_all [holdsPull, holdsPush, State.goto]
    · refine ⟨_, rfl, ?_, ?_, ?_, ?_⟩ <;> simp_all [holdsPull, holdsPush, State.goto]
  | _ =>
    simp only [State.stepAt, Option.map_eq_some_iff, reduceCtorEq] at h <;>
    first
    | (cases h
       refine ⟨_, rfl, ?_, ?_, ?_, ?_⟩ <;>
         simp_all [holdsPull, holdsPush, State.goto, State.unlockPush, State.unlockPull] <;> done)
    | (cases h
       refine ⟨_, rfl, ?_, ?_, ?_, ?_⟩ <;> split <;>
         simp_all [holdsPull, holdsPush, State.goto] <;> done)
    | (obtain ⟨s1, h, e⟩ := h; cases e
       obtain ⟨h1, rfl⟩ := lockPush_some h
       refine ⟨_, rfl, ?_, ?_, ?_, ?_⟩ <;> simp_all [holdsPull, holdsPush] <;> done)
    | (obtain ⟨s1, h, e⟩ := h; cases e
       obtain ⟨h1, rfl⟩ := lockPull_some h
       refine ⟨_, rfl, ?_, ?_, ?_, ?_⟩ <;> simp_all [holdsPull, holdsPush] <;> done)

theorem stepAt_locks' {s s' : State α} {t : Nat} {l : Loc α} {o : Option (Out α)} (k : Locks s) (hl : s.loc t = l)
    (h : s.stepAt t l = some (s', o)) : LockStep s s' t l (s'.loc t) := by
  obtain ⟨l', c⟩ := stepAt_locks k hl h
  have : s'.loc t = l' := by rw [c.loc, upd_same]
  rw [this]; exact c

theorem R.next {s s' : State α} {t : Nat} {l : Loc α} {q : List α} {z : Bool} {st : Nat → Status (Op α) (Out α)}
    (r : R s ⟨(q, z), st⟩) (hl : s.loc t = l) (h : s.stepAt t l = some (s', none)) (l' : Loc α) (hl' : s'.loc t = l')
    (hf : s'.flag = s.flag ∨ holdsPull l = true)
    (hd : Data s.pull s.push s.flag s.appending q z s.puller → ∃ q' z',
      Data s'.pull s'.push s'.flag (if holdsPush l' then isAppend l' else if holdsPush l then false else s.appending) q' z'
        (if holdsPull l' then some l' else if holdsPull l then none else s.puller) ∧
      ((SimpleQueue.status s'.flag l' = SimpleQueue.status s.flag l ∧ (q', z') = (q, z)) ∨ ∃ op,
        SimpleQueue.status s.flag l = .pending op ∧ SimpleQueue.status s'.flag l' = .done (actual (q, z) op).2 ∧
        (q', z') = (actual (q, z) op).1)) :
    ∃ tr g', TSteps (actualSpec α) ⟨(q, z), st⟩ tr g' ∧ erase tr = retEvents t none ∧ R s' g' := by
  subst hl'
  exact r.advance hl (stepAt_locks' r.locks hl h) hf hd

/-- the call returns -/
theorem R.ret {s : State α} {t : Nat} {o : Out α} {q : List α × Bool} {st : Nat → Status (Op α) (Out α)}
    (r : R s ⟨q, st⟩) (hl : s.loc t = .ret o) :
    ∃ tr g', TSteps (actualSpec α) ⟨q, st⟩ tr g' ∧ erase tr = retEvents t (some o) ∧ R (s.goto t .idle) g' := by
  have hst : st t = .done o := by have := r.status t; rw [hl] at this; exact this
  have c := stepAt_locks' r.locks hl (s' := s.goto t .idle) (o := some o) rfl
  have e : (s.goto t .idle).loc t = .idle := upd_same _ _ _
  rw [e] at c
  refine ⟨[.ret t o], ⟨q, upd st t .idle⟩, ⟨_, TStep.ret hst, rfl⟩, rfl, r.locks.step hl c, ?_, ?_⟩
  · intro u
    simp only [c.loc]
    by_cases hu : u = t
    · subst hu; simp only [upd_same]; rfl
    · simp only [upd_ne _ _ hu]; exact r.status u
  · rw [r.locks.step_puller hl c, r.locks.step_appending hl c]; exact r.data

theorem R.call {s s' : State α} {t : Nat} {op : Op α} {g : Ghost (List α × Bool) (Op α) (Out α)}
    (r : R s g) (h : s.call t op = some s') :
    g.st t = .idle ∧ R s' ⟨g.q, upd g.st t (.pending op)⟩ := by
  simp only [State.call] at h
  split at h
  · rename_i hl
    cases h
    have hst := r.status t
    rw [hl] at hst
    have c : LockStep s (s.goto t (State.start op)) t .idle (State.start op) := by
      refine ⟨rfl, ?_, ?_, ?_, ?_⟩ <;> cases op <;> simp [State.start, holdsPull, holdsPush, State.goto]
    refine ⟨hst, r.locks.step hl c, ?_, ?_⟩
    · intro u
      simp only [c.loc]
      by_cases hu : u = t
      · subst hu; simp only [upd_same]; cases op <;> rfl
      · simp only [upd_ne _ _ hu]; exact r.status u
    · rw [r.locks.step_puller hl c, r.locks.step_appending hl c]
      have := r.data
      cases op <;> exact this
  · cases h

theorem R.init : R (State.init : State α) (actualSpec α).ghost := by
  refine ⟨⟨?_, ?_⟩, fun _ => rfl, ?_⟩ <;>
    simp [State.init, holdsPull, holdsPush, State.puller, Data, Normal, actualSpec, Spec.ghost, State.appending]

set_option linter.unusedSimpArgs false in
/-- every step of a call -/
theorem R.move {s s' : State α} {t : Nat} {o : Option (Out α)} {g : Ghost (List α × Bool) (Op α) (Out α)}
    (r : R s g) (h : s.stepAt t (s.loc t) = some (s', o)) :
    ∃ tr g', TSteps (actualSpec α) g tr g' ∧ erase tr = retEvents t o ∧ R s' g' := by
  obtain ⟨⟨q, z⟩, st⟩ := g
  generalize hl : s.loc t = l at h
  have hown : holdsPull l = true → s.puller = some l := r.locks.puller_eq hl
  have hownp : holdsPush l = true → s.appending = isAppend l := r.locks.appending_eq hl
  have hS := h
  cases l with
  | idle => cases h
  | crash => cases h
  | ret v => cases h; exact r.ret hl
  | pLock i =>
    simp only [State.stepAt, Option.map_eq_some_iff] at h
    obtain ⟨s1, h, e⟩ := h; cases e
    obtain ⟨hf, rfl⟩ := lockPush_some h
    exact r.next hl hS (.pTest i) (upd_same _ _ _) (.inl rfl) fun hd =>
      ⟨q, z, by simpa [holdsPush, holdsPull, isAppend] using hd.noAppend, .inl ⟨rfl, rfl⟩⟩
  | pTest i =>
    cases hp : s.push with
    | nil =>
      cases h
      refine r.next hl hS (.pUnlock i) (by simp [State.goto, upd_same, hp]) (.inl rfl) fun hd => ⟨q, z, ?_, .inl ⟨rfl, rfl⟩⟩
      exact hd.noAppend
    | cons x xs =>
      cases h
      refine r.next hl hS (.pAppend i) (by simp [State.goto, upd_same, hp]) (.inl rfl) fun hd => ⟨q, z, ?_, .inl ⟨rfl, rfl⟩⟩
      have hpo := (r.locks.push t).1 (by rw [hl]; rfl)
      have hno : s.pullOwner ≠ some t := by rw [Ne, ← r.locks.pull t, hl]; simp [holdsPull]
      exact hd.beginAppend (by rw [hp]; simp) (fun lo ho => r.locks.other (.inr ⟨hpo, hno⟩) ho)
  | pUnlock i =>
    cases h
    exact r.next hl hS (.pLockPull i) (upd_same _ _ _) (.inl rfl) fun hd => ⟨q, z, hd.noAppend, .inl ⟨rfl, rfl⟩⟩
  | pLockPull i =>
    simp only [State.stepAt, Option.map_eq_some_iff] at h
    obtain ⟨s1, h, e⟩ := h; cases e
    obtain ⟨hf, rfl⟩ := lockPull_some h
    exact r.next hl hS (.pTestPull i) (upd_same _ _ _) (.inl rfl) fun hd => by
      rw [puller_none hf] at hd; exact ⟨q, z, hd, .inl ⟨rfl, rfl⟩⟩
  | pTestPull i =>
    cases hp : s.pull with
    | nil =>
      cases h
      refine r.next hl hS (.pPull i) (by simp [State.goto, upd_same, hp]) (.inl rfl) fun hd => ⟨q, z, ?_, .inl ⟨rfl, rfl⟩⟩
      rw [hown rfl] at hd
      exact ⟨hd, hp⟩
    | cons x xs =>
      cases h
      refine r.next hl hS (.pLock2 i) (by simp [State.goto, upd_same, hp]) (.inl rfl) fun hd => ⟨q, z, ?_, .inl ⟨rfl, rfl⟩⟩
      rw [hown rfl] at hd
      exact ⟨hd, by simp [State.goto, hp]⟩
  | pPull i =>
    cases hi : i.throws with
    | true =>
    have h : s.stepAt t (.pPull i) = some (s.goto t .pUnPullX, none) := by simp [State.stepAt, hi]
    rw [h] at hS
    cases hS
    cases throws_eq hi
    refine r.next hl h .pUnPullX (upd_same _ _ _) (.inl rfl) fun hd => ⟨q, z, ?_, .inr ⟨.ins .thrown, rfl, rfl, rfl⟩⟩
    rw [hown rfl] at hd
    exact hd.1
    | false =>
    have h : s.stepAt t (.pPull i) = some ({ s with pull := i.intoPull s.pull }.goto t (.pFlag i), none) := by
      simp [State.stepAt, hi]
    rw [h] at hS
    cases hS
    have hS := h
    refine r.next hl hS (.pFlag i) (upd_same _ _ _) (.inl rfl) fun hd => ⟨q, z, ?_, .inl ⟨rfl, rfl⟩⟩
    rw [hown rfl] at hd
    obtain ⟨⟨h1, h2, h3⟩, h5⟩ := hd
    rw [h5] at h1 h2 h3
    simp only [holdsPush, holdsPull, Data, State.goto, h5, intoPull_nil]
    obtain ⟨h6, h7⟩ := h2 rfl
    rw [h6] at h1
    exact ⟨rfl, h6, h7, h1, by simpa using h3, hi⟩
  | pFlag i =>
    cases h
    have ha : i.throws = false := by
      have hd := r.data
      rw [hown rfl] at hd
      exact hd.2.2.2.2.2
    have ha := actual_ins ha (q, z)
    refine r.next hl hS (.pUnPull i) (upd_same _ _ _) (.inr rfl) fun hd =>
      ⟨_, _, ?_, .inr ⟨.ins i, rfl, by rw [ha]; rfl, by rw [ha]⟩⟩
    rw [hown rfl] at hd
    obtain ⟨h1, h2, h3, h4, h5, _⟩ := hd
    simp only [holdsPush, holdsPull, Data, Normal, State.goto, h1, h2, h3, h4]
    refine ⟨by simp, by simp, ?_⟩
    cases hv : i.vals <;> simp
  | pUnPull i =>
    cases h
    refine r.next hl hS (.ret .unit) (upd_same _ _ _) (.inl rfl) fun hd =>
      ⟨q, z, ?_, .inl ⟨rfl, rfl⟩⟩
    rw [hown rfl] at hd
    exact hd
  | pLock2 i =>
    simp only [State.stepAt, Option.map_eq_some_iff] at h
    obtain ⟨s1, h, e⟩ := h; cases e
    obtain ⟨hf, rfl⟩ := lockPush_some h
    refine r.next hl hS (.pUnPull2 i) (upd_same _ _ _) (.inl rfl) fun hd => ⟨q, z, ?_, .inl ⟨rfl, rfl⟩⟩
    rw [hown rfl, appending_none hf] at hd
    exact ⟨hd.1, hd.2, rfl⟩
  | pUnPull2 i =>
    cases h
    refine r.next hl hS (.pAppend i) (upd_same _ _ _) (.inl rfl) fun hd => ⟨q, z, ?_, .inl ⟨rfl, rfl⟩⟩
    rw [hown rfl] at hd
    obtain ⟨⟨h1, h2, h3⟩, h5, h6⟩ := hd
    exact ⟨h1, fun h => absurd h h5, h3⟩
  | pAppend i =>
    cases hi : i.throws with
    | true =>
    have h : s.stepAt t (.pAppend i) = some (s.goto t .pUnPushX, none) := by simp [State.stepAt, hi]
    rw [h] at hS
    cases hS
    cases throws_eq hi
    exact r.next hl h .pUnPushX (upd_same _ _ _) (.inl rfl) fun hd =>
      ⟨q, z, hd.noAppend, .inr ⟨.ins .thrown, rfl, rfl, rfl⟩⟩
    | false =>
    have h : s.stepAt t (.pAppend i) = some ({ s with push := i.intoPush s.push }.goto t (.pUnPush i), none) := by
      simp [State.stepAt, hi]
    rw [h] at hS
    cases hS
    have hS := h
    have ha := actual_ins hi (q, z)
    refine r.next hl hS (.pUnPush i) (upd_same _ _ _) (.inl rfl) fun hd =>
      ⟨_, _, ?_, .inr ⟨.ins i, rfl, by rw [ha]; rfl, by rw [ha]⟩⟩
    rw [hownp rfl] at hd
    have := hd.append (vs := i.vals)
    rw [← intoPush_eq] at this
    exact this
  | pUnPullX =>
    cases h
    refine r.next hl hS (.ret .threw) (upd_same _ _ _) (.inl rfl) fun hd =>
      ⟨q, z, ?_, .inl ⟨rfl, rfl⟩⟩
    rw [hown rfl] at hd
    exact hd
  | oUnPullX =>
    cases h
    refine r.next hl hS (.ret .threw) (upd_same _ _ _) (.inl rfl) fun hd =>
      ⟨q, z, ?_, .inl ⟨rfl, rfl⟩⟩
    rw [hown rfl] at hd
    exact hd
  | kUnPullX =>
    cases h
    refine r.next hl hS (.ret .threw) (upd_same _ _ _) (.inl rfl) fun hd =>
      ⟨q, z, ?_, .inl ⟨rfl, rfl⟩⟩
    rw [hown rfl] at hd
    exact hd
  | pUnPushX =>
    cases h
    exact r.next hl hS (.ret .threw) (upd_same _ _ _) (.inl rfl) fun hd =>
      ⟨q, z, hd.noAppend, .inl ⟨rfl, rfl⟩⟩
  | pUnPush i =>
    cases h
    exact r.next hl hS (.ret .unit) (upd_same _ _ _) (.inl rfl) fun hd =>
      ⟨q, z, hd.noAppend, .inl ⟨rfl, rfl⟩⟩
  | oLock x =>
    simp only [State.stepAt, Option.map_eq_some_iff] at h
    obtain ⟨s1, h, e⟩ := h; cases e
    obtain ⟨hf, rfl⟩ := lockPull_some h
    exact r.next hl hS (.oCheck .test (.inl x)) (upd_same _ _ _) (.inl rfl) fun hd => by
      rw [puller_none hf] at hd; exact ⟨q, z, hd, .inl ⟨rfl, rfl⟩⟩
  | oCheck c v =>
    cases c with
    | test =>
      cases hp : s.pull with
      | nil =>
        cases h
        refine r.next hl hS (.oCheck .lock v) (by simp [State.goto, upd_same, hp]) (.inl rfl) fun hd =>
          ⟨q, z, ?_, .inl ⟨by cases v <;> rfl, rfl⟩⟩
        rw [hown rfl] at hd
        cases v <;> exact ⟨hd, hp⟩
      | cons x xs =>
        cases h
        refine r.next hl hS (State.afterCheck v) (by simp [State.goto, upd_same, hp]) (.inl rfl) ?_
        intro hd
        rw [hown rfl] at hd
        cases v with
        | inl x =>
          have hf : s.flag = false := by rw [hd.2.2, hp]; rfl
          refine ⟨q, z, ⟨hd, by simp [State.goto, hp]⟩, .inl ⟨?_, rfl⟩⟩
          show SimpleQueue.status s.flag (.oFlag x) = _
          rw [hf]; rfl
        | inr v =>
          obtain ⟨h1, h2⟩ := hd
          subst h1
          refine ⟨_, _, ⟨rfl, ?_, ?_⟩, .inr ⟨.pop, rfl, rfl, rfl⟩⟩ <;> simp [State.goto, hp, h2]
    | lock =>
      simp only [State.stepAt, Option.map_eq_some_iff] at h
      obtain ⟨s1, h, e⟩ := h; cases e
      obtain ⟨hf, rfl⟩ := lockPush_some h
      refine r.next hl hS (.oCheck .testPush v) (upd_same _ _ _) (.inl rfl) fun hd => ⟨q, z, ?_, .inl ⟨by cases v <;> rfl, rfl⟩⟩
      rw [hown rfl, appending_none hf] at hd
      cases v
      · exact hd
      · exact ⟨hd.1, hd.2, rfl⟩
    | testPush =>
      cases hp : s.push with
      | nil =>
        cases h
        refine r.next hl hS (.oCheck .setFlag v) (by simp [State.goto, upd_same, hp]) (.inl rfl) fun hd =>
          ⟨q, z, ?_, .inl ⟨by cases v <;> rfl, rfl⟩⟩
        rw [hown rfl, hownp rfl] at hd
        cases v
        · exact hd
        · exact ⟨hd.1, hd.2.1, hp, rfl⟩
      | cons x xs =>
        cases h
        refine r.next hl hS (.oCheck .swap v) (by simp [State.goto, upd_same, hp]) (.inl rfl) fun hd =>
          ⟨q, z, ?_, .inl ⟨by cases v <;> rfl, rfl⟩⟩
        rw [hown rfl, hownp rfl] at hd
        cases v
        · obtain ⟨⟨_, h2, _⟩, h3⟩ := hd
          have := (h2 h3).1
          rw [hp] at this; cases this
        · exact ⟨hd.1, hd.2.1, by simp [State.goto, hp], rfl⟩
    | swap =>
      cases h
      refine r.next hl hS (.oCheck .unlockSwap v) (upd_same _ _ _) (.inl rfl) ?_
      intro hd
      rw [hown rfl] at hd
      cases v with
      | inl x => exact hd.elim
      | inr v =>
        obtain ⟨⟨h1, h2⟩, h3, h4, h5⟩ := hd
        subst h1
        refine ⟨_, _, ⟨⟨?_, h4, h2⟩, rfl⟩, .inr ⟨.pop, rfl, rfl, rfl⟩⟩
        simp [State.goto, h3]
    | unlockSwap =>
      cases h
      refine r.next hl hS (.oCheck .reverse v) (upd_same _ _ _) (.inl rfl) fun hd => ⟨q, z, ?_, .inl ⟨by cases v <;> rfl, rfl⟩⟩
      rw [hown rfl] at hd
      cases v
      · exact hd
      · exact hd.1
    | reverse =>
      cases h
      refine r.next hl hS (State.afterCheck v) (upd_same _ _ _) (.inl rfl) ?_
      intro hd
      rw [hown rfl] at hd
      cases v with
      | inl x => exact hd.elim
      | inr v =>
        obtain ⟨h1, h2, h3⟩ := hd
        refine ⟨q, z, ⟨?_, ?_, ?_⟩, .inl ⟨rfl, rfl⟩⟩ <;> simp [State.goto, h1, h2, h3]
    | setFlag =>
      cases h
      refine r.next hl hS (.oCheck .unlockFlag v) (upd_same _ _ _) (.inr rfl) ?_
      intro hd
      rw [hown rfl, hownp rfl] at hd
      cases v with
      | inl x =>
        obtain ⟨⟨h1, h2, h3⟩, h5⟩ := hd
        have hq : q = [] := by rw [h1, h5, (h2 h5).1]; rfl
        subst hq
        refine ⟨[], false, ⟨⟨h1, fun _ => ⟨(h2 h5).1, rfl⟩, ?_⟩, h5, rfl⟩,
          .inr ⟨popOp x, rfl, by cases x <;> rfl, by cases x <;> rfl⟩⟩
        simp [State.goto, h5]
      | inr v =>
        obtain ⟨⟨h1, h2⟩, h3, h4, h5⟩ := hd
        subst h1
        refine ⟨_, _, ⟨⟨rfl, fun _ => ⟨h4, rfl⟩, ?_⟩, h3⟩, .inr ⟨.pop, rfl, rfl, rfl⟩⟩
        simp [State.goto, h3]
    | unlockFlag =>
      cases h
      refine r.next hl hS (State.afterCheck v) (upd_same _ _ _) (.inl rfl) ?_
      intro hd
      rw [hown rfl, hownp rfl] at hd
      cases v with
      | inl x =>
        refine ⟨q, z, ⟨hd.1, fun _ => hd.2.2⟩, .inl ⟨?_, rfl⟩⟩
        show SimpleQueue.status s.flag (.oFlag x) = _
        rw [hd.2.2]; rfl
      | inr v => exact ⟨q, z, hd.1, .inl ⟨rfl, rfl⟩⟩
  | oFlag x =>
    cases hp : s.flag with
    | true =>
      cases h
      refine r.next hl hS (.oUnPull none) (by simp [State.goto, upd_same, hp]) (.inl rfl) fun hd => ⟨q, z, ?_, .inl ⟨?_, rfl⟩⟩
      · rw [hown rfl] at hd; exact hd.1
      · rw [hp]; rfl
    | false =>
      cases h
      refine r.next hl hS (.oBack x) (by simp [State.goto, upd_same, hp]) (.inl rfl) fun hd => ⟨q, z, ?_, .inl ⟨?_, rfl⟩⟩
      · rw [hown rfl] at hd
        exact ⟨hd.1, fun h => by have := hd.2 h; rw [hp] at this; cases this⟩
      · rw [hp]; rfl
  | oBack x =>
    cases x
    case true =>
      cases h
      have hd := r.data
      rw [hown rfl] at hd
      obtain ⟨hn, hne⟩ := hd
      have hq : q.isEmpty = false := by
        rw [show q = s.pull.reverse ++ s.push from hn.1]; simpa using fun h => absurd h hne
      refine r.next hl hS .oUnPullX ?_ (.inl rfl) fun _ => ⟨q, z, hn, .inr ⟨.popX, rfl, ?_, ?_⟩⟩
      · simp [State.goto, upd_same, List.getLast?_eq_some_getLast hne]
      · simp [SimpleQueue.status, actual, hq]
      · simp [actual, hq]
    cases h
    have hd := r.data
    rw [hown rfl] at hd
    obtain ⟨hn, hne⟩ := hd
    have he := List.dropLast_concat_getLast hne
    refine r.next hl hS (.oPop (s.pull.getLast hne)) ?_ (.inl rfl) fun _ => ⟨q, z, ?_, .inl ⟨rfl, rfl⟩⟩
    · simp [State.goto, upd_same, List.getLast?_eq_some_getLast hne]
    · exact ⟨hn, _, he.symm⟩
  | oPop x =>
    cases h
    have hd := r.data
    rw [hown rfl] at hd
    obtain ⟨⟨h1, h2, h3⟩, rest, he⟩ := hd
    refine r.next hl hS (.oCheck .test (.inr x)) ?_ (.inr rfl) fun _ => ⟨q, z, ?_, .inl ⟨rfl, rfl⟩⟩
    · simp [State.goto, upd_same, he]
    · refine ⟨?_, ?_⟩
      · rw [if_neg (by simp [he])]; simp only [] at h1; simp [h1, he, State.goto]
      · rw [if_neg (by simp [he])]
        show s.flag = false
        rw [h3, he]; simp
  | oUnPull v =>
    cases h
    refine r.next hl hS (.ret (.val v)) (upd_same _ _ _) (.inl rfl) fun hd => ⟨q, z, ?_, .inl ⟨rfl, rfl⟩⟩
    rw [hown rfl] at hd
    exact hd
  | kLock x =>
    simp only [State.stepAt, Option.map_eq_some_iff] at h
    obtain ⟨s1, h, e⟩ := h; cases e
    obtain ⟨hf, rfl⟩ := lockPull_some h
    exact r.next hl hS (.kTest x) (upd_same _ _ _) (.inl rfl) fun hd => by
      rw [puller_none hf] at hd; exact ⟨q, z, hd, .inl ⟨rfl, rfl⟩⟩
  | kTest x =>
    cases hp : s.pull with
    | nil =>
      cases h
      refine r.next hl hS (.kUnPull none) (by simp [State.goto, upd_same, hp]) (.inl rfl) fun hd => ?_
      rw [hown rfl] at hd
      have hq : q = [] := by rw [hd.1, hp, (hd.2.1 hp).1]; rfl
      refine ⟨q, z, hd, .inr ⟨peekOp x, rfl, ?_, by cases x <;> rfl⟩⟩
      rw [hq]; cases x <;> rfl
    | cons _ xs =>
      cases h
      refine r.next hl hS (.kBack x) (by simp [State.goto, upd_same, hp]) (.inl rfl) fun hd => ⟨q, z, ?_, .inl ⟨rfl, rfl⟩⟩
      rw [hown rfl] at hd
      exact ⟨hd, by simp [State.goto, hp]⟩
  | kBack x =>
    cases x
    case true =>
      cases h
      have hd := r.data
      rw [hown rfl] at hd
      obtain ⟨hn, hne⟩ := hd
      have hq : q.isEmpty = false := by
        rw [show q = s.pull.reverse ++ s.push from hn.1]; simpa using fun h => absurd h hne
      refine r.next hl hS .kUnPullX ?_ (.inl rfl) fun _ => ⟨q, z, hn, .inr ⟨.peekX, rfl, ?_, rfl⟩⟩
      · simp [State.goto, upd_same, List.getLast?_eq_some_getLast hne]
      · simp [SimpleQueue.status, actual, fifo, hq]
    cases h
    have hd := r.data
    rw [hown rfl] at hd
    obtain ⟨hn, hne⟩ := hd
    have he := List.dropLast_concat_getLast hne
    refine r.next hl hS (.kUnPull (some (s.pull.getLast hne))) ?_ (.inl rfl) fun _ => ⟨q, z, hn, .inr ⟨.peek, rfl, ?_, rfl⟩⟩
    · simp [State.goto, upd_same, List.getLast?_eq_some_getLast hne]
    · have h1 : q = s.pull.reverse ++ s.push := hn.1
      have h2 : q.head? = some (s.pull.getLast hne) := by
        rw [h1]; simp [List.head?_append, List.getLast?_eq_some_getLast hne]
      simp [SimpleQueue.status, actual, fifo, h2]
  | kUnPull v =>
    cases h
    refine r.next hl hS (.ret (.val v)) (upd_same _ _ _) (.inl rfl) fun hd => ⟨q, z, ?_, .inl ⟨rfl, rfl⟩⟩
    rw [hown rfl] at hd
    exact hd
  | sLock1 =>
    simp only [State.stepAt, Option.map_eq_some_iff] at h
    obtain ⟨s1, h, e⟩ := h; cases e
    obtain ⟨hf, rfl⟩ := lockPull_some h
    exact r.next hl hS .sLock2 (upd_same _ _ _) (.inl rfl) fun hd => by
      rw [puller_none hf] at hd; exact ⟨q, z, hd, .inl ⟨rfl, rfl⟩⟩
  | sLock2 =>
    simp only [State.stepAt, Option.map_eq_some_iff] at h
    obtain ⟨s1, h, e⟩ := h; cases e
    obtain ⟨hf, rfl⟩ := lockPush_some h
    refine r.next hl hS .sPull (upd_same _ _ _) (.inl rfl) fun hd => ⟨q, z, ?_, .inl ⟨rfl, rfl⟩⟩
    rw [hown rfl, appending_none hf] at hd
    exact hd
  | sPull =>
    cases h
    refine r.next hl hS (.sPush s.pull.length) (upd_same _ _ _) (.inl rfl) fun hd => ⟨q, z, ?_, .inl ⟨rfl, rfl⟩⟩
    rw [hown rfl, hownp rfl] at hd
    exact ⟨hd, rfl⟩
  | sPush n =>
    cases h
    refine r.next hl hS (.sUn1 (n + s.push.length)) (upd_same _ _ _) (.inl rfl) fun hd => ?_
    rw [hown rfl, hownp rfl] at hd
    refine ⟨q, z, hd.1, .inr ⟨.size, rfl, ?_, rfl⟩⟩
    rw [hd.1.1, hd.2]; simp [SimpleQueue.status, actual, fifo]
  | sUn1 n =>
    cases h
    refine r.next hl hS (.sUn2 n) (upd_same _ _ _) (.inl rfl) fun hd => ⟨q, z, ?_, .inl ⟨rfl, rfl⟩⟩
    rw [hown rfl, hownp rfl] at hd
    exact hd
  | sUn2 n =>
    cases h
    refine r.next hl hS (.ret (.num n)) (upd_same _ _ _) (.inl rfl) fun hd => ⟨q, z, ?_, .inl ⟨rfl, rfl⟩⟩
    rw [hown rfl] at hd
    exact hd
  | cLock1 =>
    simp only [State.stepAt, Option.map_eq_some_iff] at h
    obtain ⟨s1, h, e⟩ := h; cases e
    obtain ⟨hf, rfl⟩ := lockPull_some h
    exact r.next hl hS .cLock2 (upd_same _ _ _) (.inl rfl) fun hd => by
      rw [puller_none hf] at hd; exact ⟨q, z, hd, .inl ⟨rfl, rfl⟩⟩
  | cLock2 =>
    simp only [State.stepAt, Option.map_eq_some_iff] at h
    obtain ⟨s1, h, e⟩ := h; cases e
    obtain ⟨hf, rfl⟩ := lockPush_some h
    refine r.next hl hS .cPull (upd_same _ _ _) (.inl rfl) fun hd => ⟨q, z, ?_, .inl ⟨rfl, rfl⟩⟩
    rw [hown rfl, appending_none hf] at hd
    exact hd
  | cPull =>
    cases h
    refine r.next hl hS .cPush (upd_same _ _ _) (.inl rfl) fun hd => ⟨q, z, ?_, .inl ⟨rfl, rfl⟩⟩
    rw [hown rfl, hownp rfl] at hd
    exact ⟨⟨Data.flag (O := none) hd, rfl⟩, rfl⟩
  | cPush =>
    cases h
    refine r.next hl hS .cFlag (upd_same _ _ _) (.inl rfl) fun hd => ⟨q, z, ?_, .inl ⟨rfl, rfl⟩⟩
    rw [hown rfl, hownp rfl] at hd
    exact ⟨hd.1, hd.2, rfl⟩
  | cFlag =>
    cases h
    refine r.next hl hS .cUn1 (upd_same _ _ _) (.inr rfl) fun hd => ?_
    rw [hown rfl, hownp rfl] at hd
    refine ⟨_, _, ⟨?_, fun _ => ⟨hd.2.2, rfl⟩, ?_⟩, .inr ⟨.clear, rfl, rfl, rfl⟩⟩ <;> simp [State.goto, hd.2.1, hd.2.2]
  | cUn1 =>
    cases h
    refine r.next hl hS .cUn2 (upd_same _ _ _) (.inl rfl) fun hd => ⟨q, z, ?_, .inl ⟨rfl, rfl⟩⟩
    rw [hown rfl, hownp rfl] at hd
    exact hd
  | cUn2 =>
    cases h
    refine r.next hl hS (.ret .unit) (upd_same _ _ _) (.inl rfl) fun hd => ⟨q, z, ?_, .inl ⟨rfl, rfl⟩⟩
    rw [hown rfl] at hd
    exact hd
  | aLock1 v =>
    simp only [State.stepAt, Option.map_eq_some_iff] at h
    obtain ⟨s1, h, e⟩ := h; cases e
    obtain ⟨hf, rfl⟩ := lockPull_some h
    exact r.next hl hS (.aLock2 v) (upd_same _ _ _) (.inl rfl) fun hd => by
      rw [puller_none hf] at hd; exact ⟨q, z, hd, .inl ⟨rfl, rfl⟩⟩
  | aLock2 v =>
    simp only [State.stepAt, Option.map_eq_some_iff] at h
    obtain ⟨s1, h, e⟩ := h; cases e
    obtain ⟨hf, rfl⟩ := lockPush_some h
    refine r.next hl hS (.aPush v) (upd_same _ _ _) (.inl rfl) fun hd => ⟨q, z, ?_, .inl ⟨rfl, rfl⟩⟩
    rw [hown rfl, appending_none hf] at hd
    exact hd
  | aPush v =>
    cases h
    refine r.next hl hS (.aPull v) (upd_same _ _ _) (.inl rfl) fun hd => ⟨q, z, ?_, .inl ⟨rfl, rfl⟩⟩
    rw [hown rfl, hownp rfl] at hd
    exact ⟨⟨Data.flag (O := none) hd, rfl⟩, rfl⟩
  | aPull v =>
    cases h
    refine r.next hl hS (.aFlag v) (upd_same _ _ _) (.inl rfl) fun hd => ⟨q, z, ?_, .inl ⟨rfl, rfl⟩⟩
    rw [hown rfl, hownp rfl] at hd
    exact ⟨hd.1, hd.2, rfl⟩
  | aFlag v =>
    cases h
    refine r.next hl hS .aUn1 (upd_same _ _ _) (.inr rfl) fun hd => ?_
    rw [hown rfl, hownp rfl] at hd
    refine ⟨v.contents, false, ⟨?_, fun h0 => ⟨?_, rfl⟩, ?_⟩, .inr ⟨.assign v, rfl, rfl, rfl⟩⟩
    · simp [State.goto, Src.contents, hd.2.1, hd.2.2]
    · simp only [State.goto, hd.2.1, hd.2.2] at h0 ⊢; exact v.2 h0
    · simp [State.goto]
  | aUn1 =>
    cases h
    refine r.next hl hS .aUn2 (upd_same _ _ _) (.inl rfl) fun hd => ⟨q, z, ?_, .inl ⟨rfl, rfl⟩⟩
    rw [hown rfl, hownp rfl] at hd
    exact hd
  | aUn2 =>
    cases h
    refine r.next hl hS (.ret .unit) (upd_same _ _ _) (.inl rfl) fun hd => ⟨q, z, ?_, .inl ⟨rfl, rfl⟩⟩
    rw [hown rfl] at hd
    exact hd
  | rLock1 =>
    simp only [State.stepAt, Option.map_eq_some_iff] at h
    obtain ⟨s1, h, e⟩ := h; cases e
    obtain ⟨hf, rfl⟩ := lockPull_some h
    exact r.next hl hS .rLock2 (upd_same _ _ _) (.inl rfl) fun hd => by
      rw [puller_none hf] at hd; exact ⟨q, z, hd, .inl ⟨rfl, rfl⟩⟩
  | rLock2 =>
    simp only [State.stepAt, Option.map_eq_some_iff] at h
    obtain ⟨s1, h, e⟩ := h; cases e
    obtain ⟨hf, rfl⟩ := lockPush_some h
    refine r.next hl hS .rPull (upd_same _ _ _) (.inl rfl) fun hd => ⟨q, z, ?_, .inl ⟨rfl, rfl⟩⟩
    rw [hown rfl, appending_none hf] at hd
    exact hd
  | rPull =>
    cases h
    refine r.next hl hS .rPush (upd_same _ _ _) (.inl rfl) fun hd => ⟨q, z, ?_, .inl ⟨rfl, rfl⟩⟩
    rw [hown rfl, hownp rfl] at hd
    exact hd
  | rPush =>
    cases h
    refine r.next hl hS .rUn1 (upd_same _ _ _) (.inl rfl) fun hd => ⟨q, z, ?_, .inr ⟨.reserve, rfl, rfl, rfl⟩⟩
    rw [hown rfl, hownp rfl] at hd
    exact hd
  | rUn1 =>
    cases h
    refine r.next hl hS .rUn2 (upd_same _ _ _) (.inl rfl) fun hd => ⟨q, z, ?_, .inl ⟨rfl, rfl⟩⟩
    rw [hown rfl, hownp rfl] at hd
    exact hd
  | rUn2 =>
    cases h
    refine r.next hl hS (.ret .unit) (upd_same _ _ _) (.inl rfl) fun hd => ⟨q, z, ?_, .inl ⟨rfl, rfl⟩⟩
    rw [hown rfl] at hd
    exact hd
  | eRead =>
    cases h
    refine r.next hl hS (.ret (.bool s.flag)) (upd_same _ _ _) (.inl rfl) fun hd => ?_
    refine ⟨q, z, hd, .inr ⟨.empty, rfl, ?_, rfl⟩⟩
    rw [hd.flag]; rfl

theorem simulation : Simulation (sys α) (actualSpec α) (fun _ => True) R where
  init := R.init
  call := fun r _ h => r.call h
  move := fun r h => r.move h

/-- the locks in every reachable state -/
theorem locks_reachable (s : State α) (h : (sys α).Reachable s) : Locks s := by
  refine Sys.invariant (M := sys α) Locks R.init.locks ?_ ?_ s h
  · intro s t op s' k h
    simp only [sys, State.call] at h
    split at h
    · rename_i hl
      cases h
      refine k.step hl (l' := State.start op) ⟨rfl, ?_, ?_, ?_, ?_⟩ <;> cases op <;>
        simp [State.start, holdsPull, holdsPush, State.goto]
    · cases h
  · intro s t c s' o k h
    exact k.step rfl (stepAt_locks' k rfl h)

theorem related_reachable (s : State α) (h : (sys α).Reachable s) : ∃ g, R s g := by
  obtain ⟨as, h, e⟩ := h
  obtain ⟨tr, g, _, _, r⟩ := simulation.run_from as simulation.init (fun _ _ => trivial) e
  exact ⟨g, r⟩

/-- a thread at `l` needs no lock that another thread holds -/
def Ready (s : State α) (l : Loc α) : Prop :=
  holdsPush l = true ∨ (s.pushOwner = none ∧ (holdsPull l = true ∨ s.pullOwner = none))

theorem enabled {s : State α} (t : Nat) {l : Loc α} (h : Ready s l) (h1 : l ≠ .idle) (h2 : l ≠ .crash) :
    (s.stepAt t l).isSome = true := by
  cases l with
  | oCheck c r =>
    cases c <;> simp [State.stepAt]
    rcases h with h | ⟨h, _⟩
    · cases h
    · simp [State.lockPush, h]
  | idle => exact absurd rfl h1
  | crash => exact absurd rfl h2
  | _ => simp_all [State.stepAt, State.lockPush, State.lockPull, Ready, holdsPush, holdsPull]

/-- bound on the steps left in a call -/
def rank : Loc α → Nat
  | .idle => 0
  | .ret _ | .crash => 1
  | .pUnPush _ | .pUnPull _ | .oUnPull _ | .kUnPull _ | .pUnPullX | .pUnPushX | .oUnPullX | .kUnPullX | .sUn2 _ | .cUn2 | .rUn2 | .aUn2 | .eRead => 2
  | .pAppend _ | .pFlag _ | .kBack _ | .sUn1 _ | .cUn1 | .rUn1 | .aUn1 => 3
  | .pUnPull2 _ | .pPull _ | .kTest _ | .sPush _ | .cFlag | .rPush | .aFlag _ => 4
  | .pLock2 _ | .kLock _ | .sPull | .cPush | .rPull | .aPull _ => 5
  | .pTestPull _ | .sLock2 | .cPull | .rLock2 | .aPush _ => 6
  | .pLockPull _ | .sLock1 | .cLock2 | .rLock1 | .aLock2 _ => 7
  | .pUnlock _ | .cLock1 | .aLock1 _ => 8
  | .pTest _ => 9
  | .pLock _ => 10
  | .oCheck .reverse (.inr _) => 3
  | .oCheck .unlockFlag (.inr _) => 3
  | .oCheck .unlockSwap (.inr _) => 4
  | .oCheck .setFlag (.inr _) => 4
  | .oCheck .swap (.inr _) => 5
  | .oCheck .testPush (.inr _) => 6
  | .oCheck .lock (.inr _) => 7
  | .oCheck .test (.inr _) => 8
  | .oPop _ => 9
  | .oBack _ => 10
  | .oFlag _ => 11
  | .oCheck .reverse (.inl _) => 12
  | .oCheck .unlockFlag (.inl _) => 12
  | .oCheck .unlockSwap (.inl _) => 13
  | .oCheck .setFlag (.inl _) => 13
  | .oCheck .swap (.inl _) => 14
  | .oCheck .testPush (.inl _) => 15
  | .oCheck .lock (.inl _) => 16
  | .oCheck .test (.inl _) => 17
  | .oLock _ => 18

theorem step_rank {s s' : State α} {t : Nat} {l : Loc α} {o : Option (Out α)} (h : s.stepAt t l = some (s', o)) :
    ∃ l', s'.loc = upd s.loc t l' ∧ rank l' < rank l := by
  cases l with
  | oCheck c r =>
    cases c <;> simp only [State.stepAt, Option.map_eq_some_iff] at h
    case lock =>
      obtain ⟨s1, h, e⟩ := h; cases e
      obtain ⟨h1, rfl⟩ := lockPush_some h
      exact ⟨_, rfl, by cases r <;> simp [rank]⟩
    all_goals
      cases h
      refine ⟨_, rfl, ?_⟩
      cases r <;> (try split) <;> simp [rank, State.afterCheck]
  | oPop x =>
    simp only [State.stepAt] at h
    cases h
    split
    · exact ⟨_, rfl, by simp [rank]⟩
    · exact ⟨_, rfl, by simp [rank]⟩
  | pPull x =>
    simp only [State.stepAt] at h
    cases h
    split
    · exact ⟨_, rfl, by simp [rank]⟩
    · exact ⟨_, rfl, by simp [rank]⟩
  | pAppend x =>
    simp only [State.stepAt] at h
    cases h
    split
    · exact ⟨_, rfl, by simp [rank]⟩
    · exact ⟨_, rfl, by simp [rank]⟩
  | oBack x => cases h; refine ⟨_, rfl, ?_⟩; split <;> cases x <;> simp [rank]
  | kBack x => cases h; refine ⟨_, rfl, ?_⟩; split <;> cases x <;> simp [rank]
  | _ =>
    simp only [State.stepAt, Option.map_eq_some_iff, reduceCtorEq] at h <;>
    first
    | (cases h; refine ⟨_, rfl, ?_⟩; simp [rank]; done)
    | (cases h; refine ⟨_, rfl, ?_⟩; split <;> simp [rank]; done)
    | (obtain ⟨s1, h, e⟩ := h; cases e
       obtain ⟨h1, rfl⟩ := lockPush_some h
       exact ⟨_, rfl, by simp [rank]⟩)
    | (obtain ⟨s1, h, e⟩ := h; cases e
       obtain ⟨h1, rfl⟩ := lockPull_some h
       exact ⟨_, rfl, by simp [rank]⟩)

theorem usesPush_holds {l : Loc α} (h : usesPush l = true) : holdsPush l = true := by
  cases l with
  | oCheck c r => cases c <;> first | rfl | cases h
  | _ => first | rfl | cases h

theorem usesPull_holds {l : Loc α} (h : usesPull l = true) : holdsPull l = true := by
  cases l <;> first | rfl | cases h

theorem push_frame {s : State α} {t : Nat} {l : Loc α} (h : usesPush l = false) (p : List α) :
    State.stepAt { s with push := p } t l = (s.stepAt t l).map fun r => ({ r.1 with push := p }, r.2) := by
  cases l with
  | oCheck c r =>
    cases c <;> first | rfl | (cases h; done) | skip
    simp only [State.stepAt, State.lockPush]
    cases s.pushOwner <;> rfl
  | oPop x => simp only [State.stepAt]; split <;> rfl
  | pPull i => simp only [State.stepAt]; split <;> rfl
  | _ =>
    first
    | rfl
    | (cases h; done)
    | (simp only [State.stepAt, State.lockPush]; cases s.pushOwner <;> rfl)
    | (simp only [State.stepAt, State.lockPull]; cases s.pullOwner <;> rfl)

theorem pull_frame {s : State α} {t : Nat} {l : Loc α} (h : usesPull l = false) (p : List α) :
    State.stepAt { s with pull := p } t l = (s.stepAt t l).map fun r => ({ r.1 with pull := p }, r.2) := by
  cases l with
  | oCheck c r =>
    cases c <;> first | rfl | (cases h; done) | skip
    simp only [State.stepAt, State.lockPush]
    cases s.pushOwner <;> rfl
  | pAppend i => simp only [State.stepAt]; split <;> rfl
  | _ =>
    first
    | rfl
    | (cases h; done)
    | (simp only [State.stepAt, State.lockPush]; cases s.pushOwner <;> rfl)
    | (simp only [State.stepAt, State.lockPull]; cases s.pullOwner <;> rfl)

/-- with no call in progress the contents are what the vectors say -/
theorem R.quiet {s : State α} {g : Ghost (List α × Bool) (Op α) (Out α)} (r : R s g) (hq : ∀ t, s.loc t = .idle) :
    s.pullOwner = none ∧ s.pushOwner = none ∧ Normal s.pull s.push s.flag false g.q.1 g.q.2 := by
  have h1 : s.pullOwner = none := by
    cases h : s.pullOwner with
    | none => rfl
    | some t => have := (r.locks.pull t).2 h; rw [hq t] at this; cases this
  have h2 : s.pushOwner = none := by
    cases h : s.pushOwner with
    | none => rfl
    | some t => have := (r.locks.push t).2 h; rw [hq t] at this; cases this
  have := r.data
  rw [puller_none h1, appending_none h2] at this
  exact ⟨h1, h2, this⟩

theorem R.contents {s : State α} {g : Ghost (List α × Bool) (Op α) (Out α)} (r : R s g) (hq : ∀ t, s.loc t = .idle) :
    g.q.1 = s.pull.reverse ++ s.push := (r.quiet hq).2.2.1

theorem R.moveTarget {s : State α} {g : Ghost (List α × Bool) (Op α) (Out α)} (r : R s g) (hq : ∀ t, s.loc t = .idle) :
    R s.moveFrom.1 ⟨(s.pull.reverse ++ s.push, false), fun _ => .idle⟩ := by
  obtain ⟨_, _, h1, h2, h3⟩ := r.quiet hq
  refine ⟨⟨?_, ?_⟩, fun _ => rfl, ?_⟩
  · intro t; simp [State.moveFrom, holdsPull]
  · intro t; simp [State.moveFrom, holdsPush]
  · show Normal _ _ _ _ _ _
    exact ⟨rfl, fun h => ⟨(h2 h).1, rfl⟩, by simp [State.moveFrom]⟩

theorem R.moveSource {s : State α} {g : Ghost (List α × Bool) (Op α) (Out α)} (r : R s g) (hq : ∀ t, s.loc t = .idle) :
    R s.moveFrom.2 ⟨([], !s.flag), fun _ => .idle⟩ := by
  obtain ⟨h4, h5, h1, h2, h3⟩ := r.quiet hq
  refine ⟨⟨?_, ?_⟩, ?_, ?_⟩
  · intro t; simp [State.moveFrom, hq t, holdsPull, h4]
  · intro t; simp [State.moveFrom, hq t, holdsPush, h5]
  · intro t; simp [State.moveFrom, hq t, SimpleQueue.status]
  · simp [State.moveFrom, State.puller, h4, Data, Normal, State.appending, h5]

/-- traces of the specification conserve elements -/
theorem trace_conserves (tr : List (TEvent (Op α) (Out α))) : ∀ {g g' : Ghost (List α × Bool) (Op α) (Out α)},
    TSteps (actualSpec α) g tr g' → ∃ gone, g.q.1 ++ inserted tr = gone ++ g'.q.1 ∧ (popped tr).Sublist gone ∧
      ((∀ t op, drops op = true → g.st t ≠ .pending op) → (∀ t op, drops op = true → .call t op ∉ erase tr) → popped tr = gone) := by
  induction tr with
  | nil => intro g g' h; cases h; exact ⟨[], by simp [inserted], by simp [popped], fun _ _ => rfl⟩
  | cons e tr ih =>
    intro g g' ⟨g1, h1, h2⟩
    cases h1 with
    | @call q st t op hid =>
      obtain ⟨gone, h3, h4, h5⟩ := ih h2
      refine ⟨gone, h3, h4, fun h6 h7 => h5 ?_ (fun t' o' ho h => h7 t' o' ho (by simp [erase, h]))⟩
      intro u o' ho hu
      by_cases h : u = t
      · subst h; simp only [upd_same] at hu; cases hu; exact h7 u _ ho (by simp [erase])
      · simp only [upd_ne _ _ h] at hu; exact h6 u o' ho hu
    | @ret q st t o hid =>
      obtain ⟨gone, h3, h4, h5⟩ := ih h2
      refine ⟨gone, h3, h4, fun h6 h7 => h5 ?_ (fun t' o' ho h => h7 t' o' ho (by simp [erase, h]))⟩
      intro u o' ho hu
      by_cases h : u = t
      · subst h; simp only [upd_same] at hu; cases hu
      · simp only [upd_ne _ _ h] at hu; exact h6 u o' ho hu
    | @lin q st t op q' o hid hs =>
      obtain ⟨gone, h3, h4, h5⟩ := ih h2
      have h5' : (∀ t op, drops op = true → st t ≠ .pending op) → (∀ u op', drops op' = true → .call u op' ∉ erase (.lin t op o :: tr)) → popped tr = gone := by
        intro h6 h7
        refine h5 ?_ (fun t' o' ho h => h7 t' o' ho (by simpa [erase] using h))
        intro u o' ho hu
        by_cases h : u = t
        · subst h; simp only [upd_same] at hu; cases hu
        · simp only [upd_ne _ _ h] at hu; exact h6 u o' ho hu
      simp only [actualSpec, Option.some.injEq] at hs
      obtain ⟨rfl, rfl⟩ := Prod.mk.inj hs.symm
      obtain ⟨q, z⟩ := q
      cases op with
      | ins i =>
        refine ⟨gone, ?_, by simpa [popped] using h4, by simpa [popped] using h5'⟩
        cases i <;> simpa [inserted, actual, Ins.vals] using h3
      | popX =>
        refine ⟨gone, ?_, by simpa [popped] using h4, by simpa [popped] using h5'⟩
        cases q <;> simpa [inserted, actual] using h3
      | pop =>
        cases q with
        | nil => exact ⟨gone, by simpa [inserted, actual] using h3, by simpa [popped, actual] using h4, by simpa [popped, actual] using h5'⟩
        | cons x q =>
          refine ⟨x :: gone, by simpa [inserted, actual] using h3, by simpa [popped, actual] using h4, ?_⟩
          intro h6 h7; simpa [popped, actual] using h5' h6 h7
      | clear =>
        refine ⟨q ++ gone, by simpa [inserted, actual] using h3,
          by simpa [popped] using h4.trans (List.sublist_append_right _ _), ?_⟩
        intro h6; exact absurd hid (h6 t _ rfl)
      | assign v =>
        refine ⟨q ++ gone, by simpa [inserted, actual] using h3,
          by simpa [popped] using h4.trans (List.sublist_append_right _ _), ?_⟩
        intro h6; exact absurd hid (h6 t _ rfl)
      | _ => exact ⟨gone, by simpa [inserted, actual] using h3, by simpa [popped] using h4, by simpa [popped] using h5'⟩

end Verif.SimpleQueue
