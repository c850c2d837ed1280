import Verif.Blocking.Rel

/-
The blocking queues: every step preserves the relation.
-/
namespace Verif.Blocking
open Verif.Conc

variable {α : Type} {s s' : State α} {t c : Nat} {l : Loc α} {w b : Bool} {q : List α × List α}
  {st : Nat → Status (Op α) (Out α)}

/-- a step that does not change the containers and does not let the call take effect -/
theorem R.still (r : R w b s ⟨q, st⟩) (hl : s.loc t = l) (h : s.stepAt b t c l = some (s', none)) (l' : Loc α)
    (hl' : s'.loc t = l') (O O' : Option (Loc α)) (hO : s.puller = O) (hO' : after s l l' = O')
    (hf : Facts s.prio s.pull s.push O → Facts s.prio s.pull s.push O')
    (hst : Blocking.status w s.pull.isEmpty l' = Blocking.status w s.pull.isEmpty l := by rfl)
    (hs : split s.prio s.pull s.push O' = split s.prio s.pull s.push O := by rfl)
    (e1 : s'.prio = s.prio := by rfl) (e2 : s'.pull = s.pull := by rfl) (e3 : s'.push = s.push := by rfl)
    (hcas : ∀ i, l' = .pCas i → s.push = [] := by intro i h; cases h)
    (hF : isF l = isF l' := by rfl) : Moves w b s ⟨q, st⟩ t s' none := by
  have hfs := r.facts
  rw [hO] at hfs
  refine r.next hl h l' hl' (by rw [e3]; exact hcas) ?_ ?_ (.inl ?_)
  · intro hb
    obtain ⟨h1, h2⟩ := r.noPrio hb
    exact ⟨by rw [e1]; exact h1, by rw [← hF, ← hl]; exact h2 t⟩
  · rw [hO', e1, e2, e3]; exact hf hfs
  · rw [hO', e1, e2, e3, hs, State.split, hO]
    exact ⟨hst, rfl, .inr rfl⟩

/-- a step with which the call takes effect -/
theorem R.lin (r : R w b s ⟨q, st⟩) (hl : s.loc t = l) (h : s.stepAt b t c l = some (s', none)) (l' : Loc α)
    (hl' : s'.loc t = l') (O O' : Option (Loc α)) (hO : s.puller = O) (hO' : after s l l' = O') (op : Op α) (o : Out α)
    (hst1 : Blocking.status w s.pull.isEmpty l = .pending op) (hst2 : Blocking.status w s'.pull.isEmpty l' = .done o)
    (hf : Facts s'.prio s'.pull s'.push O')
    (htwo : two (split s.prio s.pull s.push O).all op = some ((split s'.prio s'.pull s'.push O').all, o))
    (hg : (split s'.prio s'.pull s'.push O').2.2 = [] ∨
      Good op o (split s.prio s.pull s.push O) (split s'.prio s'.pull s'.push O') ∨ op = .size)
    (hprio : b = false → s.prio = [] → s'.prio = [] := by intro _ h; exact h)
    (hcas : ∀ i, l' ≠ .pCas i := by intro i h; cases h)
    (hF : isF l = isF l' := by rfl) : Moves w b s ⟨q, st⟩ t s' none := by
  refine r.next hl h l' hl' (fun i h => absurd h (hcas i)) ?_ (by rw [hO']; exact hf) (.inr ⟨op, o, hst1, hst2, ?_⟩)
  · intro hb
    obtain ⟨h1, h2⟩ := r.noPrio hb
    exact ⟨hprio hb h1, by rw [← hF, ← hl]; exact h2 t⟩
  · rw [hO', State.split, hO]
    exact ⟨htwo, hg⟩

theorem split_append {prio pull push : List α} {v : α} {O : Option (Loc α)} (h : ∀ l, O = some l → holdsPush l = false) :
    split prio pull (push ++ [v]) O = ((split prio pull push O).1, (split prio pull push O).2.1, (split prio pull push O).2.2 ++ [v]) := by
  cases O with
  | none => rfl
  | some l =>
    have h := h l rfl
    cases l with
    | oCheck c k r => cases c <;> rfl
    | cPush => cases h
    | cPrio => cases h
    | _ => rfl

theorem Facts.append {prio pull push : List α} {v : α} {O : Option (Loc α)} (h : ∀ l, O = some l → holdsPush l = false)
    (f : Facts prio pull push O) : Facts prio pull (push ++ [v]) O := by
  cases O with
  | none => trivial
  | some l =>
    have h := h l rfl
    cases l with
    | oCheck c k r => cases c <;> first | exact f | cases h
    | oUnPull k r => cases r <;> exact f
    | _ => first | exact f | cases h

/-- inserting at the end of the producers' part -/
theorem two_append (a : Parts α) (i : Ins α) (hi : i.throws = false) :
    two a.all (.ins i) = some (Parts.all (a.1, a.2.1, a.2.2 ++ [i.val]), .unit) ∧
    Good (.ins i) .unit a (a.1, a.2.1, a.2.2 ++ [i.val]) := by
  cases i with
  | thrown v => cases hi
  | _ => exact ⟨by simp [two, Parts.all], fun y => by simp [two]⟩

/-- inserting into the priority channel -/
theorem two_prio (i : Ins α) (hi : i.throws = false) (p q : List α) :
    two (p, q) (.prio i) = some ((p ++ [i.val], q), .unit) := by
  cases i with
  | thrown v => cases hi
  | _ => rfl

/-- a producer without m_pullLock appends to pushElements -/
theorem R.append (r : R w b s ⟨q, st⟩) (hl : s.loc t = l) (i : Ins α) (hi : i.throws = false) (l' : Loc α)
    (h : s.stepAt b t c l = some ({ s with push := s.push ++ [i.val] }.goto t l', none))
    (hst1 : ∀ e, Blocking.status w e l = .pending (.ins i)) (hst2 : ∀ e, Blocking.status w e l' = .done .unit)
    (h1 : holdsPull l = false) (h1' : holdsPull l' = false) (h2 : holdsPush l = true) (hcas : ∀ i, l' ≠ .pCas i)
    (hF : isF l = isF l') : Moves w b s ⟨q, st⟩ t ({ s with push := s.push ++ [i.val] }.goto t l') none := by
  have hpo := (r.locks.push t).1 (by rw [hl]; exact h2)
  have hno : s.pullOwner ≠ some t := by rw [Ne, ← r.locks.pull t, hl, h1]; simp
  have ho : ∀ lo, s.puller = some lo → holdsPush lo = false := fun lo ho => r.locks.other (.inr ⟨hpo, hno⟩) ho
  have e := split_append (prio := s.prio) (pull := s.pull) (push := s.push) (v := i.val) ho
  have tw := two_append (split s.prio s.pull s.push s.puller) i hi
  refine r.lin hl h l' (upd_same _ _ _) s.puller s.puller rfl (by simp [after, h1, h1']) (.ins i) .unit (hst1 _) (hst2 _)
    (r.facts.append ho) ?_ (.inr (.inl ?_)) (hcas := hcas) (hF := hF)
  · simp only [State.goto, e]; exact tw.1
  · simp only [State.goto, e]; exact tw.2

/-- inserting throws: the call takes effect without changing anything -/
theorem R.thrown (r : R w b s ⟨q, st⟩) (hl : s.loc t = l) (h : s.stepAt b t c l = some (s', none)) (l' : Loc α)
    (hl' : s'.loc t = l') (O O' : Option (Loc α)) (hO : s.puller = O) (hO' : after s l l' = O') (op : Op α)
    (htwo : ∀ a, two a op = some (a, .threw))
    (hf : Facts s.prio s.pull s.push O → Facts s.prio s.pull s.push O')
    (hst1 : Blocking.status w s.pull.isEmpty l = .pending op := by rfl)
    (hst2 : Blocking.status w s'.pull.isEmpty l' = .done .threw := by rfl)
    (hs : split s.prio s.pull s.push O' = split s.prio s.pull s.push O := by rfl)
    (e1 : s'.prio = s.prio := by rfl) (e2 : s'.pull = s.pull := by rfl) (e3 : s'.push = s.push := by rfl)
    (hcas : ∀ i, l' ≠ .pCas i := by intro i h; cases h)
    (hF : isF l' = false := by rfl) : Moves w b s ⟨q, st⟩ t s' none := by
  have hfs := r.facts
  rw [hO] at hfs
  refine r.next hl h l' hl' (fun i h => absurd h (hcas i)) ?_ ?_ (.inr ⟨op, .threw, hst1, hst2, ?_⟩)
  · intro hb; exact ⟨by rw [e1]; exact (r.noPrio hb).1, hF⟩
  · rw [hO', e1, e2, e3]; exact hf hfs
  · rw [hO', e1, e2, e3, hs, State.split, hO]
    exact ⟨htwo _, .inr (.inl fun y => htwo _)⟩

/-- a pop or try_peek that throws, or a try_peek, takes effect without changing anything -/
theorem R.quiet (r : R w b s ⟨q, st⟩) (hl : s.loc t = l) (h : s.stepAt b t c l = some (s', none)) (l' : Loc α)
    (hl' : s'.loc t = l') (hh : holdsPull l = true) (hh' : holdsPull l' = true) (op : Op α) (o : Out α)
    (htwo : ∀ y, two (s.prio, s.pull.reverse ++ y) op = some ((s.prio, s.pull.reverse ++ y), o))
    (hf : Facts s'.prio s'.pull s'.push (some l') := by trivial)
    (hst1 : Blocking.status w s.pull.isEmpty l = .pending op := by rfl)
    (hst2 : Blocking.status w s'.pull.isEmpty l' = .done o := by rfl)
    (hs : split s.prio s.pull s.push (some l) = (s.prio, s.pull.reverse, s.push) := by rfl)
    (hs' : split s.prio s.pull s.push (some l') = (s.prio, s.pull.reverse, s.push) := by rfl)
    (e1 : s'.prio = s.prio := by rfl) (e2 : s'.pull = s.pull := by rfl) (e3 : s'.push = s.push := by rfl)
    (hcas : ∀ i, l' ≠ .pCas i := by intro i h; cases h)
    (hF : isF l' = false := by rfl) : Moves w b s ⟨q, st⟩ t s' none := by
  have hO : s.puller = some l := r.locks.puller_eq hl hh
  have hO' : after s l l' = some l' := by simp [after, hh']
  refine r.next hl h l' hl' (fun i h => absurd h (hcas i)) ?_ (by rw [hO']; exact hf) (.inr ⟨op, o, hst1, hst2, ?_⟩)
  · intro hb; exact ⟨by rw [e1]; exact (r.noPrio hb).1, hF⟩
  · rw [hO', e1, e2, e3, hs', State.split, hO, hs]
    exact ⟨htwo _, .inr (.inl fun y => htwo _)⟩

/-- the first element, with any elements after it -/
theorem next_front {p : List α} {x : α} {xs : List α} (h : p = x :: xs) (z : List α) : next? (p, z) = some (x, (xs, z)) := by
  subst h; rfl

theorem next_back {p pull : List α} {x : α} (h1 : p = []) (h2 : pull.getLast? = some x) (y : List α) :
    next? (p, pull.reverse ++ y) = some (x, ([], pull.dropLast.reverse ++ y)) := by
  subst h1
  obtain ⟨rest, rfl⟩ := List.getLast?_eq_some_iff.1 h2
  simp [next?]

theorem onNone_cases (k : Kind) : ((k.onNone : Status (Op α) (Out α)) = .pending k.op) ∨
    ∃ o, (k.onNone : Status (Op α) (Out α)) = .done o ∧ two (([], []) : List α × List α) k.op = some (([], []), o) := by
  rcases k with f | f | ⟨f, b⟩ | f <;> try cases b
  all_goals cases f <;> first | exact .inl rfl | exact .inr ⟨_, rfl, rfl⟩

theorem two_pop {a a' : List α × List α} {x : α} (h : next? a = some (x, a')) (k : Kind) (hk : k.fate ≠ .out) :
    two a k.op = some (a', k.result x) := by
  rcases k with f | f | ⟨f, b⟩ | f <;> cases f <;>
    first | exact absurd rfl hk | simp [Kind.op, two, h, Kind.result, Kind.fate]

theorem two_out {a a' : List α × List α} {x : α} (h : next? a = some (x, a')) (k : Kind) (hk : k.fate = .out) :
    two a k.op = some (a, .threw) := by
  rcases k with f | f | ⟨f, b⟩ | f <;> cases f <;> first | (cases hk; done) | simp [Kind.op, two, h]

theorem two_peek {a a' : List α × List α} {x : α} (h : next? a = some (x, a')) (d : Bool) :
    two a (peekOp d) = some (a, if d then .threw else .peek (some x)) := by
  cases d <;> simp [peekOp, two, h]

theorem status_afterTry (w e : Bool) (k : Kind) (r : Option α) :
    status w e (State.afterTry k r) = status w e (.oUnPull k r) := by
  cases r with
  | some x => simp only [State.afterTry, status, Kind.result]; cases k.fate <;> rfl
  | none =>
    rcases k with f | f | ⟨f, b⟩ | f <;> try cases b
    all_goals cases f <;> rfl

theorem isF_afterTry (k : Kind) (r : Option α) : isF (State.afterTry k r) = false := by
  cases r with
  | some x => rfl
  | none =>
    rcases k with f | f | ⟨f, b⟩ | f <;> try cases b
    all_goals rfl

theorem cas_afterTry (k : Kind) (r : Option α) (i : Ins α) : State.afterTry k r ≠ .pCas i := by
  intro h
  cases r with
  | some x => cases h
  | none =>
    rcases k with f | f | ⟨f, b⟩ | f <;> try cases b
    all_goals cases h

theorem status_result (w e : Bool) (k : Kind) (x : α) : status w e (.ret (k.result x)) = .done (k.result x) := by
  simp only [status, Kind.result]; cases k.fate <;> rfl

/-- Where a step may differ from the specification: Q130 P129 if producers have elements (the call takes effect in the
past), and the observers size, empty and try_peek. -/
def Side (w : Bool) (s : State α) : Loc α → Prop
  | .pPull _ => s.push = []
  | .kTest _ => w = false → s.pull = [] → s.push = []
  | .sPush _ => s.prio = []
  | .eRead => (s.flag = true → s.split.all = ([], [])) ∧ (w = false → s.split.all = ([], []) → s.flag = true)
  | .ret o => w = true → o ≠ .bool false
  | .kNone _ => w = false
  | _ => True

/-- every step of a call -/
theorem R.move {o : Option (Out α)} {g : Ghost (List α × List α) (Op α) (Out α)} (r : R w b s g)
    (h : s.stepAt b t c (s.loc t) = some (s', o)) (side : Side w s (s.loc t)) : Moves w b s g t s' o := by
  obtain ⟨q, st⟩ := g
  generalize hl : s.loc t = l at h side
  have hown : holdsPull l = true → s.puller = some l := r.locks.puller_eq hl
  have hS := h
  have hfa := r.facts
  have lockU : ∀ l', (s.lockPush t l').map (·, (none : Option (Out α))) = some (s', o) →
      o = none ∧ s.pushOwner = none ∧ s' = { s with pushOwner := some t, loc := upd s.loc t l' } := by
    intro l' h'
    simp only [Option.map_eq_some_iff] at h'
    obtain ⟨s1, h', e⟩ := h'; cases e
    exact ⟨rfl, lockPush_some h'⟩
  have lockL : ∀ l', (s.lockPull t l').map (·, (none : Option (Out α))) = some (s', o) →
      o = none ∧ s.puller = none ∧ s' = { s with pullOwner := some t, loc := upd s.loc t l' } := by
    intro l' h'
    simp only [Option.map_eq_some_iff] at h'
    obtain ⟨s1, h', e⟩ := h'; cases e
    obtain ⟨h1, h2⟩ := lockPull_some h'
    exact ⟨rfl, puller_none h1, h2⟩
  cases l with
  | idle => cases h
  | crash => cases h
  | ret v => cases h; exact r.ret hl side
  | pLock i => obtain ⟨rfl, h1, rfl⟩ := lockU _ h; exact r.still hl hS (.pTest i) (upd_same _ _ _) _ _ rfl rfl id
  | pTest i =>
    cases hp : s.push with
    | nil =>
      cases h
      exact r.still hl hS (.pCas i) (by simp [State.goto, upd_same, hp]) _ _ rfl rfl id (hcas := fun _ _ => hp)
    | cons x xs => cases h; exact r.still hl hS (.pAppend0 i) (by simp [State.goto, upd_same, hp]) _ _ rfl rfl id
  | pCas i =>
    simp only [State.stepAt] at h
    split at h <;> cases h
    · exact r.still hl hS (.pUnlock i) (upd_same _ _ _) _ _ rfl rfl id
    · exact r.still hl hS (.pAppend i) (upd_same _ _ _) _ _ rfl rfl id
  | pUnlock i => cases h; exact r.still hl hS (.pLockPull i) (upd_same _ _ _) _ _ rfl rfl id
  | pLockPull i => obtain ⟨rfl, h1, rfl⟩ := lockL _ h; exact r.still hl hS (.pFlag i) (upd_same _ _ _) _ _ h1 rfl id
  | pFlag i => cases h; exact r.still hl hS (.pTestPull i) (upd_same _ _ _) _ _ (hown rfl) rfl id
  | pTestPull i =>
    cases hp : s.pull with
    | nil => cases h; exact r.still hl hS (.pPull i) (by simp [State.goto, upd_same, hp]) _ _ (hown rfl) rfl (fun _ => hp)
    | cons x xs =>
      cases h
      exact r.still hl hS (.pLock2 i) (by simp [State.goto, upd_same, hp]) _ _ (hown rfl) rfl (fun _ => by
        show s.pull ≠ []; rw [hp]; simp)
  | pPull i =>
    cases hi : i.throws with
    | true =>
      cases i <;> first | (cases hi; done) | skip
      cases h
      exact r.thrown hl hS (.xUnPull false) (upd_same _ _ _) _ _ (hown rfl) rfl _ (fun _ => rfl) (fun _ => trivial)
    | false =>
    simp only [State.stepAt, hi] at h
    cases h
    rw [hown rfl] at hfa
    have hf : s.pull = [] := hfa
    have hp : s.push = [] := side
    refine r.lin hl hS (.pNotify false) (upd_same _ _ _) _ (some (.pNotify false)) (hown rfl) rfl (.ins i) .unit rfl rfl ?_ ?_ (.inl hp)
    · simp [Facts, State.goto]
    have tw := two_append (s.prio, s.pull.reverse, s.push) i hi
    simpa [split, Parts.all, State.goto, hf, hp] using tw.1
  | pLock2 i => obtain ⟨rfl, h1, rfl⟩ := lockU _ h; exact r.still hl hS (.pPush2 i) (upd_same _ _ _) _ _ (hown rfl) rfl id
  | pPush2 i =>
    cases hi : i.throws with
    | true =>
      cases i <;> first | (cases hi; done) | skip
      cases h
      exact r.thrown hl hS (.xUnPull true) (upd_same _ _ _) _ _ (hown rfl) rfl _ (fun _ => rfl) (fun _ => trivial)
    | false =>
    simp only [State.stepAt, hi] at h
    cases h
    rw [hown rfl] at hfa
    have tw := two_append (s.prio, s.pull.reverse, s.push) i hi
    exact r.lin hl hS (.pNotify true) (upd_same _ _ _) _ (some (.pNotify true)) (hown rfl) rfl (.ins i) .unit rfl rfl hfa tw.1 (.inr (.inl tw.2))
  | pNotify d => cases h; exact r.still hl hS (.pUnPull d) (upd_same _ _ _) _ _ (hown rfl) rfl (fun _ => trivial)
  | pUnPull d =>
    cases h
    cases d
    · exact r.still hl hS (.ret .unit) (upd_same _ _ _) _ _ (hown rfl) rfl id
    · exact r.still hl hS .pUnPush (upd_same _ _ _) _ _ (hown rfl) rfl id
  | pAppend i =>
    cases hi : i.throws with
    | true =>
      cases i <;> first | (cases hi; done) | skip
      cases h
      exact r.thrown hl hS .xUnPush (upd_same _ _ _) _ _ rfl rfl _ (fun _ => rfl) id
    | false =>
    simp only [State.stepAt, hi] at h
    cases h; exact r.append hl i hi _ (by rw [hS]; rfl) (fun _ => rfl) (fun _ => rfl) rfl rfl rfl (by intro i h; cases h) rfl
  | pAppend0 i =>
    cases hi : i.throws with
    | true =>
      cases i <;> first | (cases hi; done) | skip
      cases h
      exact r.thrown hl hS .xUnPush (upd_same _ _ _) _ _ rfl rfl _ (fun _ => rfl) id
    | false =>
    simp only [State.stepAt, hi] at h
    cases h; exact r.append hl i hi _ (by rw [hS]; rfl) (fun _ => rfl) (fun _ => rfl) rfl rfl rfl (by intro i h; cases h) rfl
  | pCas2 =>
    simp only [State.stepAt] at h
    split at h <;> cases h
    · exact r.still hl hS .pNotify2 (upd_same _ _ _) _ _ rfl rfl id
    · exact r.still hl hS .pUnPush (upd_same _ _ _) _ _ rfl rfl id
  | pNotify2 => cases h; exact r.still hl hS .pUnPush (upd_same _ _ _) _ _ rfl rfl id
  | xUnPull d =>
    cases h
    cases d
    · exact r.still hl hS (.ret .threw) (upd_same _ _ _) _ _ (hown rfl) rfl id
    · exact r.still hl hS .xUnPush (upd_same _ _ _) _ _ (hown rfl) rfl id
  | xUnPush => cases h; exact r.still hl hS (.ret .threw) (upd_same _ _ _) _ _ rfl rfl id
  | pUnPush => cases h; exact r.still hl hS (.ret .unit) (upd_same _ _ _) _ _ rfl rfl id
  | fCas i =>
    simp only [State.stepAt] at h
    split at h <;> cases h
    · exact r.still hl hS (.fLock i) (upd_same _ _ _) _ _ rfl rfl id
    · exact r.still hl hS (.gLock i) (upd_same _ _ _) _ _ rfl rfl id
  | fLock i => obtain ⟨rfl, h1, rfl⟩ := lockL _ h; exact r.still hl hS (.fFlag i) (upd_same _ _ _) _ _ h1 rfl id
  | fFlag i => cases h; exact r.still hl hS (.fPush i) (upd_same _ _ _) _ _ (hown rfl) rfl id
  | fPush i =>
    cases hi : i.throws with
    | true =>
      cases i <;> first | (cases hi; done) | skip
      cases h
      exact r.thrown hl hS (.xUnPull false) (upd_same _ _ _) _ _ (hown rfl) rfl _ (fun _ => rfl) (fun _ => trivial)
    | false =>
    have tw := two_prio i hi
    simp only [State.stepAt, hi] at h
    cases h
    refine r.lin hl hS .fNotify (upd_same _ _ _) _ (some .fNotify) (hown rfl) rfl (.prio i) .unit rfl rfl (by simp [Facts, State.goto]) ?_ (.inr (.inl ?_)) ?_
    · simp [split, Parts.all, tw, State.goto]
    · intro y; simp [split, tw, State.goto]
    · intro hb; have := (r.noPrio hb).2 t; rw [hl] at this; cases this
  | fNotify => cases h; exact r.still hl hS .fUn (upd_same _ _ _) _ _ (hown rfl) rfl (fun _ => trivial)
  | gLock i => obtain ⟨rfl, h1, rfl⟩ := lockL _ h; exact r.still hl hS (.gPush i) (upd_same _ _ _) _ _ h1 rfl id
  | gPush i =>
    cases hi : i.throws with
    | true =>
      cases i <;> first | (cases hi; done) | skip
      cases h
      exact r.thrown hl hS (.xUnPull false) (upd_same _ _ _) _ _ (hown rfl) rfl _ (fun _ => rfl) (fun _ => trivial)
    | false =>
    simp only [State.stepAt, hi] at h
    cases h
    refine r.next hl hS (.gCas i) (upd_same _ _ _) (by intro i h; cases h) ?_ ⟨hi, _, rfl⟩ (.inl ⟨rfl, ?_, .inr ?_⟩)
    · intro hb; have := (r.noPrio hb).2 t; rw [hl] at this; cases this
    · simp [State.split, hown rfl, after, holdsPull, split, State.goto]
    · simp [State.split, hown rfl, after, holdsPull, split, State.goto]
  | gCas i =>
    rw [hown rfl] at hfa
    obtain ⟨hi, p, hp⟩ := hfa
    have tw := two_prio i hi
    simp only [State.stepAt] at h
    split at h <;> cases h
    · refine r.lin hl hS .fNotify (upd_same _ _ _) _ (some .fNotify) (hown rfl) rfl (.prio i) .unit rfl rfl (by simp [Facts, State.goto, hp]) ?_ (.inr (.inl ?_))
      · simp [split, Parts.all, tw, State.goto, hp]
      · intro y; simp [split, tw, State.goto, hp]
    · refine r.lin hl hS .fUn (upd_same _ _ _) _ (some .fUn) (hown rfl) rfl (.prio i) .unit rfl rfl trivial ?_ (.inr (.inl ?_))
      · simp [split, Parts.all, tw, State.goto, hp]
      · intro y; simp [split, tw, State.goto, hp]
  | fUn =>
    cases h
    refine r.next hl hS (.ret .unit) (upd_same _ _ _) (by intro i h; cases h) (fun hb => ⟨(r.noPrio hb).1, rfl⟩) trivial
      (.inl ⟨rfl, ?_, .inr ?_⟩) <;> simp only [State.split, hown rfl] <;> rfl
  | oLock k =>
    cases b with
    | true => obtain ⟨rfl, h1, rfl⟩ := lockL _ h; exact r.still hl hS (.oPrio k) (upd_same _ _ _) _ _ h1 rfl id
    | false =>
      obtain ⟨rfl, h1, rfl⟩ := lockL _ h
      exact r.still hl hS (.oCheck .test k none) (upd_same _ _ _) _ _ h1 rfl (fun _ => (r.noPrio rfl).1)
  | oPrio k =>
    cases hp : s.prio with
    | nil => cases h; exact r.still hl hS (.oCheck .test k none) (by simp [State.goto, upd_same, hp]) _ _ (hown rfl) rfl (fun _ => hp)
    | cons x xs =>
      cases h
      exact r.still hl hS (.oPFront k) (by simp [State.goto, upd_same, hp]) _ _ (hown rfl) rfl (fun _ => by
        show s.prio ≠ []; rw [hp]; simp)
  | oPFront k =>
    rw [hown rfl] at hfa
    cases hp : s.prio with
    | nil => exact absurd hp hfa
    | cons x xs =>
      cases h
      by_cases hk : k.fate = .out
      · exact r.quiet hl hS .yUn (by simp [State.goto, upd_same, hp, State.moveOut, hk]) rfl rfl k.op .threw
          (fun y => two_out (next_front hp _) k hk)
      · exact r.still hl hS (.oPPop k x) (by simp [State.goto, upd_same, hp, State.moveOut, hk]) _ _ (hown rfl) rfl (fun _ => by
          show _ ∧ s.prio.head? = _; rw [hp]; exact ⟨hk, rfl⟩)
  | oPPop k x =>
    rw [hown rfl] at hfa
    cases hp : s.prio with
    | nil => rw [hp] at hfa; cases hfa.2
    | cons y xs =>
      rw [hp] at hfa; obtain ⟨hk, hfa⟩ := hfa; cases hfa
      simp only [State.stepAt, hp] at h
      cases h
      have tw : ∀ z, two (x :: xs, z) k.op = some ((xs, z), k.result x) := fun z => two_pop (by rfl) k hk
      refine r.lin hl hS (.oUnPull k (some x)) (upd_same _ _ _) _ (some (.oUnPull k (some x))) (hown rfl) rfl k.op (k.result x) rfl rfl trivial ?_ (.inr (.inl ?_)) ?_
      · simp [split, Parts.all, State.goto, hp, tw]
      · intro y; simp [split, State.goto, hp, tw]
      · intro _ h0; rw [h0] at hp; cases hp
  | oCheck c k v =>
    rw [hown rfl] at hfa
    cases c with
    | test =>
      cases hp : s.pull with
      | nil =>
        cases h
        exact r.still hl hS (.oCheck .lock k v) (by simp [State.goto, upd_same, hp]) _ _ (hown rfl) rfl (fun f => ⟨f, hp⟩)
          (hst := by cases v <;> rfl)
      | cons x xs =>
        cases h
        cases v with
        | none =>
          exact r.still hl hS (.oTest k) (by simp [State.goto, upd_same, hp, State.afterCheck]) _ _ (hown rfl) rfl id
            (hst := by rw [hp]; rfl)
        | some v => exact r.still hl hS (.oUnPull k (some v)) (by simp [State.goto, upd_same, hp, State.afterCheck]) _ _ (hown rfl) rfl (fun _ => trivial)
    | lock =>
      obtain ⟨rfl, h1, rfl⟩ := lockU _ h
      exact r.still hl hS (.oCheck .testPush k v) (upd_same _ _ _) _ _ (hown rfl) rfl id (hst := by cases v <;> rfl)
    | testPush =>
      obtain ⟨f1, f2⟩ := hfa
      cases hp : s.push with
      | nil =>
        cases h
        cases v with
        | none =>
          rcases onNone_cases (α := α) k with hk | ⟨o, hk, tw⟩
          · exact r.still hl hS (.oCheck .setFlag k none) (by simp [State.goto, upd_same, hp]) _ _ (hown rfl) rfl
              (fun f => ⟨f.1, f.2, hp⟩) (hst := hk)
          · refine r.lin hl hS (.oCheck .setFlag k none) (by simp [State.goto, upd_same, hp]) _ (some (.oCheck .setFlag k none)) (hown rfl) rfl k.op o rfl hk
              ⟨f1, f2, hp⟩ ?_ (.inl hp)
            simp [split, Parts.all, State.goto, f1, f2, hp, tw]
        | some v =>
          exact r.still hl hS (.oCheck .setFlag k (some v)) (by simp [State.goto, upd_same, hp]) _ _ (hown rfl) rfl
            (fun f => ⟨f.1, f.2, hp⟩)
      | cons x xs =>
        cases h
        exact r.still hl hS (.oCheck .swap k v) (by simp [State.goto, upd_same, hp]) _ _ (hown rfl) rfl
            (fun f => ⟨f.1, f.2, by rw [hp]; simp⟩) (hst := by cases v <;> rfl)
    | swap =>
      obtain ⟨f1, f2, f3⟩ := hfa
      cases h
      refine r.next hl hS (.oCheck .unlockSwap k v) (upd_same _ _ _) (by intro i h; cases h) (fun hb => ⟨(r.noPrio hb).1, rfl⟩) ⟨f1, f2, f3⟩
        (.inl ⟨by cases v <;> rfl, ?_, .inl f2⟩)
      simp [State.split, hown rfl, holdsPull, after, split, Parts.all, State.goto, f2]
    | unlockSwap =>
      cases h
      exact r.still hl hS (.oCheck .reverse k v) (upd_same _ _ _) _ _ (hown rfl) rfl (fun f => ⟨f.1, f.2.2⟩) (hst := by cases v <;> rfl)
    | reverse =>
      obtain ⟨f1, f2⟩ := hfa
      cases h
      have hr : s.pull.reverse.isEmpty = false := by cases hp : s.pull with
        | nil => exact absurd hp f2
        | cons x xs => simp
      cases v with
      | none =>
        refine r.next hl hS (.oTest k) (upd_same _ _ _) (by intro i h; cases h) (fun hb => ⟨(r.noPrio hb).1, rfl⟩) f1
          (.inl ⟨?_, ?_, .inr ?_⟩)
        · simp only [State.goto, hr]; rfl
        · simp only [State.split, hown rfl, split, after, holdsPull, if_true, State.goto, List.reverse_reverse]
        · simp only [State.split, hown rfl, split, after, holdsPull, if_true, State.goto, List.reverse_reverse]
      | some v =>
        refine r.next hl hS (.oUnPull k (some v)) (upd_same _ _ _) (by intro i h; cases h) (fun hb => ⟨(r.noPrio hb).1, rfl⟩) trivial
          (.inl ⟨rfl, ?_, .inr ?_⟩)
        · simp only [State.split, hown rfl, split, after, holdsPull, if_true, State.goto, List.reverse_reverse]
        · simp only [State.split, hown rfl, split, after, holdsPull, if_true, State.goto, List.reverse_reverse]
    | setFlag =>
      cases h
      exact r.still hl hS (.oCheck .unlockFlag k v) (upd_same _ _ _) _ _ (hown rfl) rfl id (hst := by cases v <;> rfl)
    | unlockFlag =>
      obtain ⟨f1, f2, f3⟩ := hfa
      cases h
      cases v with
      | none => exact r.still hl hS (.oTest k) (upd_same _ _ _) _ _ (hown rfl) rfl (fun _ => f1) (hst := by rw [f2]; rfl)
      | some v => exact r.still hl hS (.oUnPull k (some v)) (upd_same _ _ _) _ _ (hown rfl) rfl (fun _ => trivial)
  | oTest k =>
    cases hp : s.pull with
    | nil =>
      cases h
      exact r.still hl hS (.oUnPull k none) (by simp [State.goto, upd_same, hp]) _ _ (hown rfl) rfl (fun f => ⟨f, hp⟩)
        (hst := by rw [hp]; rfl)
    | cons x xs =>
      cases h
      exact r.still hl hS (.oBack k) (by simp [State.goto, upd_same, hp]) _ _ (hown rfl) rfl (fun f => ⟨f, by rw [hp]; simp⟩)
        (hst := by rw [hp]; rfl)
  | oBack k =>
    rw [hown rfl] at hfa
    obtain ⟨f1, f2⟩ := hfa
    have hx := List.getLast?_eq_some_getLast f2
    cases h
    by_cases hk : k.fate = .out
    · exact r.quiet hl hS .yUn (by simp [State.goto, upd_same, hx, State.moveOut, hk]) rfl rfl k.op .threw
        (fun y => two_out (next_back f1 hx y) k hk)
    · exact r.still hl hS (.oPop k (s.pull.getLast f2)) (by simp [State.goto, upd_same, hx, State.moveOut, hk]) _ _ (hown rfl) rfl
        (fun f => ⟨hk, f1, hx⟩)
  | oPop k x =>
    rw [hown rfl] at hfa
    obtain ⟨hk, f1, f2⟩ := hfa
    obtain ⟨rest, hp⟩ := List.getLast?_eq_some_iff.1 f2
    have he : s.pull.isEmpty = false := by rw [hp]; simp
    simp only [State.stepAt, he] at h
    cases h
    have tw : ∀ z, two ([], x :: z) k.op = some (([], z), k.result x) := fun z => two_pop (by rfl) k hk
    refine r.lin hl hS (.oCheck .test k (some x)) (upd_same _ _ _) _ (some (.oCheck .test k (some x))) (hown rfl) rfl k.op (k.result x) rfl rfl f1 ?_ (.inr (.inl ?_))
    · simp [split, Parts.all, State.goto, hp, f1, tw]
    · intro y; simp [split, State.goto, hp, f1, tw]
  | oUnPull k v =>
    cases h
    exact r.still hl hS (State.afterTry k v) (upd_same _ _ _) _ none (hown rfl) (by unfold after; rw [(afterTry_free k v).1]; rfl)
      (fun _ => trivial) (hst := status_afterTry _ _ k v) (hcas := fun i h => absurd h (cas_afterTry k v i))
      (hF := by rw [isF_afterTry]; rfl)
  | yUn => cases h; exact r.still hl hS (.ret .threw) (upd_same _ _ _) _ _ (hown rfl) rfl (fun _ => trivial)
  | wCall f =>
    cases h
    cases f with
    | fn => exact r.still hl hS (.ret .threw) (upd_same _ _ _) _ _ rfl rfl id
    | _ => exact r.still hl hS (.wLock (.orCall _)) (upd_same _ _ _) _ _ rfl rfl id
  | wLock k =>
    cases b with
    | true => obtain ⟨rfl, h1, rfl⟩ := lockL _ h; exact r.still hl hS (.wPrio k none) (upd_same _ _ _) _ _ h1 rfl id
    | false =>
      obtain ⟨rfl, h1, rfl⟩ := lockL _ h
      exact r.still hl hS (.wTest k none) (upd_same _ _ _) _ _ h1 rfl (fun _ => (r.noPrio rfl).1)
  | wPrio k w =>
    cases hp : s.prio with
    | nil => cases h; exact r.still hl hS (.wTest k w) (by simp [State.goto, upd_same, hp]) _ _ (hown rfl) rfl (fun _ => hp)
    | cons x xs =>
      cases h
      exact r.still hl hS (.wPFront k) (by simp [State.goto, upd_same, hp]) _ _ (hown rfl) rfl (fun _ => by
        show s.prio ≠ []; rw [hp]; simp)
  | wPFront k =>
    rw [hown rfl] at hfa
    cases hp : s.prio with
    | nil => exact absurd hp hfa
    | cons x xs =>
      cases h
      by_cases hk : k.fate = .out
      · exact r.quiet hl hS .yUn (by simp [State.goto, upd_same, hp, State.moveOut, hk]) rfl rfl k.op .threw
          (fun y => two_out (next_front hp _) k hk)
      · exact r.still hl hS (.wPPop k x) (by simp [State.goto, upd_same, hp, State.moveOut, hk]) _ _ (hown rfl) rfl (fun _ => by
          show _ ∧ s.prio.head? = _; rw [hp]; exact ⟨hk, rfl⟩)
  | wPPop k x =>
    rw [hown rfl] at hfa
    cases hp : s.prio with
    | nil => rw [hp] at hfa; cases hfa.2
    | cons y xs =>
      rw [hp] at hfa; obtain ⟨hk, hfa⟩ := hfa; cases hfa
      simp only [State.stepAt, hp] at h
      cases h
      have tw : ∀ z, two (x :: xs, z) k.op = some ((xs, z), k.result x) := fun z => two_pop (by rfl) k hk
      refine r.lin hl hS (.wUn k x) (upd_same _ _ _) _ (some (.wUn k x)) (hown rfl) rfl k.op (k.result x) rfl rfl trivial ?_ (.inr (.inl ?_)) ?_
      · simp [split, Parts.all, State.goto, hp, tw]
      · intro y; simp [split, State.goto, hp, tw]
      · intro _ h0; rw [h0] at hp; cases hp
  | wTest k w =>
    cases hp : s.pull with
    | nil =>
      cases h
      cases w with
      | none => exact r.still hl hS (.wEnter k) (by simp [State.goto, upd_same, hp]) _ _ (hown rfl) rfl (fun f => ⟨f, hp⟩)
      | some d => exact r.still hl hS (.wUnlock k d) (by simp [State.goto, upd_same, hp]) _ _ (hown rfl) rfl (fun f => ⟨f, hp⟩)
    | cons x xs =>
      cases h
      exact r.still hl hS (.wBack k) (by simp [State.goto, upd_same, hp]) _ _ (hown rfl) rfl (fun f => ⟨f, by rw [hp]; simp⟩)
  | wBack k =>
    rw [hown rfl] at hfa
    obtain ⟨f1, f2⟩ := hfa
    have hx := List.getLast?_eq_some_getLast f2
    cases h
    by_cases hk : k.fate = .out
    · exact r.quiet hl hS .yUn (by simp [State.goto, upd_same, hx, State.moveOut, hk]) rfl rfl k.op .threw
        (fun y => two_out (next_back f1 hx y) k hk)
    · exact r.still hl hS (.wPop k (s.pull.getLast f2)) (by simp [State.goto, upd_same, hx, State.moveOut, hk]) _ _ (hown rfl) rfl
        (fun f => ⟨hk, f1, hx⟩)
  | wPop k x =>
    rw [hown rfl] at hfa
    obtain ⟨hk, f1, f2⟩ := hfa
    obtain ⟨rest, hp⟩ := List.getLast?_eq_some_iff.1 f2
    have he : s.pull.isEmpty = false := by rw [hp]; simp
    simp only [State.stepAt, he] at h
    cases h
    have tw : ∀ z, two ([], x :: z) k.op = some (([], z), k.result x) := fun z => two_pop (by rfl) k hk
    refine r.lin hl hS (.wUn k x) (upd_same _ _ _) _ (some (.wUn k x)) (hown rfl) rfl k.op (k.result x) rfl rfl trivial ?_ (.inr (.inl ?_))
    · simp [split, Parts.all, State.goto, hp, f1, tw]
    · intro y; simp [split, State.goto, hp, f1, tw]
  | wUn k x =>
    cases h
    exact r.still hl hS (.ret (k.result x)) (upd_same _ _ _) _ _ (hown rfl) rfl (fun _ => trivial) (hst := status_result _ _ k x)
  | wEnter k => cases h; exact r.still hl hS (.wSleep k) (upd_same _ _ _) _ _ (hown rfl) rfl (fun _ => trivial)
  | wSleep k => cases h; exact r.still hl hS (.wRelock k _) (upd_same _ _ _) _ _ rfl rfl id
  | wRelock k d =>
    cases b with
    | true => obtain ⟨rfl, h1, rfl⟩ := lockL _ h; exact r.still hl hS (.wPrio k (some d)) (upd_same _ _ _) _ _ h1 rfl id
    | false =>
      obtain ⟨rfl, h1, rfl⟩ := lockL _ h
      exact r.still hl hS (.wTest k (some d)) (upd_same _ _ _) _ _ h1 rfl (fun _ => (r.noPrio rfl).1)
  | wUnlock k d =>
    cases h
    exact r.still hl hS (.oLock (k.again d)) (upd_same _ _ _) _ _ (hown rfl) rfl (fun _ => trivial) (hst := by rcases k with f | f | ⟨f, b⟩ | f <;> cases f <;> rfl)
  | kLock d =>
    cases b with
    | true => obtain ⟨rfl, h1, rfl⟩ := lockL _ h; exact r.still hl hS (.kPrio d) (upd_same _ _ _) _ _ h1 rfl id
    | false =>
      obtain ⟨rfl, h1, rfl⟩ := lockL _ h
      exact r.still hl hS (.kTest d) (upd_same _ _ _) _ _ h1 rfl (fun _ => (r.noPrio rfl).1)
  | kPrio d =>
    cases hp : s.prio with
    | nil => cases h; exact r.still hl hS (.kTest d) (by simp [State.goto, upd_same, hp]) _ _ (hown rfl) rfl (fun _ => hp)
    | cons x xs =>
      cases h
      exact r.still hl hS (.kPFront d) (by simp [State.goto, upd_same, hp]) _ _ (hown rfl) rfl (fun _ => by
        show s.prio ≠ []; rw [hp]; simp)
  | kPFront d =>
    rw [hown rfl] at hfa
    cases hp : s.prio with
    | nil => exact absurd hp hfa
    | cons x xs =>
      cases h
      cases d with
      | true =>
        exact r.quiet hl hS .yUn (by simp [State.goto, upd_same, hp]) rfl rfl .peekX .threw
          (fun y => two_peek (next_front hp _) true)
      | false =>
        exact r.quiet hl hS (.kUn x) (by simp [State.goto, upd_same, hp]) rfl rfl .peek (.peek (some x))
          (fun y => two_peek (next_front hp _) false)
  | kTest d =>
    rw [hown rfl] at hfa
    have hp0 : s.prio = [] := hfa
    cases hp : s.pull with
    | nil =>
      cases h
      cases w with
      | true => exact r.still hl hS (.kUnNone d) (by simp [State.goto, upd_same, hp]) _ _ (hown rfl) rfl (fun _ => trivial)
      | false =>
        have hq : s.push = [] := side rfl hp
        refine r.lin hl hS (.kUnNone d) (by simp [State.goto, upd_same, hp]) _ (some (.kUnNone d)) (hown rfl) rfl (peekOp d) (.peek none) rfl rfl trivial ?_ (.inl hq)
        cases d <;> simp [split, Parts.all, State.goto, hp, hp0, hq, two, next?, peekOp]
    | cons x xs =>
      cases h
      exact r.still hl hS (.kBack d) (by simp [State.goto, upd_same, hp]) _ _ (hown rfl) rfl (fun f => ⟨f, by rw [hp]; simp⟩)
  | kBack d =>
    rw [hown rfl] at hfa
    obtain ⟨f1, f2⟩ := hfa
    have hx := List.getLast?_eq_some_getLast f2
    cases h
    cases d with
    | true =>
      exact r.quiet hl hS .yUn (by simp [State.goto, upd_same, hx]) rfl rfl .peekX .threw
        (fun y => two_peek (next_back f1 hx y) true)
    | false =>
      exact r.quiet hl hS (.kUn (s.pull.getLast f2)) (by simp [State.goto, upd_same, hx]) rfl rfl .peek (.peek (some (s.pull.getLast f2)))
        (fun y => two_peek (next_back f1 hx y) false)
  | kUn v => cases h; exact r.still hl hS (.ret (.peek (some v))) (upd_same _ _ _) _ _ (hown rfl) rfl (fun _ => trivial)
  | kUnNone d => cases h; exact r.still hl hS (.kNone d) (upd_same _ _ _) _ _ (hown rfl) rfl (fun _ => trivial)
  | kNone d => cases h; exact r.retNone hl side
  | sLock1 => obtain ⟨rfl, h1, rfl⟩ := lockL _ h; exact r.still hl hS .sLock2 (upd_same _ _ _) _ _ h1 rfl id
  | sLock2 => obtain ⟨rfl, h1, rfl⟩ := lockU _ h; exact r.still hl hS .sPull (upd_same _ _ _) _ _ (hown rfl) rfl id
  | sPull => cases h; exact r.still hl hS (.sPush s.pull.length) (upd_same _ _ _) _ _ (hown rfl) rfl (fun _ => rfl)
  | sPush n =>
    rw [hown rfl] at hfa
    have hfa : n = s.pull.length := hfa
    have hp : s.prio = [] := side
    cases h
    have k := r.next hl hS (.sUn1 (n + s.push.length)) (upd_same _ _ _) (by intro i h; cases h) (fun hb => ⟨(r.noPrio hb).1, rfl⟩) trivial
      (.inr ⟨.size, .num (n + s.push.length), rfl, rfl, ?_, ?_⟩)
    · exact k
    · simp [State.split, hown rfl, holdsPull, after, split, Parts.all, State.goto, hp, hfa, two]
    · exact .inr (.inr rfl)
  | sUn1 n => cases h; exact r.still hl hS (.sUn2 n) (upd_same _ _ _) _ _ (hown rfl) rfl (fun _ => trivial)
  | sUn2 n => cases h; exact r.still hl hS (.ret (.num n)) (upd_same _ _ _) _ _ (hown rfl) rfl (fun _ => trivial)
  | cLock1 => obtain ⟨rfl, h1, rfl⟩ := lockL _ h; exact r.still hl hS .cLock2 (upd_same _ _ _) _ _ h1 rfl id
  | cLock2 => obtain ⟨rfl, h1, rfl⟩ := lockU _ h; exact r.still hl hS .cPull (upd_same _ _ _) _ _ (hown rfl) rfl id
  | cPull => cases h; exact r.lin hl hS .cPush (upd_same _ _ _) _ (some .cPush) (hown rfl) rfl .clear .unit rfl rfl rfl rfl (.inl rfl)
  | cPush =>
    rw [hown rfl] at hfa
    have hfa : s.pull = [] := hfa
    cases b with
    | true =>
      cases h
      refine r.next hl hS .cPrio (upd_same _ _ _) (by intro i h; cases h) (fun hb => by cases hb) ⟨hfa, rfl⟩
        (.inl ⟨rfl, ?_, .inl rfl⟩)
      simp only [State.split, hown rfl]; rfl
    | false =>
      cases h
      have hp := (r.noPrio rfl).1
      refine r.next hl hS .cFlag (upd_same _ _ _) (by intro i h; cases h) (fun hb => ⟨hp, rfl⟩) ⟨hp, hfa, rfl⟩
        (.inl ⟨rfl, ?_, .inl rfl⟩)
      simp [State.split, hown rfl, holdsPull, after, split, Parts.all, State.goto, hp, hfa]
  | cPrio =>
    rw [hown rfl] at hfa
    obtain ⟨f1, f2⟩ := hfa
    cases hp : s.prio with
    | nil =>
      simp only [State.stepAt, hp] at h
      cases h
      refine r.next hl hS .cFlag (upd_same _ _ _) (by intro i h; cases h) (fun hb => ⟨hp, rfl⟩) ⟨hp, f1, f2⟩
        (.inl ⟨rfl, ?_, .inl f2⟩)
      simp [State.split, hown rfl, holdsPull, after, split, Parts.all, State.goto, hp, f1, f2]
    | cons x xs =>
      simp only [State.stepAt, hp] at h
      cases h
      refine r.next hl hS .cPrio (upd_same _ _ _) (by intro i h; cases h) ?_ ⟨f1, f2⟩
        (.inl ⟨rfl, ?_, .inl rfl⟩)
      · intro hb; rw [(r.noPrio hb).1] at hp; cases hp
      · simp only [State.split, hown rfl]; rfl
  | cFlag => cases h; exact r.still hl hS .cUn1 (upd_same _ _ _) _ _ (hown rfl) rfl (fun _ => trivial)
  | cUn1 => cases h; exact r.still hl hS .cUn2 (upd_same _ _ _) _ _ (hown rfl) rfl (fun _ => trivial)
  | cUn2 => cases h; exact r.still hl hS (.ret .unit) (upd_same _ _ _) _ _ (hown rfl) rfl (fun _ => trivial)
  | rLock1 => obtain ⟨rfl, h1, rfl⟩ := lockL _ h; exact r.still hl hS .rLock2 (upd_same _ _ _) _ _ h1 rfl id
  | rLock2 => obtain ⟨rfl, h1, rfl⟩ := lockU _ h; exact r.still hl hS .rPull (upd_same _ _ _) _ _ (hown rfl) rfl id
  | rPull => cases h; exact r.still hl hS .rPush (upd_same _ _ _) _ _ (hown rfl) rfl (fun _ => trivial)
  | rPush =>
    cases h
    exact r.lin hl hS .rUn1 (upd_same _ _ _) _ (some .rUn1) (hown rfl) rfl .reserve .unit rfl rfl trivial rfl (.inr (.inl fun y => rfl))
  | rUn1 => cases h; exact r.still hl hS .rUn2 (upd_same _ _ _) _ _ (hown rfl) rfl (fun _ => trivial)
  | rUn2 => cases h; exact r.still hl hS (.ret .unit) (upd_same _ _ _) _ _ (hown rfl) rfl (fun _ => trivial)
  | eRead =>
    cases h
    obtain ⟨s1, s2⟩ := side
    cases hfl : s.flag with
    | true =>
      rw [hfl] at hS
      have h0 := s1 hfl
      refine r.lin hl hS (.ret (.bool true)) (by simp [State.goto, upd_same, hfl]) _ s.puller rfl rfl .empty (.bool true) rfl rfl r.facts ?_ (.inl ?_)
      · simp only [State.split] at h0
        simp only [State.goto, h0]; rfl
      · simp only [State.split, Parts.all, Prod.mk.injEq, List.append_eq_nil_iff] at h0
        exact h0.2.2
    | false =>
      rw [hfl] at hS
      cases w with
      | true => exact r.still hl hS (.ret (.bool false)) (by simp [State.goto, upd_same, hfl]) _ _ rfl rfl id
      | false =>
        have h0 : s.split.all ≠ ([], []) := fun h => by rw [s2 rfl h] at hfl; cases hfl
        simp only [State.split] at h0
        refine r.lin hl hS (.ret (.bool false)) (by simp [State.goto, upd_same, hfl]) _ s.puller rfl rfl .empty (.bool false) rfl rfl r.facts ?_ (.inr (.inl ?_))
        · generalize hsp : split s.prio s.pull s.push s.puller = a at h0
          obtain ⟨a1, a2, a3⟩ := a
          simp only [State.goto, hsp]
          cases a1 <;> cases a2 <;> cases a3 <;> simp_all [two, Parts.all]
        · intro y
          generalize hsp : split s.prio s.pull s.push s.puller = a at h0
          obtain ⟨a1, a2, a3⟩ := a
          simp only [State.goto, hsp]
          cases a1 <;> cases a2 <;> cases a3 <;> simp_all [two, Parts.all]

end Verif.Blocking
