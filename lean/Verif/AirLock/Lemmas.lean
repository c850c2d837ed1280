import Verif.Conc.Lock
import Verif.Conc.Restrict
import Verif.AirLock.Spec

/-
Helper lemmas for AirLock: the simulation relation, its preservation, and the invariant on waiting threads.
-/
namespace Verif.AirLock
open Verif.Conc

variable {α : Type}

/-- Does a thread at this position hold `door`? -/
def holds : Loc α → Bool
  | .tTest _ | .tData _ | .tFlag _ | .tUn _ | .lTest _ | .lLoop _ | .lEnter _ | .lFirst _ | .lData _ | .lFlag _ | .lUn
  | .uTest _ | .uData _ | .uFlag _ | .uNotify _ | .uUn _ | .xUn | .garbage => true
  | _ => false

/-- the try_load with a value, or with one whose assignment throws -/
def tryLoadOp : Option α → Op α
  | some v => .tryLoad v
  | none => .tryLoadX

/-- the load with a value, or with one whose assignment throws -/
def loadOp : Option α → Op α
  | some v => .load v
  | none => .loadX

/-- the try_unload in which moving the value has this fate -/
def unloadOp : Fate → Op α
  | .moves => .tryUnload
  | .keeps => .tryUnloadX
  | .tears => .tryUnloadTorn

/-- where calls take effect -/
def status : Loc α → Status (Op α) (Out α)
  | .idle | .garbage => .idle
  | .tRead v | .tLock v | .tTest v | .tData v => .pending (tryLoadOp v)
  | .tFlag v => .pending (.tryLoad v)
  | .tUn b => .done (.bool b)
  | .lLock v | .lTest v | .lLoop v | .lEnter v | .lSleep v | .lRelock v | .lFirst v | .lData v => .pending (loadOp v)
  | .lFlag v => .pending (.load v)
  | .lUn => .done .unit
  | .uRead f | .uLock f | .uTest f | .uData f => .pending (unloadOp f)
  | .uFlag _ => .pending .tryUnload
  | .uNotify x => .done (.val (some x))
  | .uUn r => .done (.val r)
  | .iRead => .pending .isLoaded
  | .xUn => .done .threw
  | .ret o => .done o

/-- The members and the slot, depending on the position of the holder of `door`. -/
def Data (loaded : Bool) (data : Option α) (q : Option α) : Option (Loc α) → Prop
  | some (.tData _) | some (.lFirst _) | some (.lData _) => loaded = false ∧ q = none
  | some (.tFlag v) | some (.lFlag v) => loaded = false ∧ q = none ∧ data = some v
  | some (.uFlag x) => loaded = true ∧ q = some x
  | some (.uData _) => loaded = true ∧ q = data ∧ q.isSome = true
  | some (.lEnter _) => loaded = true ∧ q = data ∧ q.isSome = true
  | some (.garbage) => False
  | _ => loaded = q.isSome ∧ (loaded = true → q = data)

theorem Data.loaded {loaded : Bool} {data q : Option α} {O : Option (Loc α)} (h : Data loaded data q O) :
    loaded = q.isSome := by
  cases O with
  | none => exact h.1
  | some l => cases l <;> simp only [Data] at h <;> grind

/-- Is the thread in a call in which the value may be lost? -/
def tearing : Loc α → Bool
  | .uRead .tears | .uLock .tears | .uTest .tears | .uData .tears => true
  | _ => false

/-- the simulation relation -/
structure R (s : State α) (g : Ghost (Option α) (Op α) (Out α)) : Prop where
  whole : ∀ t, tearing (s.loc t) = false
  owns : Owns holds s.owner s.loc
  status : ∀ t, g.st t = status (s.loc t)
  data : Data s.loaded s.data g.q (s.owner.map s.loc)

/-- a step changes the lock only as its position says -/
structure LockStep (s s' : State α) (t : Nat) (l l' : Loc α) : Prop where
  loc : s'.loc = upd s.loc t l'
  own : s'.owner = if holds l' then some t else if holds l then none else s.owner
  free : holds l' = true → holds l = true ∨ s.owner = none

theorem lock_some {s s' : State α} {t : Nat} {l : Loc α} (h : s.lock t l = some s') :
    s.owner = none ∧ s' = { s with owner := some t, loc := upd s.loc t l } := by
  simp only [State.lock] at h
  split at h
  · rename_i h0; cases h; exact ⟨h0, rfl⟩
  · cases h

theorem stepAt_locks {s s' : State α} {t c : Nat} {l : Loc α} {o : Option (Out α)} (k : Owns holds s.owner s.loc)
    (hl : s.loc t = l) (h : s.stepAt t c l = some (s', o)) : LockStep s s' t l (s'.loc t) := by
  have hp := k t
  rw [hl] at hp
  suffices ∃ l', LockStep s s' t l l' by
    obtain ⟨l', c⟩ := this
    have : s'.loc t = l' := by rw [c.loc, upd_same]
    rw [this]; exact c
  cases l <;> (try (rename_i v; cases v)) <;> simp only [State.stepAt, Option.map_eq_some_iff, reduceCtorEq] at h <;>
    first
    | (cases h
       refine ⟨_, rfl, ?_, ?_⟩ <;> simp_all [holds, State.goto, State.unlock] <;> done)
    | (cases h
       refine ⟨_, rfl, ?_, ?_⟩ <;> split <;> simp_all [holds, State.goto] <;> done)
    | (obtain ⟨s1, h, e⟩ := h; cases e
       obtain ⟨h1, rfl⟩ := lock_some h
       refine ⟨_, rfl, ?_, ?_⟩ <;> simp_all [holds] <;> done)

theorem upd_self {β : Type} (f : Nat → β) (t : Nat) : upd f t (f t) = f := by
  funext u; simp only [upd]; split
  · rename_i h; rw [h]
  · rfl

/-- What a step from `l` to `l'` does to the slot: nothing, the call takes effect, or it returns. -/
inductive Effect (q : Option α) (l l' : Loc α) : Option (Out α) → Option α → Prop
  | stays : status l' = status l → Effect q l l' none q
  | takes {op o q'} : status l = .pending op → status l' = .done o → slot q op = some (q', o) → Effect q l l' none q'
  | returns {o} : l = .ret o → l' = .idle → Effect q l l' (some o) q

theorem R.next {s s' : State α} {t c : Nat} {l : Loc α} {q : Option α} {st : Nat → Status (Op α) (Out α)}
    (r : R s ⟨q, st⟩) (hl : s.loc t = l) (h : s.stepAt t c l = some (s', none)) (l' : Loc α) (hl' : s'.loc t = l')
    (hd : Data s.loaded s.data q (s.owner.map s.loc) → ∃ q',
      Data s'.loaded s'.data q' (if holds l' then some l' else if holds l then none else s.owner.map s.loc) ∧
      ((AirLock.status l' = AirLock.status l ∧ q' = q) ∨ ∃ op o, AirLock.status l = .pending op ∧
        AirLock.status l' = .done o ∧ slot q op = some (q', o)))
    (hw : tearing l' = false := by rfl) :
    ∃ q', Effect q l (s'.loc t) none q' ∧ R s' ⟨q', fun u => AirLock.status (s'.loc u)⟩ := by
  subst hl'
  have c := stepAt_locks r.owns hl h
  obtain ⟨q', hd', hq⟩ := hd r.data
  refine ⟨q', ?_, ?_, ?_, fun u => rfl, ?_⟩
  · rcases hq with ⟨h1, rfl⟩ | ⟨op, o, h1, h2, h3⟩
    · exact .stays h1
    · exact .takes h1 h2 h3
  · intro u
    by_cases hu : u = t
    · subst hu; exact hw
    · rw [c.loc, upd_ne _ _ hu]; exact r.whole u
  · have := r.owns.step hl c.own c.free
    rw [c.loc]; exact this
  · have := r.owns.step_holder hl c.own
    rw [c.loc, this, ← c.loc]; exact hd'

theorem R.ret {s : State α} {t : Nat} {o : Out α} {q : Option α} {st : Nat → Status (Op α) (Out α)}
    (r : R s ⟨q, st⟩) (hl : s.loc t = .ret o) :
    ∃ q', Effect q (.ret o) ((s.goto t .idle).loc t) (some o) q' ∧ R (s.goto t .idle) ⟨q', fun u => AirLock.status ((s.goto t .idle).loc u)⟩ := by
  refine ⟨q, .returns rfl (upd_same _ _ _), ?_, ?_, fun u => rfl, ?_⟩
  · intro u
    simp only [State.goto]
    by_cases hu : u = t
    · subst hu; simp only [upd_same]; rfl
    · simp only [upd_ne _ _ hu]; exact r.whole u
  · exact r.owns.step hl (l' := .idle) (own' := s.owner) (by simp [holds]) (by simp [holds])
  · have := r.owns.step_holder hl (l' := .idle) (own' := s.owner) (by simp [holds])
    simp only [State.goto]
    rw [this]; exact r.data

theorem R.call {s s' : State α} {t : Nat} {op : Op α} {g : Ghost (Option α) (Op α) (Out α)}
    (r : R s g) (ht : op.tears = false) (h : s.call t op = some s') :
    g.st t = .idle ∧ R s' ⟨g.q, upd g.st t (.pending op)⟩ := by
  simp only [State.call] at h
  split at h
  · rename_i hl
    cases h
    have hst := r.status t
    rw [hl] at hst
    have hs : holds (State.start op) = false := by cases op <;> rfl
    have e : s.owner = if holds (State.start op) then some t else if holds (.idle : Loc α) then none else s.owner := by
      rw [hs]; rfl
    refine ⟨hst, ?_, ?_, ?_, ?_⟩
    · intro u
      simp only [State.goto]
      by_cases hu : u = t
      · subst hu; simp only [upd_same]; cases op <;> first | rfl | cases ht
      · simp only [upd_ne _ _ hu]; exact r.whole u
    · exact r.owns.step hl e (by simp [hs])
    · intro u
      simp only [State.goto]
      by_cases hu : u = t
      · subst hu; simp only [upd_same]; cases op <;> rfl
      · simp only [upd_ne _ _ hu]; exact r.status u
    · have := r.owns.step_holder hl e
      simp only [State.goto]
      rw [this, hs]; exact r.data
  · cases h

theorem R.init : R (State.init : State α) (spec α).ghost := by
  refine ⟨fun _ => rfl, ?_, fun _ => rfl, ?_⟩
  · intro t; simp [State.init, holds]
  · simp [State.init, Data, spec, Spec.ghost]

theorem R.effect {s s' : State α} {t c : Nat} {o : Option (Out α)} {q : Option α} {st : Nat → Status (Op α) (Out α)}
    (r : R s ⟨q, st⟩) (h : s.stepAt t c (s.loc t) = some (s', o)) :
    ∃ q', Effect q (s.loc t) (s'.loc t) o q' ∧ R s' ⟨q', fun u => AirLock.status (s'.loc u)⟩ := by
  generalize hl : s.loc t = l at h
  have hown : holds l = true → s.owner.map s.loc = some l := r.owns.holder hl
  have hS := h
  cases l with
  | idle => cases h
  | garbage => cases h
  | ret v => cases h; exact r.ret hl
  | tRead v =>
    cases hp : s.loaded <;> cases h
    · exact r.next hl hS (.tLock v) (by simp [State.goto, upd_same, hp]) fun hd => ⟨q, hd, .inl ⟨rfl, rfl⟩⟩
    · refine r.next hl hS (.ret (.bool false)) (by simp [State.goto, upd_same, hp]) fun hd => ⟨q, hd, ?_⟩
      have := hd.loaded
      rw [hp] at this
      refine .inr ⟨_, _, rfl, rfl, ?_⟩
      cases q with
      | none => cases this
      | some x => cases v <;> rfl
  | tLock v =>
    simp only [State.stepAt, Option.map_eq_some_iff] at h
    obtain ⟨s1, h, e⟩ := h; cases e
    obtain ⟨hf, rfl⟩ := lock_some h
    exact r.next hl hS (.tTest v) (upd_same _ _ _) fun hd => ⟨q, by rw [hf] at hd; exact hd, .inl ⟨rfl, rfl⟩⟩
  | tTest v =>
    cases hp : s.loaded <;> cases h
    · refine r.next hl hS (.tData v) (by simp [State.goto, upd_same, hp]) fun hd => ⟨q, ?_, .inl ⟨rfl, rfl⟩⟩
      have := hd.loaded
      refine ⟨hp, ?_⟩
      rw [hp] at this; cases q with
      | none => rfl
      | some x => cases this
    · refine r.next hl hS (.tUn false) (by simp [State.goto, upd_same, hp]) fun hd => ⟨q, ?_, ?_⟩
      · rw [hown rfl] at hd; exact hd
      · have := hd.loaded
        rw [hp] at this
        refine .inr ⟨_, _, rfl, rfl, ?_⟩
        cases q with
        | none => cases this
        | some x => cases v <;> rfl
  | tData v =>
    cases v with
    | some v =>
      cases h
      refine r.next hl hS (.tFlag v) (upd_same _ _ _) fun hd => ⟨q, ?_, .inl ⟨rfl, rfl⟩⟩
      rw [hown rfl] at hd
      exact ⟨hd.1, hd.2, rfl⟩
    | none =>
      cases h
      refine r.next hl hS .xUn (upd_same _ _ _) fun hd => ?_
      rw [hown rfl] at hd
      obtain ⟨h1, rfl⟩ := hd
      exact ⟨none, ⟨h1, fun h => by rw [show s.loaded = true from h] at h1; cases h1⟩, .inr ⟨_, _, rfl, rfl, rfl⟩⟩
  | tFlag v =>
    cases h
    refine r.next hl hS (.tUn true) (upd_same _ _ _) fun hd => ?_
    rw [hown rfl] at hd
    obtain ⟨h1, rfl, h3⟩ := hd
    exact ⟨some v, ⟨rfl, fun _ => h3.symm⟩, .inr ⟨_, _, rfl, rfl, rfl⟩⟩
  | tUn b =>
    cases h
    refine r.next hl hS (.ret (.bool b)) (upd_same _ _ _) fun hd => ⟨q, ?_, .inl ⟨rfl, rfl⟩⟩
    rw [hown rfl] at hd; exact hd
  | lLock v =>
    simp only [State.stepAt, Option.map_eq_some_iff] at h
    obtain ⟨s1, h, e⟩ := h; cases e
    obtain ⟨hf, rfl⟩ := lock_some h
    exact r.next hl hS (.lTest v) (upd_same _ _ _) fun hd => ⟨q, by rw [hf] at hd; exact hd, .inl ⟨rfl, rfl⟩⟩
  | lTest v =>
    cases hp : s.loaded <;> cases h
    · refine r.next hl hS (.lFirst v) (by simp [State.goto, upd_same, hp]) fun hd => ⟨q, ?_, .inl ⟨rfl, rfl⟩⟩
      have := hd.loaded
      refine ⟨hp, ?_⟩
      rw [hp] at this; cases q with
      | none => rfl
      | some x => cases this
    · refine r.next hl hS (.lLoop v) (by simp [State.goto, upd_same, hp]) fun hd => ⟨q, ?_, .inl ⟨rfl, rfl⟩⟩
      rw [hown rfl] at hd; exact hd
  | lLoop v =>
    cases hp : s.loaded <;> cases h
    · refine r.next hl hS (.lData v) (by simp [State.goto, upd_same, hp]) fun hd => ⟨q, ?_, .inl ⟨rfl, rfl⟩⟩
      have := hd.loaded
      refine ⟨hp, ?_⟩
      rw [hp] at this; cases q with
      | none => rfl
      | some x => cases this
    · refine r.next hl hS (.lEnter v) (by simp [State.goto, upd_same, hp]) fun hd => ⟨q, ?_, .inl ⟨rfl, rfl⟩⟩
      have := hd.loaded
      rw [hown rfl] at hd; exact ⟨hp, hd.2 hp, by rw [← this, hp]⟩
  | lEnter v =>
    cases h
    refine r.next hl hS (.lSleep v) (upd_same _ _ _) fun hd => ⟨q, ?_, .inl ⟨rfl, rfl⟩⟩
    rw [hown rfl] at hd
    exact ⟨hd.1.trans hd.2.2.symm, fun _ => hd.2.1⟩
  | lSleep v =>
    cases h
    exact r.next hl hS (.lRelock v) (upd_same _ _ _) fun hd => ⟨q, hd, .inl ⟨rfl, rfl⟩⟩
  | lRelock v =>
    simp only [State.stepAt, Option.map_eq_some_iff] at h
    obtain ⟨s1, h, e⟩ := h; cases e
    obtain ⟨hf, rfl⟩ := lock_some h
    exact r.next hl hS (.lLoop v) (upd_same _ _ _) fun hd => ⟨q, by rw [hf] at hd; exact hd, .inl ⟨rfl, rfl⟩⟩
  | lFirst v =>
    cases v with
    | some v =>
      cases h
      refine r.next hl hS (.lFlag v) (upd_same _ _ _) fun hd => ⟨q, ?_, .inl ⟨rfl, rfl⟩⟩
      rw [hown rfl] at hd
      exact ⟨hd.1, hd.2, rfl⟩
    | none =>
      cases h
      refine r.next hl hS .xUn (upd_same _ _ _) fun hd => ?_
      rw [hown rfl] at hd
      obtain ⟨h1, rfl⟩ := hd
      exact ⟨none, ⟨h1, fun h => by rw [show s.loaded = true from h] at h1; cases h1⟩, .inr ⟨_, _, rfl, rfl, rfl⟩⟩
  | lData v =>
    cases v with
    | some v =>
      cases h
      refine r.next hl hS (.lFlag v) (upd_same _ _ _) fun hd => ⟨q, ?_, .inl ⟨rfl, rfl⟩⟩
      rw [hown rfl] at hd
      exact ⟨hd.1, hd.2, rfl⟩
    | none =>
      cases h
      refine r.next hl hS .xUn (upd_same _ _ _) fun hd => ?_
      rw [hown rfl] at hd
      obtain ⟨h1, rfl⟩ := hd
      exact ⟨none, ⟨h1, fun h => by rw [show s.loaded = true from h] at h1; cases h1⟩, .inr ⟨_, _, rfl, rfl, rfl⟩⟩
  | lFlag v =>
    cases h
    refine r.next hl hS .lUn (upd_same _ _ _) fun hd => ?_
    rw [hown rfl] at hd
    obtain ⟨h1, rfl, h3⟩ := hd
    exact ⟨some v, ⟨rfl, fun _ => h3.symm⟩, .inr ⟨_, _, rfl, rfl, rfl⟩⟩
  | lUn =>
    cases h
    refine r.next hl hS (.ret .unit) (upd_same _ _ _) fun hd => ⟨q, ?_, .inl ⟨rfl, rfl⟩⟩
    rw [hown rfl] at hd; exact hd
  | uRead f =>
    have hw : tearing (.uRead f : Loc α) = false := by rw [← hl]; exact r.whole t
    cases hp : s.loaded <;> cases h
    · refine r.next hl hS (.ret (.val none)) (by simp [State.goto, upd_same, hp]) fun hd => ⟨q, hd, ?_⟩
      have := hd.loaded
      rw [hp] at this
      refine .inr ⟨_, _, rfl, rfl, ?_⟩
      cases q with
      | none => cases f <;> rfl
      | some x => cases this
    · exact r.next hl hS (.uLock f) (by simp [State.goto, upd_same, hp]) (fun hd => ⟨q, hd, .inl ⟨rfl, rfl⟩⟩)
        (by cases f <;> first | rfl | cases hw)
  | uLock f =>
    have hw : tearing (.uLock f : Loc α) = false := by rw [← hl]; exact r.whole t
    simp only [State.stepAt, Option.map_eq_some_iff] at h
    obtain ⟨s1, h, e⟩ := h; cases e
    obtain ⟨hf, rfl⟩ := lock_some h
    exact r.next hl hS (.uTest f) (upd_same _ _ _) (fun hd => ⟨q, by rw [hf] at hd; exact hd, .inl ⟨rfl, rfl⟩⟩)
      (by cases f <;> first | rfl | cases hw)
  | uTest f =>
    have hw : tearing (.uTest f : Loc α) = false := by rw [← hl]; exact r.whole t
    cases hp : s.loaded <;> cases h
    · refine r.next hl hS (.uUn none) (by simp [State.goto, upd_same, hp]) fun hd => ⟨q, ?_, ?_⟩
      · rw [hown rfl] at hd; exact hd
      · have := hd.loaded
        rw [hp] at this
        refine .inr ⟨_, _, rfl, rfl, ?_⟩
        cases q with
        | none => cases f <;> rfl
        | some x => cases this
    · refine r.next hl hS (.uData f) (by simp [State.goto, upd_same, hp]) (fun hd => ⟨q, ?_, .inl ⟨rfl, rfl⟩⟩)
        (by cases f <;> first | rfl | cases hw)
      have := hd.loaded
      rw [hown rfl] at hd; exact ⟨hp, hd.2 hp, by rw [← this, hp]⟩
  | uData f =>
    have hw : tearing (.uData f : Loc α) = false := by rw [← hl]; exact r.whole t
    have hd := r.data
    rw [hown rfl] at hd
    obtain ⟨h1, h2, h3⟩ := hd
    cases q with
    | none => cases h3
    | some x =>
      simp only at h2
      cases f with
      | tears => cases hw
      | keeps =>
        cases h
        exact r.next hl hS .xUn (upd_same _ _ _) fun hd => ⟨some x, ⟨h1, fun _ => h2⟩, .inr ⟨_, _, rfl, rfl, rfl⟩⟩
      | moves =>
        cases h
        refine r.next hl hS (.uFlag x) ?_ fun hd => ⟨some x, ⟨h1, rfl⟩, .inl ⟨rfl, rfl⟩⟩
        simp [State.goto, upd_same, ← h2]
  | uFlag x =>
    cases h
    refine r.next hl hS (.uNotify x) (upd_same _ _ _) fun hd => ?_
    rw [hown rfl] at hd
    obtain ⟨h1, rfl⟩ := hd
    exact ⟨none, ⟨rfl, fun h => by cases h⟩, .inr ⟨_, _, rfl, rfl, rfl⟩⟩
  | uNotify x =>
    cases h
    refine r.next hl hS (.uUn (some x)) (upd_same _ _ _) fun hd => ⟨q, ?_, .inl ⟨rfl, rfl⟩⟩
    rw [hown rfl] at hd; exact hd
  | uUn x =>
    cases h
    refine r.next hl hS (.ret (.val x)) (upd_same _ _ _) fun hd => ⟨q, ?_, .inl ⟨rfl, rfl⟩⟩
    rw [hown rfl] at hd; exact hd
  | xUn =>
    cases h
    refine r.next hl hS (.ret .threw) (upd_same _ _ _) fun hd => ⟨q, ?_, .inl ⟨rfl, rfl⟩⟩
    rw [hown rfl] at hd; exact hd
  | iRead =>
    cases h
    refine r.next hl hS (.ret (.bool s.loaded)) (upd_same _ _ _) fun hd => ⟨q, hd, .inr ⟨_, _, rfl, rfl, ?_⟩⟩
    rw [hd.loaded]; rfl

theorem R.move {s s' : State α} {t c : Nat} {o : Option (Out α)} {g : Ghost (Option α) (Op α) (Out α)}
    (r : R s g) (h : s.stepAt t c (s.loc t) = some (s', o)) :
    ∃ tr g', TSteps (spec α) g tr g' ∧ erase tr = retEvents t o ∧ R s' g' := by
  obtain ⟨q, st⟩ := g
  have hloc := (stepAt_locks r.owns rfl h).loc
  have hst : ∀ u, st u = AirLock.status (s.loc u) := r.status
  obtain ⟨q', e, r'⟩ := r.effect h
  have key : ∀ x, AirLock.status (s'.loc t) = x → (fun u => AirLock.status (s'.loc u)) = upd st t x := by
    intro x hx
    funext u
    by_cases hu : u = t
    · subst hu; rw [upd_same]; exact hx
    · rw [upd_ne _ _ hu, hst, hloc, upd_ne _ _ hu]
  cases e with
  | stays h1 =>
    refine ⟨[], _, rfl, rfl, ?_⟩
    rwa [key _ h1, ← hst, upd_self] at r'
  | @takes op x _ h1 h2 h3 =>
    refine ⟨[.lin t op x], _, ⟨_, TStep.lin ((hst t).trans h1) h3, rfl⟩, rfl, ?_⟩
    rwa [key _ h2] at r'
  | @returns x h1 h2 =>
    refine ⟨[.ret t x], _, ⟨_, TStep.ret (by rw [hst t, h1]; rfl), rfl⟩, rfl, ?_⟩
    rwa [key .idle (by rw [h2]; rfl)] at r'

theorem sys_call {s s' : State α} {t : Nat} {op : Op α} (h : (sys α).call t op s = some s') :
    op.tears = false ∧ s.call t op = some s' := by
  simp only [sys] at h
  split at h
  · cases h
  · rename_i h1; exact ⟨Bool.eq_false_iff.2 h1, h⟩

theorem simulation : Simulation (sys α) (spec α) (fun _ => True) R where
  init := R.init
  call := fun r _ h => by
    obtain ⟨h1, h2⟩ := sys_call h
    exact r.call h1 h2
  move := fun r h => r.move h

theorem related_reachable (s : State α) (h : (sys α).Reachable s) : ∃ g, R s g := by
  obtain ⟨as, h, e⟩ := h
  obtain ⟨tr, g, _, _, r⟩ := simulation.run_from as simulation.init (fun _ _ => trivial) e
  exact ⟨g, r⟩

/-! ### Waiting threads -/

theorem eraseIdx_nodup {l : List Nat} (h : l.Nodup) {i : Nat} (hi : i < l.length) : l[i] ∉ l.eraseIdx i := by
  intro hm
  rw [List.mem_eraseIdx_iff_getElem] at hm
  obtain ⟨j, hj, hne, e⟩ := hm
  exact hne ((List.getElem_inj h).1 e)

variable {p : Bool}

/-- the waiting threads are at 68, and (unless a load that has waited has thrown: `p`) if the slot is empty while threads
wait, somebody is on the way -/
structure Waits (p : Bool) (s : State α) : Prop where
  asleep : ∀ t ∈ s.waiting, ∃ v, s.loc t = .lSleep v
  nodup : s.waiting.Nodup
  coming : p = true → s.loaded = false → s.waiting ≠ [] → ∃ u, awakeLoader s u ∨ willNotify s u

theorem Waits.init : Waits p (State.init : State α) := ⟨by simp [State.init], by simp [State.init], by simp [State.init]⟩

/-- position on which `coming` relies -/
def isComing : Loc α → Bool
  | .lSleep _ | .lRelock _ | .lLoop _ | .lData _ | .lFlag _ | .uNotify _ => true
  | _ => false

theorem coming_iff {s : State α} {u : Nat} :
    (awakeLoader s u ∨ willNotify s u) ↔ (∃ x, s.loc u = .uNotify x) ∨ (u ∉ s.waiting ∧ isComing (s.loc u) = true) := by
  simp only [awakeLoader, willNotify]
  cases s.loc u <;> simp [isComing]

/-- a step that changes only the position of `t` -/
theorem Waits.stay {s s' : State α} {t : Nat} {l l' : Loc α} (w : Waits p s) (hl : s.loc t = l)
    (hloc : s'.loc = upd s.loc t l') (hw : s'.waiting = s.waiting) (hns : ∀ v, l ≠ .lSleep v)
    (hf : p = true → s'.loaded = true ∨ (s'.loaded = s.loaded ∧ isComing l = false) ∨ isComing l' = true) : Waits p s' := by
  have hnot : t ∉ s.waiting := by
    intro h; obtain ⟨v, h⟩ := w.asleep t h; exact hns v (hl.symm.trans h)
  refine ⟨?_, by rw [hw]; exact w.nodup, ?_⟩
  · intro u hu
    rw [hw] at hu
    obtain ⟨v, hv⟩ := w.asleep u hu
    refine ⟨v, ?_⟩
    rw [hloc, upd_ne _ _ (by rintro rfl; exact hnot hu)]; exact hv
  · intro h0 h1 h2
    rcases hf h0 with hf | ⟨hf, hc⟩ | hc
    · rw [h1] at hf; cases hf
    · rw [hw] at h2
      obtain ⟨u, hu⟩ := w.coming h0 (hf ▸ h1) h2
      refine ⟨u, ?_⟩
      rw [coming_iff] at hu ⊢
      have hut : u ≠ t := by
        rintro rfl
        rw [hl] at hu
        rcases hu with ⟨x, rfl⟩ | ⟨_, hu⟩
        · cases hc
        · rw [hc] at hu; cases hu
      rw [hw, hloc, upd_ne _ _ hut]; exact hu
    · refine ⟨t, coming_iff.2 (.inr ⟨by rw [hw]; exact hnot, ?_⟩)⟩
      rw [hloc, upd_same]; exact hc

theorem Waits.call {s s' : State α} {t : Nat} {op : Op α} (w : Waits p s) (h : s.call t op = some s') : Waits p s' := by
  simp only [State.call] at h
  split at h
  · rename_i hl
    cases h
    exact w.stay hl rfl rfl (by simp) (fun _ => .inr (.inl ⟨rfl, rfl⟩))
  · cases h

theorem Waits.move {s s' : State α} {t c : Nat} {o : Option (Out α)} {g : Ghost (Option α) (Op α) (Out α)} (w : Waits p s)
    (r : R s g) (hp : p = true → failsAfterWaiting (s.loc t) = false) (h : s.stepAt t c (s.loc t) = some (s', o)) :
    Waits p s' := by
  generalize hl : s.loc t = l at h hp
  have hown : holds l = true → s.owner.map s.loc = some l := r.owns.holder hl
  cases l with
  | idle => cases h
  | garbage => cases h
  | lSleep v =>
    cases h
    refine ⟨?_, w.nodup.erase _, ?_⟩
    · intro u hu
      have hu' : u ∈ s.waiting ∧ u ≠ t := by
        have hu : u ∈ s.waiting.erase t := hu
        rw [List.Nodup.mem_erase_iff w.nodup] at hu; exact ⟨hu.2, hu.1⟩
      obtain ⟨v, hv⟩ := w.asleep u hu'.1
      exact ⟨v, (upd_ne _ _ hu'.2).trans hv⟩
    · intro _ _ _
      refine ⟨t, coming_iff.2 (.inr ⟨?_, ?_⟩)⟩
      · show t ∉ s.waiting.erase t
        rw [List.Nodup.mem_erase_iff w.nodup]; simp
      · simp [State.goto, upd_same, isComing]
  | lEnter v =>
    cases h
    have hd := r.data
    rw [hown rfl] at hd
    have hnot : t ∉ s.waiting := by
      intro h; obtain ⟨v, h⟩ := w.asleep t h; rw [hl] at h; cases h
    refine ⟨?_, List.nodup_cons.2 ⟨hnot, w.nodup⟩, ?_⟩
    · intro u hu
      by_cases hut : u = t
      · subst hut; exact ⟨v, upd_same _ _ _⟩
      · have hu : u ∈ t :: s.waiting := hu
        rcases List.mem_cons.1 hu with h | h
        · exact absurd h hut
        · obtain ⟨v, hv⟩ := w.asleep u h
          exact ⟨v, (upd_ne _ _ hut).trans hv⟩
    · intro _ h1
      have h1 : s.loaded = false := h1
      rw [hd.1] at h1; cases h1
  | uNotify x =>
    cases h
    refine ⟨?_, w.nodup.sublist (List.eraseIdx_sublist _ _), ?_⟩
    · intro u hu
      have hu' : u ∈ s.waiting := (List.eraseIdx_sublist _ _).mem hu
      obtain ⟨v, hv⟩ := w.asleep u hu'
      refine ⟨v, (upd_ne _ _ ?_).trans hv⟩
      rintro rfl; rw [hl] at hv; cases hv
    · intro _ _ h2
      have hne : s.waiting ≠ [] := by
        intro h; apply h2; simp [State.goto, h]
      have hlt : c % s.waiting.length < s.waiting.length := Nat.mod_lt _ (List.length_pos_iff.2 hne)
      obtain ⟨v, hv⟩ := w.asleep _ (List.getElem_mem hlt)
      refine ⟨s.waiting[c % s.waiting.length], coming_iff.2 (.inr ⟨eraseIdx_nodup w.nodup hlt, ?_⟩)⟩
      have : s.waiting[c % s.waiting.length] ≠ t := by
        intro h; rw [h, hl] at hv; cases hv
      show isComing (upd s.loc t _ _) = true
      rw [upd_ne _ _ this, hv]; rfl
  | lLoop v =>
    cases hp : s.loaded <;> cases h
    · exact w.stay hl rfl rfl (by simp) (fun _ => .inr (.inr (by simp [hp, isComing])))
    · exact w.stay hl rfl rfl (by simp) (fun _ => .inl hp)
  | tLock v =>
    simp only [State.stepAt, Option.map_eq_some_iff] at h
    obtain ⟨s1, h, e⟩ := h; cases e
    obtain ⟨hf, rfl⟩ := lock_some h
    exact w.stay hl rfl rfl (by simp) (fun _ => .inr (.inl ⟨rfl, rfl⟩))
  | lLock v =>
    simp only [State.stepAt, Option.map_eq_some_iff] at h
    obtain ⟨s1, h, e⟩ := h; cases e
    obtain ⟨hf, rfl⟩ := lock_some h
    exact w.stay hl rfl rfl (by simp) (fun _ => .inr (.inl ⟨rfl, rfl⟩))
  | uLock =>
    simp only [State.stepAt, Option.map_eq_some_iff] at h
    obtain ⟨s1, h, e⟩ := h; cases e
    obtain ⟨hf, rfl⟩ := lock_some h
    exact w.stay hl rfl rfl (by simp) (fun _ => .inr (.inl ⟨rfl, rfl⟩))
  | lRelock v =>
    simp only [State.stepAt, Option.map_eq_some_iff] at h
    obtain ⟨s1, h, e⟩ := h; cases e
    obtain ⟨hf, rfl⟩ := lock_some h
    exact w.stay hl rfl rfl (by simp) (fun _ => .inr (.inr rfl))
  | tFlag v => cases h; exact w.stay hl rfl rfl (by simp) (fun _ => .inl rfl)
  | lFlag v => cases h; exact w.stay hl rfl rfl (by simp) (fun _ => .inl rfl)
  | lData v =>
    cases v with
    | some v => cases h; exact w.stay hl rfl rfl (by simp) (fun _ => .inr (.inr rfl))
    | none => cases h; exact w.stay hl rfl rfl (by simp) (fun h0 => by have := hp h0; cases this)
  | lFirst v =>
    cases v with
    | some v => cases h; exact w.stay hl rfl rfl (by simp) (fun _ => .inr (.inr rfl))
    | none => cases h; exact w.stay hl rfl rfl (by simp) (fun _ => .inr (.inl ⟨rfl, rfl⟩))
  | tData v => cases v <;> cases h <;> exact w.stay hl rfl rfl (by simp) (fun _ => .inr (.inl ⟨rfl, rfl⟩))
  | uData f => cases f <;> cases h <;> exact w.stay hl rfl rfl (by simp) (fun _ => .inr (.inl ⟨rfl, rfl⟩))
  | uFlag v => cases h; exact w.stay hl rfl rfl (by simp) (fun _ => .inr (.inr rfl))
  | _ => cases h; exact w.stay hl rfl rfl (by simp) (fun _ => .inr (.inl ⟨rfl, rfl⟩))

theorem waits_reachable (s : State α) (h : (sys α).Reachable s) : Waits false s := by
  have := Sys.invariant (M := sys α) (fun s => Waits false s ∧ ∃ g, R s g) ⟨Waits.init, _, R.init⟩ ?_ ?_ s h
  · exact this.1
  · rintro s t op s' ⟨w, g, r⟩ h
    obtain ⟨h1, h2⟩ := sys_call h
    exact ⟨w.call h2, _, (r.call h1 h2).2⟩
  · rintro s t c s' o ⟨w, g, r⟩ h
    obtain ⟨_, g', _, _, r'⟩ := r.move h
    exact ⟨w.move r (by simp) h, g', r'⟩

theorem sysWake_move {s : State α} {t c : Nat} {x : State α × Option (Out α)} (h : (sysWake α).move t c s = some x) :
    failsAfterWaiting (s.loc t) = false ∧ (sys α).move t c s = some x := by
  simp only [sysWake] at h
  split at h
  · cases h
  · rename_i h1; exact ⟨Bool.eq_false_iff.2 h1, h⟩

theorem wakes_reachable (s : State α) (h : (sysWake α).Reachable s) : Waits true s := by
  have := Sys.invariant (M := sysWake α) (fun s => Waits true s ∧ ∃ g, R s g) ⟨Waits.init, _, R.init⟩ ?_ ?_ s h
  · exact this.1
  · rintro s t op s' ⟨w, g, r⟩ h
    obtain ⟨h1, h2⟩ := sys_call h
    exact ⟨w.call h2, _, (r.call h1 h2).2⟩
  · rintro s t c s' o ⟨w, g, r⟩ h
    obtain ⟨h1, h⟩ := sysWake_move h
    obtain ⟨_, g', _, _, r'⟩ := r.move h
    exact ⟨w.move r (fun _ => h1) h, g', r'⟩

/-- Is the thread in a load that will throw? -/
def failing : Loc α → Bool
  | .lLock none | .lTest none | .lLoop none | .lEnter none | .lSleep none | .lRelock none | .lFirst none | .lData none => true
  | _ => false

theorem failing_move {s s' : State α} {t c : Nat} {o : Option (Out α)} (hf : ∀ u, failing (s.loc u) = false)
    (h : s.stepAt t c (s.loc t) = some (s', o)) : ∀ u, failing (s'.loc u) = false := by
  have hft := hf t
  suffices ∃ l', s'.loc = upd s.loc t l' ∧ failing l' = false by
    obtain ⟨l', h1, h2⟩ := this
    intro u
    rw [h1]
    by_cases hu : u = t
    · subst hu; rw [upd_same]; exact h2
    · rw [upd_ne _ _ hu]; exact hf u
  generalize s.loc t = l at h hft
  cases l <;> (try (rename_i v; cases v)) <;>
    simp only [State.stepAt, Option.map_eq_some_iff, reduceCtorEq, failing] at h hft <;>
    first
    | (cases h; refine ⟨_, rfl, ?_⟩ <;> first | rfl | (split <;> rfl))
    | (obtain ⟨s1, h, e⟩ := h; cases e
       obtain ⟨h1, rfl⟩ := lock_some h
       exact ⟨_, rfl, rfl⟩)
    | (cases hft; done)

theorem failing_call {s s' : State α} {t : Nat} {op : Op α} (hf : ∀ u, failing (s.loc u) = false)
    (ho : op.loadSucceeds = true) (h : s.call t op = some s') : ∀ u, failing (s'.loc u) = false := by
  simp only [State.call] at h
  split at h
  · cases h
    intro u
    simp only [State.goto]
    by_cases hu : u = t
    · subst hu; rw [upd_same]; cases op <;> first | rfl | cases ho
    · rw [upd_ne _ _ hu]; exact hf u
  · cases h

/-- without failing loads every execution is one of `sysWake` -/
theorem sysWake_run (as : List (Act (Op α))) : ∀ (s : State α) (r : State α × List (Event (Op α) (Out α))),
    (∀ u, failing (s.loc u) = false) → (∀ op ∈ calls as, op.loadSucceeds = true) →
    (sys α).run s as = some r → (sysWake α).run s as = some r := by
  induction as with
  | nil => intro s r _ _ h; exact h
  | cons a as ih =>
    intro s r hf hc h
    simp only [Sys.run, Option.bind_eq_some_iff, Option.map_eq_some_iff] at h ⊢
    obtain ⟨⟨s1, h1⟩, e1, ⟨s2, h2⟩, e2, e3⟩ := h
    cases a with
    | call t op =>
      refine ⟨(s1, h1), e1, (s2, h2), ih s1 _ ?_ (fun op h => hc op (by simp [calls, h])) e2, e3⟩
      simp only [Sys.exec, Option.map_eq_some_iff] at e1
      obtain ⟨s3, e1, e4⟩ := e1
      cases e4
      exact failing_call hf (hc op (by simp [calls])) (sys_call e1).2
    | move t c =>
      have hw : (sysWake α).move t c s = (sys α).move t c s := by
        refine if_neg ?_
        have := hf t
        cases hl : s.loc t <;> rw [hl] at this <;> simp [failsAfterWaiting]
        rename_i v; cases v <;> simp_all [failing]
      refine ⟨(s1, h1), by rw [← e1]; simp only [Sys.exec, hw], (s2, h2),
        ih s1 _ ?_ (fun op h => hc op (by simpa [calls] using h)) e2, e3⟩
      simp only [Sys.exec, Option.map_eq_some_iff] at e1
      obtain ⟨⟨s3, o⟩, e1, e4⟩ := e1
      cases e4
      exact failing_move hf e1

theorem sysLoads_failing (s : State α) (hs : ((sys α).restrict Op.loadSucceeds).Reachable s) :
    ∀ u, failing (s.loc u) = false := by
  refine Sys.invariant (M := (sys α).restrict Op.loadSucceeds) (fun s => ∀ u, failing (s.loc u) = false) (fun _ => rfl)
    ?_ ?_ s hs
  · intro s t op s' i h
    simp only [Sys.restrict] at h
    split at h
    · rename_i h1; exact failing_call i h1 (sys_call h).2
    · cases h
  · intro s t c s' o i h
    exact failing_move i h

theorem data_frame {s : State α} {t c : Nat} {l : Loc α} (h : usesData l = false) (p : Option α) :
    State.stepAt { s with data := p } t c l = (s.stepAt t c l).map fun r => ({ r.1 with data := p }, r.2) := by
  cases l <;>
    first
    | rfl
    | (cases h; done)
    | (simp only [State.stepAt, State.lock]; cases s.owner <;> rfl)

theorem enabled {s : State α} (t c : Nat) {l : Loc α} (h : holds l = true ∨ s.owner = none) (h1 : l ≠ .idle)
    (h2 : l ≠ .garbage) : (s.stepAt t c l).isSome = true := by
  cases l <;> (try (rename_i v; cases v)) <;> simp_all [State.stepAt, State.lock, holds]

end Verif.AirLock
