import Verif.AirLock.Lemmas
import Verif.Conc.Check

/-
The properties C60-C62 of AirLock.  Calls may throw (see `Op`), except where the opposite is said.
-/
namespace Verif.AirLock
open Verif.Conc

variable {α : Type}

/-! ### C60 linearizability -/

/-- C60: any number of threads, every interleaving, spurious wake-ups included, whatever calls throw: a buffer with one
place. -/
theorem linearizable (as : List (Act (Op α))) (s : State α) (h : List (Event (Op α) (Out α)))
    (e : (sys α).run (sys α).init as = some (s, h)) : Linearizable (spec α) h :=
  simulation.linearizable as s h (fun _ _ => trivial) e

/-- traces of the specification -/
theorem trace_exchange (tr : List (TEvent (Op α) (Out α))) : ∀ {g g' : Ghost (Option α) (Op α) (Out α)},
    TSteps (spec α) g tr g' → g.q.toList ++ loads tr = unloads tr ++ g'.q.toList := by
  induction tr with
  | nil => intro g g' h; cases h; simp [loads, unloads]
  | cons e tr ih =>
    intro g g' ⟨g1, h1, h2⟩
    have := ih h2
    cases h1 with
    | call hid => simpa [loads, unloads] using this
    | ret hid => simpa [loads, unloads] using this
    | @lin q st t op q' o hid hs =>
      cases op <;> cases q <;> simp only [spec, slot, Option.some.injEq, Prod.mk.injEq, reduceCtorEq] at hs <;>
        obtain ⟨rfl, rfl⟩ := hs <;> simpa [loads, unloads] using this

/-- C60: the values loaded are, in order, the values unloaded and then the one still in the slot: nothing is overwritten,
lost, duplicated or invented. -/
theorem exchange (as : List (Act (Op α))) (s : State α) (h : List (Event (Op α) (Out α)))
    (e : (sys α).run (sys α).init as = some (s, h)) : ∃ tr g, TSteps (spec α) (spec α).ghost tr g ∧ erase tr = h ∧
      loads tr = unloads tr ++ g.q.toList ∧
      ((∀ t, s.loc t = .idle ∨ t ∈ s.waiting) → g.q = if s.loaded then s.data else none) := by
  obtain ⟨tr, g, h1, h2, r⟩ := simulation.run_from as simulation.init (fun _ _ => trivial) e
  refine ⟨tr, g, h1, h2, trace_exchange tr h1, ?_⟩
  intro hq
  have w := waits_reachable s ⟨as, h, e⟩
  have ho : s.owner = none := by
    cases ho : s.owner with
    | none => rfl
    | some t =>
      have := (r.owns t).2 ho
      rcases hq t with h | h
      · rw [h] at this; cases this
      · obtain ⟨v, h⟩ := w.asleep t h
        rw [h] at this; cases this
  have := r.data
  rw [ho] at this
  obtain ⟨h3, h4⟩ := this
  cases hl : s.loaded with
  | true => simpa using h4 hl
  | false =>
    rw [hl] at h3
    cases hg : g.q with
    | none => simp
    | some x => rw [hg] at h3; cases h3

/-- a thread takes `n` steps of a call -/
def begin (t : Nat) (op : Op α) (n : Nat) : List (Act (Op α)) := .call t op :: List.replicate n (.move t 0)

/-- A schedule in which a loader has to wait, an unloader wakes it, and both return. -/
example : ∃ as s, (sys Nat).run (sys Nat).init as = some (s, [.call 0 (.tryLoad 7), .ret 0 (.bool true), .call 1 (.load 8),
    .call 0 .tryUnload, .ret 0 (.val (some 7)), .ret 1 .unit]) :=
  ⟨begin 0 (.tryLoad 7) 7 ++ begin 1 (.load 8) 4 ++ begin 0 .tryUnload 8 ++ List.replicate 7 (.move 1 0), _, rfl⟩

/-! ### C61 no lost wake-up -/

/-- the airlock used with loads that do not throw -/
abbrev sysLoads (α : Type) : Sys (State α) (Op α) (Out α) := (sys α).restrict Op.loadSucceeds

/-- such executions are executions in which no load that has waited throws -/
theorem sysLoads_sub {s : State α} (hs : (sysLoads α).Reachable s) : (sysWake α).Reachable s := by
  obtain ⟨as, h, e, hc⟩ := Sys.restrict_reachable.1 hs
  exact ⟨as, h, sysWake_run as _ _ (fun _ => rfl) hc e⟩

/-- C61: if the slot is empty and threads sleep in load, then a loader is awake and on its way to the slot, or an unloader
is about to notify. -/
theorem no_lost_wakeup (s : State α) (hs : (sysLoads α).Reachable s) (he : s.loaded = false) (t : Nat) (ht : asleep s t) :
    ∃ u, awakeLoader s u ∨ willNotify s u :=
  (wakes_reachable s (sysLoads_sub hs)).coming rfl he (by intro h; simp [asleep, h] at ht)

/-- C61: when nothing but sleeping is going on, nobody sleeps beside an empty slot. -/
theorem no_lost_wakeup_quiescent (s : State α) (hs : (sysLoads α).Reachable s) (hq : ∀ t, s.loc t = .idle ∨ asleep s t)
    (t : Nat) (ht : asleep s t) : s.loaded = true := by
  cases he : s.loaded with
  | true => rfl
  | false =>
    obtain ⟨u, hu⟩ := no_lost_wakeup s hs he t ht
    rcases hq u with h | h
    · simp [awakeLoader, willNotify, h] at hu
    · obtain ⟨v, h'⟩ := (waits_reachable s (Sys.restrict_sub hs)).asleep u h
      rcases hu with hu | hu
      · exact absurd h hu.1
      · simp [willNotify, h'] at hu

/-- thread `u` fills the slot in at most `k` steps -/
def Fills (u k : Nat) (s : State α) : Prop :=
  ∃ n s' h, n ≤ k ∧ (sys α).run s (List.replicate n (.move u 0)) = some (s', h) ∧ s'.loaded = true

theorem Fills.step {u k : Nat} {s s1 : State α} (h : (sys α).move u 0 s = some (s1, none)) (f : Fills u k s1) :
    Fills u (k + 1) s := by
  obtain ⟨n, s', ev, hn, e, hl⟩ := f
  exact ⟨n + 1, s', ev, by omega, by simp [List.replicate_succ, Sys.run, Sys.exec, h, e], hl⟩

/-- C61: an awake loader does fill the empty slot once it gets the lock: it takes at most 5 steps by itself. -/
theorem awake_loader_loads (s : State α) (hs : (sysLoads α).Reachable s) (u : Nat) (hu : awakeLoader s u)
    (he : s.loaded = false) (ho : s.owner = none ∨ s.owner = some u) : Fills u 5 s := by
  have flag : ∀ s : State α, ∀ v, s.loc u = .lFlag v → Fills u 1 s := by
    intro s v hl
    exact ⟨1, { s with loaded := true }.goto u .lUn, [], by omega, by simp [Sys.run, Sys.exec, sys, hl, State.stepAt], rfl⟩
  have data : ∀ s : State α, ∀ v, s.loc u = .lData (some v) → Fills u 2 s := by
    intro s v hl
    refine Fills.step (s1 := { s with data := some v }.goto u (.lFlag v)) ?_ (flag _ v (upd_same _ _ _))
    simp only [sys, hl, State.stepAt]
  have loop : ∀ s : State α, ∀ v, s.loc u = .lLoop (some v) → s.loaded = false → Fills u 3 s := by
    intro s v hl he
    refine Fills.step (s1 := s.goto u (.lData (some v))) ?_ (data _ v (upd_same _ _ _))
    simp [sys, hl, State.stepAt, he]
  have relock : ∀ s : State α, ∀ v, s.loc u = .lRelock (some v) → s.loaded = false → s.owner = none → Fills u 4 s := by
    intro s v hl he ho
    refine Fills.step (s1 := { s with owner := some u }.goto u (.lLoop (some v))) ?_ (loop _ v (upd_same _ _ _) he)
    simp [sys, hl, State.stepAt, State.lock, ho]
  obtain ⟨g, r⟩ := related_reachable s (Sys.restrict_sub hs)
  have hf : failing (s.loc u) = false := sysLoads_failing s hs u
  have ho' : holds (s.loc u) = false → s.owner = none := by
    intro h
    rcases ho with ho | ho
    · exact ho
    · have := (r.owns u).2 ho; rw [h] at this; cases this
  have mono : ∀ k, k ≤ 5 → Fills u k s → Fills u 5 s := fun k hk ⟨n, s', h, hn, hr⟩ => ⟨n, s', h, by omega, hr⟩
  obtain ⟨_, hu⟩ := hu
  cases hl : s.loc u <;> rw [hl] at hu ho' hf <;> simp only [] at hu
  case lSleep v =>
    cases v with
    | none => cases hf
    | some v =>
    refine Fills.step (s1 := { s with waiting := s.waiting.erase u }.goto u (.lRelock (some v))) ?_
      (relock _ v (upd_same _ _ _) he (ho' rfl))
    simp only [sys, hl, State.stepAt]
  case lRelock v =>
    cases v with
    | none => cases hf
    | some v => exact mono 4 (by omega) (relock s v hl he (ho' rfl))
  case lLoop v =>
    cases v with
    | none => cases hf
    | some v => exact mono 3 (by omega) (loop s v hl he)
  case lData v =>
    cases v with
    | none => cases hf
    | some v => exact mono 2 (by omega) (data s v hl)
  case lFlag v => exact mono 1 (by omega) (flag s v hl)

/-- A reachable state with a sleeping loader and an empty slot: the unloader is about to notify. -/
example : ∃ s, (sysLoads Nat).Reachable s ∧ s.loaded = false ∧ asleep s 1 := by
  refine ⟨_, ⟨begin 0 (.tryLoad 7) 7 ++ begin 1 (.load 8) 4 ++ begin 0 .tryUnload 5, _, rfl⟩, rfl, ?_⟩
  show 1 ∈ [1]
  simp

/-! ### C62 no deadlock, no race -/

/-- C62: whenever a call is unfinished and not asleep in load, some such call can take its next step. -/
theorem no_deadlock (s : State α) (hs : (sys α).Reachable s) (t : Nat) (ht : s.loc t ≠ .idle) (ha : ¬ asleep s t) :
    ∃ u r, s.loc u ≠ .idle ∧ ¬ asleep s u ∧ (sys α).move u 0 s = some r := by
  obtain ⟨g, r⟩ := related_reachable s hs
  have w := waits_reachable s hs
  have ng : ∀ u, s.loc u ≠ .garbage := by
    intro u hg
    have := r.data
    rw [r.owns.holder hg rfl] at this
    exact this
  cases ho : s.owner with
  | none =>
    obtain ⟨x, hx⟩ := Option.isSome_iff_exists.1 (enabled t 0 (.inr ho) ht (ng t))
    exact ⟨t, x, ht, ha, hx⟩
  | some u =>
    have hh := (r.owns u).2 ho
    have hi : s.loc u ≠ .idle := by intro h; rw [h] at hh; cases hh
    obtain ⟨x, hx⟩ := Option.isSome_iff_exists.1 (enabled u 0 (.inl hh) hi (ng u))
    refine ⟨u, x, hi, ?_, hx⟩
    intro h
    obtain ⟨v, h⟩ := w.asleep u h
    rw [h] at hh; cases hh

/-- C62: at most one thread is at a position with an access to the stored value, and it holds the lock; the steps at
all other positions neither depend on the value nor change it; what is unloaded has been loaded. -/
theorem race_free (s : State α) (hs : (sys α).Reachable s) (t u : Nat) :
    (usesData (s.loc t) = true → s.owner = some t) ∧
    (usesData (s.loc t) = true → usesData (s.loc u) = true → t = u) ∧
    (usesData (s.loc t) = false → ∀ c p, (sys α).move t c { s with data := p } =
      ((sys α).move t c s).map fun r => ({ r.1 with data := p }, r.2)) ∧
    s.loc t ≠ .garbage := by
  obtain ⟨g, r⟩ := related_reachable s hs
  have hp : ∀ t, usesData (s.loc t) = true → holds (s.loc t) = true := by
    intro t; cases s.loc t <;> simp [usesData, holds]
  refine ⟨fun h => (r.owns t).1 (hp t h), fun h1 h2 => r.owns.unique (hp t h1) (hp u h2), fun h c p => data_frame h p, ?_⟩
  intro hg
  have := r.data
  rw [r.owns.holder hg rfl] at this
  exact this

/-- A reachable state with a thread at such a position and another one waiting for the lock. -/
example : ∃ s, (sys Nat).Reachable s ∧ usesData (s.loc 0) = true ∧ (sys Nat).move 1 0 s = none ∧ s.loc 1 ≠ .idle := by
  refine ⟨_, ⟨begin 0 (.tryLoad 7) 3 ++ begin 1 (.load 8) 0, _, rfl⟩, rfl, rfl, ?_⟩
  intro h; cases h

end Verif.AirLock
