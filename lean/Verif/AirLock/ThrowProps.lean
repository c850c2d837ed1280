import Verif.AirLock.Props
import Verif.Conc.Without

/-
Exceptions in AirLock (C101, C102).
-/
namespace Verif.AirLock
open Verif.Conc

variable {α : Type}

/-! ### C101 calls that throw -/

/-- the call has thrown -/
def Out.isThrow : Out α → Bool
  | .threw => true
  | _ => false

/-- C101: in every execution, whatever calls throw, the history without the calls that threw is the history of a buffer
with one place: a call that throws has no effect.  Missing: element types for which an object loses its value when moving
it throws (`torn_violation`). -/
theorem throw_no_effect_partial (as : List (Act (Op α))) (s : State α) (h : List (Event (Op α) (Out α)))
    (e : (sys α).run (sys α).init as = some (s, h)) : Linearizable (spec α) (without Out.isThrow h) := by
  refine (linearizable as s h e).without ?_
  intro q op q' o hs ho
  cases op <;> cases q <;> simp only [spec, slot, Option.some.injEq, Prod.mk.injEq, reduceCtorEq] at hs <;>
    obtain ⟨rfl, rfl⟩ := hs <;> first | rfl | cases ho

/-- C101: a load whose value cannot be assigned throws when the slot is empty, an unload whose value cannot be moved throws
when it is full; and only these throw. -/
theorem throw_result (q : Option α) (op : Op α) (q' : Option α) (o : Out α) (h : slot q op = some (q', o)) :
    o = .threw ↔ ((op = .tryLoadX ∨ op = .loadX) ∧ q = none) ∨ ((op = .tryUnloadX ∨ op = .tryUnloadTorn) ∧ q ≠ none) := by
  cases op <;> cases q <;> simp only [slot, Option.some.injEq, Prod.mk.injEq, reduceCtorEq] at h <;>
    obtain ⟨rfl, rfl⟩ := h <;> simp

/-- C101: when no call is in progress the lock is free, whatever has thrown. -/
theorem throw_releases_lock (s : State α) (hs : (sys α).Reachable s) (hq : ∀ t, s.loc t = .idle ∨ asleep s t) :
    s.owner = none := by
  obtain ⟨g, r⟩ := related_reachable s hs
  cases ho : s.owner with
  | none => rfl
  | some t =>
    have := (r.owns t).2 ho
    rcases hq t with h | h
    · rw [h] at this; cases this
    · obtain ⟨v, h⟩ := (waits_reachable s hs).asleep t h
      rw [h] at this; cases this

/-- An execution in which a try_load, a load and a try_unload throw: the value loaded in between is unloaded afterwards. -/
example : ∃ s, (sys Nat).run (sys Nat).init (begin 0 .tryLoadX 6 ++ begin 1 .loadX 5 ++ begin 0 (.tryLoad 7) 7 ++
    begin 1 .tryUnloadX 6 ++ begin 1 .tryUnload 8) = some (s, [.call 0 .tryLoadX, .ret 0 .threw, .call 1 .loadX,
      .ret 1 .threw, .call 0 (.tryLoad 7), .ret 0 (.bool true), .call 1 .tryUnloadX, .ret 1 .threw, .call 1 .tryUnload,
      .ret 1 (.val (some 7))]) := ⟨_, rfl⟩

theorem upd_upd {β : Type} (f : Nat → β) (t : Nat) (x y : β) : upd (upd f t x) t y = upd f t y := by
  funext u; simp only [upd]; split <;> rfl

/-- C101 fails for other element types: whenever the slot is full and no call is in progress, a try_unload that throws in
the middle of moving the value leaves the airlock loaded with an object that has lost its value, and the next try_unload
hands this object out. -/
theorem torn_violation (s : State α) (t : Nat) (ht : s.loc t = .idle) (ho : s.owner = none) (hl : s.loaded = true) :
    (sysTorn α).run s (begin t .tryUnloadTorn 6) = some ({ s with data := none }, [.call t .tryUnloadTorn, .ret t .threw]) ∧
    (sysTorn α).run { s with data := none } (begin t .tryUnload 4) =
      some ({ s with data := none, owner := some t, loc := upd s.loc t .garbage }, [.call t .tryUnload]) := by
  obtain ⟨ld, dt, ow, wt, lc⟩ := s
  simp only at ht ho hl
  subst ho hl
  constructor
  · simp [begin, Sys.run, Sys.exec, sysTorn, State.call, State.start, State.goto, State.stepAt, State.lock, State.unlock,
      List.replicate, upd_same, upd_upd, ht]
    rw [← ht, upd_self]
  · simp [begin, Sys.run, Sys.exec, sysTorn, State.call, State.start, State.goto, State.stepAt, State.lock, List.replicate,
      upd_same, upd_upd, ht]

/-- A reachable state like this. -/
example : ∃ s, (sysTorn Nat).Reachable s ∧ s.loc 0 = .idle ∧ s.owner = none ∧ s.loaded = true :=
  ⟨_, ⟨begin 0 (.tryLoad 7) 7, _, rfl⟩, rfl, rfl, rfl⟩

/-! ### C102 wake-ups -/

/-- C102: whatever other calls throw, as long as no load throws after having waited: if the slot is empty and threads
sleep in load, then a loader is awake and on its way to the slot, or an unloader is about to notify.  Missing: loads that
throw after having waited (`throw_lost_wakeup_violation`). -/
theorem throw_wakeup_partial (s : State α) (hs : (sysWake α).Reachable s) (he : s.loaded = false) (t : Nat)
    (ht : asleep s t) : ∃ u, awakeLoader s u ∨ willNotify s u :=
  (wakes_reachable s hs).coming rfl he (by intro h; simp [asleep, h] at ht)

/-- C102: when nothing but sleeping is going on in such an execution, nobody sleeps beside an empty slot. -/
theorem throw_wakeup_quiescent_partial (s : State α) (hs : (sysWake α).Reachable s)
    (hq : ∀ t, s.loc t = .idle ∨ asleep s t) (t : Nat) (ht : asleep s t) : s.loaded = true := by
  have w := wakes_reachable s hs
  cases he : s.loaded with
  | true => rfl
  | false =>
    obtain ⟨u, hu⟩ := throw_wakeup_partial s hs he t ht
    rcases hq u with h | h
    · simp [awakeLoader, willNotify, h] at hu
    · obtain ⟨v, h'⟩ := w.asleep u h
      rcases hu with hu | hu
      · exact absurd h hu.1
      · simp [willNotify, h'] at hu

/-- Such an execution: a loader sleeps, an unload throws, an unload empties the slot, another load throws before the
sleeping thread is notified. -/
example : ∃ s, (sysWake Nat).Reachable s ∧ s.loaded = false ∧ asleep s 1 := by
  refine ⟨_, ⟨begin 0 (.tryLoad 7) 7 ++ begin 1 (.load 8) 4 ++ begin 0 .tryUnloadX 6 ++ begin 2 .tryLoadX 2 ++
    begin 0 .tryUnload 5, _, rfl⟩, rfl, ?_⟩
  show 1 ∈ [1]
  simp

/-- the calls of a schedule that throws a wake-up away: thread 1 and thread 2 wait in load, thread 0 unloads and wakes
thread 2, whose load throws -/
def lossy : List (Act (Op Nat)) :=
  begin 0 (.tryLoad 7) 7 ++ begin 1 (.load 8) 4 ++ begin 2 .loadX 4 ++ begin 0 .tryUnload 8 ++ List.replicate 6 (.move 2 0)

/-- C102 fails when a load throws after having waited: the wake-up it has received is lost.  A reachable state in which
the slot is empty, no call is in progress but one load, and this one sleeps. -/
theorem throw_lost_wakeup_violation : ∃ s h, (sys Nat).run (sys Nat).init lossy = some (s, h) ∧ s.loaded = false ∧
    asleep s 1 ∧ (∀ t, t ≠ 1 → s.loc t = .idle) ∧ h = [.call 0 (.tryLoad 7), .ret 0 (.bool true), .call 1 (.load 8),
      .call 2 .loadX, .call 0 .tryUnload, .ret 0 (.val (some 7)), .ret 2 .threw] := by
  refine ⟨_, _, rfl, rfl, ?_, ?_, rfl⟩
  · show 1 ∈ [1]
    simp
  · intro t ht
    by_cases h0 : t = 0
    · subst h0; rfl
    · by_cases h2 : t = 2
      · subst h2; rfl
      · simp [upd, State.goto, State.unlock, ht, h0, h2, State.init, sys]

/-- Is the thread in a call of try_unload? -/
def unloading : Loc α → Bool
  | .uRead _ | .uLock _ | .uTest _ | .uData _ | .uFlag _ | .uNotify _ => true
  | _ => false

/-- the calls that may unload -/
def Op.unloads : Op α → Bool
  | .tryUnload | .tryUnloadX | .tryUnloadTorn => true
  | _ => false

theorem unloading_move {s s' : State α} {u c : Nat} {o : Option (Out α)} (hf : ∀ u, unloading (s.loc u) = false)
    (h : s.stepAt u c (s.loc u) = some (s', o)) :
    (∀ u, unloading (s'.loc u) = false) ∧ ∀ t, t ≠ u → t ∈ s.waiting → t ∈ s'.waiting := by
  have hft := hf u
  suffices ∃ l', s'.loc = upd s.loc u l' ∧ unloading l' = false ∧ ∀ t, t ≠ u → t ∈ s.waiting → t ∈ s'.waiting by
    obtain ⟨l', h1, h2, h3⟩ := this
    refine ⟨fun v => ?_, h3⟩
    rw [h1]
    by_cases hv : v = u
    · subst hv; rw [upd_same]; exact h2
    · rw [upd_ne _ _ hv]; exact hf v
  generalize s.loc u = l at h hft
  cases l <;> (try (rename_i v; cases v)) <;>
    simp only [State.stepAt, Option.map_eq_some_iff, reduceCtorEq, unloading] at h hft <;>
    first
    | (cases h
       refine ⟨_, rfl, ?_, ?_⟩
       · first | rfl | (split <;> rfl)
       · intro t ht hm; first | exact hm | exact List.mem_cons_of_mem _ hm | exact (List.mem_erase_of_ne ht).2 hm)
    | (obtain ⟨s1, h, e⟩ := h; cases e
       obtain ⟨h1, rfl⟩ := lock_some h
       exact ⟨_, rfl, rfl, fun _ _ hm => hm⟩)
    | (cases hft; done)

/-- C102: such a wake-up is not made up for: from a state in which nobody is unloading, a thread asleep in load stays
asleep through all calls of the other threads that are not try_unload (it can only wake up spuriously). -/
theorem throw_lost_wakeup_stays (as : List (Act (Op α))) (t : Nat) : ∀ (s s' : State α) (h : List (Event (Op α) (Out α))),
    (∀ u, unloading (s.loc u) = false) → asleep s t → (∀ op ∈ calls as, op.unloads = false) → (∀ c, .move t c ∉ as) →
    (sys α).run s as = some (s', h) → asleep s' t := by
  induction as with
  | nil => intro s s' h _ ha _ _ e; cases e; exact ha
  | cons a as ih =>
    intro s s' h hf ha hc hm e
    simp only [Sys.run, Option.bind_eq_some_iff, Option.map_eq_some_iff] at e
    obtain ⟨⟨s1, h1⟩, e1, ⟨s2, h2⟩, e2, e3⟩ := e
    cases e3
    cases a with
    | call u op =>
      simp only [Sys.exec, Option.map_eq_some_iff] at e1
      obtain ⟨s3, e1, e4⟩ := e1
      cases e4
      have e1 := (sys_call e1).2
      simp only [State.call] at e1
      split at e1
      · cases e1
        refine ih _ _ _ ?_ ?_ (fun op h => hc op (by simp [calls, h])) (fun c h => hm c (by simp [h])) e2
        · intro v
          simp only [State.goto]
          by_cases hv : v = u
          · subst hv; rw [upd_same]
            have := hc op (by simp [calls])
            cases op <;> first | rfl | cases this
          · rw [upd_ne _ _ hv]; exact hf v
        · exact ha
      · cases e1
    | move u c =>
      simp only [Sys.exec, Option.map_eq_some_iff] at e1
      obtain ⟨⟨s3, o⟩, e1, e4⟩ := e1
      cases e4
      obtain ⟨h3, h4⟩ := unloading_move hf e1
      refine ih _ _ _ h3 (h4 t ?_ ha) (fun op h => hc op (by simpa [calls] using h)) (fun c h => hm c (by simp [h])) e2
      rintro rfl
      exact hm c (by simp)

/-- After the schedule above, a further load fills the slot, and thread 1 still sleeps. -/
example : ∃ s h, (sys Nat).run (sys Nat).init (lossy ++ begin 0 (.load 9) 6) = some (s, h) ∧ asleep s 1 ∧
    s.data = some 9 := by
  refine ⟨_, _, rfl, ?_, rfl⟩
  show 1 ∈ [1]
  simp

end Verif.AirLock
