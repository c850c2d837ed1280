import Verif.Conc.Progress
import Verif.SimpleQueue.Props

/-
C122 for SimpleQueue: in fair infinite executions every call returns.
-/
namespace Verif.SimpleQueue
open Verif.Conc State

variable {α : Type}

/-- the lock that a thread at this position has to take: 0 is m_pushLock, 1 is m_pullLock -/
def want : Loc α → Option Nat
  | .pLock _ | .pLock2 _ | .oCheck .lock _ | .sLock2 | .cLock2 | .rLock2 | .aLock2 _ => some 0
  | .pLockPull _ | .oLock _ | .kLock _ | .sLock1 | .cLock1 | .rLock1 | .aLock1 _ => some 1
  | _ => none

/-- the locks held at a position -/
def holds (l : Loc α) : Nat → Prop
  | 0 => holdsPush l = true
  | 1 => holdsPull l = true
  | _ => False

/-- the owners of the locks -/
def owner (s : State α) : Nat → Option Nat
  | 0 => s.pushOwner
  | 1 => s.pullOwner
  | _ => none

theorem goes {s : State α} (t : Nat) {l : Loc α} (h : ∀ k, want l = some k → owner s k = none) (h1 : l ≠ .idle) (h2 : l ≠ .crash) :
    (s.stepAt t l).isSome = true := by
  cases l with
  | oCheck c r =>
    cases c <;> simp [State.stepAt]
    have : s.pushOwner = none := h 0 rfl
    simp [State.lockPush, this]
  | idle => exact absurd rfl h1
  | crash => exact absurd rfl h2
  | _ => first | rfl | (have := h _ rfl; simp only [owner] at this; simp [State.stepAt, State.lockPush, State.lockPull, this])

theorem step_ends {s s' : State α} {t : Nat} {l : Loc α} {o : Option (Out α)} (h : s.stepAt t l = some (s', o)) (hl : s'.loc t = .idle) :
    ∃ r, o = some r := by
  cases o with
  | some r => exact ⟨r, rfl⟩
  | none =>
    exfalso
    cases l with
    | oCheck c r =>
      cases c <;> simp only [State.stepAt, Option.map_eq_some_iff] at h
      case lock =>
        obtain ⟨s1, h, e⟩ := h; cases e
        obtain ⟨h1, rfl⟩ := lockPush_some h
        simp only [State.goto, upd_same] at hl; cases hl
      all_goals
        cases h
        simp only [State.goto, State.unlockPush, upd_same] at hl
        cases r <;> (try split at hl) <;> simp [State.afterCheck] at hl
    | oBack x | kBack x =>
      cases h
      simp only [State.goto, upd_same] at hl
      split at hl <;> (try split at hl) <;> cases hl
    | _ =>
      simp only [State.stepAt, Option.map_eq_some_iff] at h
      first
      | (cases h; done)
      | (cases h; simp only [State.goto, State.unlockPush, State.unlockPull, upd_same] at hl; cases hl; done)
      | (cases h; split at hl <;> simp only [State.goto, State.unlockPush, State.unlockPull, upd_same] at hl <;> cases hl; done)
      | (cases h; simp only [State.goto, State.unlockPush, State.unlockPull, upd_same] at hl; split at hl <;> cases hl; done)
      | (obtain ⟨s1, h, e⟩ := h; cases e
         obtain ⟨h1, rfl⟩ := lockPush_some h
         simp only [State.goto, upd_same] at hl; cases hl; done)
      | (obtain ⟨s1, h, e⟩ := h; cases e
         obtain ⟨h1, rfl⟩ := lockPull_some h
         simp only [State.goto, upd_same] at hl; cases hl; done)

/-- the locks of SimpleQueue -/
def guards (α : Type) : Guards (sys α) (Loc α) where
  loc := State.loc
  rest := .idle
  sleep _ := False
  waits _ _ := False
  want := want
  holds := holds
  owner := owner
  rank s t := (rank (s.loc t), 0)
  held s k u hs := by
    have := locks_reachable s hs
    match k with
    | 0 => exact this.push u
    | 1 => exact this.pull u
    | k + 2 => simp [holds, owner]
  goes s t hs hr hw := ⟨0, goes t hw hr (no_crash s hs t)⟩
  order l k j hw hh := by
    match j with
    | 0 => cases l <;> first | (cases hh; done) | (cases hw; done) | (rename_i c r; cases c <;> first | (cases hh; done) | (cases hw; done))
    | 1 => cases l <;> first | (cases hh; done) | (cases hw; done) | (cases hw; omega) | (rename_i c r; cases c <;> first | (cases hh; done) | (cases hw; done) | (cases hw; omega))
    | j + 2 => cases hh
  other s t c s' o h u hu := by
    obtain ⟨l', h1, h2⟩ := step_rank (l := s.loc t) h
    rw [h1, upd_ne _ _ hu]
  fresh _ := rfl
  called s t op s' h := by
    simp only [sys, State.call] at h
    split at h
    · rename_i hl
      cases h
      refine ⟨hl, ?_, fun u hu => upd_ne _ _ hu⟩
      show upd s.loc t (start op) t ≠ _
      rw [upd_same]
      cases op <;> simp [start]
    · cases h
  lower s t c s' o _ h _ := by
    obtain ⟨l', h1, h2⟩ := step_rank (l := s.loc t) h
    refine .inl ?_
    rw [h1, upd_same]; exact h2
  steady s a s' x t _ h ha hr := by
    cases a with
    | call u op =>
      simp only [Sys.exec, Option.map_eq_some_iff] at h
      obtain ⟨s1, e1, e2⟩ := h
      cases e2
      simp only [sys, State.call] at e1
      split at e1
      · rename_i hl
        cases e1
        have : t ≠ u := by rintro rfl; exact hr hl
        simp only [State.goto, upd_ne _ _ this]
      · cases e1
    | move u c =>
      simp only [Sys.exec, Option.map_eq_some_iff] at h
      obtain ⟨⟨s1, o⟩, e1, e2⟩ := h
      cases e2
      obtain ⟨l', h1, h2⟩ := step_rank (l := s.loc u) e1
      have : t ≠ u := by rintro rfl; exact ha c rfl
      simp only [h1, upd_ne _ _ this]
  busy l k hh := by
    refine ⟨?_, not_false⟩
    rintro rfl
    match k with
    | 0 | 1 | k + 2 => cases hh
  gains s t c s' o k v hs h ho hv := by
    have st := stepAt_locks' (locks_reachable s hs) rfl h
    match k with
    | 0 =>
      simp only [owner] at ho ⊢
      rw [st.push] at ho
      split at ho
      · cases ho; exact absurd rfl hv
      · split at ho
        · cases ho
        · exact ho
    | 1 =>
      simp only [owner] at ho ⊢
      rw [st.pull] at ho
      split at ho
      · cases ho; exact absurd rfl hv
      · split at ho
        · cases ho
        · exact ho
    | k + 2 => cases ho
  asleep _ _ _ h := h
  falls _ _ _ _ _ _ h := h.elim
  ends s t c s' o h hl := step_ends h hl

/-- C122: in every infinite execution in which a thread that can take a step again and again does so, every call returns. -/
theorem every_call_returns (E : Infinite (sys α)) (hf : E.Fair) (i t : Nat) (op : Op α) (h : E.act i = .call t op) :
    ∃ j, i < j ∧ ∃ o, E.out j = [.ret t o] := by
  obtain ⟨hl, _⟩ := (guards α).begun h
  obtain ⟨j, h1, o, h2⟩ := (guards α).returns (E := E) (E.fairTo_iff.2 hf) (fun _ => True) (fun _ _ h => h) (fun _ _ _ _ _ _ _ _ => .inl trivial) hl trivial
  exact ⟨j, by omega, o, h2⟩

/-- Every finite execution is the beginning of such an infinite one. -/
theorem extends_fair (as : List (Act (Op α))) {s : State α} {h : List (Event (Op α) (Out α))} (e : (sys α).run (sys α).init as = some (s, h)) :
    ∃ E : Infinite (sys α), E.Fair ∧ E.sched 0 as.length = as ∧ E.st as.length = s := by
  obtain ⟨E, h1, h2, h3, _⟩ := (guards α).extends_fair (op := .empty) (fun s t h => by
    have h : s.loc t = .idle := h
    simp [sys, State.call, h]) as e
  exact ⟨E, h1, h2, h3⟩

/-- `every_call_returns`: three threads have begun calls, one of them holds a lock that another one wants -/
example : ∃ E : Infinite (sys Nat), E.Fair ∧ E.act 0 = .call 0 (.ins (.push 7)) ∧ E.act 6 = .call 1 .pop ∧ E.act 8 = .call 2 .clear ∧
    (E.st 9).pullOwner = some 0 := by
  obtain ⟨E, h1, h2, h3⟩ := extends_fair (alone 0 (.ins (.push 7)) 5 ++ alone 1 .pop 0 ++ [.move 0 0] ++ alone 2 .clear 0) rfl
  simp only [alone, List.replicate, List.cons_append, List.nil_append, List.length_cons, List.length_nil, Infinite.sched,
    List.cons.injEq] at h2
  exact ⟨E, h1, h2.1, h2.2.2.2.2.2.2.1, h2.2.2.2.2.2.2.2.2.1, by rw [show E.st 9 = _ from h3]; rfl⟩

end Verif.SimpleQueue
