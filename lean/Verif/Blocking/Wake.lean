import Verif.Blocking.Free

/-
The blocking queues: no lost wake-up if one thread makes all the calls that may wait.
-/
namespace Verif.Blocking
open Verif.Conc

variable {α : Type} {s s' : State α} {t c : Nat} {w b : Bool}

/-- The thread is on its way to notify_all: push and emplace after having found the flag set, likewise pushPriority and
emplacePriority. -/
def notifies : Loc α → Bool
  | .pUnlock i | .pLockPull i | .pFlag i | .pTestPull i | .pPull i | .pLock2 i | .pPush2 i
  | .fLock i | .fFlag i | .fPush i => !i.throws
  | .pNotify _ | .fNotify => true
  | _ => false

/-- The thread may have made the queue empty, and will set the flag or refill pullElements. -/
def fixing : Loc α → Bool
  | .oCheck .test _ (some _) | .oCheck .lock _ (some _) | .oCheck .testPush _ (some _) | .oCheck .swap _ (some _)
  | .oCheck .setFlag _ (some _) | .cPush | .cPrio | .cFlag => true
  | _ => false

/-- between try_pop having found nothing and the wait -/
def drowsy : Loc α → Bool
  | .oCheck .unlockFlag _ none | .oTest _ | .oUnPull _ none | .wCall _ | .wLock _ | .wPrio _ none | .wTest _ none | .wEnter _ => true
  | _ => false

/-- the flag is set or somebody is about to notify -/
def Alert (s : State α) : Prop := s.flag = true ∨ ∃ u, notifies (s.loc u) = true

/-- or there is something to be found -/
def Aware (s : State α) : Prop := Alert s ∨ s.pull ≠ [] ∨ s.prio ≠ [] ∨ ∃ u, fixing (s.loc u) = true

/-- what a step does to this -/
structure Eff5 (s s' : State α) (l l' : Loc α) : Prop where
  flag : s'.flag = s.flag ∨ s'.flag = true ∨ notifies l' = true
  notify : notifies l = true → notifies l' = true ∨ (s'.pull ≠ [] ∨ s'.prio ≠ []) ∧ s'.waiting = []
  pull : s.pull ≠ [] → s'.pull ≠ [] ∨ fixing l' = true ∨ cls l = 7
  prio : s.prio ≠ [] → s'.prio ≠ [] ∨ fixing l' = true ∨ cls l = 7 ∨ (b = true ∧ cls l = 6)
  fixing : fixing l = true → fixing l' = true ∨ s'.flag = true ∨ s'.pull ≠ []

/-- a wait within try_pop: does not happen -/
def wTry : Loc α → Bool
  | .wLock (.try _) | .wPrio (.try _) _ | .wPFront (.try _) | .wPPop (.try _) _ | .wTest (.try _) _ | .wBack (.try _)
  | .wPop (.try _) _ | .wEnter (.try _) | .wSleep (.try _) | .wRelock (.try _) _ | .wUnlock (.try _) _ => true
  | _ => false

theorem wTry_afterTry (k : Kind) (r : Option α) : wTry (State.afterTry k r) = false := by
  cases r with
  | some x => cases k <;> rfl
  | none =>
    rcases k with f | f | ⟨f, d⟩ | f <;> try cases d
    all_goals rfl

/-- an insertion that will throw -/
def throwing : Loc α → Bool
  | .pLock i | .pTest i | .pCas i | .pUnlock i | .pLockPull i | .pFlag i | .pTestPull i | .pPull i | .pLock2 i | .pPush2 i
  | .pAppend i | .pAppend0 i | .fCas i | .fLock i | .fFlag i | .fPush i | .gLock i | .gPush i => i.throws
  | _ => false

theorem throwing_afterTry (k : Kind) (r : Option α) : throwing (State.afterTry k r) = false := by
  cases r with
  | some x => cases k <;> rfl
  | none =>
    rcases k with f | f | ⟨f, d⟩ | f <;> try cases d
    all_goals rfl

/-- a thread does not begin to throw -/
theorem stepAt_throwing {l : Loc α} {o : Option (Out α)} (h : s.stepAt b t c l = some (s', o)) (hx : throwing l = false) :
    throwing (s'.loc t) = false := by
  have pL : ∀ (l' : Loc α), throwing l' = false → (s.lockPull t l').map (·, (none : Option (Out α))) = some (s', o) →
      throwing (s'.loc t) = false := by
    intro l' hn hx
    simp only [Option.map_eq_some_iff] at hx
    obtain ⟨s1, e1, e2⟩ := hx; cases e2
    obtain ⟨_, rfl⟩ := lockPull_some e1
    simp only [upd_same]; exact hn
  have pU : ∀ (l' : Loc α), throwing l' = false → (s.lockPush t l').map (·, (none : Option (Out α))) = some (s', o) →
      throwing (s'.loc t) = false := by
    intro l' hn hx
    simp only [Option.map_eq_some_iff] at hx
    obtain ⟨s1, e1, e2⟩ := hx; cases e2
    obtain ⟨_, rfl⟩ := lockPush_some e1
    simp only [upd_same]; exact hn
  cases l with
  | oCheck ck k r =>
    cases ck with
    | lock => exact pU _ rfl h
    | _ =>
      cases h; simp only [State.goto, State.unlockPush, upd_same]
      cases r <;> first | rfl | (split <;> rfl)
  | oUnPull k r => cases h; simp only [State.goto, State.unlockPull, upd_same]; exact throwing_afterTry k r
  | oLock k => cases b <;> exact pL _ rfl h
  | wLock k => cases b <;> exact pL _ rfl h
  | wRelock k d => cases b <;> exact pL _ rfl h
  | oPFront k => cases h; simp only [State.goto, upd_same]; exact moveOut_ind (P := (throwing · = false)) (next := .oPPop k) k _ rfl rfl (fun _ => rfl)
  | oBack k => cases h; simp only [State.goto, upd_same]; exact moveOut_ind (P := (throwing · = false)) (next := .oPop k) k _ rfl rfl (fun _ => rfl)
  | wPFront k => cases h; simp only [State.goto, upd_same]; exact moveOut_ind (P := (throwing · = false)) (next := .wPPop k) k _ rfl rfl (fun _ => rfl)
  | wBack k => cases h; simp only [State.goto, upd_same]; exact moveOut_ind (P := (throwing · = false)) (next := .wPop k) k _ rfl rfl (fun _ => rfl)
  | kPFront d => cases h; simp only [State.goto, upd_same]; cases d <;> split <;> rfl
  | kBack d => cases h; simp only [State.goto, upd_same]; cases d <;> split <;> rfl
  | kLock d => cases b <;> exact pL _ rfl h
  | wTest k d => cases h; simp only [State.goto, upd_same]; cases d <;> split <;> rfl
  | cPush => cases h; simp only [State.goto, upd_same]; cases b <;> rfl
  | _ =>
    first
    | exact pU _ rfl h
    | exact pL _ rfl h
    | exact pU _ (by exact hx) h
    | exact pL _ (by exact hx) h
    | (cases h; done)
    | (cases h; simp only [State.goto, State.unlockPush, State.unlockPull, upd_same]; first | rfl | exact hx | (split <;> first | rfl | exact hx))
    | (simp only [State.stepAt] at h; split at h <;> cases h <;> simp only [State.goto, upd_same] <;> first | rfl | exact hx)
    | (simp only [State.stepAt, Option.some.injEq, Prod.mk.injEq] at h; obtain ⟨rfl, _⟩ := h; split <;> simp only [State.goto, upd_same] <;> first | rfl | exact hx)

theorem stepAt_wTry {l : Loc α} {o : Option (Out α)} (h : s.stepAt b t c l = some (s', o)) (hw : wTry l = false) :
    wTry (s'.loc t) = false := by
  have pL : ∀ (l' : Loc α), wTry l' = false → (s.lockPull t l').map (·, (none : Option (Out α))) = some (s', o) →
      wTry (s'.loc t) = false := by
    intro l' hn hx
    simp only [Option.map_eq_some_iff] at hx
    obtain ⟨s1, e1, e2⟩ := hx; cases e2
    obtain ⟨_, rfl⟩ := lockPull_some e1; simp only [upd_same]; exact hn
  have pU : ∀ (l' : Loc α), wTry l' = false → (s.lockPush t l').map (·, (none : Option (Out α))) = some (s', o) →
      wTry (s'.loc t) = false := by
    intro l' hn hx
    simp only [Option.map_eq_some_iff] at hx
    obtain ⟨s1, e1, e2⟩ := hx; cases e2
    obtain ⟨_, rfl⟩ := lockPush_some e1; simp only [upd_same]; exact hn
  cases l with
  | oCheck ck k r =>
    cases ck with
    | lock => exact pU _ rfl h
    | _ =>
      cases h
      simp only [State.goto, State.unlockPush, upd_same]
      cases r <;> first | rfl | (split <;> rfl)
  | oUnPull k r => cases h; simp only [State.goto, State.unlockPull, upd_same]; exact wTry_afterTry k r
  | oLock k => cases b <;> exact pL _ rfl h
  | oPFront k => cases h; simp only [State.goto, upd_same]; exact moveOut_ind (P := (wTry · = false)) (next := .oPPop k) k _ rfl rfl (fun _ => rfl)
  | oBack k => cases h; simp only [State.goto, upd_same]; exact moveOut_ind (P := (wTry · = false)) (next := .oPop k) k _ rfl rfl (fun _ => rfl)
  | kPFront d => cases h; simp only [State.goto, upd_same]; cases d <;> split <;> rfl
  | kBack d => cases h; simp only [State.goto, upd_same]; cases d <;> split <;> rfl
  | kLock d => cases b <;> exact pL _ rfl h
  | wLock k => cases b <;> (refine pL _ ?_ h; cases k <;> first | rfl | exact hw)
  | wRelock k d => cases b <;> (refine pL _ ?_ h; cases k <;> first | rfl | exact hw)
  | wTest k d =>
    cases h; simp only [State.goto, upd_same]
    cases k <;> cases d <;> first | (split <;> rfl) | cases hw
  | wPrio k d =>
    cases h; simp only [State.goto, upd_same]
    cases k <;> first | (split <;> rfl) | cases hw
  | wPFront k =>
    cases h; simp only [State.goto, upd_same]
    exact moveOut_ind (P := (wTry · = false)) (next := .wPPop k) k _ rfl rfl (fun _ => by cases k <;> first | rfl | cases hw)
  | wBack k =>
    cases h; simp only [State.goto, upd_same]
    exact moveOut_ind (P := (wTry · = false)) (next := .wPop k) k _ rfl rfl (fun _ => by cases k <;> first | rfl | cases hw)
  | wCall f => cases h; simp only [State.goto, upd_same]; split <;> rfl
  | wEnter k => cases h; simp only [State.goto, State.unlockPull, upd_same]; cases k <;> first | rfl | exact hw
  | wSleep k => cases h; simp only [State.goto, upd_same]; cases k <;> first | rfl | exact hw
  | _ =>
    first
    | exact pU _ rfl h
    | exact pL _ rfl h
    | (cases h; done)
    | (cases h; simp only [State.goto, State.unlockPush, State.unlockPull, upd_same]; first | rfl | (split <;> rfl))
    | (simp only [State.stepAt] at h; split at h <;> cases h <;> simp only [State.goto, upd_same] <;> rfl)

theorem stepAt_eff {l : Loc α} {o : Option (Out α)} (i : Inv b s) (hw : wTry l = false) (hx : throwing l = false) (hl : s.loc t = l) (h : s.stepAt b t c l = some (s', o)) :
    Eff5 (b := b) s s' l (s'.loc t) := by
  have hown : holdsPull l = true → s.puller = some l := i.locks.puller_eq hl
  have hfa := i.facts
  have hoff : noFlag l = true → s.flag = false := fun h => i.flag.off t (by rw [hl]; exact h)
  have triv : ∀ l', s'.flag = s.flag → s'.pull = s.pull → s'.prio = s.prio → s'.loc t = l' → (notifies l = true → notifies l' = true) →
      (fixing l = true → fixing l' = true) → Eff5 (b := b) s s' l (s'.loc t) := by
    intro l' e1 e2 e3 e4 h1 h2
    rw [e4]
    exact ⟨.inl e1, fun h => .inl (h1 h), fun h => .inl (by rw [e2]; exact h), fun h => .inl (by rw [e3]; exact h), fun h => .inl (h2 h)⟩
  have pL : ∀ (l' : Loc α), (notifies l = true → notifies l' = true) → (fixing l = true → fixing l' = true) →
      (s.lockPull t l').map (·, (none : Option (Out α))) = some (s', o) → Eff5 (b := b) s s' l (s'.loc t) := by
    intro l' h1 h2 hx
    simp only [Option.map_eq_some_iff] at hx
    obtain ⟨s1, e1, e2⟩ := hx; cases e2
    obtain ⟨_, rfl⟩ := lockPull_some e1
    exact triv l' rfl rfl rfl (upd_same _ _ _) h1 h2
  have pU : ∀ (l' : Loc α), (notifies l = true → notifies l' = true) → (fixing l = true → fixing l' = true) →
      (s.lockPush t l').map (·, (none : Option (Out α))) = some (s', o) → Eff5 (b := b) s s' l (s'.loc t) := by
    intro l' h1 h2 hx
    simp only [Option.map_eq_some_iff] at hx
    obtain ⟨s1, e1, e2⟩ := hx; cases e2
    obtain ⟨_, rfl⟩ := lockPush_some e1
    exact triv l' rfl rfl rfl (upd_same _ _ _) h1 h2
  have ht : ∀ {j : Ins α}, j.throws = false → (!j.throws) = true := fun h => by rw [h]; rfl
  cases l with
  | pCas j =>
    cases hf : s.flag <;> simp only [State.stepAt, hf, Bool.false_eq_true, if_false, if_true] at h <;> cases h
    · exact triv _ rfl rfl rfl (upd_same _ _ _) (fun h => h) (fun h => h)
    · simp only [State.goto, upd_same]
      exact ⟨.inr (.inr (ht hx)), fun h => (by cases h), .inl, .inl, fun h => (by cases h)⟩
  | pCas2 =>
    have hf := hoff rfl
    simp only [State.stepAt, hf, Bool.false_eq_true, if_false, if_true] at h; cases h
    exact triv _ rfl rfl rfl (upd_same _ _ _) (fun h => h) (fun h => h)
  | fCas j =>
    cases hf : s.flag <;> simp only [State.stepAt, hf, Bool.false_eq_true, if_false, if_true] at h <;> cases h
    · exact triv _ rfl rfl rfl (upd_same _ _ _) (fun h => h) (fun h => h)
    · simp only [State.goto, upd_same]
      exact ⟨.inr (.inr (ht hx)), fun h => (by cases h), .inl, .inl, fun h => (by cases h)⟩
  | gCas j =>
    cases hf : s.flag <;> simp only [State.stepAt, hf, Bool.false_eq_true, if_false, if_true] at h <;> cases h
    · exact triv _ rfl rfl rfl (upd_same _ _ _) (fun h => h) (fun h => h)
    · simp only [State.goto, upd_same]
      exact ⟨.inr (.inr rfl), fun h => (by cases h), .inl, .inl, fun h => (by cases h)⟩
  | pFlag j =>
    cases h
    simp only [State.goto, upd_same]
    exact ⟨.inr (.inr (ht hx)), fun h => .inl (ht hx), .inl, .inl, fun h => (by cases h)⟩
  | fFlag j =>
    cases h
    simp only [State.goto, upd_same]
    exact ⟨.inr (.inr (ht hx)), fun h => .inl (ht hx), .inl, .inl, fun h => (by cases h)⟩
  | pTestPull j =>
    cases h
    exact triv _ rfl rfl rfl (upd_same _ _ _) (fun _ => by split <;> exact ht hx) (fun h => (by cases h))
  | pPull j =>
    simp only [State.stepAt, show j.throws = false from hx, Bool.false_eq_true, if_false] at h
    cases h
    simp only [State.goto, upd_same]
    exact ⟨.inl rfl, fun _ => .inl rfl, fun _ => .inl (by simp), .inl, fun h => (by cases h)⟩
  | pNotify d =>
    rw [hown rfl] at hfa
    cases h
    simp only [State.goto, upd_same]
    exact ⟨.inl rfl, fun _ => .inr ⟨.inl hfa, rfl⟩, .inl, .inl, fun h => (by cases h)⟩
  | pPush2 j =>
    simp only [State.stepAt, show j.throws = false from hx, Bool.false_eq_true, if_false] at h
    cases h
    exact triv _ rfl rfl rfl (upd_same _ _ _) (fun _ => rfl) (fun h => (by cases h))
  | pAppend j =>
    simp only [State.stepAt, show j.throws = false from hx, Bool.false_eq_true, if_false] at h
    cases h
    exact triv _ rfl rfl rfl (upd_same _ _ _) (fun h => (by cases h)) (fun h => (by cases h))
  | pAppend0 j =>
    simp only [State.stepAt, show j.throws = false from hx, Bool.false_eq_true, if_false] at h
    cases h
    exact triv _ rfl rfl rfl (upd_same _ _ _) (fun h => (by cases h)) (fun h => (by cases h))
  | fPush j =>
    simp only [State.stepAt, show j.throws = false from hx, Bool.false_eq_true, if_false] at h
    cases h
    simp only [State.goto, upd_same]
    exact ⟨.inl rfl, fun _ => .inl rfl, .inl, fun _ => .inl (by simp), fun h => (by cases h)⟩
  | gPush j =>
    simp only [State.stepAt, show j.throws = false from hx, Bool.false_eq_true, if_false] at h
    cases h
    simp only [State.goto, upd_same]
    exact ⟨.inl rfl, fun h => (by cases h), .inl, fun _ => .inl (by simp), fun h => (by cases h)⟩
  | fNotify =>
    rw [hown rfl] at hfa
    cases h
    simp only [State.goto, upd_same]
    exact ⟨.inl rfl, fun _ => .inr ⟨.inr hfa, rfl⟩, .inl, .inl, fun h => (by cases h)⟩
  | oCheck ck k r =>
    rw [hown rfl] at hfa
    cases ck with
    | test =>
      cases h
      simp only [State.goto, upd_same]
      refine ⟨.inl rfl, fun h => (by cases h), .inl, .inl, fun h => ?_⟩
      cases r with
      | none => cases h
      | some x =>
        cases hp : s.pull with
        | nil => exact .inl rfl
        | cons y ys => exact .inr (.inr (by simp))
    | lock => exact pU _ (fun h => (by cases h)) (by cases r <;> exact fun h => h) h
    | testPush =>
      cases h
      refine triv _ rfl rfl rfl (upd_same _ _ _) (fun h => (by cases h)) (fun h => ?_)
      cases r with
      | none => cases h
      | some x => split <;> rfl
    | swap =>
      cases h
      exact ⟨.inl rfl, fun h => (by cases h), fun h => absurd hfa.2.1 h, .inl, fun h => .inr (.inr hfa.2.2)⟩
    | unlockSwap => cases h; exact triv _ rfl rfl rfl (upd_same _ _ _) (fun h => (by cases h)) (by cases r <;> exact fun h => (by cases h))
    | reverse =>
      cases h
      simp only [State.goto, upd_same]
      exact ⟨.inl rfl, fun h => (by cases h), fun h => .inl (by simpa using h), .inl, by cases r <;> exact fun h => (by cases h)⟩
    | setFlag =>
      cases h
      exact ⟨.inr (.inl rfl), fun h => (by cases h), .inl, .inl, fun h => .inr (.inl rfl)⟩
    | unlockFlag => cases h; exact triv _ rfl rfl rfl (upd_same _ _ _) (fun h => (by cases h)) (by cases r <;> exact fun h => (by cases h))
  | oPop k x =>
    simp only [State.stepAt] at h
    split at h <;> cases h
    · exact triv _ rfl rfl rfl (upd_same _ _ _) (fun h => (by cases h)) (fun h => (by cases h))
    · simp only [State.goto, upd_same]
      exact ⟨.inl rfl, fun h => (by cases h), fun _ => .inr (.inl rfl), .inl, fun h => (by cases h)⟩
  | oPPop k x =>
    simp only [State.stepAt] at h
    split at h <;> cases h
    · exact triv _ rfl rfl rfl (upd_same _ _ _) (fun h => (by cases h)) (fun h => (by cases h))
    · simp only [State.goto, upd_same]
      refine ⟨.inl rfl, fun h => (by cases h), .inl, fun hp => .inr (.inr ?_), fun h => (by cases h)⟩
      cases b with
      | false => exact absurd (i.noPrio rfl).1 hp
      | true => cases k <;> first | exact .inl rfl | exact .inr ⟨rfl, rfl⟩
  | wPop k x =>
    simp only [State.stepAt] at h
    split at h <;> cases h
    · exact triv _ rfl rfl rfl (upd_same _ _ _) (fun h => (by cases h)) (fun h => (by cases h))
    · simp only [State.goto, upd_same]
      exact ⟨.inl rfl, fun h => (by cases h), fun _ => .inr (.inr (by cases k <;> first | rfl | cases hw)), .inl, fun h => (by cases h)⟩
  | wPPop k x =>
    simp only [State.stepAt] at h
    split at h <;> cases h
    · exact triv _ rfl rfl rfl (upd_same _ _ _) (fun h => (by cases h)) (fun h => (by cases h))
    · simp only [State.goto, upd_same]
      exact ⟨.inl rfl, fun h => (by cases h), .inl, fun hp => .inr (.inr (.inl (by cases k <;> first | rfl | cases hw))), fun h => (by cases h)⟩
  | oUnPull k r =>
    cases h
    refine triv _ rfl rfl rfl (upd_same _ _ _) (fun h => (by cases h)) (fun h => (by cases h))
  | oLock k => cases b <;> exact pL _ (fun h => (by cases h)) (fun h => (by cases h)) h
  | wLock k => cases b <;> exact pL _ (fun h => (by cases h)) (fun h => (by cases h)) h
  | wRelock k d => cases b <;> exact pL _ (fun h => (by cases h)) (fun h => (by cases h)) h
  | kLock d => cases b <;> exact pL _ (fun h => (by cases h)) (fun h => (by cases h)) h
  | cPull =>
    cases h
    simp only [State.goto, upd_same]
    exact ⟨.inl rfl, fun h => (by cases h), fun _ => .inr (.inl rfl), .inl, fun h => (by cases h)⟩
  | cPush =>
    cases h
    refine triv _ rfl rfl rfl (upd_same _ _ _) (fun h => (by cases h)) (fun _ => ?_)
    cases b <;> rfl
  | cPrio =>
    simp only [State.stepAt] at h
    split at h <;> cases h
    · rename_i he
      exact triv _ rfl rfl rfl (upd_same _ _ _) (fun h => (by cases h)) (fun h => rfl)
    · simp only [State.goto, upd_same]
      exact ⟨.inl rfl, fun h => (by cases h), .inl, fun _ => .inr (.inl rfl), fun h => .inl rfl⟩
  | cFlag =>
    cases h
    exact ⟨.inr (.inl rfl), fun h => (by cases h), .inl, .inl, fun h => .inr (.inl rfl)⟩
  | _ =>
    first
    | (refine pU _ ?_ ?_ h <;> exact fun h => h)
    | (refine pL _ ?_ ?_ h <;> exact fun h => h)
    | (cases h; done)
    | (cases h; exact triv _ rfl rfl rfl (upd_same _ _ _) (fun h => h) (fun h => h))
    | (cases h; exact triv _ rfl rfl rfl (upd_same _ _ _) (fun h => (by cases h; done)) (fun h => (by cases h; done)))

theorem Alert.move {o : Option (Out α)} (i : Inv b s) (hw : wTry (s.loc t) = false)
    (hx : throwing (s.loc t) = false) (h : s.stepAt b t c (s.loc t) = some (s', o)) (a : Alert s) : Alert s' ∨ (s'.pull ≠ [] ∨ s'.prio ≠ []) ∧ s'.waiting = [] := by
  have e := stepAt_eff i hw hx rfl h
  rcases a with a | ⟨u, hu⟩
  · rcases e.flag with hf | hf | hf
    · exact .inl (.inl (by rw [hf]; exact a))
    · exact .inl (.inl hf)
    · exact .inl (.inr ⟨t, hf⟩)
  · by_cases et : u = t
    · subst et
      rcases e.notify hu with h1 | h1
      · exact .inl (.inr ⟨u, h1⟩)
      · exact .inr h1
    · exact .inl (.inr ⟨u, by rw [stepAt_loc h, upd_ne _ _ et]; exact hu⟩)

theorem Aware.move {o : Option (Out α)} (i : Inv b s) (hw : wTry (s.loc t) = false)
    (hx : throwing (s.loc t) = false) (h : s.stepAt b t c (s.loc t) = some (s', o)) (h7 : cls (s.loc t) ≠ 7) (h6 : b = true → cls (s.loc t) ≠ 6) (a : Aware s) : Aware s' := by
  have e := stepAt_eff i hw hx rfl h
  rcases a with a | a | a | ⟨u, a⟩
  · rcases a.move i hw hx h with h1 | ⟨h1 | h1, _⟩
    · exact .inl h1
    · exact .inr (.inl h1)
    · exact .inr (.inr (.inl h1))
  · rcases e.pull a with h1 | h1 | h1
    · exact .inr (.inl h1)
    · exact .inr (.inr (.inr ⟨t, h1⟩))
    · exact absurd h1 h7
  · rcases e.prio a with h1 | h1 | h1 | ⟨h1, h2⟩
    · exact .inr (.inr (.inl h1))
    · exact .inr (.inr (.inr ⟨t, h1⟩))
    · exact absurd h1 h7
    · exact absurd h2 (h6 h1)
  · by_cases et : u = t
    · subst et
      rcases e.fixing a with h1 | h1 | h1
      · exact .inr (.inr (.inr ⟨u, h1⟩))
      · exact .inl (.inl h1)
      · exact .inr (.inl h1)
    · exact .inr (.inr (.inr ⟨u, by rw [stepAt_loc h, upd_ne _ _ et]; exact a⟩))

theorem drowsy_plain {l : Loc α} (h : drowsy l = true) : notifies l = false ∧ fixing l = false := by
  cases l with
  | oCheck ck k r => cases ck <;> cases r <;> first | exact ⟨rfl, rfl⟩ | cases h
  | _ => first | exact ⟨rfl, rfl⟩ | cases h

/-- how a thread becomes drowsy -/
theorem stepAt_drowsy {l : Loc α} {o : Option (Out α)} (i : Inv b s) (hl : s.loc t = l) (h : s.stepAt b t c l = some (s', o))
    (hd : drowsy (s'.loc t) = true) : (drowsy l = true ∧ s'.flag = s.flag ∧ s'.pull = s.pull ∧ s'.prio = s.prio) ∨
      s'.flag = true ∨ s'.pull ≠ [] := by
  have hown : holdsPull l = true → s.puller = some l := i.locks.puller_eq hl
  have hfa := i.facts
  have pL : ∀ (l' : Loc α), (drowsy l' = true → drowsy l = true) → (s.lockPull t l').map (·, (none : Option (Out α))) = some (s', o) →
      (drowsy l = true ∧ s'.flag = s.flag ∧ s'.pull = s.pull ∧ s'.prio = s.prio) ∨ s'.flag = true ∨ s'.pull ≠ [] := by
    intro l' hn hx
    simp only [Option.map_eq_some_iff] at hx
    obtain ⟨s1, e1, e2⟩ := hx; cases e2
    obtain ⟨_, rfl⟩ := lockPull_some e1; simp only [upd_same] at hd; exact .inl ⟨hn hd, rfl, rfl, rfl⟩
  have pU : ∀ (l' : Loc α), (drowsy l' = true → drowsy l = true) → (s.lockPush t l').map (·, (none : Option (Out α))) = some (s', o) →
      (drowsy l = true ∧ s'.flag = s.flag ∧ s'.pull = s.pull ∧ s'.prio = s.prio) ∨ s'.flag = true ∨ s'.pull ≠ [] := by
    intro l' hn hx
    simp only [Option.map_eq_some_iff] at hx
    obtain ⟨s1, e1, e2⟩ := hx; cases e2
    obtain ⟨_, rfl⟩ := lockPush_some e1; simp only [upd_same] at hd; exact .inl ⟨hn hd, rfl, rfl, rfl⟩
  cases l with
  | oCheck ck k r =>
    rw [hown rfl] at hfa
    cases ck with
    | test =>
      cases h
      simp only [State.goto, upd_same] at hd ⊢
      cases hp : s.pull with
      | nil => rw [hp] at hd; cases r <;> cases hd
      | cons y ys => exact .inr (.inr (by simp))
    | lock => exact pU _ (fun h => (by cases h)) h
    | testPush => cases h; simp only [State.goto, upd_same] at hd; split at hd <;> cases hd
    | swap => cases h; simp only [State.goto, upd_same] at hd; cases hd
    | unlockSwap => cases h; simp only [State.goto, State.unlockPush, upd_same] at hd; cases hd
    | reverse =>
      cases h; exact .inr (.inr (by simpa [State.goto] using hfa.2))
    | setFlag => cases h; exact .inr (.inl rfl)
    | unlockFlag =>
      cases h
      simp only [State.goto, State.unlockPush, upd_same] at hd
      cases r with
      | none => exact .inl ⟨rfl, rfl, rfl, rfl⟩
      | some x => cases hd
  | oTest k => cases h; exact .inl ⟨rfl, rfl, rfl, rfl⟩
  | oUnPull k r =>
    cases h
    cases r with
    | none => exact .inl ⟨rfl, rfl, rfl, rfl⟩
    | some x => simp only [State.goto, State.unlockPull, upd_same, State.afterTry] at hd; cases hd
  | wLock k => cases b <;> exact pL _ (fun _ => rfl) h
  | wPrio k d =>
    cases h
    cases d with
    | none => exact .inl ⟨rfl, rfl, rfl, rfl⟩
    | some x => simp only [State.goto, upd_same] at hd; split at hd <;> cases hd
  | wTest k d =>
    cases h
    cases d with
    | none => exact .inl ⟨rfl, rfl, rfl, rfl⟩
    | some x => simp only [State.goto, upd_same] at hd; split at hd <;> cases hd
  | wCall f => cases h; exact .inl ⟨rfl, rfl, rfl, rfl⟩
  | oLock k => cases b <;> exact pL _ (fun h => (by cases h)) h
  | wRelock k d => cases b <;> exact pL _ (fun h => (by cases h)) h
  | oPFront k => cases h; simp only [State.goto, upd_same] at hd; exact absurd hd (moveOut_ind (P := (drowsy · ≠ true)) (next := .oPPop k) k _ nofun nofun nofun)
  | oBack k => cases h; simp only [State.goto, upd_same] at hd; exact absurd hd (moveOut_ind (P := (drowsy · ≠ true)) (next := .oPop k) k _ nofun nofun nofun)
  | wPFront k => cases h; simp only [State.goto, upd_same] at hd; exact absurd hd (moveOut_ind (P := (drowsy · ≠ true)) (next := .wPPop k) k _ nofun nofun nofun)
  | wBack k => cases h; simp only [State.goto, upd_same] at hd; exact absurd hd (moveOut_ind (P := (drowsy · ≠ true)) (next := .wPop k) k _ nofun nofun nofun)
  | kPFront d => cases h; simp only [State.goto, upd_same] at hd; cases d <;> split at hd <;> cases hd
  | kBack d => cases h; simp only [State.goto, upd_same] at hd; cases d <;> split at hd <;> cases hd
  | kLock d => cases b <;> exact pL _ (fun h => (by cases h)) h
  | _ =>
    first
    | (refine pU _ ?_ h; exact fun h => h)
    | (refine pL _ ?_ h; exact fun h => h)
    | (cases h; done)
    | (cases h; simp only [State.goto, State.unlockPush, State.unlockPull, upd_same] at hd; cases hd; done)
    | (cases h; simp only [State.goto, State.unlockPush, State.unlockPull, upd_same] at hd; split at hd <;> cases hd; done)
    | (simp only [State.stepAt] at h; split at h <;> cases h <;> simp only [State.goto, upd_same] at hd <;> cases hd)

theorem fixing_holds {l : Loc α} (h : fixing l = true) : holdsPull l = true := by
  cases l with
  | oCheck ck k r => rfl
  | _ => first | rfl | cases h

/-- All calls that may wait are made by thread `p`, and in BlockingPriorityQueue try_pop, too. -/
def onePopper (b : Bool) (p t : Nat) (op : Op α) : Prop :=
  t = p ∨ (op.waits = false ∧ (b = true → op.tries = false))

/-- The call is no insertion that throws. -/
def calm (op : Op α) : Prop := ∀ v, op ≠ .ins (.thrown v) ∧ op ≠ .prio (.thrown v)

structure Wakes (b : Bool) (p : Nat) (s : State α) : Prop where
  inv : Inv b s
  sleeps : Sleeps s
  noTry : ∀ u, wTry (s.loc u) = false
  noThrow : ∀ u, throwing (s.loc u) = false
  only : ∀ u, u ≠ p → cls (s.loc u) ≠ 7 ∧ (b = true → cls (s.loc u) ≠ 6)
  drowsy : drowsy (s.loc p) = true → Aware s
  asleep : p ∈ s.waiting → Alert s

theorem Wakes.init {p : Nat} : Wakes b p (State.init : State α) :=
  ⟨Inv.init, ⟨fun _ h => (by cases h), List.nodup_nil⟩, fun _ => rfl, fun _ => rfl, fun _ _ => ⟨by simp [State.init, cls], by simp [State.init, cls]⟩,
    fun h => (by cases h), fun h => (by cases h)⟩

theorem Wakes.call {p : Nat} {op : Op α} (k : Wakes b p s) (ho : onePopper b p t op) (hc : calm op) (h : s.call b t op = some s') : Wakes b p s' := by
  have h' := h
  obtain ⟨l, hst, hl, rfl, _⟩ := call_locks h
  have hnew : wTry l = false ∧ Blocking.drowsy l = false ∧ (t ≠ p → cls l ≠ 7 ∧ (b = true → cls l ≠ 6)) := by
    unfold onePopper at ho
    rcases start_cases hst with ⟨i, rfl, rfl⟩ | ⟨i, rfl, rfl, _⟩ | ⟨k', rfl, rfl⟩ | ⟨x, rfl, rfl⟩ | ⟨rfl, rfl, _⟩ | ⟨rfl, rfl⟩ |
        ⟨rfl, rfl⟩ | ⟨rfl, rfl⟩ <;> refine ⟨rfl, rfl, fun ht => ?_⟩
    case inr.inr.inl =>
      rcases k' with f | f | ⟨f, d⟩ | f <;> cases f <;> simp_all [cls, Kind.cls, Kind.op, Op.waits, Op.tries]
    all_goals simp [cls]
  have hthrow : throwing l = false := by
    rcases start_cases hst with ⟨i, rfl, rfl⟩ | ⟨i, rfl, rfl, _⟩ | ⟨k', rfl, rfl⟩ | ⟨x, rfl, rfl⟩ | ⟨rfl, rfl, _⟩ | ⟨rfl, rfl⟩ |
        ⟨rfl, rfl⟩ | ⟨rfl, rfl⟩
    · cases i with
      | thrown v => exact absurd rfl (hc v).1
      | _ => rfl
    · cases i with
      | thrown v => exact absurd rfl (hc v).2
      | _ => rfl
    all_goals rfl
  have keepN : ∀ u, notifies (s.loc u) = true → notifies ((s.goto t l).loc u) = true := by
    intro u hu
    have : u ≠ t := by rintro rfl; rw [hl] at hu; cases hu
    simp only [State.goto, upd_ne _ _ this]; exact hu
  have keepF : ∀ u, fixing (s.loc u) = true → fixing ((s.goto t l).loc u) = true := by
    intro u hu
    have : u ≠ t := by rintro rfl; rw [hl] at hu; cases hu
    simp only [State.goto, upd_ne _ _ this]; exact hu
  have keepA : Alert s → Alert (s.goto t l) := by
    rintro (h | ⟨u, h⟩)
    · exact .inl h
    · exact .inr ⟨u, keepN u h⟩
  refine ⟨k.inv.call h', k.sleeps.call h', ?_, ?_, ?_, ?_, fun hm => keepA (k.asleep hm)⟩
  · intro u
    by_cases e : u = t
    · subst e; simp only [State.goto, upd_same]; exact hnew.1
    · simp only [State.goto, upd_ne _ _ e]; exact k.noTry u
  · intro u
    by_cases e : u = t
    · subst e; simp only [State.goto, upd_same]; exact hthrow
    · simp only [State.goto, upd_ne _ _ e]; exact k.noThrow u
  · intro u hu
    by_cases e : u = t
    · subst e; simp only [State.goto, upd_same]; exact hnew.2.2 hu
    · simp only [State.goto, upd_ne _ _ e]; exact k.only u hu
  · intro hd
    by_cases e : p = t
    · subst e; simp only [State.goto, upd_same] at hd; rw [hnew.2.1] at hd; cases hd
    · simp only [State.goto, upd_ne _ _ e] at hd
      rcases k.drowsy hd with h | h | h | ⟨u, h⟩
      · exact .inl (keepA h)
      · exact .inr (.inl h)
      · exact .inr (.inr (.inl h))
      · exact .inr (.inr (.inr ⟨u, keepF u h⟩))

theorem Wakes.move {p : Nat} {o : Option (Out α)} (k : Wakes b p s) (h : s.stepAt b t c (s.loc t) = some (s', o)) : Wakes b p s' := by
  have hloc := stepAt_loc h
  have hw := k.noTry t
  have ht := k.noThrow t
  have keepA : notifies (s.loc t) = false → s'.flag = s.flag → Alert s → Alert s' := by
    intro hn hf ha
    rcases ha with h | ⟨u, h⟩
    · exact .inl (by rw [hf]; exact h)
    · have : u ≠ t := by rintro rfl; simp_all
      exact .inr ⟨u, by rw [hloc, upd_ne _ _ this]; exact h⟩
  refine ⟨k.inv.move h, k.sleeps.move h, ?_, ?_, ?_, ?_, ?_⟩
  · intro u
    by_cases e : u = t
    · subst e; exact stepAt_wTry h hw
    · rw [hloc, upd_ne _ _ e]; exact k.noTry u
  · intro u
    by_cases e : u = t
    · subst e; exact stepAt_throwing h ht
    · rw [hloc, upd_ne _ _ e]; exact k.noThrow u
  · intro u hu
    by_cases e : u = t
    · subst e
      obtain ⟨h1, h2⟩ := k.only u hu
      rcases (stepAt_region h).2 with h3 | h3 <;> rw [h3]
      · simp
      · exact ⟨h1, h2⟩
    · rw [hloc, upd_ne _ _ e]; exact k.only u hu
  · intro hd
    by_cases e : p = t
    · subst e
      rcases stepAt_drowsy k.inv rfl h hd with ⟨h1, h2, h3, h4⟩ | h1 | h1
      · obtain ⟨hn, hx⟩ := drowsy_plain h1
        rcases k.drowsy h1 with h | h | h | ⟨u, h⟩
        · exact .inl (keepA hn h2 h)
        · exact .inr (.inl (by rw [h3]; exact h))
        · exact .inr (.inr (.inl (by rw [h4]; exact h)))
        · have : u ≠ p := by rintro rfl; simp_all
          exact .inr (.inr (.inr ⟨u, by rw [hloc, upd_ne _ _ this]; exact h⟩))
      · exact .inl (.inl h1)
      · exact .inr (.inl h1)
    · rw [hloc, upd_ne _ _ e] at hd
      obtain ⟨h7, h6⟩ := k.only t (fun e' => e e'.symm)
      exact (k.drowsy hd).move k.inv hw ht h h7 h6
  · intro hm
    by_cases e : p = t
    · subst e
      rcases stepAt_waiting h with ⟨h1, h2⟩ | h2 | ⟨d, h1, h2, h3⟩ | ⟨d, h1, h2⟩
      · rw [h2] at hm; obtain ⟨d, hd⟩ := k.sleeps.at_ p hm; exact absurd hd (h1 d)
      · rw [h2] at hm; cases hm
      · have hfa := k.inv.facts
        rw [k.inv.locks.puller_eq h1 rfl] at hfa
        have hdr : Blocking.drowsy (s.loc p) = true := by rw [h1]; rfl
        have hf : s'.flag = s.flag := by rw [h1] at h; cases h; rfl
        rcases k.drowsy hdr with ha | ha | ha | ⟨u, ha⟩
        · exact keepA (by rw [h1]; rfl) hf ha
        · exact absurd hfa.2 ha
        · exact absurd hfa.1 ha
        · have : u = p := k.inv.locks.pull.unique (fixing_holds ha) (by rw [h1]; rfl)
          subst this
          rw [h1] at ha; cases ha
      · rw [h2, k.sleeps.nodup.mem_erase_iff] at hm; exact absurd rfl hm.1
    · have hm' : p ∈ s.waiting := by
        rcases stepAt_waiting h with ⟨h1, h2⟩ | h2 | ⟨d, h1, h2, h3⟩ | ⟨d, h1, h2⟩
        · rw [h2] at hm; exact hm
        · rw [h2] at hm; cases hm
        · rw [h2] at hm; exact (List.mem_cons.1 hm).resolve_left e
        · rw [h2] at hm; exact List.mem_of_mem_erase hm
      rcases (k.asleep hm').move k.inv hw ht h with h1 | ⟨_, h1⟩
      · exact h1
      · rw [h1] at hm; cases hm

theorem wakes_run {p : Nat} (as : List (Act (Op α))) {h : List (Event (Op α) (Out α))} (e : (sys b α).run (sys b α).init as = some (s, h))
    (ho : ∀ t op, .call t op ∈ h → onePopper b p t op ∧ calm op) : Wakes b p s :=
  Sys.run_invariant (Wakes b p) (fun t op => onePopper b p t op ∧ calm op) (fun k ho h => k.call ho.1 ho.2 h) (fun k h => k.move h) as Wakes.init
    (fun t op hm => ho t op (Sys.run_calls as e t op hm)) e

/-- The element and the notification: if the waiting thread is asleep and the queue is not empty, somebody is on the way to
notify. -/
theorem wakes_main {p : Nat} (k : Wakes b p s) (hp : p ∈ s.waiting) (hne : s.split.all ≠ ([], [])) : ∃ u, notifies (s.loc u) = true := by
  rcases k.asleep hp with h | h
  · exact absurd (by rw [k.inv.flag.contents h]; rfl) hne
  · exact h

/-- steps until the notification -/
def notifyRank : Loc α → Nat
  | .pUnlock _ => 7
  | .pLockPull _ => 6
  | .pFlag _ => 5
  | .pTestPull _ => 4
  | .pLock2 _ => 3
  | .pPull _ | .pPush2 _ => 2
  | .pNotify _ => 1
  | .fLock _ => 4
  | .fFlag _ => 3
  | .fPush _ => 2
  | .fNotify => 1
  | _ => 0

/-- A thread on its way to notify gets there: each of its steps leads closer, and the last one wakes everybody. -/
theorem notify_progress {o : Option (Out α)} (h : s.stepAt b t c (s.loc t) = some (s', o)) (hn : notifies (s.loc t) = true) :
    (notifies (s'.loc t) = true ∧ notifyRank (s'.loc t) < notifyRank (s.loc t)) ∨ s'.waiting = [] := by
  have pL : ∀ (l' : Loc α), notifies l' = true ∧ notifyRank l' < notifyRank (s.loc t) →
      (s.lockPull t l').map (·, (none : Option (Out α))) = some (s', o) →
      notifies (s'.loc t) = true ∧ notifyRank (s'.loc t) < notifyRank (s.loc t) := by
    intro l' hn hx
    simp only [Option.map_eq_some_iff] at hx
    obtain ⟨s1, e1, e2⟩ := hx; cases e2
    obtain ⟨_, rfl⟩ := lockPull_some e1; simp only [upd_same]; exact hn
  have pU : ∀ (l' : Loc α), notifies l' = true ∧ notifyRank l' < notifyRank (s.loc t) →
      (s.lockPush t l').map (·, (none : Option (Out α))) = some (s', o) →
      notifies (s'.loc t) = true ∧ notifyRank (s'.loc t) < notifyRank (s.loc t) := by
    intro l' hn hx
    simp only [Option.map_eq_some_iff] at hx
    obtain ⟨s1, e1, e2⟩ := hx; cases e2
    obtain ⟨_, rfl⟩ := lockPush_some e1; simp only [upd_same]; exact hn
  have hthr : ∀ {i : Ins α}, (!i.throws) = true → i.throws = false := fun {i} h => by cases i <;> first | rfl | cases h
  cases hl : s.loc t <;> rw [hl] at h hn
  case pNotify d => cases h; exact .inr rfl
  case fNotify => cases h; exact .inr rfl
  case pUnlock i => cases h; simp only [State.goto, State.unlockPush, upd_same]; exact .inl ⟨hn, by simp [notifyRank]⟩
  case pLockPull i => rw [hl] at pL; exact .inl (pL _ ⟨by exact hn, by simp [notifyRank]⟩ h)
  case pFlag i => cases h; simp only [State.goto, upd_same]; exact .inl ⟨hn, by simp [notifyRank]⟩
  case pTestPull i =>
    cases h; simp only [State.goto, upd_same]
    split <;> exact .inl ⟨hn, by simp [notifyRank]⟩
  case pPull i => simp only [State.stepAt, hthr hn, Bool.false_eq_true, if_false] at h; cases h; simp only [State.goto, upd_same]; exact .inl ⟨rfl, by simp [notifyRank]⟩
  case pLock2 i => rw [hl] at pU; exact .inl (pU _ ⟨by exact hn, by simp [notifyRank]⟩ h)
  case pPush2 i => simp only [State.stepAt, hthr hn, Bool.false_eq_true, if_false] at h; cases h; simp only [State.goto, upd_same]; exact .inl ⟨rfl, by simp [notifyRank]⟩
  case fLock i => rw [hl] at pL; exact .inl (pL _ ⟨by exact hn, by simp [notifyRank]⟩ h)
  case fFlag i => cases h; simp only [State.goto, upd_same]; exact .inl ⟨hn, by simp [notifyRank]⟩
  case fPush i => simp only [State.stepAt, hthr hn, Bool.false_eq_true, if_false] at h; cases h; simp only [State.goto, upd_same]; exact .inl ⟨rfl, by simp [notifyRank]⟩
  all_goals cases hn

end Verif.Blocking
