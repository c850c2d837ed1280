import Verif.Blocking.Sim

/-
The blocking queues: what queueEmptyFlag says.
-/
namespace Verif.Blocking
open Verif.Conc

variable {α : Type} {s s' : State α} {t c : Nat} {w b : Bool} {g : Ghost (List α × List α) (Op α) (Out α)}

/-- positions at which the flag is false -/
def noFlag : Loc α → Bool
  | .pTestPull _ | .pPull _ | .pLock2 _ | .pPush2 _ | .pNotify _ | .pUnPull _ | .pAppend _ | .pCas2 | .pAppend0 _
  | .fPush _ | .fNotify | .fUn => true
  | _ => false

theorem noFlag_holds {l : Loc α} (h : noFlag l = true) : holdsPull l = true ∨ holdsPush l = true := by
  cases l <;> first | exact .inl rfl | exact .inr rfl | cases h

/-- If the flag is set, the queue is empty, but for the element of a pushPriority about to clear the flag (P168). -/
structure Flag (s : State α) : Prop where
  empty : s.flag = true → s.push = [] ∧ s.pull = [] ∧ (s.prio = [] ∨ ∃ i, s.puller = some (.gCas i) ∧ s.prio = [i.val])
  off : ∀ t, noFlag (s.loc t) = true → s.flag = false

theorem Flag.next {l l' : Loc α} (f : Flag s) (k : Locks s) (hl : s.loc t = l) (st : LockStep s s' t l l')
    (he : s'.flag = true → s'.push = [] ∧ s'.pull = [] ∧ (s'.prio = [] ∨ ∃ i, s'.puller = some (.gCas i) ∧ s'.prio = [i.val]))
    (hset : s'.flag = s.flag ∨ s'.flag = false ∨ (holdsPull l = true ∧ holdsPush l = true))
    (hoff : noFlag l' = true → s'.flag = false) : Flag s' := by
  refine ⟨he, fun u hu => ?_⟩
  by_cases e : u = t
  · subst e; rw [st.loc, upd_same] at hu; exact hoff hu
  · rw [st.loc, upd_ne _ _ e] at hu
    have h0 := f.off u hu
    rcases hset with h | h | ⟨h1, h2⟩
    · rw [h]; exact h0
    · exact h
    · rcases noFlag_holds hu with h | h
      · exact absurd (k.pull.unique h (by rw [hl]; exact h1)) e
      · exact absurd (k.push.unique h (by rw [hl]; exact h2)) e

/-- a step that does not change the containers -/
theorem Flag.same {l l' : Loc α} (f : Flag s) (k : Locks s) (hl : s.loc t = l) (st : LockStep s s' t l l')
    (e1 : s'.push = s.push) (e2 : s'.pull = s.pull) (e3 : s'.prio = s.prio) (ef : s'.flag = s.flag ∨ s'.flag = false)
    (hg : (∀ i, l ≠ .gCas i) ∨ s'.flag = false) (hoff : noFlag l' = true → s'.flag = false) : Flag s' := by
  refine f.next k hl st ?_ (ef.elim .inl (fun h => .inr (.inl h))) hoff
  intro ht
  rcases ef with ef | ef
  · rw [ef] at ht
    obtain ⟨h1, h2, h3⟩ := f.empty ht
    rw [e1, e2, e3]
    refine ⟨h1, h2, ?_⟩
    rcases h3 with h3 | ⟨i, h3, h4⟩
    · exact .inl h3
    · refine .inr ⟨i, ?_, h4⟩
      rcases hg with hg | hg
      · rw [k.step_puller hl st]
        have hn : s.pullOwner ≠ none := by
          intro h; rw [puller_none h] at h3; cases h3
        have hh : holdsPull l = false := by
          cases hh : holdsPull l with
          | false => rfl
          | true => rw [k.puller_eq hl hh] at h3; cases h3; exact absurd rfl (hg i)
        have hh' : holdsPull l' = false := by
          cases hh' : holdsPull l' with
          | false => rfl
          | true => rcases st.pullFree hh' with h | h
                    · rw [hh] at h; cases h
                    · exact absurd h hn
        simp only [hh, hh', Bool.false_eq_true, if_false]; exact h3
      · rw [ef] at hg; rw [hg] at ht; cases ht
  · rw [ef] at ht; cases ht

theorem Flag.init : Flag (State.init : State α) := ⟨fun _ => ⟨rfl, rfl, .inl rfl⟩, fun _ h => by cases h⟩

theorem Flag.call {op : Op α} (f : Flag s) (k : Locks s) (h : s.call b t op = some s') : Flag s' := by
  obtain ⟨l, hs, hl, rfl, st⟩ := call_locks h
  refine f.same k hl st rfl rfl rfl (.inl rfl) (.inl (by intro i h; cases h)) ?_
  intro hn
  rcases start_cases hs with ⟨i, rfl, rfl⟩ | ⟨i, rfl, rfl, _⟩ | ⟨k, rfl, rfl⟩ | ⟨x, rfl, rfl⟩ |
        ⟨rfl, rfl, _⟩ | ⟨rfl, rfl⟩ | ⟨rfl, rfl⟩ | ⟨rfl, rfl⟩ <;> cases hn

theorem noFlag_afterTry (k : Kind) (r : Option α) : noFlag (State.afterTry k r) = false := by
  cases r with
  | some x => rfl
  | none =>
    rcases k with f | f | ⟨f, b⟩ | f <;> try cases b
    all_goals rfl

theorem Flag.move {o : Option (Out α)} (f : Flag s) (r : R w b s g) (h : s.stepAt b t c (s.loc t) = some (s', o)) : Flag s' := by
  have st := stepAt_locks r.locks rfl h
  have k := r.locks
  generalize hl : s.loc t = l at h st
  have hown : holdsPull l = true → s.puller = some l := r.locks.puller_eq hl
  have hoff : noFlag l = true → s.flag = false := fun h => f.off t (by rw [hl]; exact h)
  have hfa := r.facts
  have hS := h
  -- with the flag set and m_pullLock held, everything is empty
  have he0 : holdsPull l = true → (∀ i, l ≠ .gCas i) → s.flag = true → s.push = [] ∧ s.pull = [] ∧ s.prio = [] := by
    intro h1 h2 h3
    obtain ⟨h4, h5, h6⟩ := f.empty h3
    rcases h6 with h6 | ⟨i, h6, _⟩
    · exact ⟨h4, h5, h6⟩
    · rw [hown h1] at h6; cases h6; exact absurd rfl (h2 i)
  have keep : s'.push = s.push → s'.pull = s.pull → s'.prio = s.prio → s'.flag = s.flag ∨ s'.flag = false →
      ((∀ i, l ≠ .gCas i) ∨ s'.flag = false) → (noFlag (s'.loc t) = true → s'.flag = false) → Flag s' :=
    f.same k hl st
  have lockU : ∀ l', noFlag l' = false → (s.lockPush t l').map (·, (none : Option (Out α))) = some (s', o) →
      (∀ i, l ≠ .gCas i) → Flag s' := by
    intro l' h0 h' h1
    simp only [Option.map_eq_some_iff] at h'
    obtain ⟨s1, h', e⟩ := h'; cases e
    obtain ⟨_, rfl⟩ := lockPush_some h'
    exact keep rfl rfl rfl (.inl rfl) (.inl h1) (by simp only [upd_same, h0]; intro h; cases h)
  have lockL : ∀ l', noFlag l' = false → (s.lockPull t l').map (·, (none : Option (Out α))) = some (s', o) →
      (∀ i, l ≠ .gCas i) → Flag s' := by
    intro l' h0 h' h1
    simp only [Option.map_eq_some_iff] at h'
    obtain ⟨s1, h', e⟩ := h'; cases e
    obtain ⟨_, rfl⟩ := lockPull_some h'
    exact keep rfl rfl rfl (.inl rfl) (.inl h1) (by simp only [upd_same, h0]; intro h; cases h)
  -- goto a position without condition
  have go : ∀ l' : Loc α, s'.loc t = l' → noFlag l' = false → s'.push = s.push → s'.pull = s.pull → s'.prio = s.prio →
      s'.flag = s.flag → (∀ i, l ≠ .gCas i) → Flag s' := by
    intro l' e0 h0 e1 e2 e3 e4 h1
    exact keep e1 e2 e3 (.inl e4) (.inl h1) (by rw [e0, h0]; intro h; cases h)
  have go' : s'.push = s.push → s'.pull = s.pull → s'.prio = s.prio → s'.flag = s.flag → s.flag = false → Flag s' := by
    intro e1 e2 e3 e4 h1
    exact keep e1 e2 e3 (.inl e4) (.inr (by rw [e4]; exact h1)) (fun _ => by rw [e4]; exact h1)
  -- the flag is false
  have fal : s'.flag = false → Flag s' := by
    intro h0
    exact f.next k hl st (by rw [h0]; intro h; cases h) (.inr (.inl h0)) (fun _ => h0)
  -- the flag stays and is false, whatever happens to the containers
  have fal0 : s'.flag = s.flag → s.flag = false → Flag s' := fun h1 h2 => fal (h1.trans h2)
  have notTrue : (s.flag = true → False) → s.flag = false := by
    intro h; cases hf : s.flag with
    | false => rfl
    | true => exact absurd hf h
  have ng : ∀ {l0 : Loc α}, (match l0 with | .gCas _ => False | _ => True) → ∀ i, l0 ≠ .gCas i := by
    intro l0 h i e; subst e; exact h
  cases l with
  | idle => cases h
  | crash => cases h
  | pLock i => exact lockU _ rfl h (ng trivial)
  | pTest i =>
    cases hp : s.push with
    | nil => cases h; exact go (.pCas i) (by simp [State.goto, upd_same, hp]) rfl rfl rfl rfl rfl (ng trivial)
    | cons x xs => cases h; exact go' rfl rfl rfl rfl (notTrue fun hf => by rw [(f.empty hf).1] at hp; cases hp)
  | pCas i =>
    cases hf : s.flag <;> simp only [State.stepAt, hf] at h <;> cases h
    · exact fal0 rfl hf
    · exact fal rfl
  | pUnlock i => cases h; exact go _ (upd_same _ _ _) rfl rfl rfl rfl rfl (ng trivial)
  | pLockPull i => exact lockL _ rfl h (ng trivial)
  | pFlag i => cases h; exact fal rfl
  | pTestPull i => cases h; exact fal0 rfl (hoff rfl)
  | pPull i => cases i <;> cases h <;> exact fal0 rfl (hoff rfl)
  | pLock2 i =>
    simp only [State.stepAt, Option.map_eq_some_iff] at h
    obtain ⟨s1, h, e⟩ := h; cases e
    obtain ⟨_, rfl⟩ := lockPush_some h
    exact fal0 rfl (hoff rfl)
  | pPush2 i => cases i <;> cases h <;> exact fal0 rfl (hoff rfl)
  | pNotify d => cases h; exact fal0 rfl (hoff rfl)
  | pUnPull d => cases h; exact fal0 rfl (hoff rfl)
  | pAppend i => cases i <;> cases h <;> exact fal0 rfl (hoff rfl)
  | pCas2 =>
    have hf := hoff rfl
    simp only [State.stepAt, hf] at h; cases h; exact fal0 rfl hf
  | pNotify2 => cases h; exact go _ (upd_same _ _ _) rfl rfl rfl rfl rfl (ng trivial)
  | pAppend0 i => cases i <;> cases h <;> exact fal0 rfl (hoff rfl)
  | xUnPull d => cases h; exact go _ (upd_same _ _ _) (by cases d <;> rfl) rfl rfl rfl rfl (ng trivial)
  | pUnPush => cases h; exact go _ (upd_same _ _ _) rfl rfl rfl rfl rfl (ng trivial)
  | fCas i =>
    cases hf : s.flag <;> simp only [State.stepAt, hf] at h <;> cases h
    · exact fal0 rfl hf
    · exact fal rfl
  | fLock i => exact lockL _ rfl h (ng trivial)
  | fFlag i => cases h; exact fal rfl
  | fPush i => cases i <;> cases h <;> exact fal0 rfl (hoff rfl)
  | fNotify => cases h; exact fal0 rfl (hoff rfl)
  | gLock i => exact lockL _ rfl h (ng trivial)
  | gPush i =>
    have hp := r.locks.step_puller hl st
    cases hi : i.throws with
    | true =>
      cases i <;> first | (cases hi; done) | skip
      cases h; exact go (.xUnPull false) (upd_same _ _ _) rfl rfl rfl rfl rfl (ng trivial)
    | false =>
    simp only [State.stepAt, hi, Bool.false_eq_true, if_false] at h
    cases h
    refine f.next k hl st ?_ (.inl rfl) (by simp only [State.goto, upd_same]; intro h; cases h)
    intro hf
    obtain ⟨h1, h2, h3⟩ := he0 rfl (ng trivial) hf
    refine ⟨h1, h2, .inr ⟨i, ?_, ?_⟩⟩
    · rw [hp]; simp [State.goto, upd_same, holdsPull]
    · simp [State.goto, h3]
  | gCas i =>
    cases hf : s.flag <;> simp only [State.stepAt, hf] at h <;> cases h
    · exact fal0 rfl hf
    · exact fal rfl
  | fUn => cases h; exact fal0 rfl (hoff rfl)
  | oLock k => cases b <;> exact lockL _ rfl h (ng trivial)
  | oPrio k => cases h; exact go _ (upd_same _ _ _) (by cases s.prio <;> rfl) rfl rfl rfl rfl (ng trivial)
  | oPFront k => cases h; exact go _ (upd_same _ _ _) (moveOut_ind (P := (noFlag · = false)) k _ rfl rfl fun _ => rfl) rfl rfl rfl rfl (ng trivial)
  | oPPop k x =>
    rw [hown rfl] at hfa
    have hne : s.prio ≠ [] := by intro h0; rw [h0] at hfa; cases hfa.2
    have hf : s.flag = false := notTrue fun hf => hne (he0 rfl (ng trivial) hf).2.2
    simp only [State.stepAt] at h
    split at h <;> cases h <;> exact fal0 rfl hf
  | oCheck ck k v =>
    rw [hown rfl] at hfa
    cases ck with
    | test => cases h; exact go _ (upd_same _ _ _) (by cases s.pull <;> cases v <;> rfl) rfl rfl rfl rfl (ng trivial)
    | lock => exact lockU _ rfl h (ng trivial)
    | testPush => cases h; exact go _ (upd_same _ _ _) (by cases s.push <;> rfl) rfl rfl rfl rfl (ng trivial)
    | swap =>
      have hf : s.flag = false := notTrue fun hf => hfa.2.2 (f.empty hf).1
      cases h; exact fal0 rfl hf
    | unlockSwap => cases h; exact go _ (upd_same _ _ _) rfl rfl rfl rfl rfl (ng trivial)
    | reverse =>
      have hf : s.flag = false := notTrue fun hf => hfa.2 (f.empty hf).2.1
      cases h; exact fal0 rfl hf
    | setFlag =>
      cases h
      obtain ⟨f1, f2, f3⟩ := hfa
      exact f.next r.locks hl st (fun _ => ⟨f3, f2, .inl f1⟩) (.inr (.inr ⟨rfl, rfl⟩)) (by simp only [State.goto, upd_same]; intro h; cases h)
    | unlockFlag => cases h; exact go _ (upd_same _ _ _) (by cases v <;> rfl) rfl rfl rfl rfl (ng trivial)
  | oTest k => cases h; exact go _ (upd_same _ _ _) (by cases s.pull <;> rfl) rfl rfl rfl rfl (ng trivial)
  | oBack k => cases h; exact go _ (upd_same _ _ _) (moveOut_ind (P := (noFlag · = false)) k _ rfl rfl fun _ => rfl) rfl rfl rfl rfl (ng trivial)
  | oPop k x =>
    rw [hown rfl] at hfa
    have hf : s.flag = false := notTrue fun hf => by
      have := hfa.2.2; rw [(f.empty hf).2.1] at this; cases this
    simp only [State.stepAt] at h
    split at h <;> cases h <;> exact fal0 rfl hf
  | oUnPull k v => cases h; exact go _ (upd_same _ _ _) (noFlag_afterTry k v) rfl rfl rfl rfl (ng trivial)
  | wCall f => cases h; exact go _ (upd_same _ _ _) (by cases f <;> rfl) rfl rfl rfl rfl (ng trivial)
  | wLock k => cases b <;> exact lockL _ rfl h (ng trivial)
  | wPrio k v => cases h; exact go _ (upd_same _ _ _) (by cases s.prio <;> rfl) rfl rfl rfl rfl (ng trivial)
  | wPFront k => cases h; exact go _ (upd_same _ _ _) (moveOut_ind (P := (noFlag · = false)) k _ rfl rfl fun _ => rfl) rfl rfl rfl rfl (ng trivial)
  | wPPop k x =>
    rw [hown rfl] at hfa
    have hne : s.prio ≠ [] := by intro h0; rw [h0] at hfa; cases hfa.2
    have hf : s.flag = false := notTrue fun hf => hne (he0 rfl (ng trivial) hf).2.2
    simp only [State.stepAt] at h
    split at h <;> cases h <;> exact fal0 rfl hf
  | wTest k v => cases h; exact go _ (upd_same _ _ _) (by cases s.pull <;> cases v <;> rfl) rfl rfl rfl rfl (ng trivial)
  | wBack k => cases h; exact go _ (upd_same _ _ _) (moveOut_ind (P := (noFlag · = false)) k _ rfl rfl fun _ => rfl) rfl rfl rfl rfl (ng trivial)
  | wPop k x =>
    rw [hown rfl] at hfa
    have hf : s.flag = false := notTrue fun hf => by
      have := hfa.2.2; rw [(f.empty hf).2.1] at this; cases this
    simp only [State.stepAt] at h
    split at h <;> cases h <;> exact fal0 rfl hf
  | wRelock k d => cases b <;> exact lockL _ rfl h (ng trivial)
  | kLock d => cases b <;> exact lockL _ rfl h (ng trivial)
  | kPrio d => cases h; exact go _ (upd_same _ _ _) (by cases s.prio <;> rfl) rfl rfl rfl rfl (ng trivial)
  | kPFront d => cases h; exact go _ (upd_same _ _ _) (by cases s.prio <;> cases d <;> rfl) rfl rfl rfl rfl (ng trivial)
  | kTest d => cases h; exact go _ (upd_same _ _ _) (by cases s.pull <;> rfl) rfl rfl rfl rfl (ng trivial)
  | kBack d => cases h; exact go _ (upd_same _ _ _) (by cases s.pull.getLast? <;> cases d <;> rfl) rfl rfl rfl rfl (ng trivial)
  | sLock1 => exact lockL _ rfl h (ng trivial)
  | sLock2 => exact lockU _ rfl h (ng trivial)
  | cLock1 => exact lockL _ rfl h (ng trivial)
  | cLock2 => exact lockU _ rfl h (ng trivial)
  | rLock1 => exact lockL _ rfl h (ng trivial)
  | rLock2 => exact lockU _ rfl h (ng trivial)
  | cPull =>
    cases h
    refine f.next k hl st ?_ (.inl rfl) (by simp only [State.goto, upd_same]; intro h; cases h)
    intro hf
    obtain ⟨h1, h2, h3⟩ := he0 rfl (ng trivial) hf
    exact ⟨h1, rfl, .inl h3⟩
  | cPush =>
    cases h
    refine f.next k hl st ?_ (.inl rfl) (by simp only [State.goto, upd_same]; cases b <;> intro h <;> cases h)
    intro hf
    obtain ⟨h1, h2, h3⟩ := he0 rfl (ng trivial) hf
    exact ⟨rfl, h2, .inl h3⟩
  | cPrio =>
    cases hp : s.prio with
    | nil => simp only [State.stepAt, hp] at h; cases h; exact go .cFlag (upd_same _ _ _) rfl rfl rfl rfl rfl (ng trivial)
    | cons x xs =>
      have hf : s.flag = false := notTrue fun hf => by
        have := (he0 rfl (ng trivial) hf).2.2; rw [hp] at this; cases this
      simp only [State.stepAt, hp] at h; cases h; exact fal0 rfl hf
  | cFlag =>
    rw [hown rfl] at hfa
    obtain ⟨f1, f2, f3⟩ := hfa
    cases h
    exact f.next k hl st (fun _ => ⟨f3, f2, .inl f1⟩) (.inr (.inr ⟨rfl, rfl⟩)) (by simp only [State.goto, upd_same]; intro h; cases h)
  | _ => cases h; exact go _ (upd_same _ _ _) rfl rfl rfl rfl rfl (ng trivial)

/-- if the flag is set, the contents are empty -/
theorem Flag.contents (f : Flag s) (h : s.flag = true) : s.split = ([], [], []) := by
  obtain ⟨h1, h2, h3⟩ := f.empty h
  simp only [State.split, h1, h2]
  rcases h3 with h3 | ⟨i, h3, h4⟩
  · rw [h3]
    cases hp : s.puller with
    | none => rfl
    | some l =>
      cases l with
      | oCheck c k r => cases c <;> rfl
      | _ => rfl
  · rw [h3, h4]; rfl

end Verif.Blocking
