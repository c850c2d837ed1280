import Verif.Conc.Lock
import Verif.Blocking.Spec

/-
Helper lemmas for the blocking queues: who holds which lock.
-/
namespace Verif.Blocking
open Verif.Conc

variable {α : Type}

/-- Does a thread at this position hold m_pullLock? -/
def holdsPull : Loc α → Bool
  | .pFlag _ | .pTestPull _ | .pPull _ | .pLock2 _ | .pPush2 _ | .pNotify _ | .pUnPull _ | .xUnPull _ | .fFlag _ | .fPush _ | .fNotify
  | .gPush _ | .gCas _ | .fUn | .oPrio _ | .oPFront _ | .oPPop _ _ | .oCheck _ _ _ | .oTest _ | .oBack _ | .oPop _ _
  | .oUnPull _ _ | .wPrio _ _ | .wPFront _ | .wPPop _ _ | .wTest _ _ | .wBack _ | .wPop _ _ | .wUn _ _ | .wEnter _
  | .wUnlock _ _ | .kPrio _ | .kPFront _ | .kTest _ | .kBack _ | .kUn _ | .kUnNone _ | .yUn | .sLock2 | .sPull | .sPush _ | .sUn1 _ | .sUn2 _ | .cLock2
  | .cPull | .cPush | .cPrio | .cFlag | .cUn1 | .cUn2 | .rLock2 | .rPull | .rPush | .rUn1 | .rUn2 | .crash => true
  | _ => false

/-- Does a thread at this position hold m_pushLock? -/
def holdsPush : Loc α → Bool
  | .pTest _ | .pCas _ | .pUnlock _ | .pPush2 _ | .pNotify true | .pUnPull true | .pAppend _ | .pCas2 | .pNotify2
  | .pAppend0 _ | .pUnPush | .xUnPull true | .xUnPush | .oCheck .testPush _ _ | .oCheck .swap _ _ | .oCheck .unlockSwap _ _ | .oCheck .setFlag _ _
  | .oCheck .unlockFlag _ _ | .sPull | .sPush _ | .sUn1 _ | .cPull | .cPush | .cPrio | .cFlag | .cUn1 | .rPull | .rPush
  | .rUn1 => true
  | _ => false

/-- The locks are held by the threads whose position says so. -/
structure Locks (s : State α) : Prop where
  pull : Owns holdsPull s.pullOwner s.loc
  push : Owns holdsPush s.pushOwner s.loc

/-- a step changes the locks only as its position says -/
structure LockStep (s s' : State α) (t : Nat) (l l' : Loc α) : Prop where
  loc : s'.loc = upd s.loc t l'
  pull : s'.pullOwner = if holdsPull l' then some t else if holdsPull l then none else s.pullOwner
  pullFree : holdsPull l' = true → holdsPull l = true ∨ s.pullOwner = none
  push : s'.pushOwner = if holdsPush l' then some t else if holdsPush l then none else s.pushOwner
  pushFree : holdsPush l' = true → holdsPush l = true ∨ s.pushOwner = none

variable {s s' : State α} {t c : Nat} {l l' : Loc α} {o : Option (Out α)} {b : Bool}

theorem lockPull_some (h : s.lockPull t l = some s') :
    s.pullOwner = none ∧ s' = { s with pullOwner := some t, loc := upd s.loc t l } := by
  simp only [State.lockPull] at h
  split at h
  · rename_i h0; cases h; exact ⟨h0, rfl⟩
  · cases h

theorem lockPush_some (h : s.lockPush t l = some s') :
    s.pushOwner = none ∧ s' = { s with pushOwner := some t, loc := upd s.loc t l } := by
  simp only [State.lockPush] at h
  split at h
  · rename_i h0; cases h; exact ⟨h0, rfl⟩
  · cases h

theorem Locks.step (k : Locks s) (hl : s.loc t = l) (c : LockStep s s' t l l') : Locks s' := by
  refine ⟨?_, ?_⟩
  · rw [c.loc]; exact k.pull.step hl c.pull c.pullFree
  · rw [c.loc]; exact k.push.step hl c.push c.pushFree

/-- position of the holder of m_pullLock -/
def State.puller (s : State α) : Option (Loc α) := s.pullOwner.map s.loc

theorem Locks.puller_eq (k : Locks s) (hl : s.loc t = l) (h : holdsPull l = true) : s.puller = some l :=
  k.pull.holder hl h

theorem puller_none (h : s.pullOwner = none) : s.puller = none := by simp [State.puller, h]

theorem Locks.step_puller (k : Locks s) (hl : s.loc t = l) (c : LockStep s s' t l l') :
    s'.puller = if holdsPull l' then some l' else if holdsPull l then none else s.puller := by
  simp only [State.puller]
  rw [c.loc]; exact k.pull.step_holder hl c.pull

/-- a holder of m_pullLock does not hold m_pushLock when another thread, or nobody, does -/
theorem Locks.other (k : Locks s) (h : s.pushOwner = none ∨ (s.pushOwner = some t ∧ s.pullOwner ≠ some t)) {lo : Loc α}
    (ho : s.puller = some lo) : holdsPush lo = false := by
  simp only [State.puller, Option.map_eq_some_iff] at ho
  obtain ⟨u, h1, h2⟩ := ho
  cases hb : holdsPush lo with
  | false => rfl
  | true =>
    have := (k.push u).1 (by rw [h2]; exact hb)
    rcases h with h | ⟨h, h'⟩
    · rw [h] at this; cases this
    · rw [h] at this; cases this; exact absurd h1 h'

/-- the effect of a step on one lock -/
def Eff (h : Loc α → Bool) (own own' : Option Nat) (t : Nat) (l l' : Loc α) : Prop :=
  (h l' = h l ∧ own' = own) ∨ (h l' = true ∧ own = none ∧ own' = some t) ∨ (h l' = false ∧ h l = true ∧ own' = none)

theorem Eff.own {h : Loc α → Bool} {own own' : Option Nat} (k : h l = true ↔ own = some t) (e : Eff h own own' t l l') :
    own' = (if h l' then some t else if h l then none else own) ∧ (h l' = true → h l = true ∨ own = none) := by
  rcases e with ⟨h1, rfl⟩ | ⟨h1, h2, rfl⟩ | ⟨h1, h2, rfl⟩
  · rw [h1]
    refine ⟨?_, .inl⟩
    cases hl : h l with
    | true => simp [k.1 hl]
    | false => simp
  · exact ⟨by simp [h1], fun _ => .inr h2⟩
  · exact ⟨by simp [h1, h2], by simp [h1]⟩

theorem LockStep.of (k : Locks s) (hl : s.loc t = l) (loc : s'.loc = upd s.loc t l')
    (pull : Eff holdsPull s.pullOwner s'.pullOwner t l l') (push : Eff holdsPush s.pushOwner s'.pushOwner t l l') :
    LockStep s s' t l (s'.loc t) := by
  have e : s'.loc t = l' := by rw [loc, upd_same]
  rw [e]
  have kp := k.pull t
  have kq := k.push t
  rw [hl] at kp kq
  obtain ⟨h1, h2⟩ := pull.own kp
  obtain ⟨h3, h4⟩ := push.own kq
  exact ⟨loc, h1, h2, h3, h4⟩

theorem LockStep.of' (k : Locks s) (hl : s.loc t = l) (l' : Loc α) (loc : s'.loc = upd s.loc t l')
    (pull : Eff holdsPull s.pullOwner s'.pullOwner t l l') (push : Eff holdsPush s.pushOwner s'.pushOwner t l l') :
    LockStep s s' t l (s'.loc t) := LockStep.of k hl loc pull push

theorem afterTry_free (k : Kind) (r : Option α) : holdsPull (State.afterTry k r) = false ∧ holdsPush (State.afterTry k r) = false := by
  cases r <;> cases k <;> first | exact ⟨rfl, rfl⟩ | (rename_i b; cases b <;> exact ⟨rfl, rfl⟩)

theorem moveOut_cases (k : Kind) (next : α → Loc α) (o : Option α) (h : o ≠ none) :
    (k.fate = .out ∧ State.moveOut k next o = .yUn) ∨ (k.fate ≠ .out ∧ ∃ x, o = some x ∧ State.moveOut k next o = next x) := by
  cases o with
  | none => exact absurd rfl h
  | some x =>
    by_cases hk : k.fate = .out
    · exact .inl ⟨hk, by simp [State.moveOut, hk]⟩
    · exact .inr ⟨hk, x, rfl, by simp [State.moveOut, hk]⟩

/-- what holds wherever a thread can go on after moving out an element -/
theorem moveOut_ind {P : Loc α → Prop} (k : Kind) {next : α → Loc α} (o : Option α) (h1 : P .yUn) (h2 : P .crash)
    (h3 : ∀ x, P (next x)) : P (State.moveOut k next o) := by
  cases o with
  | none => exact h2
  | some x =>
    simp only [State.moveOut]
    split
    · exact h1
    · exact h3 x

theorem moveOut_holds (k : Kind) (next : α → Loc α) (o : Option α) (h1 : ∀ x, holdsPull (next x) = true)
    (h2 : ∀ x, holdsPush (next x) = false) :
    holdsPull (State.moveOut k next o) = true ∧ holdsPush (State.moveOut k next o) = false := by
  cases o with
  | none => exact ⟨rfl, rfl⟩
  | some x =>
    simp only [State.moveOut]
    split
    · exact ⟨rfl, rfl⟩
    · exact ⟨h1 x, h2 x⟩

set_option hygiene false in
/-- the lock effects, by computation -/
macro "eff" : tactic => `(tactic| first
  | exact .inl ⟨rfl, rfl⟩
  | exact .inr (.inl ⟨rfl, h1, rfl⟩)
  | exact .inr (.inr ⟨rfl, rfl, rfl⟩)
  | (split <;> exact .inl ⟨rfl, rfl⟩)
  | (split <;> exact .inr (.inl ⟨rfl, h1, rfl⟩))
  | (split <;> exact .inr (.inr ⟨rfl, rfl, rfl⟩)))

theorem stepAt_locks (k : Locks s) (hl : s.loc t = l) (h : s.stepAt b t c l = some (s', o)) :
    LockStep s s' t l (s'.loc t) := by
  have lockU : ∀ l', (s.lockPush t l').map (·, (none : Option (Out α))) = some (s', o) →
      holdsPush l' = true → holdsPush l = false → holdsPull l' = holdsPull l → LockStep s s' t l (s'.loc t) := by
    intro l' h' a1 a2 a3
    simp only [Option.map_eq_some_iff] at h'
    obtain ⟨s1, h', e⟩ := h'; cases e
    obtain ⟨h1, rfl⟩ := lockPush_some h'
    exact .of k hl rfl (.inl ⟨a3, rfl⟩) (.inr (.inl ⟨a1, h1, rfl⟩))
  have lockL : ∀ l', (s.lockPull t l').map (·, (none : Option (Out α))) = some (s', o) →
      holdsPull l' = true → holdsPull l = false → holdsPush l' = holdsPush l → LockStep s s' t l (s'.loc t) := by
    intro l' h' a1 a2 a3
    simp only [Option.map_eq_some_iff] at h'
    obtain ⟨s1, h', e⟩ := h'; cases e
    obtain ⟨h1, rfl⟩ := lockPull_some h'
    exact .of k hl rfl (.inr (.inl ⟨a1, h1, rfl⟩)) (.inl ⟨a3, rfl⟩)
  cases l with
  | idle => cases h
  | crash => cases h
  | oCheck c k r =>
    cases c with
    | lock => exact lockU _ h rfl rfl rfl
    | test => cases h; exact .of (by assumption) hl rfl (by cases r <;> eff) (by cases r <;> eff)
    | _ => cases h; exact .of (by assumption) hl rfl (by cases r <;> eff) (by cases r <;> eff)
  | oUnPull k r =>
    cases h
    exact .of (by assumption) hl rfl (.inr (.inr ⟨(afterTry_free k r).1, rfl, rfl⟩)) (.inl ⟨(afterTry_free k r).2, rfl⟩)
  | wTest k w => cases h; exact .of (by assumption) hl rfl (by cases w <;> eff) (by cases w <;> eff)
  | pNotify b => cases h; exact .of k hl rfl (by cases b <;> eff) (by cases b <;> eff)
  | pUnPull b => cases h; exact .of k hl rfl (by cases b <;> eff) (by cases b <;> eff)
  | xUnPull b => cases h; exact .of k hl rfl (by cases b <;> eff) (by cases b <;> eff)
  | pPull i => cases i <;> cases h <;> exact .of k hl rfl (by eff) (by eff)
  | pPush2 i => cases i <;> cases h <;> exact .of k hl rfl (by eff) (by eff)
  | pAppend i => cases i <;> cases h <;> exact .of k hl rfl (by eff) (by eff)
  | pAppend0 i => cases i <;> cases h <;> exact .of k hl rfl (by eff) (by eff)
  | fPush i => cases i <;> cases h <;> exact .of k hl rfl (by eff) (by eff)
  | gPush i => cases i <;> cases h <;> exact .of k hl rfl (by eff) (by eff)
  | pLock i => exact lockU _ h rfl rfl rfl
  | pLockPull i => exact lockL _ h rfl rfl rfl
  | pLock2 i => exact lockU _ h rfl rfl rfl
  | fLock i => exact lockL _ h rfl rfl rfl
  | gLock i => exact lockL _ h rfl rfl rfl
  | oLock i => cases b <;> exact lockL _ h rfl rfl rfl
  | wLock i => cases b <;> exact lockL _ h rfl rfl rfl
  | wRelock i => cases b <;> exact lockL _ h rfl rfl rfl
  | kLock x => cases b <;> exact lockL _ h rfl rfl rfl
  | sLock1 => exact lockL _ h rfl rfl rfl
  | sLock2 => exact lockU _ h rfl rfl rfl
  | cLock1 => exact lockL _ h rfl rfl rfl
  | cLock2 => exact lockU _ h rfl rfl rfl
  | rLock1 => exact lockL _ h rfl rfl rfl
  | rLock2 => exact lockU _ h rfl rfl rfl
  | pCas i => simp only [State.stepAt] at h; split at h <;> cases h <;> exact .of k hl rfl (by eff) (by eff)
  | pCas2 => simp only [State.stepAt] at h; split at h <;> cases h <;> exact .of k hl rfl (by eff) (by eff)
  | fCas i => simp only [State.stepAt] at h; split at h <;> cases h <;> exact .of k hl rfl (by eff) (by eff)
  | gCas i => simp only [State.stepAt] at h; split at h <;> cases h <;> exact .of k hl rfl (by eff) (by eff)
  | oPPop i x => simp only [State.stepAt] at h; split at h <;> cases h <;> exact .of k hl rfl (by eff) (by eff)
  | oPop i x => simp only [State.stepAt] at h; split at h <;> cases h <;> exact .of k hl rfl (by eff) (by eff)
  | wPPop i x => simp only [State.stepAt] at h; split at h <;> cases h <;> exact .of k hl rfl (by eff) (by eff)
  | wPop i x => simp only [State.stepAt] at h; split at h <;> cases h <;> exact .of k hl rfl (by eff) (by eff)
  | cPrio => simp only [State.stepAt] at h; split at h <;> cases h <;> exact .of k hl rfl (by eff) (by eff)
  | oPFront i =>
    cases h
    obtain ⟨h1, h2⟩ := moveOut_holds i (.oPPop i) s.prio.head? (fun _ => rfl) (fun _ => rfl)
    exact .of k hl rfl (.inl ⟨h1, rfl⟩) (.inl ⟨h2, rfl⟩)
  | oBack i =>
    cases h
    obtain ⟨h1, h2⟩ := moveOut_holds i (.oPop i) s.pull.getLast? (fun _ => rfl) (fun _ => rfl)
    exact .of k hl rfl (.inl ⟨h1, rfl⟩) (.inl ⟨h2, rfl⟩)
  | wPFront i =>
    cases h
    obtain ⟨h1, h2⟩ := moveOut_holds i (.wPPop i) s.prio.head? (fun _ => rfl) (fun _ => rfl)
    exact .of k hl rfl (.inl ⟨h1, rfl⟩) (.inl ⟨h2, rfl⟩)
  | wBack i =>
    cases h
    obtain ⟨h1, h2⟩ := moveOut_holds i (.wPop i) s.pull.getLast? (fun _ => rfl) (fun _ => rfl)
    exact .of k hl rfl (.inl ⟨h1, rfl⟩) (.inl ⟨h2, rfl⟩)
  | kPFront x => cases x <;> cases h <;> exact .of k hl rfl (by eff) (by eff)
  | kBack x => cases x <;> cases h <;> exact .of k hl rfl (by eff) (by eff)
  | cPush => cases b <;> cases h <;> exact .of k hl rfl (by eff) (by eff)
  | _ => cases h; exact .of k hl rfl (by eff) (by eff)

theorem call_some {op : Op α} (h : s.call b t op = some s') :
    s.loc t = .idle ∧ ∃ l, State.start b op = some l ∧ s' = s.goto t l := by
  simp only [State.call] at h
  split at h
  · rename_i hl
    simp only [Option.map_eq_some_iff] at h
    obtain ⟨l, h1, h2⟩ := h
    exact ⟨hl, l, h1, h2.symm⟩
  · cases h

/-- the call a try_pop belongs to -/
def Kind.op : Kind → Op α
  | .try .out => .tryPopX false
  | .try .lost => .tryPopX true
  | .try _ => .tryPop
  | .pop .out => .popX false
  | .pop .lost => .popX true
  | .pop _ => .pop
  | .timed .out _ => .timedPopX false
  | .timed .lost _ => .timedPopX true
  | .timed _ _ => .timedPop
  | .orCall .out => .popOrCallX false
  | .orCall .lost => .popOrCallX true
  | .orCall .fn => .popOrCallF
  | .orCall .ok => .popOrCall

/-- the try_peek, in which copying the element throws or not -/
def peekOp (x : Bool) : Op α := if x then .peekX else .peek

theorem start_cases {op : Op α} (h : State.start b op = some l) :
    (∃ i, op = .ins i ∧ l = .pLock i) ∨ (∃ i, op = .prio i ∧ l = .fCas i ∧ b = true) ∨ (∃ k : Kind, op = k.op ∧ l = .oLock k) ∨
    (∃ x, op = peekOp x ∧ l = .kLock x) ∨ (op = .size ∧ l = .sLock1 ∧ b = false) ∨ (op = .empty ∧ l = .eRead) ∨
    (op = .clear ∧ l = .cLock1) ∨ (op = .reserve ∧ l = .rLock1) := by
  cases op
  case tryPopX l => cases l <;> cases h <;> exact .inr (.inr (.inl ⟨_, rfl, rfl⟩))
  case popX l => cases l <;> cases h <;> exact .inr (.inr (.inl ⟨_, rfl, rfl⟩))
  case timedPopX l => cases l <;> cases h <;> exact .inr (.inr (.inl ⟨_, rfl, rfl⟩))
  case popOrCallX l => cases l <;> cases h <;> exact .inr (.inr (.inl ⟨_, rfl, rfl⟩))
  case peek => cases h; exact .inr (.inr (.inr (.inl ⟨false, rfl, rfl⟩)))
  case peekX => cases h; exact .inr (.inr (.inr (.inl ⟨true, rfl, rfl⟩)))
  all_goals first
    | (cases h; exact .inr (.inr (.inl ⟨_, rfl, rfl⟩)))
    | (cases b <;> simp_all [State.start]; done)

theorem start_free {op : Op α} (h : State.start b op = some l) : holdsPull l = false ∧ holdsPush l = false := by
  rcases start_cases h with ⟨i, _, rfl⟩ | ⟨i, _, rfl, _⟩ | ⟨k, _, rfl⟩ | ⟨x, _, rfl⟩ | ⟨_, rfl, _⟩ |
    ⟨_, rfl⟩ | ⟨_, rfl⟩ | ⟨_, rfl⟩ <;> exact ⟨rfl, rfl⟩

theorem call_locks {op : Op α} (h : s.call b t op = some s') :
    ∃ l, State.start b op = some l ∧ s.loc t = .idle ∧ s' = s.goto t l ∧ LockStep s s' t .idle l := by
  obtain ⟨hl, l, h1, rfl⟩ := call_some h
  obtain ⟨h2, h3⟩ := start_free h1
  have h4 : holdsPull (.idle : Loc α) = false := rfl
  have h5 : holdsPush (.idle : Loc α) = false := rfl
  exact ⟨l, h1, hl, rfl, rfl, by simp [h2, h4, State.goto], by simp [h2], by simp [h3, h5, State.goto], by simp [h3]⟩

theorem Locks.init : Locks (State.init : State α) := by
  refine ⟨?_, ?_⟩ <;> intro t <;> simp [State.init, holdsPull, holdsPush]

theorem locks_reachable (s : State α) (h : (sys b α).Reachable s) : Locks s := by
  refine Sys.invariant (M := sys b α) Locks Locks.init ?_ ?_ s h
  · intro s t op s' k h
    obtain ⟨l, _, hl, rfl, c⟩ := call_locks h
    exact k.step hl c
  · intro s t c s' o k h
    exact k.step rfl (stepAt_locks k rfl h)

end Verif.Blocking
