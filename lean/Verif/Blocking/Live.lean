import Verif.Conc.Progress
import Verif.Blocking.Wake
import Verif.Blocking.Move

/-
Lemmas for C122, C123: the blocking queues in fair infinite executions.
-/
namespace Verif.Blocking
open Verif.Conc State

variable {α : Type} {s s' : State α} {t c : Nat} {b : Bool}

/-- the lock that a thread at this position has to take: 0 is m_pushLock, 1 is m_pullLock -/
def want : Loc α → Option Nat
  | .pLock _ | .pLock2 _ | .oCheck .lock _ _ | .sLock2 | .cLock2 | .rLock2 => some 0
  | .pLockPull _ | .fLock _ | .gLock _ | .oLock _ | .wLock _ | .wRelock _ _ | .kLock _ | .sLock1 | .cLock1 | .rLock1 => some 1
  | _ => none

/-- the locks held at a position -/
def holds (l : Loc α) : Nat → Prop
  | 0 => holdsPush l = true
  | 1 => holdsPull l = true
  | _ => False

/-- the owners of the locks -/
def owner (s : State α) : Nat → Option Nat
  | 0 => s.pushOwner
  | 1 => s.pullOwner
  | _ => none

/-- positions where a thread waits -/
def isSleep : Loc α → Prop
  | .wSleep _ => True
  | _ => False

/-- the thread waits for a notification -/
def waits (s : State α) (t : Nat) : Prop := t ∈ s.waiting

theorem goes (t c : Nat) {l : Loc α} (h : ∀ k, want l = some k → owner s k = none) (h1 : l ≠ .idle) (h2 : l ≠ .crash) :
    (s.stepAt b t c l).isSome = true := by
  cases l with
  | oCheck ck k r =>
    cases ck <;> simp [State.stepAt]
    have : s.pushOwner = none := h 0 rfl
    simp [State.lockPush, this]
  | idle => exact absurd rfl h1
  | crash => exact absurd rfl h2
  | _ => first | rfl | (have := h _ rfl; simp only [owner] at this; simp [State.stepAt, State.lockPush, State.lockPull, this])

theorem step_ends {l : Loc α} {o : Option (Out α)} (h : s.stepAt b t c l = some (s', o)) (hl : s'.loc t = .idle) : ∃ r, o = some r := by
  cases o with
  | some r => exact ⟨r, rfl⟩
  | none =>
    exfalso
    have pL : ∀ (l' : Loc α), l' ≠ .idle → (s.lockPull t l').map (·, (none : Option (Out α))) = some (s', none) → False := by
      intro l' hn hx
      simp only [Option.map_eq_some_iff] at hx
      obtain ⟨s1, e1, e2⟩ := hx; cases e2
      obtain ⟨_, rfl⟩ := lockPull_some e1; simp only [upd_same] at hl; exact hn hl
    have pU : ∀ (l' : Loc α), l' ≠ .idle → (s.lockPush t l').map (·, (none : Option (Out α))) = some (s', none) → False := by
      intro l' hn hx
      simp only [Option.map_eq_some_iff] at hx
      obtain ⟨s1, e1, e2⟩ := hx; cases e2
      obtain ⟨_, rfl⟩ := lockPush_some e1; simp only [upd_same] at hl; exact hn hl
    cases l with
    | oCheck ck k r =>
      cases ck with
      | lock => exact pU _ (by simp) h
      | _ =>
        cases h; simp only [State.goto, State.unlockPush, upd_same] at hl
        cases r <;> (try split at hl) <;> simp [afterCheck] at hl
    | oUnPull k r =>
      cases h; simp only [State.goto, State.unlockPull, upd_same] at hl
      cases r with
      | some x => simp [afterTry] at hl
      | none =>
        rcases k with f | f | ⟨f, d⟩ | f <;> try cases d
        all_goals simp [afterTry] at hl
    | oPFront k => cases h; simp only [State.goto, upd_same] at hl; exact moveOut_ind (P := (· ≠ .idle)) (next := .oPPop k) k _ nofun nofun nofun hl
    | oBack k => cases h; simp only [State.goto, upd_same] at hl; exact moveOut_ind (P := (· ≠ .idle)) (next := .oPop k) k _ nofun nofun nofun hl
    | wPFront k => cases h; simp only [State.goto, upd_same] at hl; exact moveOut_ind (P := (· ≠ .idle)) (next := .wPPop k) k _ nofun nofun nofun hl
    | wBack k => cases h; simp only [State.goto, upd_same] at hl; exact moveOut_ind (P := (· ≠ .idle)) (next := .wPop k) k _ nofun nofun nofun hl
    | oLock k | wLock k | wRelock k d | kLock d => cases b <;> exact pL _ (by simp) h
    | kPFront d | kBack d => cases h; simp only [State.goto, upd_same] at hl; cases d <;> split at hl <;> cases hl
    | wTest k d => cases h; simp only [State.goto, upd_same] at hl; cases d <;> split at hl <;> cases hl
    | _ =>
      first
      | exact pU _ (by simp) h
      | exact pL _ (by simp) h
      | (cases h; done)
      | (cases h; simp only [State.goto, State.unlockPush, State.unlockPull, upd_same] at hl; cases hl; done)
      | (cases h; simp only [State.goto, State.unlockPush, State.unlockPull, upd_same] at hl; split at hl <;> cases hl; done)
      | (simp only [State.stepAt] at h; split at h <;> cases h <;> simp only [State.goto, upd_same] at hl <;> cases hl)
      | (cases b <;> cases h <;> simp only [State.goto, upd_same] at hl <;> cases hl)

/-- a step of another thread does not change what the holder of m_pullLock works on -/
theorem step_keeps_pull {o : Option (Out α)} {u : Nat} (k : Locks s) (h : s.stepAt b t c (s.loc t) = some (s', o)) (hu : holdsPull (s.loc u) = true)
    (ht : t ≠ u) : s'.pull = s.pull ∧ s'.prio = s.prio := by
  have hn : holdsPull (s.loc t) = false := by
    cases hh : holdsPull (s.loc t) with
    | false => rfl
    | true => exact absurd (k.pull.unique hh hu) ht
  have h1 : usesPull (s.loc t) = false := by
    cases hh : usesPull (s.loc t) with
    | false => rfl
    | true => rw [usesPull_holds hh] at hn; cases hn
  have h2 : usesPrio (s.loc t) = false := by
    cases hh : usesPrio (s.loc t) with
    | false => rfl
    | true => rw [usesPrio_holds hh] at hn; cases hn
  constructor
  · have := pull_frame (s := s) (t := t) (c := c) (b := b) h1 s.pull
    rw [show ({ s with pull := s.pull } : State α) = s from rfl, h] at this
    have := (Prod.mk.inj (Option.some.inj this)).1
    rw [this]
  · have := prio_frame (s := s) (t := t) (c := c) (b := b) h2 s.prio
    rw [show ({ s with prio := s.prio } : State α) = s from rfl, h] at this
    have := (Prod.mk.inj (Option.some.inj this)).1
    rw [this]

/-- `clear` empties the priority queue one element after the other (P57-59) -/
def left (s : State α) (t : Nat) : Nat := match s.loc t with | .cPrio => s.prio.length | _ => 0

/-- the locks of the blocking queues -/
def guards (b : Bool) (α : Type) : Guards (sys b α) (Loc α) where
  loc := State.loc
  rest := .idle
  sleep := isSleep
  waits := waits
  want := want
  holds := holds
  owner := owner
  rank s t := (rank (s.loc t), left s t)
  held s k u hs := by
    have := (sound_obtained (Obtained.of_reachable hs)).locks
    match k with
    | 0 => exact this.push u
    | 1 => exact this.pull u
    | k + 2 => simp [holds, owner]
  goes s t hs hr hw := ⟨0, goes t 0 hw hr (no_crash (sound_obtained (.of_reachable hs)).locks (sound_obtained (.of_reachable hs)).facts t)⟩
  order l k j hw hh := by
    match j with
    | 0 => cases l <;> first | (cases hh; done) | (cases hw; done) | (rename_i c k r; cases c <;> first | (cases hh; done) | (cases hw; done))
    | 1 => cases l <;> first | (cases hh; done) | (cases hw; done) | (cases hw; omega) | (rename_i c k r; cases c <;> first | (cases hh; done) | (cases hw; done) | (cases hw; omega))
    | j + 2 => cases hh
  other s t c s' o h u hu := by rw [stepAt_loc h, upd_ne _ _ hu]
  fresh _ := rfl
  called s t op s' h := by
    obtain ⟨l, hst, hl, rfl, _⟩ := call_locks h
    refine ⟨hl, ?_, fun u hu => upd_ne _ _ hu⟩
    show upd s.loc t l t ≠ _
    rw [upd_same]
    rcases start_cases hst with ⟨i, rfl, rfl⟩ | ⟨i, rfl, rfl, _⟩ | ⟨k', rfl, rfl⟩ | ⟨x, rfl, rfl⟩ | ⟨rfl, rfl, _⟩ | ⟨rfl, rfl⟩ |
        ⟨rfl, rfl⟩ | ⟨rfl, rfl⟩ <;> simp
  lower s t c s' o hs h hsl := by
    have h1 : ∀ k, s.loc t ≠ .wSleep k := by intro k e; rw [e] at hsl; exact hsl trivial
    by_cases h2 : s.loc t = .cPrio
    · have h : s.stepAt b t c (s.loc t) = some (s', o) := h
      rw [h2] at h
      simp only [left, h2]
      cases hp : s.prio with
      | nil =>
        simp only [State.stepAt, hp] at h
        cases h; exact .inl (by simp [State.goto, upd_same, rank])
      | cons x xs =>
        simp only [State.stepAt, hp] at h
        cases h; exact .inr (by simp [State.goto, upd_same])
    · exact .inl (stepAt_rank h h1 h2)
  steady s a s' x t hs h ha hr := by
    cases a with
    | call u op =>
      simp only [Sys.exec, Option.map_eq_some_iff] at h
      obtain ⟨s1, e1, e2⟩ := h
      cases e2
      obtain ⟨l, hst, hl, rfl, _⟩ := call_locks e1
      have : t ≠ u := by rintro rfl; exact hr hl
      simp only [left, State.goto, upd_ne _ _ this]
    | move u c =>
      simp only [Sys.exec, Option.map_eq_some_iff] at h
      obtain ⟨⟨s1, o⟩, e1, e2⟩ := h
      cases e2
      have : t ≠ u := by rintro rfl; exact ha c rfl
      have hl : s1.loc t = s.loc t := by rw [stepAt_loc e1, upd_ne _ _ this]
      simp only [left, hl]
      cases he : s.loc t with
      | cPrio =>
        rw [(step_keeps_pull (sound_obtained (.of_reachable hs)).locks e1 (u := t) (by rw [he]; rfl) (fun e => this e.symm)).2]
      | _ => rfl
  busy l k hh := by
    constructor
    · rintro rfl
      match k with
      | 0 | 1 | k + 2 => cases hh
    · intro h1
      cases l <;> first | exact h1 | (match k with | 0 | 1 | k + 2 => cases hh)
  gains s t c s' o k v hs h ho hv := by
    have st := stepAt_locks (sound_obtained (Obtained.of_reachable hs)).locks rfl h
    match k with
    | 0 =>
      simp only [owner] at ho ⊢
      rw [st.push] at ho
      split at ho
      · cases ho; exact absurd rfl hv
      · split at ho
        · cases ho
        · exact ho
    | 1 =>
      simp only [owner] at ho ⊢
      rw [st.pull] at ho
      split at ho
      · cases ho; exact absurd rfl hv
      · split at ho
        · cases ho
        · exact ho
    | k + 2 => cases ho
  asleep s t hs h := by
    obtain ⟨k, hk⟩ := (sound_obtained (Obtained.of_reachable hs)).sleeps.at_ t h
    rw [hk]; trivial
  falls s a s' x t h hw := by
    cases a with
    | call u op =>
      simp only [Sys.exec, Option.map_eq_some_iff] at h
      obtain ⟨s1, e1, e2⟩ := h
      cases e2
      obtain ⟨l, hst, hl, rfl, _⟩ := call_locks e1
      exact .inl hw
    | move u c =>
      simp only [Sys.exec, Option.map_eq_some_iff] at h
      obtain ⟨⟨s1, o⟩, e1, e2⟩ := h
      cases e2
      by_cases hu : u = t
      · subst hu; exact .inr ⟨c, rfl⟩
      · refine .inl ?_
        simp only [waits] at hw ⊢
        rcases stepAt_waiting e1 with ⟨_, h2⟩ | h2 | ⟨k, h1, h2, h3⟩ | ⟨k, h1, h2⟩
        · rw [h2] at hw; exact hw
        · rw [h2] at hw; cases hw
        · rw [h2] at hw; exact (List.mem_cons.1 hw).resolve_left (fun e => hu e.symm)
        · rw [h2] at hw; exact List.mem_of_mem_erase hw
  ends s t c s' o h hl := step_ends h hl

end Verif.Blocking
