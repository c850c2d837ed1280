import Verif.Blocking.Main

/-
The blocking queues: deadlock, termination, races.
-/
namespace Verif.Blocking
open Verif.Conc

variable {α : Type} {s s' : State α} {t c : Nat} {w b : Bool}

/-- no lock is missing -/
def Ready (s : State α) (l : Loc α) : Prop :=
  holdsPush l = true ∨ (s.pushOwner = none ∧ (holdsPull l = true ∨ s.pullOwner = none))

theorem enabled (t c : Nat) {l : Loc α} (h : Ready s l) (h1 : l ≠ .idle) (h2 : l ≠ .crash) :
    (s.stepAt b t c l).isSome = true := by
  cases l with
  | oCheck c k r =>
    cases c <;> simp [State.stepAt]
    rcases h with h | ⟨h, _⟩
    · cases h
    · simp [State.lockPush, h]
  | idle => exact absurd rfl h1
  | crash => exact absurd rfl h2
  | _ => first | rfl | simp_all [State.stepAt, State.lockPush, State.lockPull, Ready, holdsPush, holdsPull]

/-- waiting threads are at the wait -/
structure Sleeps (s : State α) : Prop where
  at_ : ∀ t ∈ s.waiting, ∃ k, s.loc t = .wSleep k
  nodup : s.waiting.Nodup

theorem stepAt_waiting {l : Loc α} {o : Option (Out α)} (h : s.stepAt b t c l = some (s', o)) :
    ((∀ k, l ≠ .wSleep k) ∧ s'.waiting = s.waiting) ∨ s'.waiting = [] ∨
    (∃ k, l = .wEnter k ∧ s'.waiting = t :: s.waiting ∧ s'.loc t = .wSleep k) ∨
    (∃ k, l = .wSleep k ∧ s'.waiting = s.waiting.erase t) := by
  have pL : ∀ (l' : Loc α), (∀ k, l ≠ .wSleep k) → (s.lockPull t l').map (·, (none : Option (Out α))) = some (s', o) →
      (∀ k, l ≠ .wSleep k) ∧ s'.waiting = s.waiting := by
    intro l' hn hx
    simp only [Option.map_eq_some_iff] at hx
    obtain ⟨s1, e1, e2⟩ := hx; cases e2
    obtain ⟨_, rfl⟩ := lockPull_some e1; exact ⟨hn, rfl⟩
  have pU : ∀ (l' : Loc α), (∀ k, l ≠ .wSleep k) → (s.lockPush t l').map (·, (none : Option (Out α))) = some (s', o) →
      (∀ k, l ≠ .wSleep k) ∧ s'.waiting = s.waiting := by
    intro l' hn hx
    simp only [Option.map_eq_some_iff] at hx
    obtain ⟨s1, e1, e2⟩ := hx; cases e2
    obtain ⟨_, rfl⟩ := lockPush_some e1; exact ⟨hn, rfl⟩
  cases l with
  | wEnter k => cases h; exact .inr (.inr (.inl ⟨k, rfl, rfl, upd_same _ _ _⟩))
  | wSleep k => cases h; exact .inr (.inr (.inr ⟨k, rfl, rfl⟩))
  | pNotify d => cases h; exact .inr (.inl rfl)
  | pNotify2 => cases h; exact .inr (.inl rfl)
  | fNotify => cases h; exact .inr (.inl rfl)
  | oCheck ck k r =>
    cases ck with
    | lock => exact .inl (pU _ (by simp) h)
    | _ => cases h; exact .inl ⟨by simp, rfl⟩
  | _ =>
    first
    | exact .inl (pU _ (by simp) h)
    | exact .inl (pL _ (by simp) h)
    | (cases h; done)
    | (cases h; exact .inl ⟨by simp, rfl⟩)
    | (simp only [State.stepAt] at h; split at h <;> cases h <;> exact .inl ⟨by simp, rfl⟩)

theorem Sleeps.move {o : Option (Out α)} (hs : Sleeps s) (h : s.stepAt b t c (s.loc t) = some (s', o)) : Sleeps s' := by
  have hloc := stepAt_loc h
  have keep : ∀ u, u ≠ t → u ∈ s.waiting → ∃ k, s'.loc u = .wSleep k := by
    intro u hu hm; rw [hloc, upd_ne _ _ hu]; exact hs.at_ u hm
  rcases stepAt_waiting h with ⟨h1, h2⟩ | h2 | ⟨k, h1, h2, h3⟩ | ⟨k, h1, h2⟩
  · have ht : t ∉ s.waiting := fun hm => by obtain ⟨k, hk⟩ := hs.at_ t hm; exact h1 k hk
    exact ⟨fun u hm => keep u (fun e => ht (e ▸ h2 ▸ hm)) (h2 ▸ hm), by rw [h2]; exact hs.nodup⟩
  · exact ⟨fun u hm => (by rw [h2] at hm; cases hm), by rw [h2]; exact List.nodup_nil⟩
  · have ht : t ∉ s.waiting := fun hm => by obtain ⟨k, hk⟩ := hs.at_ t hm; rw [h1] at hk; cases hk
    refine ⟨fun u hm => ?_, by rw [h2]; exact List.nodup_cons.2 ⟨ht, hs.nodup⟩⟩
    rw [h2] at hm
    by_cases e : u = t
    · subst e; exact ⟨k, h3⟩
    · exact keep u e ((List.mem_cons.1 hm).resolve_left e)
  · refine ⟨fun u hm => ?_, by rw [h2]; exact hs.nodup.erase t⟩
    rw [h2, hs.nodup.mem_erase_iff] at hm
    exact keep u hm.1 hm.2

theorem Sleeps.call {op : Op α} (hs : Sleeps s) (h : s.call b t op = some s') : Sleeps s' := by
  obtain ⟨l, hst, hl, rfl, _⟩ := call_locks h
  refine ⟨fun u hm => ?_, hs.nodup⟩
  obtain ⟨k, hk⟩ := hs.at_ u hm
  have : u ≠ t := by rintro rfl; rw [hl] at hk; cases hk
  exact ⟨k, by simp only [State.goto, upd_ne _ _ this]; exact hk⟩

theorem sleeps_reachable (s : State α) (h : (sys b α).Reachable s) : Sleeps s :=
  Sys.invariant Sleeps ⟨fun _ h => (by cases h), List.nodup_nil⟩ (fun i h => i.call h) (fun i h => i.move h) s h

theorem no_crash (k : Locks s) (hf : Facts s.prio s.pull s.push s.puller) (t : Nat) : s.loc t ≠ .crash := by
  intro hc
  rw [k.puller_eq hc rfl] at hf
  exact hf

theorem no_deadlock (k : Locks s) (sl : Sleeps s) (nc : ∀ u, s.loc u ≠ .crash) (t : Nat) (ht : s.loc t ≠ .idle)
    (ha : t ∉ s.waiting) : ∃ u r, s.loc u ≠ .idle ∧ u ∉ s.waiting ∧ (sys b α).move u 0 s = some r := by
  have fin : ∀ u, s.loc u ≠ .idle → u ∉ s.waiting → Ready s (s.loc u) →
      ∃ u r, s.loc u ≠ .idle ∧ u ∉ s.waiting ∧ (sys b α).move u 0 s = some r := by
    intro u hu hw hr
    obtain ⟨r, h⟩ := Option.isSome_iff_exists.1 (enabled u 0 hr hu (nc u))
    exact ⟨u, r, hu, hw, h⟩
  cases hp : s.pushOwner with
  | some u =>
    have h := (k.push u).2 hp
    exact fin u (by intro h'; rw [h'] at h; cases h) (fun hm => by obtain ⟨k, hk⟩ := sl.at_ u hm; rw [hk] at h; cases h) (.inl h)
  | none =>
    cases hq : s.pullOwner with
    | some u =>
      have h := (k.pull u).2 hq
      exact fin u (by intro h'; rw [h'] at h; cases h)
        (fun hm => by obtain ⟨k, hk⟩ := sl.at_ u hm; rw [hk] at h; cases h) (.inr ⟨hp, .inl h⟩)
    | none => exact fin t ht ha (.inr ⟨hp, .inr hq⟩)

/-- Bound on the steps of a call up to its end or its next wait. -/
def rank : Loc α → Nat
  | .idle => 0
  | .ret _ | .kNone _ | .crash | .wSleep _ => 1
  | .wEnter _ | .wUn _ _ | .yUn => 2
  | .wPop _ _ | .wPPop _ _ => 3
  | .wBack _ | .wPFront _ => 4
  | .wTest _ none => 5
  | .wPrio _ none => 6
  | .wLock _ => 7
  | .wCall _ => 8
  | .oUnPull _ _ => 9
  | .oPPop _ _ => 10
  | .oPFront _ => 11
  | .oCheck .unlockFlag _ (some _) | .oCheck .reverse _ (some _) => 10
  | .oCheck .setFlag _ (some _) | .oCheck .unlockSwap _ (some _) => 11
  | .oCheck .swap _ (some _) => 12
  | .oCheck .testPush _ (some _) => 13
  | .oCheck .lock _ (some _) => 14
  | .oCheck .test _ (some _) => 15
  | .oPop _ _ => 16
  | .oBack _ => 17
  | .oTest _ => 18
  | .oCheck .unlockFlag _ none | .oCheck .reverse _ none => 19
  | .oCheck .setFlag _ none | .oCheck .unlockSwap _ none => 20
  | .oCheck .swap _ none => 21
  | .oCheck .testPush _ none => 22
  | .oCheck .lock _ none => 23
  | .oCheck .test _ none => 24
  | .oPrio _ => 25
  | .oLock _ => 26
  | .wUnlock _ _ => 27
  | .wTest _ (some _) => 28
  | .wPrio _ (some _) => 29
  | .wRelock _ _ => 30
  | .pUnPush | .xUnPush | .fUn | .kUn _ | .kUnNone _ | .sUn2 _ | .cUn2 | .rUn2 | .eRead => 2
  | .pUnPull _ | .xUnPull _ | .pAppend0 _ | .fNotify | .kBack _ | .kPFront _ | .sUn1 _ | .cUn1 | .rUn1 => 3
  | .pNotify _ | .pNotify2 | .fPush _ | .gCas _ | .kTest _ | .sPush _ | .cFlag | .rPush => 4
  | .pPush2 _ | .pPull _ | .pCas2 | .fFlag _ | .gPush _ | .kPrio _ | .sPull | .cPrio | .rPull => 5
  | .pLock2 _ | .pAppend _ | .fLock _ | .gLock _ | .kLock _ | .sLock2 | .cPush | .rLock2 => 6
  | .pTestPull _ | .sLock1 | .cPull | .rLock1 => 7
  | .pFlag _ | .fCas _ | .cLock2 => 8
  | .pLockPull _ | .cLock1 => 9
  | .pUnlock _ => 10
  | .pCas _ => 11
  | .pTest _ => 12
  | .pLock _ => 13

theorem rank_afterTry (k : Kind) (r : Option α) : rank (State.afterTry k r) < 9 := by
  cases r with
  | some x => simp [State.afterTry, rank]
  | none =>
    rcases k with f | f | ⟨f, d⟩ | f <;> try cases d
    all_goals simp [State.afterTry, rank]

theorem stepAt_rank {l : Loc α} {o : Option (Out α)} (h : s.stepAt b t c l = some (s', o)) (h1 : ∀ k, l ≠ .wSleep k)
    (h2 : l ≠ .cPrio) : rank (s'.loc t) < rank l := by
  have lock : ∀ {x : Option (State α)}, x.map (·, (none : Option (Out α))) = some (s', o) →
      (∀ s1, x = some s1 → rank (s1.loc t) < rank l) → rank (s'.loc t) < rank l := by
    intro x hx hs
    simp only [Option.map_eq_some_iff] at hx
    obtain ⟨s1, e1, e2⟩ := hx; cases e2
    exact hs _ e1
  have pL : ∀ (l' : Loc α), rank l' < rank l → ∀ s1, s.lockPull t l' = some s1 → rank (s1.loc t) < rank l := by
    intro l' hr s1 h; obtain ⟨_, rfl⟩ := lockPull_some h; simp only [upd_same]; exact hr
  have pU : ∀ (l' : Loc α), rank l' < rank l → ∀ s1, s.lockPush t l' = some s1 → rank (s1.loc t) < rank l := by
    intro l' hr s1 h; obtain ⟨_, rfl⟩ := lockPush_some h; simp only [upd_same]; exact hr
  cases l with
  | wSleep k => exact absurd rfl (h1 k)
  | cPrio => exact absurd rfl h2
  | oCheck ck k r =>
    cases ck with
    | lock => cases r <;> exact lock h (pU _ (by simp [rank]))
    | _ =>
      cases h; simp only [State.goto, State.unlockPush, upd_same]
      cases r <;> first | (simp [rank, State.afterCheck]; done) | (split <;> simp [rank, State.afterCheck])
  | oUnPull k r => cases h; simp only [State.goto, State.unlockPull, upd_same]; exact rank_afterTry k r
  | oLock k => cases b <;> exact lock h (pL _ (by simp [rank]))
  | wLock k => cases b <;> exact lock h (pL _ (by simp [rank]))
  | wRelock k d => cases b <;> exact lock h (pL _ (by simp [rank]))
  | kLock d => cases b <;> exact lock h (pL _ (by simp [rank]))
  | oPFront k => cases h; simp only [State.goto, upd_same]; exact moveOut_ind (P := (rank · < 11)) (next := .oPPop k) k _ (by simp [rank]) (by simp [rank]) (by simp [rank])
  | oBack k => cases h; simp only [State.goto, upd_same]; exact moveOut_ind (P := (rank · < 17)) (next := .oPop k) k _ (by simp [rank]) (by simp [rank]) (by simp [rank])
  | wPFront k => cases h; simp only [State.goto, upd_same]; exact moveOut_ind (P := (rank · < 4)) (next := .wPPop k) k _ (by simp [rank]) (by simp [rank]) (by simp [rank])
  | wBack k => cases h; simp only [State.goto, upd_same]; exact moveOut_ind (P := (rank · < 4)) (next := .wPop k) k _ (by simp [rank]) (by simp [rank]) (by simp [rank])
  | kPFront d => cases h; simp only [State.goto, upd_same]; cases d <;> split <;> simp [rank]
  | kBack d => cases h; simp only [State.goto, upd_same]; cases d <;> split <;> simp [rank]
  | wTest k d => cases h; simp only [State.goto, upd_same]; cases d <;> split <;> simp [rank]
  | wPrio k d => cases h; simp only [State.goto, upd_same]; cases d <;> split <;> simp [rank]
  | pUnPull d => cases h; simp only [State.goto, State.unlockPull, upd_same]; cases d <;> simp [rank]
  | xUnPull d => cases h; simp only [State.goto, State.unlockPull, upd_same]; cases d <;> simp [rank]
  | cPush => cases h; simp only [State.goto, upd_same]; cases b <;> simp [rank]
  | _ =>
    first
    | (refine lock h (pU _ ?_); simp [rank]; done)
    | (refine lock h (pL _ ?_); simp [rank]; done)
    | (cases h; done)
    | (cases h; simp only [State.goto, State.unlockPush, State.unlockPull, upd_same]; simp [rank]; done)
    | (cases h; simp only [State.goto, State.unlockPush, State.unlockPull, upd_same]; split <;> simp [rank]; done)
    | (simp only [State.stepAt] at h; split at h <;> cases h <;> simp only [State.goto, upd_same] <;> simp [rank])

/-- Positions whose step reads or writes pushElements. -/
def usesPush : Loc α → Bool
  | .pTest _ | .pAppend _ | .pAppend0 _ | .pPush2 _ | .oCheck .testPush _ _ | .oCheck .swap _ _ | .sPush _ | .cPush | .rPush => true
  | _ => false

/-- Positions whose step reads or writes pullElements. -/
def usesPull : Loc α → Bool
  | .pTestPull _ | .pPull _ | .oCheck .test _ _ | .oCheck .swap _ _ | .oCheck .reverse _ _ | .oTest _ | .oBack _ | .oPop _ _
  | .wTest _ _ | .wBack _ | .wPop _ _ | .kTest _ | .kBack _ | .sPull | .cPull | .rPull => true
  | _ => false

/-- Positions whose step reads or writes the priority queue. -/
def usesPrio : Loc α → Bool
  | .fPush _ | .gPush _ | .oPrio _ | .oPFront _ | .oPPop _ _ | .wPrio _ _ | .wPFront _ | .wPPop _ _ | .kPrio _ | .kPFront _
  | .cPrio => true
  | _ => false

theorem usesPush_holds {l : Loc α} (h : usesPush l = true) : holdsPush l = true := by
  cases l with
  | oCheck c k r => cases c <;> first | rfl | cases h
  | _ => first | rfl | cases h

theorem usesPull_holds {l : Loc α} (h : usesPull l = true) : holdsPull l = true := by
  cases l with
  | oCheck c k r => cases c <;> first | rfl | cases h
  | _ => first | rfl | cases h

theorem usesPrio_holds {l : Loc α} (h : usesPrio l = true) : holdsPull l = true := by
  cases l with
  | oCheck c k r => cases c <;> first | rfl | cases h
  | _ => first | rfl | cases h

theorem push_frame {l : Loc α} (h : usesPush l = false) (p : List α) :
    { s with push := p }.stepAt b t c l = (s.stepAt b t c l).map fun r => ({ r.1 with push := p }, r.2) := by
  have pL : ∀ l' : Loc α, ({ s with push := p }.lockPull t l') = (s.lockPull t l').map fun r => { r with push := p } := by
    intro l'; simp only [State.lockPull]; cases s.pullOwner <;> rfl
  have pU : ∀ l' : Loc α, ({ s with push := p }.lockPush t l') = (s.lockPush t l').map fun r => { r with push := p } := by
    intro l'; simp only [State.lockPush]; cases s.pushOwner <;> rfl
  cases l with
  | oCheck ck k r => cases ck <;> first | rfl | (cases h; done) | (simp only [State.stepAt, pU, Option.map_map]; rfl)
  | _ =>
    first
    | rfl
    | (cases h; done)
    | (simp only [State.stepAt, pU, pL, Option.map_map]; rfl)
    | (simp only [State.stepAt]; split <;> rfl)

theorem pull_frame {l : Loc α} (h : usesPull l = false) (p : List α) :
    { s with pull := p }.stepAt b t c l = (s.stepAt b t c l).map fun r => ({ r.1 with pull := p }, r.2) := by
  have pL : ∀ l' : Loc α, ({ s with pull := p }.lockPull t l') = (s.lockPull t l').map fun r => { r with pull := p } := by
    intro l'; simp only [State.lockPull]; cases s.pullOwner <;> rfl
  have pU : ∀ l' : Loc α, ({ s with pull := p }.lockPush t l') = (s.lockPush t l').map fun r => { r with pull := p } := by
    intro l'; simp only [State.lockPush]; cases s.pushOwner <;> rfl
  cases l with
  | oCheck ck k r => cases ck <;> first | rfl | (cases h; done) | (simp only [State.stepAt, pU, Option.map_map]; rfl)
  | _ =>
    first
    | rfl
    | (cases h; done)
    | (simp only [State.stepAt, pU, pL, Option.map_map]; rfl)
    | (simp only [State.stepAt]; split <;> rfl)

theorem prio_frame {l : Loc α} (h : usesPrio l = false) (p : List α) :
    { s with prio := p }.stepAt b t c l = (s.stepAt b t c l).map fun r => ({ r.1 with prio := p }, r.2) := by
  have pL : ∀ l' : Loc α, ({ s with prio := p }.lockPull t l') = (s.lockPull t l').map fun r => { r with prio := p } := by
    intro l'; simp only [State.lockPull]; cases s.pullOwner <;> rfl
  have pU : ∀ l' : Loc α, ({ s with prio := p }.lockPush t l') = (s.lockPush t l').map fun r => { r with prio := p } := by
    intro l'; simp only [State.lockPush]; cases s.pushOwner <;> rfl
  cases l with
  | oCheck ck k r => cases ck <;> first | rfl | (cases h; done) | (simp only [State.stepAt, pU, Option.map_map]; rfl)
  | _ =>
    first
    | rfl
    | (cases h; done)
    | (simp only [State.stepAt, pU, pL, Option.map_map]; rfl)
    | (simp only [State.stepAt]; split <;> rfl)

end Verif.Blocking
