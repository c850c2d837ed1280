import Verif.Blocking.Live

/-
C122, C123: which calls of the blocking queues return in fair infinite executions.
-/
namespace Verif.Blocking
open Verif.Conc State

variable {α : Type} {s s' : State α} {t c i : Nat} {b : Bool} {E : Infinite (sys b α)}

/-- a thread waits only in a wait -/
theorem noTry_at (E : Infinite (sys b α)) (i u : Nat) : wTry ((E.st i).loc u) = false := by
  refine E.always (P := fun s => ∀ u, wTry (s.loc u) = false) (fun _ => rfl) (fun i hi u => ?_) i u
  have h := E.step i
  cases ha : E.act i with
  | call t op =>
    rw [ha] at h
    simp only [Sys.exec, Option.map_eq_some_iff] at h
    obtain ⟨s3, e1, e3⟩ := h
    obtain ⟨h1, h2⟩ := Prod.mk.inj e3
    obtain ⟨l, hst, hl, hs, _⟩ := call_locks e1
    rw [← h1, hs]
    by_cases e : u = t
    · subst e
      simp only [State.goto, upd_same]
      rcases start_cases hst with ⟨i, rfl, rfl⟩ | ⟨i, rfl, rfl, _⟩ | ⟨k', rfl, rfl⟩ | ⟨x, rfl, rfl⟩ | ⟨rfl, rfl, _⟩ | ⟨rfl, rfl⟩ |
        ⟨rfl, rfl⟩ | ⟨rfl, rfl⟩ <;> rfl
    · simp only [State.goto, upd_ne _ _ e]; exact hi u
  | move t c =>
    rw [ha] at h
    simp only [Sys.exec, Option.map_eq_some_iff] at h
    obtain ⟨⟨s3, r⟩, e1, e3⟩ := h
    obtain ⟨h1, h2⟩ := Prod.mk.inj e3
    rw [← h1]
    by_cases e : u = t
    · subst e; exact stepAt_wTry e1 (hi u)
    · rw [stepAt_loc e1, upd_ne _ _ e]; exact hi u

/-- the calls that do not wait return -/
theorem plain_returns (hf : E.FairTo waits) {op : Op α} (h : E.act i = .call t op) (hw : op.waits = false) :
    ∃ j, i < j ∧ ∃ o, E.out j = [.ret t o] := by
  obtain ⟨hl, e1⟩ := (guards b α).begun h
  obtain ⟨l, hst, hid, hs, _⟩ := call_locks e1
  have hcls : cls ((E.st (i + 1)).loc t) ≠ 7 := by
    rw [hs]
    simp only [State.goto, upd_same]
    rcases start_cases hst with ⟨i, rfl, rfl⟩ | ⟨i, rfl, rfl, _⟩ | ⟨k', rfl, rfl⟩ | ⟨x, rfl, rfl⟩ | ⟨rfl, rfl, _⟩ | ⟨rfl, rfl⟩ |
        ⟨rfl, rfl⟩ | ⟨rfl, rfl⟩
    case inr.inr.inl =>
      rcases k' with f | f | ⟨f, d⟩ | f <;> cases f <;> first | (simp [cls, Kind.cls]; done) | (cases hw; done)
    all_goals simp [cls]
  obtain ⟨j, h1, o, h2⟩ := (guards b α).returns_along (E := E) hf (i := i + 1) (fun j => cls ((E.st j).loc t) ≠ 7)
    (fun j _ hc hsl => by
      have hsl : isSleep ((E.st j).loc t) := hsl
      cases hl : (E.st j).loc t <;> rw [hl] at hsl hc <;> try exact hsl
      rename_i k
      have := noTry_at E j t
      rw [hl] at this
      cases k <;> first | exact hc rfl | cases this)
    (fun j _ hc hr hm => by
      have := (guards b α).keeps hm hr
      rw [show (E.st (j + 1)).loc t = (E.st j).loc t from this]; exact hc)
    (fun j c o _ hc hm => .inl (by
      rcases (stepAt_region hm).2 with h3 | h3
      · rw [h3]; simp
      · rw [h3]; exact hc))
    hl hcls
  exact ⟨j, by omega, o, h2⟩

/-- a call that may wait returns or comes to wait -/
theorem returns_or_waits (hf : E.FairTo waits) {op : Op α} (h : E.act i = .call t op) :
    ∃ j, i < j ∧ ((∃ o, E.out j = [.ret t o]) ∨ ∃ k, (E.st j).loc t = .wSleep k) := by
  obtain ⟨hl, e1⟩ := (guards b α).begun h
  obtain ⟨j, h1, h2⟩ := (guards b α).returns_or (E := E) hf hl
  refine ⟨j, by omega, h2.imp id fun hsl => ?_⟩
  have hsl : isSleep ((E.st j).loc t) := hsl
  cases hl : (E.st j).loc t <;> rw [hl] at hsl <;> try (exact hsl.elim)
  exact ⟨_, rfl⟩

/-! ### Timeouts -/

/-- positions of pop(timeout) after a wait has ended with the timeout -/
def timedOut : Loc α → Bool
  | .wRelock (.timed _ _) d | .wUnlock (.timed _ _) d | .wPrio (.timed _ _) (some d) | .wTest (.timed _ _) (some d) => d
  | .oLock (.timed _ d) | .oPrio (.timed _ d) | .oPFront (.timed _ d) | .oPPop (.timed _ d) _ | .oCheck _ (.timed _ d) _
  | .oTest (.timed _ d) | .oBack (.timed _ d) | .oPop (.timed _ d) _ | .oUnPull (.timed _ d) _ => d
  | .wPFront _ | .wPPop _ _ | .wBack _ | .wPop _ _ | .wUn _ _ | .yUn | .ret _ | .idle | .crash => true
  | _ => false

theorem step_timedOut {l : Loc α} {o : Option (Out α)} (h : s.stepAt b t c l = some (s', o)) (hl : timedOut l = true) :
    timedOut (s'.loc t) = true := by
  have pL : ∀ (l' : Loc α), (s.lockPull t l').map (·, (none : Option (Out α))) = some (s', o) → timedOut l' = true → timedOut (s'.loc t) = true := by
    intro l' hx hn
    simp only [Option.map_eq_some_iff] at hx
    obtain ⟨s1, e1, e2⟩ := hx; cases e2
    obtain ⟨_, rfl⟩ := lockPull_some e1; simp only [upd_same]; exact hn
  have pU : ∀ (l' : Loc α), (s.lockPush t l').map (·, (none : Option (Out α))) = some (s', o) → timedOut l' = true → timedOut (s'.loc t) = true := by
    intro l' hx hn
    simp only [Option.map_eq_some_iff] at hx
    obtain ⟨s1, e1, e2⟩ := hx; cases e2
    obtain ⟨_, rfl⟩ := lockPush_some e1; simp only [upd_same]; exact hn
  cases l with
  | oCheck ck k r =>
    rcases k with f | f | ⟨f, d⟩ | f <;> try (cases hl; done)
    cases ck with
    | lock => exact pU _ h hl
    | _ =>
      cases h; simp only [State.goto, State.unlockPush, upd_same]
      cases r <;> (try split) <;> exact hl
  | oUnPull k r =>
    rcases k with f | f | ⟨f, d⟩ | f <;> try (cases hl; done)
    cases h; simp only [State.goto, State.unlockPull, upd_same]
    have : d = true := hl
    subst this
    cases r <;> rfl
  | oPFront k =>
    rcases k with f | f | ⟨f, d⟩ | f <;> try (cases hl; done)
    cases h; simp only [State.goto, upd_same]; exact moveOut_ind (P := (timedOut · = true)) (next := .oPPop _) _ _ rfl rfl (fun _ => hl)
  | oBack k =>
    rcases k with f | f | ⟨f, d⟩ | f <;> try (cases hl; done)
    cases h; simp only [State.goto, upd_same]; exact moveOut_ind (P := (timedOut · = true)) (next := .oPop _) _ _ rfl rfl (fun _ => hl)
  | wPFront k => cases h; simp only [State.goto, upd_same]; exact moveOut_ind (P := (timedOut · = true)) (next := .wPPop k) k _ rfl rfl (fun _ => rfl)
  | wBack k => cases h; simp only [State.goto, upd_same]; exact moveOut_ind (P := (timedOut · = true)) (next := .wPop k) k _ rfl rfl (fun _ => rfl)
  | oLock k =>
    rcases k with f | f | ⟨f, d⟩ | f <;> try (cases hl; done)
    cases b <;> exact pL _ h hl
  | wRelock k d =>
    rcases k with f | f | ⟨f, d'⟩ | f <;> try (cases hl; done)
    cases b <;> exact pL _ h hl
  | wTest k d =>
    rcases k with f | f | ⟨f, d'⟩ | f <;> cases d <;> try (cases hl; done)
    cases h; simp only [State.goto, upd_same]; split
    · exact hl
    · rfl
  | wPrio k d =>
    rcases k with f | f | ⟨f, d'⟩ | f <;> cases d <;> try (cases hl; done)
    cases h; simp only [State.goto, upd_same]; split
    · exact hl
    · rfl
  | wUnlock k d =>
    rcases k with f | f | ⟨f, d'⟩ | f <;> try (cases hl; done)
    cases h; simp only [State.goto, State.unlockPull, upd_same]; exact hl
  | oPrio k =>
    rcases k with f | f | ⟨f, d⟩ | f <;> try (cases hl; done)
    cases h; simp only [State.goto, upd_same]; split <;> exact hl
  | oTest k =>
    rcases k with f | f | ⟨f, d⟩ | f <;> try (cases hl; done)
    cases h; simp only [State.goto, upd_same]; split <;> exact hl
  | oPop k x =>
    rcases k with f | f | ⟨f, d⟩ | f <;> try (cases hl; done)
    simp only [State.stepAt] at h
    split at h <;> cases h <;> simp only [State.goto, upd_same]
    · rfl
    · exact hl
  | oPPop k x =>
    rcases k with f | f | ⟨f, d⟩ | f <;> try (cases hl; done)
    simp only [State.stepAt] at h
    split at h <;> cases h <;> simp only [State.goto, upd_same]
    · rfl
    · exact hl
  | _ =>
    first
    | (cases hl; done)
    | (cases h; done)
    | (cases h; simp only [State.goto, State.unlockPush, State.unlockPull, upd_same]; rfl)
    | (simp only [State.stepAt] at h; split at h <;> cases h <;> simp only [State.goto, upd_same] <;> rfl)

/-- a pop(timeout) one of whose waits has ended with the timeout returns -/
theorem timeout_returns (hf : E.FairTo waits) {f : Fate} {d : Bool} (hl : (E.st i).loc t = .wSleep (.timed f d)) (h : E.act i = .move t c)
    (hc : c % 2 = 1) : ∃ j, i < j ∧ ∃ o, E.out j = [.ret t o] := by
  have hs := E.step i
  rw [h] at hs
  simp only [Sys.exec, Option.map_eq_some_iff] at hs
  obtain ⟨⟨s3, r⟩, e1, e3⟩ := hs
  obtain ⟨h1, h2⟩ := Prod.mk.inj e3
  simp only at h1
  have e1 : (E.st i).stepAt b t c ((E.st i).loc t) = some (s3, r) := e1
  rw [hl] at e1
  have h3 : (E.st (i + 1)).loc t = .wRelock (.timed f d) true := by
    rw [← h1]
    cases e1
    simp [State.goto, upd_same, hc]
  obtain ⟨j, h4, o, h5⟩ := (guards b α).returns (E := E) hf (i := i + 1) (t := t) (fun l => timedOut l = true) (fun l h1 h2 => by
      have h2 : isSleep l := h2
      cases l <;> first | exact h2 | cases h1)
    (fun s t c s' o _ hm hp => .inl (step_timedOut hm hp)) (by
      show (E.st (i + 1)).loc t ≠ .idle
      rw [h3]; simp) (by
      show timedOut ((E.st (i + 1)).loc t) = true
      rw [h3]; rfl)
  exact ⟨j, by omega, o, h5⟩

/-! ### One consumer -/

theorem wakes_at {p : Nat} (ho : ∀ i t op, E.act i = .call t op → onePopper b p t op ∧ calm op) (i : Nat) : Wakes b p (E.st i) := by
  refine E.always (P := Wakes b p) Wakes.init (fun i hi => ?_) i
  have h := E.step i
  cases ha : E.act i with
  | call t op =>
    rw [ha] at h
    simp only [Sys.exec, Option.map_eq_some_iff] at h
    obtain ⟨s3, e1, e3⟩ := h
    obtain ⟨h1, h2⟩ := Prod.mk.inj e3
    rw [← h1]
    exact hi.call (ho i t op ha).1 (ho i t op ha).2 e1
  | move t c =>
    rw [ha] at h
    simp only [Sys.exec, Option.map_eq_some_iff] at h
    obtain ⟨⟨s3, r⟩, e1, e3⟩ := h
    obtain ⟨h1, h2⟩ := Prod.mk.inj e3
    rw [← h1]
    exact hi.move e1

/-- a notifier wakes everybody -/
theorem notified (hf : E.FairTo waits) {u : Nat} (hu : notifies ((E.st i).loc u) = true) : ∃ j, i ≤ j ∧ (E.st j).waiting = [] := by
  generalize hn : notifyRank ((E.st i).loc u) = r
  induction r using Nat.strongRecOn generalizing i with
  | _ r ih =>
    have hr : (E.st i).loc u ≠ .idle := by intro h; rw [h] at hu; cases hu
    have hw : ¬ waits (E.st i) u := by
      intro h
      obtain ⟨k, hk⟩ := (sound_obtained (Obtained.of_reachable (E.reachable i))).sleeps.at_ u h
      rw [hk] at hu; cases hu
    obtain ⟨j, c, o, h1, h2, h3, _, _, _⟩ := (guards b α).next (E := E) hf hr hw
    have h2 : (E.st j).loc u = (E.st i).loc u := h2
    rcases notify_progress (b := b) h3 (by rw [h2]; exact hu) with ⟨h4, h5⟩ | h4
    · rw [h2, hn] at h5
      obtain ⟨j', h6, h7⟩ := ih _ h5 h4 rfl
      exact ⟨j', by omega, h7⟩
    · exact ⟨j + 1, by omega, h4⟩

/-- a consumer that waits while the queue is not empty takes its next step -/
theorem consumer_wakes (hf : E.FairTo waits) {p : Nat} (ho : ∀ i t op, E.act i = .call t op → onePopper b p t op ∧ calm op)
    (hne : ∀ j, i ≤ j → (E.st j).contents ≠ ([], [])) {k : Kind} (hl : (E.st i).loc p = .wSleep k) :
    ∃ j, i ≤ j ∧ E.moves p j := by
  have hr : (guards b α).loc (E.st i) p ≠ (guards b α).rest := by
    show (E.st i).loc p ≠ .idle
    rw [hl]; simp
  apply Classical.byContradiction
  intro hn
  have hn : ∀ j, i ≤ j → ¬ E.moves p j := fun j h1 h2 => hn ⟨j, h1, h2⟩
  have hl : ∀ j, i ≤ j → (E.st j).loc p = .wSleep k := fun j hj =>
    ((guards b α).keeps_until hj (fun k h _ => hn k h) hr).trans hl
  have hw : ∀ j, i ≤ j → p ∈ (E.st j).waiting := by
    intro j hj
    apply Classical.byContradiction
    intro h
    obtain ⟨j', c, o, h1, _, h3, _, _, _⟩ := (guards b α).next (E := E) hf (i := j) (t := p) (by
      show (E.st j).loc p ≠ .idle
      rw [hl j hj]; simp) h
    have hk := hl (j' + 1) (by omega)
    have h3 : (E.st j').stepAt b p c ((E.st j').loc p) = some (E.st (j' + 1), o) := h3
    rw [hl j' (by omega)] at h3
    simp only [State.stepAt, Option.some.injEq, Prod.mk.injEq] at h3
    rw [← h3.1] at hk
    simp only [State.goto, upd_same] at hk
    cases hk
  have hu : ∃ j u, i ≤ j ∧ notifies ((E.st j).loc u) = true := by
    have wk := fun j => wakes_at ho j
    rcases (wk i).asleep (hw i (Nat.le_refl _)) with hfl | ⟨u, hu⟩
    · obtain ⟨h1, h2, h3⟩ := (wk i).inv.flag.empty hfl
      rcases h3 with h3 | ⟨x, h3, _⟩
      · exact absurd (by simp [State.contents, h1, h2, h3]) (hne i (Nat.le_refl _))
      · simp only [State.puller, Option.map_eq_some_iff] at h3
        obtain ⟨u, _, h5⟩ := h3
        obtain ⟨j, c, o, h6, h7, h8, _, _, _⟩ := (guards b α).next (E := E) hf (i := i) (t := u) (by
          show (E.st i).loc u ≠ .idle
          rw [h5]; simp) (by
          intro hm
          obtain ⟨k, hk⟩ := (wk i).sleeps.at_ u hm
          rw [hk] at h5; cases h5)
        have h7 : (E.st j).loc u = .gCas x := by rw [← h5]; exact h7
        cases hfj : (E.st j).flag with
        | true =>
          refine ⟨j + 1, u, by omega, ?_⟩
          have h8 : (E.st j).stepAt b u c ((E.st j).loc u) = some (E.st (j + 1), o) := h8
          rw [h7] at h8
          simp only [State.stepAt, hfj, if_true, Option.some.injEq, Prod.mk.injEq] at h8
          rw [← h8.1]
          simp only [State.goto, upd_same]; rfl
        | false =>
          rcases (wk j).asleep (hw j h6) with h | ⟨u', h⟩
          · rw [h] at hfj; cases hfj
          · exact ⟨j, u', h6, h⟩
    · exact ⟨i, u, Nat.le_refl _, hu⟩
  obtain ⟨j, u, h1, h2⟩ := hu
  obtain ⟨j', h3, h4⟩ := notified hf h2
  have := hw j' (by omega)
  rw [h4] at this
  cases this

/-- the positions of a pop that has removed an element (or failed to move it), or knows that there is one -/
def carries : Loc α → Bool
  | .oPFront _ | .oPPop _ _ | .oBack _ | .oPop _ _ | .oUnPull _ (some _) | .oCheck _ _ (some _)
  | .wPFront _ | .wPPop _ _ | .wBack _ | .wPop _ _ | .wUn _ _ | .yUn | .ret _ | .idle | .crash => true
  | _ => false

/-- the positions of a pop that will find an element -/
def finds (s : State α) : Loc α → Prop
  | .oTest _ => s.pull ≠ []
  | .wRelock _ _ | .wPrio _ (some _) | .wTest _ (some _) | .wUnlock _ _ | .oLock _ | .oPrio _ => True
  | .oCheck .test _ none | .oCheck .lock _ none | .oCheck .testPush _ none | .oCheck .swap _ none | .oCheck .unlockSwap _ none
  | .oCheck .reverse _ none => True
  | l => carries l = true

theorem finds_of_carries {l : Loc α} (h : carries l = true) : finds s l := by
  cases l with
  | oCheck ck k r => cases ck <;> cases r <;> first | trivial | exact h
  | wPrio k d | wTest k d => cases h
  | oTest k => cases h
  | _ => first | trivial | exact h

theorem step_carries {l : Loc α} {o : Option (Out α)} (h : s.stepAt b t c l = some (s', o)) (hl : carries l = true) :
    carries (s'.loc t) = true := by
  cases l with
  | oCheck ck k r =>
    cases r with
    | none => cases hl
    | some x =>
      cases ck with
      | lock =>
        simp only [State.stepAt, Option.map_eq_some_iff] at h
        obtain ⟨s1, e1, e2⟩ := h; cases e2
        obtain ⟨_, rfl⟩ := lockPush_some e1; simp only [upd_same]; rfl
      | _ =>
        cases h; simp only [State.goto, State.unlockPush, upd_same]
        (try split) <;> rfl
  | oUnPull k r =>
    cases r with
    | none => cases hl
    | some x => cases h; simp only [State.goto, State.unlockPull, upd_same]; rfl
  | oPFront k => cases h; simp only [State.goto, upd_same]; exact moveOut_ind (P := (carries · = true)) (next := .oPPop k) _ _ rfl rfl (fun _ => rfl)
  | oBack k => cases h; simp only [State.goto, upd_same]; exact moveOut_ind (P := (carries · = true)) (next := .oPop k) _ _ rfl rfl (fun _ => rfl)
  | wPFront k => cases h; simp only [State.goto, upd_same]; exact moveOut_ind (P := (carries · = true)) (next := .wPPop k) _ _ rfl rfl (fun _ => rfl)
  | wBack k => cases h; simp only [State.goto, upd_same]; exact moveOut_ind (P := (carries · = true)) (next := .wPop k) _ _ rfl rfl (fun _ => rfl)
  | _ =>
    first
    | (cases hl; done)
    | (cases h; done)
    | (cases h; simp only [State.goto, State.unlockPush, State.unlockPull, upd_same]; rfl)
    | (simp only [State.stepAt] at h; split at h <;> cases h <;> simp only [State.goto, upd_same] <;> rfl)

/-- a pop that has removed an element returns -/
theorem carrier_returns (hf : E.FairTo waits) (hl : (E.st i).loc t ≠ .idle) (hc : carries ((E.st i).loc t) = true) :
    ∃ j, i ≤ j ∧ ∃ o, E.out j = [.ret t o] :=
  (guards b α).returns (E := E) hf (fun l => carries l = true) (fun l h1 h2 => by
      have h2 : isSleep l := h2
      cases l <;> first | exact h2 | cases h1)
    (fun s t c s' o _ hm hp => .inl (step_carries hm hp)) hl hc

theorem step_finds {o : Option (Out α)} (hne : s.contents ≠ ([], [])) (v : Inv b s) (h : s.stepAt b t c (s.loc t) = some (s', o))
    (hl : finds s (s.loc t)) : finds s' (s'.loc t) := by
  have pL : ∀ (l' : Loc α), (s.lockPull t l').map (·, (none : Option (Out α))) = some (s', o) → (∀ s : State α, finds s l') → finds s' (s'.loc t) := by
    intro l' hx hn
    simp only [Option.map_eq_some_iff] at hx
    obtain ⟨s1, e1, e2⟩ := hx; cases e2
    obtain ⟨_, rfl⟩ := lockPull_some e1; simp only [upd_same]; exact hn _
  have pU : ∀ (l' : Loc α), (s.lockPush t l').map (·, (none : Option (Out α))) = some (s', o) → (∀ s : State α, finds s l') → finds s' (s'.loc t) := by
    intro l' hx hn
    simp only [Option.map_eq_some_iff] at hx
    obtain ⟨s1, e1, e2⟩ := hx; cases e2
    obtain ⟨_, rfl⟩ := lockPush_some e1; simp only [upd_same]; exact hn _
  by_cases hca : carries (s.loc t) = true
  · exact finds_of_carries (step_carries h hca)
  generalize hlt : s.loc t = l at *
  have fa : holdsPull l = true → Facts s.prio s.pull s.push (some l) := fun hh => by
    have := v.facts
    rwa [v.locks.puller_eq hlt hh] at this
  cases l with
  | oCheck ck k r =>
    cases r with
    | some x => exact absurd rfl hca
    | none =>
      have fa := fa (by cases ck <;> rfl)
      cases ck with
      | lock => exact pU _ h (fun _ => trivial)
      | test =>
        cases h; simp only [State.goto, upd_same]
        split
        · trivial
        · show s.pull ≠ []
          intro h; simp_all
      | testPush =>
        have fa : s.prio = [] ∧ s.pull = [] := fa
        cases h; simp only [State.goto, upd_same]
        split
        · exact absurd (by simp_all [State.contents]) hne
        · trivial
      | swap =>
        cases h; simp only [State.goto, upd_same]; trivial
      | unlockSwap =>
        cases h; simp only [State.goto, State.unlockPush, upd_same]; trivial
      | reverse =>
        have fa : s.prio = [] ∧ s.pull ≠ [] := fa
        cases h; simp only [State.goto, upd_same]
        show s.pull.reverse ≠ []
        simpa using fa.2
      | setFlag => cases hl
      | unlockFlag => cases hl
  | oTest k =>
    have hl : s.pull ≠ [] := hl
    cases h; simp only [State.goto, upd_same]
    rw [if_neg (by simpa using hl)]
    rfl
  | oLock k => cases b <;> exact pL _ h (fun _ => trivial)
  | wRelock k d => cases b <;> exact pL _ h (fun _ => trivial)
  | wPrio k d =>
    cases d with
    | none => cases hl
    | some d => cases h; simp only [State.goto, upd_same]; split <;> trivial
  | wTest k d =>
    cases d with
    | none => cases hl
    | some d => cases h; simp only [State.goto, upd_same]; split <;> trivial
  | wUnlock k d => cases h; simp only [State.goto, State.unlockPull, upd_same]; trivial
  | oPrio k => cases h; simp only [State.goto, upd_same]; split <;> trivial
  | _ => first | exact absurd rfl hca | (cases hl; done) | exact absurd hl hca

/-- With one consumer, a pop returns if the queue is not empty from some time on. -/
theorem consumer_finds (hf : E.FairTo waits) {p : Nat} (ho : ∀ i t op, E.act i = .call t op → onePopper b p t op ∧ calm op)
    (hne : ∀ j, i ≤ j → (E.st j).contents ≠ ([], [])) (hl : (E.st i).loc p ≠ .idle) : ∃ j, i ≤ j ∧ ∃ o, E.out j = [.ret p o] := by
  obtain ⟨j, h1, h2 | h2⟩ := (guards b α).returns_or (E := E) hf (i := i) (t := p) hl
  · exact ⟨j, h1, h2⟩
  · have h2 : isSleep ((E.st j).loc p) := h2
    have : ∃ k, (E.st j).loc p = .wSleep k := by
      cases hl : (E.st j).loc p <;> rw [hl] at h2 <;> try (exact h2.elim)
      exact ⟨_, rfl⟩
    obtain ⟨k, hk⟩ := this
    have hm := consumer_wakes hf ho (fun j' h => hne j' (by omega)) hk
    obtain ⟨n, h3, h4, hleast⟩ := Infinite.least hm
    have hst : (E.st n).loc p = .wSleep k := ((guards b α).keeps_until h3 hleast (by
      show (E.st j).loc p ≠ .idle
      rw [hk]; simp)).trans hk
    obtain ⟨c, h4⟩ := h4
    have hs := E.step n
    rw [h4] at hs
    simp only [Sys.exec, Option.map_eq_some_iff] at hs
    obtain ⟨⟨s3, r⟩, e1, e3⟩ := hs
    obtain ⟨h5, h6⟩ := Prod.mk.inj e3
    have e1 : (E.st n).stepAt b p c ((E.st n).loc p) = some (s3, r) := e1
    rw [hst] at e1
    simp only [State.stepAt, Option.some.injEq, Prod.mk.injEq] at e1
    have h7 : (E.st (n + 1)).loc p = .wRelock k (c % 2 == 1) := by
      rw [← h5, ← e1.1]; simp only [State.goto, upd_same]
    obtain ⟨m, h8, h9⟩ := (guards b α).returns_along (E := E) hf (i := n + 1) (t := p) (fun m => finds (E.st m) ((E.st m).loc p))
      (fun m _ h1 h2 => by
        have h2 : isSleep ((E.st m).loc p) := h2
        cases hl : (E.st m).loc p <;> rw [hl] at h1 h2 <;> first | exact h2 | cases h1)
      (fun m _ h1 h2 h3 => by
        have h4 := (guards b α).keeps h3 h2
        have h4 : (E.st (m + 1)).loc p = (E.st m).loc p := h4
        rw [h4]
        generalize hlm : (E.st m).loc p = l at h1 h2
        cases l with
        | oTest k =>
          have h1 : (E.st m).pull ≠ [] := h1
          show (E.st (m + 1)).pull ≠ []
          have hs := E.step m
          cases ha : E.act m with
          | call u op =>
            rw [ha] at hs
            simp only [Sys.exec, Option.map_eq_some_iff] at hs
            obtain ⟨s3, e1, e3⟩ := hs
            obtain ⟨h5, h6⟩ := Prod.mk.inj e3
            obtain ⟨l, _, _, e, _⟩ := call_locks e1
            rw [← h5, e]; exact h1
          | move u c =>
            rw [ha] at hs
            simp only [Sys.exec, Option.map_eq_some_iff] at hs
            obtain ⟨⟨s3, r⟩, e1, e3⟩ := hs
            obtain ⟨h5, h6⟩ := Prod.mk.inj e3
            have := step_keeps_pull (sound_obtained (.of_reachable (E.reachable m))).locks (u := p) e1 (by rw [hlm]; rfl)
              (fun e => h3 (by subst e; exact ⟨c, ha⟩))
            rw [← h5]
            simp only
            rw [this.1]; exact h1
        | oCheck ck k r => cases ck <;> cases r <;> exact h1
        | wPrio k d | wTest k d => cases d <;> exact h1
        | _ => exact h1)
      (fun m c o h1 h2 h3 => .inl (step_finds (hne m (by omega)) (inv_reachable _ (E.reachable m)) h3 h2))
      (by show (E.st (n + 1)).loc p ≠ .idle; rw [h7]; simp)
      (by show finds _ ((E.st (n + 1)).loc p); rw [h7]; trivial)
    exact ⟨m, by omega, h9⟩

/-- a call that does not remove elements, or one of the consumer's -/
def consumer (p t : Nat) (op : Op α) : Prop := t = p ∨ (op.waits = false ∧ op.tries = false ∧ op ≠ .clear)

theorem consumer.one {p : Nat} {op : Op α} (h : consumer p t op) : onePopper b p t op := h.imp id fun h => ⟨h.1, fun _ => h.2.1⟩

/-- the positions of clear -/
def clears : Loc α → Bool
  | .cLock1 | .cLock2 | .cPull | .cPush | .cPrio | .cFlag | .cUn1 | .cUn2 => true
  | _ => false

theorem step_clears {l : Loc α} {o : Option (Out α)} (h : s.stepAt b t c l = some (s', o)) (hl : clears l = false) :
    clears (s'.loc t) = false := by
  have pL : ∀ (l' : Loc α), (s.lockPull t l').map (·, (none : Option (Out α))) = some (s', o) → clears l' = false → clears (s'.loc t) = false := by
    intro l' hx hn
    simp only [Option.map_eq_some_iff] at hx
    obtain ⟨s1, e1, e2⟩ := hx; cases e2
    obtain ⟨_, rfl⟩ := lockPull_some e1; simp only [upd_same]; exact hn
  have pU : ∀ (l' : Loc α), (s.lockPush t l').map (·, (none : Option (Out α))) = some (s', o) → clears l' = false → clears (s'.loc t) = false := by
    intro l' hx hn
    simp only [Option.map_eq_some_iff] at hx
    obtain ⟨s1, e1, e2⟩ := hx; cases e2
    obtain ⟨_, rfl⟩ := lockPush_some e1; simp only [upd_same]; exact hn
  cases l with
  | oCheck ck k r =>
    cases ck with
    | lock => exact pU _ h rfl
    | _ => cases h; simp only [State.goto, State.unlockPush, upd_same]; cases r <;> (try split) <;> rfl
  | oUnPull k r =>
    cases h; simp only [State.goto, State.unlockPull, upd_same]
    cases r with
    | some x => rfl
    | none => rcases k with f | f | ⟨f, d⟩ | f <;> (try cases d) <;> rfl
  | oPFront k => cases h; simp only [State.goto, upd_same]; exact moveOut_ind (P := (clears · = false)) (next := .oPPop k) _ _ rfl rfl (fun _ => rfl)
  | oBack k => cases h; simp only [State.goto, upd_same]; exact moveOut_ind (P := (clears · = false)) (next := .oPop k) _ _ rfl rfl (fun _ => rfl)
  | wPFront k => cases h; simp only [State.goto, upd_same]; exact moveOut_ind (P := (clears · = false)) (next := .wPPop k) _ _ rfl rfl (fun _ => rfl)
  | wBack k => cases h; simp only [State.goto, upd_same]; exact moveOut_ind (P := (clears · = false)) (next := .wPop k) _ _ rfl rfl (fun _ => rfl)
  | oLock k | wLock k | wRelock k d | kLock d => cases b <;> exact pL _ h rfl
  | kPFront d | kBack d => cases h; simp only [State.goto, upd_same]; cases d <;> split <;> rfl
  | wTest k d => cases h; simp only [State.goto, upd_same]; cases d <;> split <;> rfl
  | _ =>
    first
    | (cases hl; done)
    | exact pU _ h rfl
    | exact pL _ h rfl
    | (cases h; done)
    | (cases h; simp only [State.goto, State.unlockPush, State.unlockPull, upd_same]; rfl)
    | (cases h; simp only [State.goto, State.unlockPush, State.unlockPull, upd_same]; split <;> rfl)
    | (simp only [State.stepAt] at h; split at h <;> cases h <;> simp only [State.goto, upd_same] <;> rfl)

/-- only pops and clear empty the queue -/
theorem step_contents {l : Loc α} {o : Option (Out α)} (h : s.stepAt b t c l = some (s', o)) (hne : s.contents ≠ ([], []))
    (hc : clears l = false) : s'.contents ≠ ([], []) ∨ (carries (s'.loc t) = true ∧ (cls l = 6 ∨ cls l = 7)) := by
  have same : s'.prio = s.prio → s'.pull = s.pull → s'.push = s.push → s'.contents ≠ ([], []) := fun h1 h2 h3 => by
    rw [State.contents, h1, h2, h3]; exact hne
  have pL : ∀ (l' : Loc α), (s.lockPull t l').map (·, (none : Option (Out α))) = some (s', o) → s'.contents ≠ ([], []) := by
    intro l' hx
    simp only [Option.map_eq_some_iff] at hx
    obtain ⟨s1, e1, e2⟩ := hx; cases e2
    obtain ⟨_, rfl⟩ := lockPull_some e1; exact hne
  have pU : ∀ (l' : Loc α), (s.lockPush t l').map (·, (none : Option (Out α))) = some (s', o) → s'.contents ≠ ([], []) := by
    intro l' hx
    simp only [Option.map_eq_some_iff] at hx
    obtain ⟨s1, e1, e2⟩ := hx; cases e2
    obtain ⟨_, rfl⟩ := lockPush_some e1; exact hne
  cases l with
  | oCheck ck k r =>
    left
    cases ck with
    | lock => exact pU _ h
    | swap =>
      cases h
      simp only [State.contents, State.goto, ne_eq, Prod.mk.injEq, List.append_eq_nil_iff, List.reverse_eq_nil_iff] at hne ⊢
      exact fun h => hne ⟨h.1, h.2.2, h.2.1⟩
    | reverse =>
      cases h
      simp only [State.contents, State.goto, ne_eq, Prod.mk.injEq, List.append_eq_nil_iff, List.reverse_eq_nil_iff] at hne ⊢
      exact hne
    | _ => cases h; exact hne
  | oPPop k x =>
    right
    refine ⟨step_carries h rfl, ?_⟩
    cases k <;> simp [cls, Kind.cls]
  | oPop k x =>
    right
    refine ⟨step_carries h rfl, ?_⟩
    cases k <;> simp [cls, Kind.cls]
  | wPPop k x =>
    right
    refine ⟨step_carries h rfl, ?_⟩
    cases k <;> simp [cls, Kind.cls]
  | wPop k x =>
    right
    refine ⟨step_carries h rfl, ?_⟩
    cases k <;> simp [cls, Kind.cls]
  | _ =>
    first
    | (cases hc; done)
    | exact .inl (pU _ h)
    | exact .inl (pL _ h)
    | (cases h; done)
    | (cases h; exact .inl hne)
    | (simp only [State.stepAt] at h; split at h <;> cases h <;> first | exact .inl hne | (left; simp [State.contents, State.goto]))

/-- what the threads other than the consumer do -/
theorem others_at {p : Nat} (ho : ∀ i t op, E.act i = .call t op → consumer p t op) (i u : Nat) (hu : u ≠ p) :
    clears ((E.st i).loc u) = false ∧ cls ((E.st i).loc u) ≠ 6 ∧ cls ((E.st i).loc u) ≠ 7 := by
  refine E.always (P := fun s => ∀ u, u ≠ p → clears (s.loc u) = false ∧ cls (s.loc u) ≠ 6 ∧ cls (s.loc u) ≠ 7)
    (fun _ _ => ⟨rfl, by simp [sys, State.init, cls], by simp [sys, State.init, cls]⟩) (fun i hi u hu => ?_) i u hu
  have h := E.step i
  cases ha : E.act i with
  | call t op =>
    have hop := ho i t op ha
    rw [ha] at h
    simp only [Sys.exec, Option.map_eq_some_iff] at h
    obtain ⟨s3, e1, e3⟩ := h
    obtain ⟨h1, h2⟩ := Prod.mk.inj e3
    obtain ⟨l, hst, hl, hs, _⟩ := call_locks e1
    rw [← h1, hs]
    by_cases e : u = t
    · subst e
      simp only [State.goto, upd_same]
      rcases hop with hop | ⟨hw, ht, hcl⟩
      · exact absurd hop hu
      rcases start_cases hst with ⟨i, rfl, rfl⟩ | ⟨i, rfl, rfl, _⟩ | ⟨k', rfl, rfl⟩ | ⟨x, rfl, rfl⟩ | ⟨rfl, rfl, _⟩ | ⟨rfl, rfl⟩ |
        ⟨rfl, rfl⟩ | ⟨rfl, rfl⟩ <;> first
        | (rcases k' with f | f | ⟨f, d⟩ | f <;> cases f <;> first | (cases hw; done) | (cases ht; done))
        | exact absurd rfl hcl
        | exact ⟨rfl, by simp [cls], by simp [cls]⟩
    · simp only [State.goto, upd_ne _ _ e]; exact hi u hu
  | move t c =>
    rw [ha] at h
    simp only [Sys.exec, Option.map_eq_some_iff] at h
    obtain ⟨⟨s3, r⟩, e1, e3⟩ := h
    obtain ⟨h1, h2⟩ := Prod.mk.inj e3
    rw [← h1]
    by_cases e : u = t
    · subst e
      obtain ⟨h3, h4, h5⟩ := hi u hu
      refine ⟨step_clears e1 h3, ?_⟩
      rcases (stepAt_region e1).2 with h6 | h6
      · simp only [h6]; exact ⟨by simp, by simp⟩
      · simp only [h6]; exact ⟨h4, h5⟩
    · show clears (s3.loc u) = false ∧ cls (s3.loc u) ≠ 6 ∧ cls (s3.loc u) ≠ 7
      rw [stepAt_loc e1, upd_ne _ _ e]; exact hi u hu

/-- a call that does not return goes on -/
theorem goes_on (hn : ∀ j, i ≤ j → ∀ o, E.out j ≠ [.ret t o]) (hl : (E.st i).loc t ≠ .idle) {j : Nat} (hj : i ≤ j) :
    (E.st j).loc t ≠ .idle := by
  obtain ⟨d, rfl⟩ := Nat.exists_eq_add_of_le hj
  clear hj
  induction d with
  | zero => exact hl
  | succ d ih =>
    by_cases hm : E.moves t (i + d)
    · obtain ⟨c, hm⟩ := hm
      have h := E.step (i + d)
      rw [hm] at h
      simp only [Sys.exec, Option.map_eq_some_iff] at h
      obtain ⟨⟨s3, r⟩, e1, e3⟩ := h
      obtain ⟨h1, h2⟩ := Prod.mk.inj e3
      intro hid
      rw [show i + (d + 1) = i + d + 1 from rfl, ← h1] at hid
      obtain ⟨x, hx⟩ := step_ends e1 hid
      simp only [hx] at h2
      exact hn (i + d) (by omega) x h2.symm
    · rw [show i + (d + 1) = i + d + 1 from rfl, show (E.st (i + d + 1)).loc t = (E.st (i + d)).loc t from (guards b α).keeps hm ih]
      exact ih

/-- With one consumer, its pop returns if the queue is not empty at some time after its beginning. -/
theorem consumer_returns (hf : E.FairTo waits) {p : Nat} (ho : ∀ i t op, E.act i = .call t op → consumer p t op ∧ calm op) {op : Op α}
    (hop : op ≠ .clear) (h : E.act i = .call p op) {j : Nat} (hij : i < j) (hne : (E.st j).contents ≠ ([], [])) :
    ∃ k, i < k ∧ ∃ o, E.out k = [.ret p o] := by
  apply Classical.byContradiction
  intro hn
  have hn : ∀ k, i + 1 ≤ k → ∀ o, E.out k ≠ [.ret p o] := fun k h1 o h2 => hn ⟨k, by omega, o, h2⟩
  obtain ⟨hid, e1⟩ := (guards b α).begun h
  have hin : ∀ k, i + 1 ≤ k → (E.st k).loc p ≠ .idle := fun k hk => goes_on hn hid hk
  have hcl : ∀ k, i + 1 ≤ k → clears ((E.st k).loc p) = false := by
    intro k hk
    obtain ⟨d, rfl⟩ := Nat.exists_eq_add_of_le hk
    clear hk
    induction d with
    | zero =>
      obtain ⟨l, hst, _, hs, _⟩ := call_locks e1
      rw [show i + 1 + 0 = i + 1 from rfl, hs]
      simp only [State.goto, upd_same]
      rcases start_cases hst with ⟨i, rfl, rfl⟩ | ⟨i, rfl, rfl, _⟩ | ⟨k', rfl, rfl⟩ | ⟨x, rfl, rfl⟩ | ⟨rfl, rfl, _⟩ | ⟨rfl, rfl⟩ |
        ⟨rfl, rfl⟩ | ⟨rfl, rfl⟩ <;> first | rfl | exact absurd rfl hop
    | succ d ih =>
      rw [show i + 1 + (d + 1) = i + 1 + d + 1 from rfl]
      by_cases hm : E.moves p (i + 1 + d)
      · obtain ⟨c, hm⟩ := hm
        have h := E.step (i + 1 + d)
        rw [hm] at h
        simp only [Sys.exec, Option.map_eq_some_iff] at h
        obtain ⟨⟨s3, r⟩, e1, e3⟩ := h
        obtain ⟨h1, h2⟩ := Prod.mk.inj e3
        rw [← h1]
        exact step_clears e1 ih
      · rw [show (E.st (i + 1 + d + 1)).loc p = _ from (guards b α).keeps hm (hin _ (by omega))]
        exact ih
  have hall : ∀ k, j ≤ k → (E.st k).contents ≠ ([], []) := by
    intro k hk
    obtain ⟨d, rfl⟩ := Nat.exists_eq_add_of_le hk
    clear hk
    induction d with
    | zero => exact hne
    | succ d ih =>
      rw [show j + (d + 1) = j + d + 1 from rfl]
      have h := E.step (j + d)
      cases ha : E.act (j + d) with
      | call t op =>
        rw [ha] at h
        simp only [Sys.exec, Option.map_eq_some_iff] at h
        obtain ⟨s3, e1, e3⟩ := h
        obtain ⟨h1, h2⟩ := Prod.mk.inj e3
        obtain ⟨l, hst, hl, hs, _⟩ := call_locks e1
        rw [← h1, hs]; exact ih
      | move t c =>
        rw [ha] at h
        simp only [Sys.exec, Option.map_eq_some_iff] at h
        obtain ⟨⟨s3, r⟩, e1, e3⟩ := h
        obtain ⟨h1, h2⟩ := Prod.mk.inj e3
        have hoth := others_at (fun i t op h => (ho i t op h).1) (j + d) t
        rcases step_contents e1 ih (by
          by_cases e : t = p
          · subst e; exact hcl _ (by omega)
          · exact (hoth e).1) with h3 | ⟨h3, h4⟩
        · rw [← h1]; exact h3
        · by_cases e : t = p
          · subst e
            rw [show s3 = E.st (j + d + 1) from h1] at h3
            obtain ⟨k, h5, o, h6⟩ := carrier_returns hf (hin (j + d + 1) (by omega)) h3
            exact absurd h6 (hn k (by omega) o)
          · rcases h4 with h4 | h4
            · exact absurd h4 (hoth e).2.1
            · exact absurd h4 (hoth e).2.2
  obtain ⟨k, h1, o, h2⟩ := consumer_finds hf (fun i t op h => ⟨(ho i t op h).1.one, (ho i t op h).2⟩) hall (hin j (by omega))
  exact hn k (by omega) o h2

/-- the positions of an insertion that has not inserted yet -/
def inserts : Loc α → Bool
  | .pLock i | .pTest i | .pCas i | .pUnlock i | .pLockPull i | .pFlag i | .pTestPull i | .pPull i | .pLock2 i | .pPush2 i
  | .pAppend i | .pAppend0 i | .fCas i | .fLock i | .fFlag i | .fPush i | .gLock i | .gPush i => !i.throws
  | _ => false

theorem step_inserts {l : Loc α} {o : Option (Out α)} (h : s.stepAt b t c l = some (s', o)) (hl : inserts l = true) :
    inserts (s'.loc t) = true ∨ s'.contents ≠ ([], []) := by
  have pL : ∀ (l' : Loc α), (s.lockPull t l').map (·, (none : Option (Out α))) = some (s', o) → inserts l' = true → inserts (s'.loc t) = true := by
    intro l' hx hn
    simp only [Option.map_eq_some_iff] at hx
    obtain ⟨s1, e1, e2⟩ := hx; cases e2
    obtain ⟨_, rfl⟩ := lockPull_some e1; simp only [upd_same]; exact hn
  have pU : ∀ (l' : Loc α), (s.lockPush t l').map (·, (none : Option (Out α))) = some (s', o) → inserts l' = true → inserts (s'.loc t) = true := by
    intro l' hx hn
    simp only [Option.map_eq_some_iff] at hx
    obtain ⟨s1, e1, e2⟩ := hx; cases e2
    obtain ⟨_, rfl⟩ := lockPush_some e1; simp only [upd_same]; exact hn
  cases l with
  | pLock i | pLock2 i => exact .inl (pU _ h hl)
  | pLockPull i | fLock i | gLock i => exact .inl (pL _ h hl)
  | pPull i | pPush2 i | pAppend i | pAppend0 i | fPush i | gPush i =>
    have : i.throws = false := by simpa [inserts] using hl
    simp only [State.stepAt, this] at h
    cases h
    right; simp [State.contents, State.goto]
  | pTest i | pTestPull i => cases h; simp only [State.goto, upd_same]; left; split <;> exact hl
  | pCas i | fCas i =>
    simp only [State.stepAt] at h; split at h <;> cases h <;> simp only [State.goto, upd_same] <;> exact .inl hl
  | pUnlock i => cases h; simp only [State.goto, State.unlockPush, upd_same]; exact .inl hl
  | pFlag i | fFlag i => cases h; simp only [State.goto, upd_same]; exact .inl hl
  | _ => cases hl

theorem step_inserts_none {l : Loc α} {o : Option (Out α)} (h : s.stepAt b t c l = some (s', o)) (hl : inserts l = true) : o = none := by
  cases l <;> first
    | (cases hl; done)
    | (cases h; rfl)
    | (simp only [State.stepAt, Option.map_eq_some_iff] at h; obtain ⟨s1, e1, e2⟩ := h; cases e2; rfl)

/-- an insertion puts its value into the queue -/
theorem insertion_inserts (hf : E.FairTo waits) {op : Op α} (hop : (∃ i, op = .ins i) ∨ ∃ i, op = .prio i) (hc : calm op) (h : E.act i = .call t op) :
    ∃ j, i < j ∧ (E.st j).contents ≠ ([], []) := by
  apply Classical.byContradiction
  intro hn
  have hn : ∀ k, i < k → (E.st k).contents = ([], []) := fun k h1 => Classical.byContradiction fun h2 => hn ⟨k, h1, h2⟩
  obtain ⟨hid, e1⟩ := (guards b α).begun h
  have hin : ∀ k, i + 1 ≤ k → inserts ((E.st k).loc t) = true := by
    intro k hk
    obtain ⟨d, rfl⟩ := Nat.exists_eq_add_of_le hk
    clear hk
    induction d with
    | zero =>
      obtain ⟨l, hst, _, hs, _⟩ := call_locks e1
      rw [show i + 1 + 0 = i + 1 from rfl, hs]
      simp only [State.goto, upd_same]
      rcases hop with ⟨v, rfl⟩ | ⟨v, rfl⟩
      · cases hst
        cases v <;> first | rfl | exact absurd rfl (hc _).1
      · simp only [State.start] at hst
        split at hst <;> cases hst
        cases v <;> first | rfl | exact absurd rfl (hc _).2
    | succ d ih =>
      rw [show i + 1 + (d + 1) = i + 1 + d + 1 from rfl]
      by_cases hm : E.moves t (i + 1 + d)
      · obtain ⟨c, hm⟩ := hm
        have h := E.step (i + 1 + d)
        rw [hm] at h
        simp only [Sys.exec, Option.map_eq_some_iff] at h
        obtain ⟨⟨s3, r⟩, e1, e3⟩ := h
        obtain ⟨h1, h2⟩ := Prod.mk.inj e3
        rw [← h1]
        exact (step_inserts e1 ih).resolve_right fun h => h (by rw [show s3 = _ from h1]; exact hn _ (by omega))
      · rw [show (E.st (i + 1 + d + 1)).loc t = _ from (guards b α).keeps hm (by
          show (E.st (i + 1 + d)).loc t ≠ .idle
          intro h; rw [h] at ih; cases ih)]
        exact ih
  have hw : op.waits = false := by rcases hop with ⟨v, rfl⟩ | ⟨v, rfl⟩ <;> rfl
  obtain ⟨j, h1, o, h2⟩ := plain_returns hf h hw
  have hp := hin j (by omega)
  have hs := E.step j
  cases ha : E.act j with
  | call u op =>
    rw [ha] at hs
    simp only [Sys.exec, Option.map_eq_some_iff] at hs
    obtain ⟨s3, e1, e3⟩ := hs
    obtain ⟨h3, h4⟩ := Prod.mk.inj e3
    rw [h2] at h4; cases h4
  | move u c =>
    rw [ha] at hs
    simp only [Sys.exec, Option.map_eq_some_iff] at hs
    obtain ⟨⟨s3, r⟩, e1, e3⟩ := hs
    obtain ⟨h3, h4⟩ := Prod.mk.inj e3
    rw [h2] at h4
    cases r with
    | none => cases h4
    | some r =>
      simp only at h4
      cases h4
      have e1 : (E.st j).stepAt b t c ((E.st j).loc t) = some (s3, some o) := e1
      have h5 := hin (j + 1) (by omega)
      have : (E.st (j + 1)).loc t = .idle := by
        cases step_inserts_none e1 hp
      rw [this] at h5
      cases h5

end Verif.Blocking
