import Verif.Blocking.Inv

/-
The blocking queues used by one call at a time, without the priority channel and without
insertions that throw: everything is as specified.
-/
namespace Verif.Blocking
open Verif.Conc

variable {α : Type} {s s' : State α} {t c : Nat} {w b : Bool} {g : Ghost (List α × List α) (Op α) (Out α)}

/-- what holds at a position if no other call is in progress -/
def SeqAt (s : State α) : Loc α → Prop
  | .pLock i | .pTest i | .pCas i => (s.pull = [] → s.flag = true) ∧ i.throws = false
  | .pUnlock i | .pLockPull i | .pFlag i | .pTestPull i | .pPull i => s.pull = [] ∧ s.push = [] ∧ i.throws = false
  | .pLock2 _ | .pPush2 _ => False
  | .oCheck .unlockSwap _ _ | .oCheck .reverse _ _ | .oCheck .unlockFlag _ _ => s.pull = [] → s.flag = true
  | .oCheck _ _ (some _) => True
  | .cPush | .cPrio | .cFlag => True
  | .wCall _ | .wLock _ | .wPrio _ _ | .wTest _ _ | .wEnter _ | .wSleep _ | .wRelock _ _ | .wUnlock _ _ =>
    s.pull = [] ∧ s.flag = true
  | .wBack _ | .wPop _ _ | .wPFront _ | .wPPop _ _ | .oPFront _ | .oPPop _ _ => False
  | _ => s.pull = [] → s.flag = true

theorem seqAt_step {l : Loc α} {o : Option (Out α)} (i : Inv b s) (hp : s.prio = []) (hF : isF l = false) (hl : s.loc t = l)
    (hs : SeqAt s l) (h : s.stepAt b t c l = some (s', o)) : SeqAt s' (s'.loc t) ∧ s'.prio = [] := by
  have hown : holdsPull l = true → s.puller = some l := i.locks.puller_eq hl
  have hfa := i.facts
  have lockU : ∀ l', (s.lockPush t l').map (·, (none : Option (Out α))) = some (s', o) → SeqAt s l' →
      SeqAt s' (s'.loc t) ∧ s'.prio = [] := by
    intro l' h' hq
    simp only [Option.map_eq_some_iff] at h'
    obtain ⟨s1, h', e⟩ := h'; cases e
    obtain ⟨_, rfl⟩ := lockPush_some h'
    refine ⟨?_, hp⟩
    simp only [upd_same]
    cases l' with
    | oCheck ck k r => cases ck <;> cases r <;> exact hq
    | _ => exact hq
  have lockL : ∀ l', (s.lockPull t l').map (·, (none : Option (Out α))) = some (s', o) → SeqAt s l' →
      SeqAt s' (s'.loc t) ∧ s'.prio = [] := by
    intro l' h' hq
    simp only [Option.map_eq_some_iff] at h'
    obtain ⟨s1, h', e⟩ := h'; cases e
    obtain ⟨_, rfl⟩ := lockPull_some h'
    refine ⟨?_, hp⟩
    simp only [upd_same]
    cases l' with
    | oCheck ck k r => cases ck <;> cases r <;> exact hq
    | _ => exact hq
  have empty : s.flag = true → s.push = [] := fun h => (i.flag.empty h).1
  cases l with
  | idle => cases h
  | crash => cases h
  | fCas i => cases hF
  | fLock i => cases hF
  | fFlag i => cases hF
  | fPush i => cases hF
  | fNotify => cases hF
  | gLock i => cases hF
  | gPush i => cases hF
  | gCas i => cases hF
  | fUn => cases hF
  | pLock2 i => cases hs
  | pPush2 i => cases hs
  | wBack k => cases hs
  | wPop k x => cases hs
  | wPFront k => cases hs
  | wPPop k x => cases hs
  | oPFront k => cases hs
  | oPPop k x => cases hs
  | pLock i => exact lockU _ h hs
  | pTest i => cases h; refine ⟨?_, hp⟩; simp only [State.goto, upd_same]; split <;> first | exact hs | exact hs.1
  | pCas j =>
    have hpu := i.cas t j hl
    cases hf : s.flag <;> simp only [State.stepAt, hf] at h <;> cases h <;> refine ⟨?_, hp⟩ <;>
      simp only [State.goto, upd_same, if_true, Bool.false_eq_true, if_false]
    · exact hs.1
    · exact ⟨(i.flag.empty hf).2.1, hpu, hs.2⟩
  | pUnlock i => cases h; refine ⟨?_, hp⟩; simp only [State.goto, State.unlockPush, upd_same]; exact hs
  | pLockPull i => exact lockL _ h hs
  | pFlag i => cases h; refine ⟨?_, hp⟩; simp only [State.goto, upd_same]; exact hs
  | pTestPull i => cases h; refine ⟨?_, hp⟩; simp only [State.goto, upd_same]; rw [hs.1]; exact ⟨rfl, hs.2⟩
  | pPull i =>
    simp only [State.stepAt, hs.2.2, Bool.false_eq_true, if_false] at h
    cases h; refine ⟨?_, hp⟩; simp only [State.goto, upd_same]; exact fun h => by simp at h
  | pAppend i => cases i <;> cases h <;> refine ⟨?_, hp⟩ <;> simp only [State.goto, upd_same, Ins.throws, if_true, Bool.false_eq_true, if_false] <;> exact hs
  | pAppend0 i => cases i <;> cases h <;> refine ⟨?_, hp⟩ <;> simp only [State.goto, upd_same, Ins.throws, if_true, Bool.false_eq_true, if_false] <;> exact hs
  | xUnPull d => cases h; refine ⟨?_, hp⟩; simp only [State.goto, State.unlockPull, upd_same]; cases d <;> exact hs
  | pNotify d => cases h; refine ⟨?_, hp⟩; simp only [State.goto, upd_same]; exact hs
  | pUnPull d => cases h; refine ⟨?_, hp⟩; simp only [State.goto, State.unlockPull, upd_same]; cases d <;> exact hs
  | pCas2 =>
    have hf := i.flag.off t (by rw [hl]; rfl)
    simp only [State.stepAt, hf] at h; cases h
    refine ⟨?_, hp⟩; simp only [State.goto, upd_same, Bool.false_eq_true, if_false]; exact hs
  | oLock k => cases b <;> exact lockL _ h hs
  | oPrio k => cases h; refine ⟨?_, hp⟩; simp only [State.goto, upd_same, hp]; exact hs
  | oCheck ck k v =>
    rw [hown rfl] at hfa
    cases ck with
    | test =>
      cases h; refine ⟨?_, hp⟩; simp only [State.goto, upd_same]
      cases v with
      | none => split <;> first | exact hs | (cases k <;> exact hs)
      | some v =>
        cases hq : s.pull with
        | nil => trivial
        | cons x xs => exact fun h => by simp at h
    | lock => exact lockU _ h (by cases v <;> exact hs)
    | testPush =>
      cases h; refine ⟨?_, hp⟩; simp only [State.goto, upd_same]
      cases v with
      | none => split <;> exact hs
      | some v => split <;> trivial
    | swap =>
      cases h; refine ⟨?_, hp⟩; simp only [State.goto, upd_same]
      exact fun h => absurd h hfa.2.2
    | unlockSwap =>
      cases h; refine ⟨?_, hp⟩; simp only [State.goto, State.unlockPush, upd_same]
      exact fun h => absurd h hfa.2.2
    | reverse =>
      cases h; refine ⟨?_, hp⟩; simp only [State.goto, upd_same]
      cases v <;> exact fun h => absurd (List.reverse_eq_nil_iff.1 h) hfa.2
    | setFlag => cases h; refine ⟨?_, hp⟩; simp only [State.goto, upd_same]; exact fun _ => rfl
    | unlockFlag => cases h; refine ⟨?_, hp⟩; simp only [State.goto, State.unlockPush, upd_same]; cases v <;> exact hs
  | oTest k => cases h; refine ⟨?_, hp⟩; simp only [State.goto, upd_same]; split <;> exact hs
  | oBack k =>
    cases h; refine ⟨?_, hp⟩; simp only [State.goto, upd_same]
    exact moveOut_ind (P := fun l' => ∀ f, SeqAt { s with loc := f } l') (next := .oPop k) k _ (fun _ => hs) (fun _ => hs) (fun _ _ => hs) _
  | oPop k x =>
    simp only [State.stepAt] at h
    split at h <;> cases h <;> refine ⟨?_, hp⟩ <;> simp only [State.goto, upd_same]
    · exact hs
    · trivial
  | oUnPull k v =>
    rw [hown rfl] at hfa
    cases h; refine ⟨?_, hp⟩; simp only [State.goto, State.unlockPull, upd_same]
    cases v with
    | some x => exact hs
    | none =>
      have hf := hs hfa.2
      cases k with
      | timed f d => cases d; exact ⟨hfa.2, hf⟩; exact hs
      | «try» f => exact hs
      | pop f => exact ⟨hfa.2, hf⟩
      | orCall f => exact ⟨hfa.2, hf⟩
  | wCall d => cases h; refine ⟨?_, hp⟩; simp only [State.goto, upd_same]; cases d <;> first | exact hs | exact fun _ => hs.2
  | wLock k => cases b <;> exact lockL _ h hs
  | wPrio k v => cases h; refine ⟨?_, hp⟩; simp only [State.goto, upd_same, hp]; exact hs
  | wTest k v => cases h; refine ⟨?_, hp⟩; simp only [State.goto, upd_same]; rw [hs.1]; cases v <;> exact ⟨rfl, hs.2⟩
  | wUn k x => cases h; refine ⟨?_, hp⟩; simp only [State.goto, State.unlockPull, upd_same]; exact hs
  | wEnter k => cases h; refine ⟨?_, hp⟩; simp only [State.goto, State.unlockPull, upd_same]; exact hs
  | wSleep k => cases h; refine ⟨?_, hp⟩; simp only [State.goto, upd_same]; exact hs
  | wRelock k d => cases b <;> exact lockL _ h hs
  | wUnlock k d => cases h; refine ⟨?_, hp⟩; simp only [State.goto, State.unlockPull, upd_same]; exact fun _ => hs.2
  | kLock d => cases b <;> exact lockL _ h hs
  | kPrio d => cases h; refine ⟨?_, hp⟩; simp only [State.goto, upd_same, hp]; exact hs
  | kPFront d => cases h; refine ⟨?_, hp⟩; simp only [State.goto, upd_same, hp]; exact hs
  | kTest d => cases h; refine ⟨?_, hp⟩; simp only [State.goto, upd_same]; split <;> exact hs
  | kBack d => cases h; refine ⟨?_, hp⟩; simp only [State.goto, upd_same]; cases s.pull.getLast? <;> cases d <;> exact hs
  | sLock1 => exact lockL _ h hs
  | sLock2 => exact lockU _ h hs
  | cLock1 => exact lockL _ h hs
  | cLock2 => exact lockU _ h hs
  | rLock1 => exact lockL _ h hs
  | rLock2 => exact lockU _ h hs
  | cPush => cases h; refine ⟨?_, hp⟩; simp only [State.goto, upd_same]; cases b <;> trivial
  | cPrio =>
    have e : s.stepAt b t c .cPrio = some (s.goto t .cFlag, none) := by simp [State.stepAt, hp]
    rw [e] at h; cases h; refine ⟨?_, hp⟩; simp only [State.goto, upd_same]; trivial
  | cPull => cases h; refine ⟨?_, hp⟩; simp only [State.goto, upd_same]; trivial
  | cFlag => cases h; refine ⟨?_, hp⟩; simp only [State.goto, upd_same]; exact fun _ => rfl
  | _ => cases h; refine ⟨?_, hp⟩; simp only [State.goto, State.unlockPush, State.unlockPull, upd_same]; exact hs

theorem stepAt_out {l : Loc α} {v : Out α} (h : s.stepAt b t c l = some (s', some v)) :
    (l = .ret v ∨ ∃ x, l = .kNone x ∧ v = .peek none) ∧ s'.loc t = .idle := by
  have nolock : ∀ {x : Option (State α)}, x.map (·, (none : Option (Out α))) ≠ some (s', some v) := by
    intro x hx
    simp only [Option.map_eq_some_iff] at hx
    obtain ⟨_, _, e⟩ := hx; cases e
  cases l with
  | ret o => cases h; exact ⟨.inl rfl, by simp only [State.goto, upd_same]⟩
  | kNone x => cases h; exact ⟨.inr ⟨x, rfl, rfl⟩, by simp only [State.goto, upd_same]⟩
  | oCheck ck k v =>
    cases ck with
    | lock => exact absurd h nolock
    | _ => simp [State.stepAt] at h
  | pCas i => simp only [State.stepAt] at h; split at h <;> cases h
  | pCas2 => simp only [State.stepAt] at h; split at h <;> cases h
  | fCas i => simp only [State.stepAt] at h; split at h <;> cases h
  | gCas i => simp only [State.stepAt] at h; split at h <;> cases h
  | oPop k x => simp only [State.stepAt] at h; split at h <;> cases h
  | oPPop k x => simp only [State.stepAt] at h; split at h <;> cases h
  | wPop k x => simp only [State.stepAt] at h; split at h <;> cases h
  | wPPop k x => simp only [State.stepAt] at h; split at h <;> cases h
  | wSleep k => simp only [State.stepAt] at h; first | (cases h; done) | (split at h <;> cases h)
  | _ => first | (cases h; done) | exact absurd h nolock | (simp [State.stepAt] at h; done)

theorem isF_cls {l : Loc α} (h : cls l ≠ 5) : isF l = false := by
  cases l <;> first | rfl | exact absurd rfl h

/-- calls without the priority channel; insertions do not throw -/
def noPriority (_ : Nat) (op : Op α) : Prop := (∀ i, op ≠ .prio i) ∧ ∀ v, op ≠ .ins (.thrown v)

/-- the relation between states and traces -/
structure KSeq (b : Bool) (q0 : List α × List α) (s : State α × Bool) (tr : List (TEvent (Op α) (Out α))) : Prop where
  rel : ∃ g, TSteps (twoSpec α) ⟨q0, fun _ => .idle⟩ tr g ∧ R false b s.1 g
  flag : Flag s.1
  prio : s.1.prio = []
  noF : ∀ u, cls (s.1.loc u) ≠ 5
  one : ∃ t, (∀ u, u ≠ t → s.1.loc u = .idle) ∧ (s.2 = false → s.1.loc t = .idle) ∧ SeqAt s.1 (s.1.loc t)

theorem KSeq.inv {q0 : List α × List α} {s : State α × Bool} {tr} (k : KSeq b q0 s tr) : Inv b s.1 := by
  obtain ⟨g, _, r⟩ := k.rel
  exact ⟨⟨_, r.conv true⟩, k.flag⟩

theorem seqSim (b : Bool) (q0 : List α × List α) :
    TraceSim (sys b α).oneAtATime noPriority (fun _ => True) (KSeq b q0) where
  call {s tr t op s'} k hop h := by
    obtain ⟨g, hg, r⟩ := k.rel
    obtain ⟨s, a⟩ := s
    cases a with
    | true => cases h
    | false =>
    simp only [Sys.oneAtATime, Bool.false_eq_true, if_false, Option.map_eq_some_iff] at h
    obtain ⟨s1, h, rfl⟩ := h
    have h' : s.call b t op = some s1 := h
    obtain ⟨hid, r', hs⟩ := r.call h'
    obtain ⟨l, hst, hl, rfl, c⟩ := call_locks h'
    obtain ⟨t0, h1, h2, h3⟩ := k.one
    have hid0 : ∀ u, s.loc u = .idle := by
      intro u
      by_cases e : u = t0
      · subst e; exact h2 rfl
      · exact h1 u e
    have tidy : s.pull = [] → s.flag = true := by rw [show s.loc t0 = .idle from h2 rfl] at h3; exact h3
    have hnew : cls l ≠ 5 ∧ SeqAt (s.goto t l) l := by
      unfold noPriority at hop
      rcases start_cases hst with ⟨i, rfl, rfl⟩ | ⟨i, rfl, rfl, _⟩ | ⟨k', rfl, rfl⟩ | ⟨x, rfl, rfl⟩ |
        ⟨rfl, rfl, _⟩ | ⟨rfl, rfl⟩ | ⟨rfl, rfl⟩ | ⟨rfl, rfl⟩ <;>
        first
        | (exact ⟨by cases k' <;> simp [cls, Kind.cls], tidy⟩)
        | exact absurd rfl (hop.1 _)
        | (refine ⟨by simp [cls], tidy, ?_⟩
           cases i <;> first | rfl | exact absurd rfl (hop.2 _))
        | exact ⟨by simp [cls], tidy⟩
    have st : TSteps (twoSpec α) g [.call t op] ⟨g.q, upd g.st t (.pending op)⟩ := ⟨_, TStep.call hid, rfl⟩
    refine ⟨⟨_, TSteps.append st hg, r'⟩, k.flag.call r.locks h', k.prio, ?_, t, ?_, ?_, ?_⟩
    · intro u
      by_cases e : u = t
      · subst e; simp only [State.goto, upd_same]; exact hnew.1
      · simp only [State.goto, upd_ne _ _ e]; exact k.noF u
    · intro u e
      simp only [State.goto, upd_ne _ _ e]; exact hid0 u
    · exact fun h => by cases h
    · simp only [State.goto, upd_same]; exact hnew.2
  move {s tr t c s' o} k hok h := by
    obtain ⟨g, hg, r⟩ := k.rel
    obtain ⟨s, a⟩ := s
    simp only [Sys.oneAtATime, Option.map_eq_some_iff] at h
    obtain ⟨⟨s1, o1⟩, h, e⟩ := h
    have h : s.stepAt b t c (s.loc t) = some (s1, o1) := h
    cases e
    have hi := k.inv
    have hloc := (stepAt_locks r.locks rfl h).loc
    obtain ⟨t0, h1, h2, h3⟩ := k.one
    have ht : t = t0 := by
      by_cases e : t = t0
      · exact e
      · rw [show s.loc t = .idle from h1 t e] at h; cases h
    subst ht
    have hside : Side false s (s.loc t) := by
      cases hl : s.loc t with
      | pPull i => rw [show (s, a).1.loc t = .pPull i from hl] at h3; exact h3.2.1
      | kTest d =>
        rw [show (s, a).1.loc t = .kTest d from hl] at h3
        exact fun _ hp => (k.flag.empty (h3 hp)).1
      | eRead =>
        rw [show (s, a).1.loc t = .eRead from hl] at h3
        refine ⟨fun hf => by rw [k.flag.contents hf]; rfl, fun _ hq => h3 ?_⟩
        have hno : s.puller = none := by
          cases hpo : s.pullOwner with
          | none => simp [State.puller, hpo]
          | some u =>
            have hu : holdsPull (s.loc u) = true := (r.locks.pull u).2 hpo
            by_cases e : u = t
            · subst e; rw [hl] at hu; cases hu
            · rw [show s.loc u = .idle from h1 u e] at hu; cases hu
        have hq' : s.prio = [] ∧ s.push = [] ∧ s.pull = [] := by
          have := hq
          simp [State.split, hno, Blocking.split, Parts.all] at this
          simp [this]
        exact hq'.2.2
      | sPush n => exact k.prio
      | ret v => exact fun h => by cases h
      | kNone d => rfl
      | _ => trivial
    obtain ⟨tr1, g', st, her, _, r', _⟩ := r.move h hside
    obtain ⟨h4, h5⟩ := seqAt_step hi k.prio (isF_cls (k.noF t)) rfl h3 h
    refine ⟨tr ++ tr1, by rw [erase_append, her], ⟨g', TSteps.append st hg, r'⟩, k.flag.move r h, h5, ?_, t, ?_, ?_, h4⟩
    · intro u
      by_cases e : u = t
      · subst e
        show cls (s1.loc u) ≠ 5
        rcases (stepAt_region h).2 with h1 | h1 <;> rw [h1]
        · simp
        · exact k.noF u
      · show cls (s1.loc u) ≠ 5
        rw [hloc, upd_ne _ _ e]; exact k.noF u
    · intro u e
      show s1.loc u = .idle
      rw [hloc, upd_ne _ _ e]; exact h1 u e
    · intro hf
      show s1.loc t = .idle
      cases o1 with
      | some v => exact (stepAt_out h).2
      | none =>
        have : a = false := by simpa using hf
        subst this
        rw [show s.loc t = .idle from h2 rfl] at h; cases h

theorem KSeq.init : KSeq b ([], []) ((State.init : State α), false) [] :=
  ⟨⟨(twoSpec α).ghost, rfl, R.conv (w := true) false R.init⟩, Flag.init, rfl, fun _ h => (by cases h), 0, fun _ _ => rfl, fun _ => rfl,
    fun _ => rfl⟩

end Verif.Blocking
