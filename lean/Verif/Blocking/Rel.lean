import Verif.Blocking.Locks

/-
Helper definitions and lemmas for the blocking queues: the relation between the members and the contents.
-/
namespace Verif.Blocking
open Verif.Conc

variable {α : Type}

/-- if try_pop finds nothing: the call returns nothing, or goes on -/
def Kind.onNone : Kind → Status (Op α) (Out α)
  | .try _ | .timed _ true => .done (.val none)
  | .orCall .fn => .done .threw
  | k => .pending k.op

/-- Where calls take effect; `e`: pullElements is empty, needed at Q344 P427.  `w`: try_peek returning nothing and empty
returning false do not take effect. -/
def status (w e : Bool) : Loc α → Status (Op α) (Out α)
  | .idle | .crash => .idle
  | .pLock i | .pTest i | .pCas i | .pUnlock i | .pLockPull i | .pFlag i | .pTestPull i | .pPull i | .pLock2 i | .pPush2 i
  | .pAppend i | .pAppend0 i => .pending (.ins i)
  | .pNotify _ | .pUnPull _ | .pCas2 | .pNotify2 | .pUnPush => .done .unit
  | .xUnPull _ | .xUnPush => .done .threw
  | .fCas i | .fLock i | .fFlag i | .fPush i | .gLock i | .gPush i | .gCas i => .pending (.prio i)
  | .fNotify | .fUn => .done .unit
  | .oLock k | .oPrio k | .oPFront k | .oPPop k _ | .oBack k | .oPop k _ => .pending k.op
  | .oCheck _ k (some x) => .done (k.result x)
  | .oCheck .setFlag k none | .oCheck .unlockFlag k none => k.onNone
  | .oCheck _ k none => .pending k.op
  | .oTest k => if e then k.onNone else .pending k.op
  | .oUnPull k (some x) => .done (k.result x)
  | .oUnPull k none => k.onNone
  | .wCall f => (Kind.orCall f).onNone
  | .wLock k | .wPrio k _ | .wPFront k | .wPPop k _ | .wTest k _ | .wBack k | .wPop k _ | .wEnter k | .wSleep k
  | .wRelock k _ | .wUnlock k _ => .pending k.op
  | .wUn k x => .done (k.result x)
  | .yUn => .done .threw
  | .kLock x | .kPrio x | .kPFront x | .kTest x | .kBack x => .pending (peekOp x)
  | .kUnNone x | .kNone x => if w then .pending (peekOp x) else .done (.peek none)
  | .kUn v => .done (.peek (some v))
  | .sLock1 | .sLock2 | .sPull | .sPush _ => .pending .size
  | .sUn1 n | .sUn2 n => .done (.num n)
  | .cLock1 | .cLock2 | .cPull => .pending .clear
  | .cPush | .cPrio | .cFlag | .cUn1 | .cUn2 => .done .unit
  | .rLock1 | .rLock2 | .rPull | .rPush => .pending .reserve
  | .rUn1 | .rUn2 => .done .unit
  | .eRead => .pending .empty
  | .ret (.bool false) => if w then .pending .empty else .done (.bool false)
  | .ret o => .done o

theorem status_free {l : Loc α} (h : holdsPull l = false) (w e e' : Bool) : status w e l = status w e' l := by
  cases l with
  | ret o => cases o with
    | bool d => cases d <;> rfl
    | _ => rfl
  | _ => first | rfl | cases h

/-- contents: the priority elements, the elements taken over by the consumers, the elements still with the producers -/
abbrev Parts (α : Type) := List α × List α × List α

/-- the contents as the specification sees them -/
def Parts.all (a : Parts α) : List α × List α := (a.1, a.2.1 ++ a.2.2)

/-- The contents, depending on the position of the holder of m_pullLock: between swap and reverse pullElements is in
queue order; once clear has begun nothing counts; the element of pushPriority counts from P168 on. -/
def split (prio pull push : List α) : Option (Loc α) → Parts α
  | some (.oCheck .unlockSwap _ _) | some (.oCheck .reverse _ _) => (prio, pull, push)
  | some .cPush | some .cPrio => ([], [], [])
  | some (.gCas _) => (prio.dropLast, pull.reverse, push)
  | _ => (prio, pull.reverse, push)

/-- What the holder of m_pullLock knows (at P168 also that inserting did not throw). -/
def Facts (prio pull push : List α) : Option (Loc α) → Prop
  | some (.pPull _) => pull = []
  | some (.gCas i) => i.throws = false ∧ ∃ p, prio = p ++ [i.val]
  | some (.pLock2 _) | some (.pPush2 _) | some (.pNotify _) => pull ≠ []
  | some .fNotify => prio ≠ []
  | some (.oPFront _) | some (.wPFront _) | some (.kPFront _) => prio ≠ []
  | some (.oPPop k x) | some (.wPPop k x) => k.fate ≠ .out ∧ prio.head? = some x
  | some (.oCheck .test _ _) | some (.oTest _) => prio = []
  | some (.oCheck .unlockSwap _ _) => prio = [] ∧ push = [] ∧ pull ≠ []
  | some (.oCheck .reverse _ _) => prio = [] ∧ pull ≠ []
  | some (.oCheck .lock _ _) | some (.oCheck .testPush _ _) => prio = [] ∧ pull = []
  | some (.oCheck .unlockFlag _ _) => prio = [] ∧ pull = [] ∧ push = []
  | some (.oCheck .swap _ _) => prio = [] ∧ pull = [] ∧ push ≠ []
  | some (.oCheck .setFlag _ _) => prio = [] ∧ pull = [] ∧ push = []
  | some (.oBack _) | some (.wBack _) | some (.kBack _) => prio = [] ∧ pull ≠ []
  | some (.oPop k x) | some (.wPop k x) => k.fate ≠ .out ∧ prio = [] ∧ pull.getLast? = some x
  | some (.oUnPull _ none) => prio = [] ∧ pull = []
  | some (.wTest _ _) | some (.kTest _) => prio = []
  | some (.wEnter _) | some (.wUnlock _ _) => prio = [] ∧ pull = []
  | some (.sPush n) => n = pull.length
  | some .cPush => pull = []
  | some .cPrio => pull = [] ∧ push = []
  | some .cFlag => prio = [] ∧ pull = [] ∧ push = []
  | some .crash => False
  | _ => True

/-- Is the position one of pushPriority and emplacePriority? -/
def isF : Loc α → Bool
  | .fCas _ | .fLock _ | .fFlag _ | .fPush _ | .fNotify | .gLock _ | .gPush _ | .gCas _ | .fUn => true
  | _ => false

/-- the contents of a state -/
def State.split (s : State α) : Parts α := Blocking.split s.prio s.pull s.push s.puller

/-- the simulation relation -/
structure R (w b : Bool) (s : State α) (g : Ghost (List α × List α) (Op α) (Out α)) : Prop where
  locks : Locks s
  status : ∀ t, g.st t = status w s.pull.isEmpty (s.loc t)
  queue : g.q = s.split.all
  facts : Facts s.prio s.pull s.push s.puller
  cas : ∀ t i, s.loc t = .pCas i → s.push = []
  noPrio : b = false → s.prio = [] ∧ ∀ t, isF (s.loc t) = false

/-- the thread of an event -/
def thread : TEvent (Op α) (Out α) → Nat
  | .call t _ => t
  | .lin t _ _ => t
  | .ret t _ => t

/-- The effect of a call would be the same had more elements been inserted between the two parts before. -/
def Good (op : Op α) (o : Out α) (a a' : Parts α) : Prop :=
  ∀ y, two (a.1, a.2.1 ++ (y ++ a.2.2)) op = some ((a'.1, a'.2.1 ++ (y ++ a'.2.2)), o)

/-- the same for a trace -/
def Post : Parts α → List (TEvent (Op α) (Out α)) → Parts α → Prop
  | a, [], a' => a' = a
  | a, .lin _ op o :: tr, a' => ∃ a1, Good op o a a1 ∧ Post a1 tr a'
  | a, .call _ _ :: tr, a' => Post a tr a'
  | a, .ret _ _ :: tr, a' => Post a tr a'

/-- the events of a step allow an insertion before them, or nothing is left with the producers, or the call is size -/
def Link (a : Parts α) (tr : List (TEvent (Op α) (Out α))) (a' : Parts α) : Prop :=
  a'.2.2 = [] ∨ Post a tr a' ∨ ∃ t o, tr = [.lin t .size o]

/-- the step corresponds to a step of the specification -/
def Moves (w b : Bool) (s : State α) (g : Ghost (List α × List α) (Op α) (Out α)) (t : Nat) (s' : State α)
    (o : Option (Out α)) : Prop :=
  ∃ tr g', TSteps (twoSpec α) g tr g' ∧ erase tr = retEvents t o ∧ (∀ e ∈ tr, thread e = t) ∧ R w b s' g' ∧
    Link s.split tr s'.split ∧ (tr ≠ [] → ∀ op, g'.st t ≠ .pending op)

theorem upd_self {β : Type} (f : Nat → β) (t : Nat) : upd f t (f t) = f := by
  funext u; simp only [upd]; split
  · rename_i h; rw [h]
  · rfl

variable {s s' : State α} {t c : Nat} {l l' : Loc α} {w b : Bool} {q : List α × List α} {st : Nat → Status (Op α) (Out α)}

/-- the position of the holder of m_pullLock after a step from `l` to `l'` -/
def after (s : State α) (l l' : Loc α) : Option (Loc α) :=
  if holdsPull l' then some l' else if holdsPull l then none else s.puller

/-- Only holders of the locks change the containers. -/
theorem stepAt_frame {o : Option (Out α)} (h : s.stepAt b t c l = some (s', o)) :
    (holdsPull l = false → s'.pull = s.pull ∧ s'.prio = s.prio) ∧ (holdsPush l = false → s'.push = s.push) := by
  cases l with
  | oCheck c k r =>
    cases c with
    | lock =>
      simp only [State.stepAt, Option.map_eq_some_iff] at h
      obtain ⟨s1, h, e⟩ := h; cases e
      obtain ⟨_, rfl⟩ := lockPush_some h
      exact ⟨fun _ => ⟨rfl, rfl⟩, fun _ => rfl⟩
    | _ =>
      cases h
      refine ⟨?_, ?_⟩ <;> intro hh <;> first | exact ⟨rfl, rfl⟩ | rfl | (cases hh; done)
  | _ =>
    simp only [State.stepAt, Option.map_eq_some_iff, reduceCtorEq] at h <;>
    first
    | (cases h
       refine ⟨?_, ?_⟩ <;> intro hh <;> first | exact ⟨rfl, rfl⟩ | rfl | (cases hh; done))
    | (cases h
       split <;> (refine ⟨?_, ?_⟩ <;> intro hh <;> first | exact ⟨rfl, rfl⟩ | rfl | (cases hh; done)))
    | (obtain ⟨s1, h, e⟩ := h; cases e
       obtain ⟨h1, rfl⟩ := lockPush_some h
       exact ⟨fun _ => ⟨rfl, rfl⟩, fun _ => rfl⟩)
    | (obtain ⟨s1, h, e⟩ := h; cases e
       obtain ⟨h1, rfl⟩ := lockPull_some h
       exact ⟨fun _ => ⟨rfl, rfl⟩, fun _ => rfl⟩)

/-- A step inside a call preserves the relation, if the specification's state and the thread's status are set to what they
should be. -/
theorem R.step {q' : List α × List α} (r : R w b s ⟨q, st⟩) (hl : s.loc t = l) (h : s.stepAt b t c l = some (s', none))
    (hcas : ∀ i, s'.loc t = .pCas i → s'.push = [])
    (hprio : b = false → s'.prio = [] ∧ isF (s'.loc t) = false)
    (hf : Facts s'.prio s'.pull s'.push s'.puller) (hq' : q' = s'.split.all) :
    R w b s' ⟨q', upd st t (Blocking.status w s'.pull.isEmpty (s'.loc t))⟩ := by
  have c := stepAt_locks r.locks hl h
  refine ⟨r.locks.step hl c, ?_, hq', hf, ?_, ?_⟩
  · intro u
    by_cases hu : u = t
    · subst hu; simp only [upd_same]
    · rw [c.loc]
      simp only [upd_ne _ _ hu]
      refine (r.status u).trans ?_
      cases hh : holdsPull l with
      | false => rw [((stepAt_frame h).1 hh).1]
      | true =>
        apply status_free
        cases hu' : holdsPull (s.loc u) with
        | false => rfl
        | true => exact absurd (r.locks.pull.unique hu' (by rw [hl]; exact hh)) hu
  · intro u i hu'
    by_cases hu : u = t
    · subst hu; exact hcas i hu'
    · rw [c.loc, upd_ne _ _ hu] at hu'
      have h0 := r.cas u i hu'
      cases hh : holdsPush l with
      | false => rw [(stepAt_frame h).2 hh]; exact h0
      | true => exact absurd (r.locks.push.unique (by rw [hu']; rfl) (by rw [hl]; exact hh)) hu
  · intro hb
    obtain ⟨h1, h2⟩ := hprio hb
    refine ⟨h1, fun u => ?_⟩
    by_cases hu : u = t
    · subst hu; exact h2
    · rw [c.loc, upd_ne _ _ hu]; exact (r.noPrio hb).2 u

/-- A step inside a call, with the corresponding step of the specification. -/
theorem R.next (r : R w b s ⟨q, st⟩) (hl : s.loc t = l) (h : s.stepAt b t c l = some (s', none)) (l' : Loc α)
    (hl' : s'.loc t = l') (hcas : ∀ i, l' = .pCas i → s'.push = [])
    (hprio : b = false → s'.prio = [] ∧ isF l' = false)
    (hf : Facts s'.prio s'.pull s'.push (after s l l'))
    (hq : (Blocking.status w s'.pull.isEmpty l' = Blocking.status w s.pull.isEmpty l ∧
          (split s'.prio s'.pull s'.push (after s l l')).all = s.split.all ∧
          ((split s'.prio s'.pull s'.push (after s l l')).2.2 = [] ∨ split s'.prio s'.pull s'.push (after s l l') = s.split)) ∨
        ∃ op o, Blocking.status w s.pull.isEmpty l = .pending op ∧ Blocking.status w s'.pull.isEmpty l' = .done o ∧
          two s.split.all op = some ((split s'.prio s'.pull s'.push (after s l l')).all, o) ∧
          ((split s'.prio s'.pull s'.push (after s l l')).2.2 = [] ∨
            Good op o s.split (split s'.prio s'.pull s'.push (after s l l')) ∨ op = .size)) :
    Moves w b s ⟨q, st⟩ t s' none := by
  subst hl'
  have c := stepAt_locks r.locks hl h
  have e : split s'.prio s'.pull s'.push (after s l (s'.loc t)) = s'.split := by
    simp only [State.split, r.locks.step_puller hl c, after]
  have hpull : after s l (s'.loc t) = s'.puller := by rw [r.locks.step_puller hl c]; rfl
  rw [e] at hq
  rw [hpull] at hf
  have hst : st t = Blocking.status w s.pull.isEmpty l := by rw [← hl]; exact r.status t
  have hq0 : q = s.split.all := r.queue
  have fin : R w b s' ⟨s'.split.all, upd st t (Blocking.status w s'.pull.isEmpty (s'.loc t))⟩ :=
    r.step hl h hcas hprio hf rfl
  rcases hq with ⟨h1, h2, h3⟩ | ⟨op, o, h1, h2, h3, h4⟩
  · refine ⟨[], _, rfl, rfl, by simp, ?_, ?_, by simp⟩
    · rwa [h1, ← hst, upd_self, h2, ← hq0] at fin
    · rcases h3 with h3 | h3
      · exact .inl h3
      · exact .inr (.inl h3)
  · refine ⟨[.lin t op o], _, ⟨_, TStep.lin (hst.trans h1) (q' := s'.split.all) ?_, rfl⟩, rfl, by simp [thread], ?_, ?_, ?_⟩
    · rw [hq0]; exact h3
    · rwa [h2] at fin
    · rcases h4 with h4 | h4 | h4
      · exact .inl h4
      · exact .inr (.inl ⟨_, h4, rfl⟩)
      · subst h4; exact .inr (.inr ⟨_, _, rfl⟩)
    · intro _ op'; simp only [upd_same]; intro hh; cases hh

/-- the call returns -/
theorem R.retAt {o : Out α} (r : R w b s ⟨q, st⟩) (hl : s.loc t = l)
    (hs : s.stepAt b t 0 l = some (s.goto t .idle, some o)) (hf : holdsPull l = false) (hd : Blocking.status w s.pull.isEmpty l = .done o) :
    Moves w b s ⟨q, st⟩ t (s.goto t .idle) (some o) := by
  have hst : st t = .done o := by have := r.status t; rw [hl] at this; exact this.trans hd
  have c := stepAt_locks (b := b) (c := 0) r.locks hl hs
  have e : (s.goto t .idle).loc t = .idle := upd_same _ _ _
  rw [e] at c
  have hp : (s.goto t .idle).puller = s.puller := by rw [r.locks.step_puller hl c, hf]; rfl
  have hs : (s.goto t .idle).split = s.split := by simp only [State.split, hp]; rfl
  refine ⟨[.ret t o], ⟨q, upd st t .idle⟩, ⟨_, TStep.ret hst, rfl⟩, rfl, by simp [thread], ⟨r.locks.step hl c, ?_, ?_, ?_, ?_, ?_⟩, ?_, ?_⟩
  · intro u
    simp only [c.loc]
    by_cases hu : u = t
    · subst hu; simp only [upd_same]; rfl
    · simp only [upd_ne _ _ hu]; exact r.status u
  · rw [hs]; exact r.queue
  · rw [hp]; exact r.facts
  · intro u i hu
    by_cases h : u = t
    · subst h; rw [e] at hu; cases hu
    · rw [c.loc, upd_ne _ _ h] at hu; exact r.cas u i hu
  · intro hb
    refine ⟨(r.noPrio hb).1, fun u => ?_⟩
    by_cases h : u = t
    · subst h; rw [e]; rfl
    · rw [c.loc, upd_ne _ _ h]; exact (r.noPrio hb).2 u
  · rw [hs]; exact .inr (.inl rfl)
  · intro _ op'; simp only [upd_same]; intro hh; cases hh

theorem R.ret {o : Out α} (r : R w b s ⟨q, st⟩) (hl : s.loc t = .ret o) (ho : w = true → o ≠ .bool false) :
    Moves w b s ⟨q, st⟩ t (s.goto t .idle) (some o) := by
  refine r.retAt hl rfl rfl ?_
  cases o with
  | bool d =>
    cases d with
    | true => rfl
    | false =>
      cases w with
      | false => rfl
      | true => exact absurd rfl (ho rfl)
  | _ => rfl

/-- try_peek returns nothing -/
theorem R.retNone {x : Bool} (r : R w b s ⟨q, st⟩) (hl : s.loc t = .kNone x) (hw : w = false) :
    Moves w b s ⟨q, st⟩ t (s.goto t .idle) (some (.peek none)) := by
  subst hw; exact r.retAt hl rfl rfl rfl

theorem R.call {op : Op α} {g : Ghost (List α × List α) (Op α) (Out α)} (r : R w b s g) (h : s.call b t op = some s') :
    g.st t = .idle ∧ R w b s' ⟨g.q, upd g.st t (.pending op)⟩ ∧ s'.split = s.split := by
  obtain ⟨l, hs, hl, rfl, c⟩ := call_locks h
  have hst := r.status t
  rw [hl] at hst
  have hp : (s.goto t l).puller = s.puller := by
    rw [r.locks.step_puller hl c, (start_free hs).1]; rfl
  have he : (s.goto t l).split = s.split := by simp only [State.split, hp]; rfl
  refine ⟨hst, ⟨r.locks.step hl c, ?_, ?_, ?_, ?_, ?_⟩, he⟩
  · intro u
    simp only [c.loc]
    by_cases hu : u = t
    · subst hu; simp only [upd_same]
      rcases start_cases hs with ⟨i, rfl, rfl⟩ | ⟨i, rfl, rfl, _⟩ | ⟨k, rfl, rfl⟩ | ⟨x, rfl, rfl⟩ |
        ⟨rfl, rfl, _⟩ | ⟨rfl, rfl⟩ | ⟨rfl, rfl⟩ | ⟨rfl, rfl⟩ <;> rfl
    · simp only [upd_ne _ _ hu]; exact r.status u
  · rw [he]; exact r.queue
  · rw [hp]; exact r.facts
  · intro u i hu
    by_cases h : u = t
    · subst h
      rw [c.loc, upd_same] at hu
      subst hu
      rcases start_cases hs with ⟨i, _, h'⟩ | ⟨i, _, h', _⟩ | ⟨k, _, h'⟩ | ⟨x, _, h'⟩ |
        ⟨_, h', _⟩ | ⟨_, h'⟩ | ⟨_, h'⟩ | ⟨_, h'⟩ <;> cases h'
    · rw [c.loc, upd_ne _ _ h] at hu; exact r.cas u i hu
  · intro hb
    refine ⟨(r.noPrio hb).1, fun u => ?_⟩
    by_cases h : u = t
    · subst h
      rw [c.loc, upd_same]
      rcases start_cases hs with ⟨i, rfl, rfl⟩ | ⟨i, rfl, rfl, h'⟩ | ⟨k, rfl, rfl⟩ | ⟨x, rfl, rfl⟩ |
        ⟨rfl, rfl, _⟩ | ⟨rfl, rfl⟩ | ⟨rfl, rfl⟩ | ⟨rfl, rfl⟩ <;> first | rfl | (rw [hb] at h'; cases h')
    · rw [c.loc, upd_ne _ _ h]; exact (r.noPrio hb).2 u

theorem R.init : R w b (State.init : State α) (twoSpec α).ghost := by
  refine ⟨Locks.init, fun _ => rfl, rfl, trivial, ?_, fun _ => ⟨rfl, fun _ => rfl⟩⟩
  intro t i h; cases h

end Verif.Blocking
