import Verif.Blocking.Flag
import Verif.Conc.Trace

/-
The blocking queues: linearizability when push may take effect in the past.

A push that has found the queue empty (Q122, P121) inserts into pullElements, in front of what other pushes may have put
into pushElements meanwhile.  It is placed at the last moment at which pushElements was empty; the calls that took effect
since then would have had the same effect with its element in the queue.
-/
namespace Verif.Blocking
open Verif.Conc

variable {α : Type} {s s' : State α} {t c : Nat} {f b : Bool}

/-- the push that has set the flag (Q122 P121) and has not inserted its element -/
def region : Loc α → Option (Ins α)
  | .pUnlock i | .pLockPull i | .pFlag i | .pTestPull i | .pPull i | .pLock2 i | .pPush2 i => some i
  | _ => none

/-- try_pop itself, or a call that may wait -/
def Kind.cls : Kind → Nat
  | .try _ => 6
  | _ => 7

/-- the call a position belongs to: 1 try_peek, 2 size, 3 empty, 4 push and emplace, 5 pushPriority and emplacePriority,
6 try_pop, 7 calls that may wait, 0 others -/
def cls : Loc α → Nat
  | .kLock _ | .kPrio _ | .kPFront _ | .kTest _ | .kBack _ | .kUn _ | .kUnNone _ | .kNone _ => 1
  | .sLock1 | .sLock2 | .sPull | .sPush _ | .sUn1 _ | .sUn2 _ => 2
  | .eRead => 3
  | .pLock _ | .pTest _ | .pCas _ | .pUnlock _ | .pLockPull _ | .pFlag _ | .pTestPull _ | .pPull _ | .pLock2 _ | .pPush2 _
  | .pNotify _ | .pUnPull _ | .pAppend _ | .pCas2 | .pNotify2 | .pAppend0 _ | .pUnPush => 4
  | .fCas _ | .fLock _ | .fFlag _ | .fPush _ | .fNotify | .gLock _ | .gPush _ | .gCas _ | .fUn => 5
  | .oLock k | .oPrio k | .oPFront k | .oPPop k _ | .oCheck _ k _ | .oTest k | .oBack k | .oPop k _ | .oUnPull k _
  | .wLock k | .wPrio k _ | .wPFront k | .wPPop k _ | .wTest k _ | .wBack k | .wPop k _ | .wEnter k | .wSleep k
  | .wRelock k _ | .wUnlock k _ => k.cls
  | .wCall _ => 7
  | _ => 0

/-- Is the position one of size, or one of empty while the flag is not known to be right (`f`)? -/
def obs (f : Bool) (l : Loc α) : Bool := cls l == 2 || (!f && cls l == 3)

theorem afterTry_plain (k : Kind) (r : Option α) : region (State.afterTry k r) = none ∧
    (cls (State.afterTry k r) = 0 ∨ cls (State.afterTry k r) = k.cls) := by
  cases r with
  | some x => exact ⟨rfl, .inl rfl⟩
  | none =>
    rcases k with f | f | ⟨f, b⟩ | f <;> try cases b
    all_goals first | exact ⟨rfl, .inl rfl⟩ | exact ⟨rfl, .inr rfl⟩

/-- proves `region` and `cls` of a computed position -/
macro "plain" : tactic => `(tactic|
  (refine ⟨fun i h => ?_, ?_⟩
   · first
     | exact .inl h
     | (cases h; exact .inr rfl)
     | (cases h; done)
   · first
     | exact .inl rfl
     | exact .inr rfl))

theorem stepAt_region {l : Loc α} {o : Option (Out α)} (h : s.stepAt b t c l = some (s', o)) :
    (∀ i, region (s'.loc t) = some i → region l = some i ∨ l = .pCas i) ∧ (cls (s'.loc t) = 0 ∨ cls (s'.loc t) = cls l) := by
  have lockU : ∀ l', (s.lockPush t l').map (·, (none : Option (Out α))) = some (s', o) → s'.loc t = l' := by
    intro l' h'
    simp only [Option.map_eq_some_iff] at h'
    obtain ⟨s1, h', e⟩ := h'; cases e
    obtain ⟨_, rfl⟩ := lockPush_some h'
    exact upd_same _ _ _
  have lockL : ∀ l', (s.lockPull t l').map (·, (none : Option (Out α))) = some (s', o) → s'.loc t = l' := by
    intro l' h'
    simp only [Option.map_eq_some_iff] at h'
    obtain ⟨s1, h', e⟩ := h'; cases e
    obtain ⟨_, rfl⟩ := lockPull_some h'
    exact upd_same _ _ _
  cases l with
  | wUnlock k d => cases h; cases k <;> simp only [State.unlockPull, State.goto, upd_same] <;> plain
  | oUnPull k r =>
    cases h
    have e : (s.unlockPull t (State.afterTry k r)).loc t = State.afterTry k r := upd_same _ _ _
    rw [e, (afterTry_plain k r).1]
    exact ⟨fun i h => (by cases h), (afterTry_plain k r).2⟩
  | oCheck ck k r =>
    cases ck with
    | lock => rw [lockU _ h]; plain
    | test =>
      cases hp : s.pull.isEmpty <;> simp only [State.stepAt, hp] at h <;> cases h <;>
        simp only [State.goto, upd_same, if_true, Bool.false_eq_true, if_false]
      · cases r <;> plain
      · plain
    | testPush =>
      cases hp : s.push.isEmpty <;> simp only [State.stepAt, hp] at h <;> cases h <;>
        simp only [State.goto, upd_same, if_true, Bool.false_eq_true, if_false] <;> plain
    | _ => cases h; simp only [State.goto, State.unlockPush, upd_same]; first | plain | (cases r <;> plain)
  | idle => cases h
  | crash => cases h
  | wCall d => cases h; cases d <;> simp only [State.goto, upd_same, if_true, reduceCtorEq, if_false] <;> plain
  | pTest i =>
    cases hp : s.push.isEmpty <;> simp only [State.stepAt, hp] at h <;> cases h <;>
      simp only [State.goto, upd_same, if_true, Bool.false_eq_true, if_false] <;> plain
  | pCas i =>
    cases hp : s.flag <;> simp only [State.stepAt, hp] at h <;> cases h <;>
      simp only [State.goto, upd_same, if_true, Bool.false_eq_true, if_false] <;> plain
  | pTestPull i =>
    cases hp : s.pull.isEmpty <;> simp only [State.stepAt, hp] at h <;> cases h <;>
      simp only [State.goto, upd_same, if_true, Bool.false_eq_true, if_false] <;> plain
  | xUnPull d => cases h; cases d <;> simp only [State.goto, State.unlockPull, upd_same, if_true, Bool.false_eq_true, if_false] <;> plain
  | pPull i => cases i <;> cases h <;> simp only [State.goto, upd_same, Ins.throws, if_true, Bool.false_eq_true, if_false] <;> plain
  | pPush2 i => cases i <;> cases h <;> simp only [State.goto, upd_same, Ins.throws, if_true, Bool.false_eq_true, if_false] <;> plain
  | pAppend i => cases i <;> cases h <;> simp only [State.goto, upd_same, Ins.throws, if_true, Bool.false_eq_true, if_false] <;> plain
  | pAppend0 i => cases i <;> cases h <;> simp only [State.goto, upd_same, Ins.throws, if_true, Bool.false_eq_true, if_false] <;> plain
  | fPush i => cases i <;> cases h <;> simp only [State.goto, upd_same, Ins.throws, if_true, Bool.false_eq_true, if_false] <;> plain
  | gPush i => cases i <;> cases h <;> simp only [State.goto, upd_same, Ins.throws, if_true, Bool.false_eq_true, if_false] <;> plain
  | pUnPull d => cases h; cases d <;> simp only [State.goto, State.unlockPull, upd_same, if_true, Bool.false_eq_true, if_false] <;> plain
  | pCas2 =>
    cases hp : s.flag <;> simp only [State.stepAt, hp] at h <;> cases h <;>
      simp only [State.goto, upd_same, if_true, Bool.false_eq_true, if_false] <;> plain
  | fCas i =>
    cases hp : s.flag <;> simp only [State.stepAt, hp] at h <;> cases h <;>
      simp only [State.goto, upd_same, if_true, Bool.false_eq_true, if_false] <;> plain
  | gCas =>
    cases hp : s.flag <;> simp only [State.stepAt, hp] at h <;> cases h <;>
      simp only [State.goto, upd_same, if_true, Bool.false_eq_true, if_false] <;> plain
  | oPrio k =>
    cases hp : s.prio.isEmpty <;> simp only [State.stepAt, hp] at h <;> cases h <;>
      simp only [State.goto, upd_same, if_true, Bool.false_eq_true, if_false] <;> plain
  | wPrio k w =>
    cases hp : s.prio.isEmpty <;> simp only [State.stepAt, hp] at h <;> cases h <;>
      simp only [State.goto, upd_same, if_true, Bool.false_eq_true, if_false] <;> plain
  | kPrio d =>
    cases hp : s.prio.isEmpty <;> simp only [State.stepAt, hp] at h <;> cases h <;>
      simp only [State.goto, upd_same, if_true, Bool.false_eq_true, if_false] <;> plain
  | kTest d =>
    cases hp : s.pull.isEmpty <;> simp only [State.stepAt, hp] at h <;> cases h <;>
      simp only [State.goto, upd_same, if_true, Bool.false_eq_true, if_false] <;> plain
  | oPFront k =>
    cases h
    simp only [State.goto, upd_same]
    have hr := moveOut_ind (P := fun l' => region l' = none ∧ (cls l' = 0 ∨ cls l' = k.cls)) k (next := .oPPop k) s.prio.head? ⟨rfl, .inl rfl⟩ ⟨rfl, .inl rfl⟩
      (fun x => ⟨rfl, .inr rfl⟩)
    exact ⟨fun i h => (by rw [hr.1] at h; cases h), hr.2⟩
  | wPFront k =>
    cases h
    simp only [State.goto, upd_same]
    have hr := moveOut_ind (P := fun l' => region l' = none ∧ (cls l' = 0 ∨ cls l' = k.cls)) k (next := .wPPop k) s.prio.head? ⟨rfl, .inl rfl⟩ ⟨rfl, .inl rfl⟩
      (fun x => ⟨rfl, .inr rfl⟩)
    exact ⟨fun i h => (by rw [hr.1] at h; cases h), hr.2⟩
  | kPFront d =>
    cases hp : s.prio.head? <;> simp only [State.stepAt, hp] at h <;> cases h <;> simp only [State.goto, upd_same] <;> first
      | plain
      | (cases d <;> plain)
  | oBack k =>
    cases h
    simp only [State.goto, upd_same]
    have hr := moveOut_ind (P := fun l' => region l' = none ∧ (cls l' = 0 ∨ cls l' = k.cls)) k (next := .oPop k) s.pull.getLast? ⟨rfl, .inl rfl⟩ ⟨rfl, .inl rfl⟩
      (fun x => ⟨rfl, .inr rfl⟩)
    exact ⟨fun i h => (by rw [hr.1] at h; cases h), hr.2⟩
  | wBack k =>
    cases h
    simp only [State.goto, upd_same]
    have hr := moveOut_ind (P := fun l' => region l' = none ∧ (cls l' = 0 ∨ cls l' = k.cls)) k (next := .wPop k) s.pull.getLast? ⟨rfl, .inl rfl⟩ ⟨rfl, .inl rfl⟩
      (fun x => ⟨rfl, .inr rfl⟩)
    exact ⟨fun i h => (by rw [hr.1] at h; cases h), hr.2⟩
  | kBack d =>
    cases hp : s.pull.getLast? <;> simp only [State.stepAt, hp] at h <;> cases h <;> simp only [State.goto, upd_same] <;> first
      | plain
      | (cases d <;> plain)
  | oPPop k x =>
    cases hp : s.prio.isEmpty <;> simp only [State.stepAt, hp] at h <;> cases h <;>
      simp only [State.goto, upd_same, if_true, Bool.false_eq_true, if_false] <;> plain
  | wPPop k x =>
    cases hp : s.prio.isEmpty <;> simp only [State.stepAt, hp] at h <;> cases h <;>
      simp only [State.goto, upd_same, if_true, Bool.false_eq_true, if_false] <;> plain
  | oPop k x =>
    cases hp : s.pull.isEmpty <;> simp only [State.stepAt, hp] at h <;> cases h <;>
      simp only [State.goto, upd_same, if_true, Bool.false_eq_true, if_false] <;> plain
  | wPop k x =>
    cases hp : s.pull.isEmpty <;> simp only [State.stepAt, hp] at h <;> cases h <;>
      simp only [State.goto, upd_same, if_true, Bool.false_eq_true, if_false] <;> plain
  | oTest k =>
    cases hp : s.pull.isEmpty <;> simp only [State.stepAt, hp] at h <;> cases h <;>
      simp only [State.goto, upd_same, if_true, Bool.false_eq_true, if_false] <;> plain
  | wTest k w =>
    cases hp : s.pull.isEmpty <;> simp only [State.stepAt, hp] at h <;> cases h <;>
      simp only [State.goto, upd_same, if_true, Bool.false_eq_true, if_false]
    · plain
    · cases w <;> plain
  | cPush => cases h; cases b <;> simp only [State.goto, upd_same, if_true, Bool.false_eq_true, if_false] <;> plain
  | cPrio =>
    cases hp : s.prio.isEmpty <;> simp only [State.stepAt, hp] at h <;> cases h <;>
      simp only [State.goto, upd_same, if_true, Bool.false_eq_true, if_false] <;> plain
  | pLock i => rw [lockU _ h]; plain
  | pLock2 i => rw [lockU _ h]; plain
  | sLock2 => rw [lockU _ h]; plain
  | cLock2 => rw [lockU _ h]; plain
  | rLock2 => rw [lockU _ h]; plain
  | pLockPull i => rw [lockL _ h]; plain
  | fLock i => rw [lockL _ h]; plain
  | gLock i => rw [lockL _ h]; plain
  | sLock1 => rw [lockL _ h]; plain
  | cLock1 => rw [lockL _ h]; plain
  | rLock1 => rw [lockL _ h]; plain
  | oLock k => rw [lockL _ h]; cases b <;> plain
  | wLock k => rw [lockL _ h]; cases b <;> plain
  | wRelock k d => rw [lockL _ h]; cases b <;> plain
  | kLock d => rw [lockL _ h]; cases b <;> plain
  | _ => cases h; simp only [State.goto, State.unlockPush, State.unlockPull, upd_same]; plain

theorem stepAt_obs {f : Bool} {l : Loc α} {o : Option (Out α)} (h : s.stepAt b t c l = some (s', o)) (hl : obs f l = false) :
    obs f (s'.loc t) = false := by
  unfold obs at *
  rcases (stepAt_region h).2 with h1 | h1 <;> rw [h1]
  · cases f <;> rfl
  · exact hl

theorem region_status {w e : Bool} {l : Loc α} {i : Ins α} (h : region l = some i) : status w e l = .pending (.ins i) := by
  cases l <;> first | (cases h; rfl) | cases h

theorem op_size (k : Kind) : (Status.pending k.op : Status (Op α) (Out α)) ≠ .pending .size := by
  rcases k with f | f | ⟨f, b⟩ | f <;> cases f <;> exact fun h => by cases h

theorem onNone_size (k : Kind) : (k.onNone : Status (Op α) (Out α)) ≠ .pending .size := by
  rcases onNone_cases (α := α) k with h | ⟨o, h, _⟩ <;> rw [h]
  · exact op_size k
  · exact fun h => by cases h

theorem obs_status {f w e : Bool} {l : Loc α} (h : status w e l = .pending .size) : obs f l = true := by
  cases l with
  | oCheck c k r =>
    cases r with
    | some x => cases c <;> cases h
    | none => cases c <;> first | exact absurd h (op_size k) | exact absurd h (onNone_size k)
  | oUnPull k r =>
    cases r with
    | some x => cases h
    | none => exact absurd h (onNone_size k)
  | oTest k =>
    cases e with
    | true => exact absurd h (onNone_size k)
    | false => exact absurd h (op_size k)
  | wCall d => exact absurd h (onNone_size (.orCall d))
  | kUnNone d => cases d <;> cases w <;> cases h
  | kNone d => cases d <;> cases w <;> cases h
  | ret o => cases o with
    | bool d => cases d <;> cases w <;> cases h
    | _ => cases h
  | _ =>
    first
    | rfl
    | (cases h; done)
    | (rename_i k; exact absurd h (op_size k))
    | (rename_i k _; exact absurd h (op_size k))
    | (rename_i k; cases k <;> cases h; done)
    | (rename_i k _; cases k <;> cases h; done)

/-! ### Traces -/

theorem Post.append {tr' : List (TEvent (Op α) (Out α))} {a1 a2 : Parts α} (h2 : Post a1 tr' a2) :
    ∀ {tr : List (TEvent (Op α) (Out α))} {a : Parts α}, Post a tr a1 → Post a (tr ++ tr') a2 := by
  intro tr
  induction tr with
  | nil => intro a h; cases h; exact h2
  | cons e tr ih =>
    intro a h
    cases e with
    | lin t op o => obtain ⟨a3, h3, h4⟩ := h; exact ⟨a3, h3, ih h4⟩
    | call t op => exact ih (a := a) h
    | ret t o => exact ih (a := a) h

/-- more elements between the two parts -/
def Parts.ins (a : Parts α) (y : List α) : Parts α := (a.1, a.2.1 ++ y, a.2.2)

theorem Post.ins {y : List α} : ∀ {tr : List (TEvent (Op α) (Out α))} {a a' : Parts α}, Post a tr a' →
    Post (a.ins y) tr (a'.ins y) := by
  intro tr
  induction tr with
  | nil => intro a a' h; cases h; rfl
  | cons e tr ih =>
    intro a a' h
    cases e with
    | lin t op o =>
      obtain ⟨a3, h3, h4⟩ := h
      refine ⟨a3.ins y, fun z => ?_, ih h4⟩
      have := h3 (y ++ z)
      simpa [Parts.ins] using this
    | call t op => exact ih (a := a) h
    | ret t o => exact ih (a := a) h

/-- the trace can be run with more elements and another status of a thread that does not occur in it -/
theorem Post.run {y : List α} {u : Nat} {x : Status (Op α) (Out α)} : ∀ {tr : List (TEvent (Op α) (Out α))} {a a' : Parts α}
    {st : Nat → Status (Op α) (Out α)} {q : List α × List α} {g : Ghost (List α × List α) (Op α) (Out α)}, Post a tr a' →
    TSteps (twoSpec α) ⟨q, st⟩ tr g → (∀ e ∈ tr, thread e ≠ u) →
    TSteps (twoSpec α) ⟨(a.ins y).all, upd st u x⟩ tr ⟨(a'.ins y).all, upd g.st u x⟩ := by
  intro tr
  induction tr with
  | nil => intro a a' st q g h h1 _; cases h; cases h1; rfl
  | cons e tr ih =>
    intro a a' st q g h ⟨g1, h1, h2⟩ hu
    have hu' := hu e List.mem_cons_self
    have hr := fun e he => hu e (List.mem_cons_of_mem _ he)
    have comm : ∀ {t : Nat} {z : Status (Op α) (Out α)}, t ≠ u → upd (upd st u x) t z = upd (upd st t z) u x := by
      intro t z htu
      funext w
      simp only [upd]
      split <;> split <;> simp_all
    cases h1 with
    | @call q st t op hid =>
      have hu' : t ≠ u := hu'
      refine ⟨_, TStep.call (by rw [upd_ne _ _ hu']; exact hid), ?_⟩
      rw [comm hu']
      exact ih (a := a) h h2 hr
    | @lin q st t op q' o hid hs =>
      have hu' : t ≠ u := hu'
      obtain ⟨a3, h3, h4⟩ := h
      refine ⟨_, TStep.lin (by rw [upd_ne _ _ hu']; exact hid) (q' := (a3.ins y).all) ?_, ?_⟩
      · have := h3 y
        simpa [Parts.ins, Parts.all, twoSpec] using this
      · rw [comm hu']
        exact ih h4 h2 hr
    | @ret q st t o hid =>
      have hu' : t ≠ u := hu'
      refine ⟨_, TStep.ret (by rw [upd_ne _ _ hu']; exact hid), ?_⟩
      rw [comm hu']
      exact ih (a := a) h h2 hr

/-- The relation between states and traces: since `pre`, the elements inserted by producers have stayed with them. -/
structure KParts (f b : Bool) (q0 : List α × List α) (s : State α) (pre post : List (TEvent (Op α) (Out α)))
    (gm g : Ghost (List α × List α) (Op α) (Out α)) (a0 : Parts α) : Prop where
  before : TSteps (twoSpec α) ⟨q0, fun _ => .idle⟩ pre gm
  since : TSteps (twoSpec α) gm post g
  rel : R true b s g
  flag : f = true → Flag s
  queue : gm.q = a0.all
  none : ∀ u i, region (s.loc u) = some i → a0.2.2 = []
  kept : Post a0 post s.split
  region : ∀ u i, region (s.loc u) = some i → gm.st u = .pending (.ins i) ∧ ∀ e ∈ post, thread e ≠ u
  obs : ∀ u, obs f (s.loc u) = false

def K (f b : Bool) (q0 : List α × List α) (s : State α) (tr : List (TEvent (Op α) (Out α))) : Prop :=
  ∃ pre post gm g a0, tr = pre ++ post ∧ KParts f b q0 s pre post gm g a0

theorem K.valid {q0 : List α × List α} {tr : List (TEvent (Op α) (Out α))} (k : K f b q0 s tr) :
    ∃ g, TSteps (twoSpec α) ⟨q0, fun _ => .idle⟩ tr g ∧ R true b s g := by
  obtain ⟨pre, post, gm, g, a0, rfl, k⟩ := k
  exact ⟨g, TSteps.append k.since k.before, k.rel⟩

/-- if nothing is with the producers, a new phase begins -/
theorem K.reset {q0 : List α × List α} {tr : List (TEvent (Op α) (Out α))} {g : Ghost (List α × List α) (Op α) (Out α)}
    (h : TSteps (twoSpec α) ⟨q0, fun _ => .idle⟩ tr g) (r : R true b s g) (hf : f = true → Flag s) (h0 : s.split.2.2 = []) (ho : ∀ u, obs f (s.loc u) = false) :
    K f b q0 s tr := by
  refine ⟨tr, [], g, g, s.split, by simp, h, rfl, r, hf, r.queue, fun _ _ _ => h0, rfl, ?_, ho⟩
  intro u i hu
  refine ⟨?_, by simp⟩
  rw [r.status u]; exact region_status hu

theorem pcas_split (r : Locks s) {u : Nat} {i : Ins α} (hu : s.loc u = .pCas i) (hp : s.push = []) : s.split.2.2 = [] := by
  simp only [State.split]
  have ho : ∀ lo, s.puller = some lo → holdsPush lo = false := by
    refine fun lo ho => r.other (.inr ⟨(r.push u).1 (by rw [hu]; rfl), ?_⟩) ho
    rw [Ne, ← r.pull u, hu]; simp [holdsPull]
  have : (split s.prio s.pull s.push s.puller).2.2 = s.push := by
    cases hq : s.puller with
    | none => rfl
    | some l =>
      have h := ho l hq
      cases l with
      | oCheck c k r => cases c <;> rfl
      | cPush => cases h
      | cPrio => cases h
      | _ => rfl
  rw [this, hp]

theorem K.call {q0 : List α × List α} {tr : List (TEvent (Op α) (Out α))} {op : Op α} (k : K f b q0 s tr)
    (hop : op ≠ .size ∧ (f = false → op ≠ .empty)) (h : s.call b t op = some s') : K f b q0 s' (tr ++ [.call t op]) := by
  obtain ⟨pre, post, gm, g, a0, rfl, k⟩ := k
  obtain ⟨hid, r', hs⟩ := k.rel.call h
  have h' := h
  obtain ⟨l, hst, hl, rfl, c⟩ := call_locks h'
  have hnew : Blocking.region l = none ∧ Blocking.obs f l = false := by
    rcases start_cases hst with ⟨i, rfl, rfl⟩ | ⟨i, rfl, rfl, _⟩ | ⟨k', rfl, rfl⟩ | ⟨x, rfl, rfl⟩ |
        ⟨rfl, rfl, _⟩ | ⟨rfl, rfl⟩ | ⟨rfl, rfl⟩ | ⟨rfl, rfl⟩
    case inr.inr.inl => cases k' <;> simp [Blocking.region, Blocking.obs, cls, Kind.cls]
    all_goals simp_all [Blocking.region, Blocking.obs, cls]
  have st : TSteps (twoSpec α) g [.call t op] ⟨g.q, upd g.st t (.pending op)⟩ := ⟨_, TStep.call hid, rfl⟩
  refine ⟨pre, post ++ [.call t op], gm, _, a0, by simp, k.before, TSteps.append st k.since, r', fun e => (k.flag e).call k.rel.locks h, k.queue, ?_, ?_, ?_, ?_⟩
  · intro u i hu
    by_cases e : u = t
    · subst e; simp only [State.goto, upd_same] at hu; rw [hnew.1] at hu; cases hu
    · simp only [State.goto, upd_ne _ _ e] at hu; exact k.none u i hu
  · rw [hs]; exact Post.append (tr' := [.call t op]) (a1 := s.split) rfl k.kept
  · intro u i hu
    by_cases e : u = t
    · subst e; simp only [State.goto, upd_same] at hu; rw [hnew.1] at hu; cases hu
    · simp only [State.goto, upd_ne _ _ e] at hu
      obtain ⟨h1, h2⟩ := k.region u i hu
      refine ⟨h1, ?_⟩
      intro ev hev
      rcases List.mem_append.1 hev with hev | hev
      · exact h2 ev hev
      · simp only [List.mem_singleton] at hev; subst hev; exact fun e' => e e'.symm
  · intro u
    by_cases e : u = t
    · subst e; simp only [State.goto, upd_same]; exact hnew.2
    · simp only [State.goto, upd_ne _ _ e]; exact k.obs u

theorem K.move {q0 : List α × List α} {tr : List (TEvent (Op α) (Out α))} {o : Option (Out α)} (k : K f b q0 s tr)
    (hok : ∀ v, o = some v → v ≠ .bool false ∧ v ≠ .peek none) (h : s.stepAt b t c (s.loc t) = some (s', o)) : ∃ tr', erase tr' = erase tr ++ retEvents t o ∧ K f b q0 s' tr' := by
  obtain ⟨pre, post, gm, g, a0, rfl, k⟩ := k
  have hloc := (stepAt_locks k.rel.locks rfl h).loc
  have hflag : f = true → Flag s' := fun e => (k.flag e).move k.rel h
  have hobs : ∀ u, Blocking.obs f (s'.loc u) = false := by
    intro u
    by_cases e : u = t
    · subst e; exact stepAt_obs h (k.obs u)
    · rw [hloc, upd_ne _ _ e]; exact k.obs u
  have old : s'.split.2.2 ≠ [] → ∀ u i, Blocking.region (s'.loc u) = some i → Blocking.region (s.loc u) = some i := by
    intro h0 u i hu
    by_cases e : u = t
    · subst e
      rcases (stepAt_region h).1 i hu with h1 | h1
      · exact h1
      · exfalso
        apply h0
        have hpu := k.rel.cas u i h1
        have h2 := pcas_split k.rel.locks h1 hpu
        -- the step does not touch the containers
        rw [h1] at h
        simp only [State.stepAt] at h
        have hs : ∀ l, holdsPull l = false → ({ s with flag := false }.goto u l).split = s.split ∧ (s.goto u l).split = s.split := by
          intro l hl
          have hp : (upd s.loc u l) <$> s.pullOwner = s.loc <$> s.pullOwner := by
            cases hq : s.pullOwner with
            | none => rfl
            | some w =>
              have : w ≠ u := by
                rintro rfl
                have := (k.rel.locks.pull w).2 hq
                rw [h1] at this; cases this
              simp [upd_ne _ _ this]
          constructor <;> exact congrArg (Blocking.split s.prio s.pull s.push) hp
        split at h <;> cases h
        · rw [(hs _ rfl).1]; exact h2
        · rw [(hs _ rfl).2]; exact h2
    · rw [hloc, upd_ne _ _ e] at hu; exact hu
  have main : Moves true b s g t s' o → ∃ tr', erase tr' = erase (pre ++ post) ++ retEvents t o ∧ K f b q0 s' tr' := by
    rintro ⟨tr1, g', st, her, hth, r', link, hpend⟩
    refine ⟨pre ++ post ++ tr1, by rw [erase_append, her], ?_⟩
    rcases link with h0 | hp | ⟨u, o', rfl⟩
    · exact K.reset (TSteps.append st (TSteps.append k.since k.before)) r' hflag h0 hobs
    · by_cases h0 : s'.split.2.2 = []
      · exact K.reset (TSteps.append st (TSteps.append k.since k.before)) r' hflag h0 hobs
      · refine ⟨pre, post ++ tr1, gm, g', a0, by simp, k.before, TSteps.append st k.since, r', hflag, k.queue, ?_,
          Post.append hp k.kept, ?_, hobs⟩
        · exact fun u i hu => k.none u i (old h0 u i hu)
        intro u i hu
        by_cases e : u = t
        · subst e
          obtain ⟨h2, h3⟩ := k.region u i (old h0 u i hu)
          refine ⟨h2, ?_⟩
          have : tr1 = [] := by
            by_cases e : tr1 = []
            · exact e
            · have := hpend e (.ins i)
              rw [r'.status u, region_status hu] at this; exact absurd rfl this
          subst this; simpa using h3
        · rw [hloc, upd_ne _ _ e] at hu
          obtain ⟨h2, h3⟩ := k.region u i hu
          refine ⟨h2, ?_⟩
          intro ev hev
          rcases List.mem_append.1 hev with hev | hev
          · exact h3 ev hev
          · rw [hth ev hev]; exact fun e' => e e'.symm
    · exfalso
      obtain ⟨g1, h1, _⟩ := st
      cases h1 with
      | @lin q st' _ _ q' _ hid hs =>
        have ht : u = t := hth (.lin u .size o') (by simp)
        subst ht
        have := k.rel.status u
        simp only at this
        have h3 := obs_status (f := f) (l := s.loc u) (w := true) (e := s.pull.isEmpty) (by rw [← this]; exact hid)
        rw [k.obs u] at h3; cases h3
  by_cases hside : Side true s (s.loc t)
  · exact main (k.rel.move h hside)
  · -- Q130 P129 with elements in pushElements
    have ho := k.obs t
    cases hl : s.loc t with
    | pPull i =>
      rw [hl] at h hside
      have hown := k.rel.locks.puller_eq hl rfl
      have hfa := k.rel.facts
      rw [hown] at hfa
      have hpull : s.pull = [] := hfa
      obtain ⟨q, st⟩ := g
      have hc := stepAt_locks k.rel.locks hl h
      have hS := h
      cases hi : i.throws with
      | true =>
        -- the call takes effect now, without changing anything
        cases i <;> first | (cases hi; done) | skip
        cases h
        exact main (k.rel.thrown hl hS (.xUnPull false) (upd_same _ _ _) _ _ hown rfl _ (fun _ => rfl) (fun _ => trivial))
      | false =>
      simp only [State.stepAt, hi, Bool.false_eq_true, if_false] at h
      cases h
      obtain ⟨h2, h3⟩ := k.region t i (by rw [hl]; rfl)
      have hsplit : s.split = (s.prio, [], s.push) := by
        simp only [State.split, hown]; simp [split, hpull]
      have hpn : ({ s with pull := s.pull ++ [i.val] }.goto t (Loc.pNotify false)).puller = some (.pNotify false) := by
        rw [k.rel.locks.step_puller hl hc]
        simp only [State.goto, upd_same]; rfl
      have hsplit' : ({ s with pull := s.pull ++ [i.val] }.goto t (Loc.pNotify false)).split = s.split.ins [i.val] := by
        simp only [State.split, hpn, hown]
        simp [split, State.goto, Parts.ins, hpull]
      have r' := k.rel.step (q' := (s.split.ins [i.val]).all) hl hS (by intro j hj; simp only [State.goto, upd_same] at hj; cases hj)
        (fun hb => ⟨(k.rel.noPrio hb).1, by simp only [State.goto, upd_same]; rfl⟩) (by rw [hpn]; simp [Facts, State.goto]) (by rw [hsplit'])
      have e1 : ({ s with pull := s.pull ++ [i.val] }.goto t (Loc.pNotify false)).loc t = .pNotify false := upd_same _ _ _
      rw [e1] at r'
      obtain ⟨qm, stm⟩ := gm
      have hqm : qm = a0.all := k.queue
      have lin : TSteps (twoSpec α) ⟨qm, stm⟩ [.lin t (.ins i) .unit] ⟨(a0.ins [i.val]).all, upd stm t (.done .unit)⟩ := by
        refine ⟨_, TStep.lin h2 ?_, rfl⟩
        rw [hqm]
        have tw := two_append a0 i hi
        simpa [twoSpec, Parts.all, Parts.ins, k.none t i (by rw [hl]; rfl)] using tw.1
      have since := Post.run (y := [i.val]) (u := t) (x := .done .unit) k.kept k.since h3
      refine ⟨pre ++ [.lin t (.ins i) .unit] ++ post, ?_, ?_⟩
      · simp [erase_append, erase, retEvents]
      · refine ⟨pre ++ [.lin t (.ins i) .unit], post, _, _, a0.ins [i.val], rfl, TSteps.append lin k.before, since, r', hflag, rfl, fun _ _ _ => k.none t i (by rw [hl]; rfl),
          ?_, ?_, hobs⟩
        · rw [hsplit']; exact k.kept.ins
        · intro u j hu
          by_cases e : u = t
          · subst e; rw [e1] at hu; cases hu
          · rw [hloc, upd_ne _ _ e] at hu
            simp only [upd_ne _ _ e]
            exact k.region u j hu
    | kTest d => rw [hl] at hside; exact absurd (fun h => by cases h) hside
    | sPush n => rw [hl] at ho; cases ho
    | eRead =>
      rw [hl] at hside
      refine absurd ⟨fun hf => ?_, fun h => by cases h⟩ hside
      cases f with
      | false => rw [hl] at ho; cases ho
      | true => rw [(k.flag rfl).contents hf]; rfl
    | ret v =>
      rw [hl] at h hside; cases h
      exact absurd (fun _ => (hok v rfl).1) hside
    | kNone d => rw [hl] at h; cases h; exact absurd rfl (hok _ rfl).2
    | _ => rw [hl] at hside; exact absurd trivial hside

/-- empty() has not returned false, try_peek has not returned nothing -/
def okRet (o : Out α) : Prop := o ≠ .bool false ∧ o ≠ .peek none

theorem traceSim (f b : Bool) (q0 : List α × List α) : TraceSim (sys b α) (fun _ op => op ≠ .size ∧ (f = false → op ≠ .empty)) okRet (K f b q0) where
  call k hop h := k.call hop h
  move k hok h := k.move hok h

theorem K.init : K true b ([], []) (State.init : State α) [] :=
  K.reset (g := (twoSpec α).ghost) rfl R.init (fun _ => Flag.init) rfl (fun _ => rfl)

end Verif.Blocking
