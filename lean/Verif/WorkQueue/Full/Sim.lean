import Verif.SimpleQueue.Sim
import Verif.WorkQueue.Lemmas
import Verif.WorkQueue.Spec
import Verif.WorkQueue.Full.Model

/-
Every execution of the work queue with the code of its queues has the history of an execution of the work queue with
queues that act in one step.
-/
namespace Verif.WorkQueue.Full
open Verif.Conc WorkQueue.State

abbrev G := Ghost (List (Option Blk) × Bool) (SimpleQueue.Op (Option Blk)) (SimpleQueue.Out (Option Blk))
abbrev St := Status (SimpleQueue.Op (Option Blk)) (SimpleQueue.Out (Option Blk))

/-- the step of a thread that calls a queue's member function, when the queues act in one step -/
theorem stepAt_queue {n t c : Nat} {l : Loc} {x : Que} {op : SimpleQueue.Op (Option Blk)} (h : queueOp l = some (x, op))
    (s : WorkQueue.State) :
    s.stepAt n t c l = some ((s.setQue x (SimpleQueue.actual (s.que x) op).1).goto t (next n t l (SimpleQueue.actual (s.que x) op).2), none) := by
  cases l <;> simp only [queueOp, reduceCtorEq, Option.some.injEq, Prod.mk.injEq] at h
  case aSize b p r => obtain ⟨rfl, rfl⟩ := h; cases p <;> rfl
  case aPush b p r k => obtain ⟨rfl, rfl⟩ := h; rfl
  case vPush b p => obtain ⟨rfl, rfl⟩ := h; rfl
  case cClear q => obtain ⟨rfl, rfl⟩ := h; cases q <;> rfl
  case iE q => obtain ⟨rfl, rfl⟩ := h; cases q <;> rfl
  case wE q => obtain ⟨rfl, rfl⟩ := h; cases q <;> rfl
  case nB q k => obtain ⟨rfl, rfl⟩ := h; cases q <;> rfl
  case gLowE => obtain ⟨rfl, rfl⟩ := h; rfl
  all_goals
    obtain ⟨rfl, rfl⟩ := h
    simp only [stepAt, front, SimpleQueue.actual, que]
    split <;> rename_i hh <;> rw [hh] <;> rfl

/-- where a thread is: at position `l` in the code, with status `st` in the queues, at `l'` when the queues act in one step -/
def At (n t : Nat) (l : Loc) (st : Que → St) (l' : Loc) : Prop :=
  match queueOp l with
  | none => (∀ x, st x = .idle) ∧ l' = l
  | some (x, op) => (∀ y, y ≠ x → st y = .idle) ∧
      ((st x = .idle ∧ l' = l) ∨ (st x = .pending op ∧ l' = l) ∨ ∃ o, st x = .done o ∧ l' = next n t l o)

theorem At.new {n t : Nat} {l : Loc} {st : Que → St} (h : ∀ x, st x = .idle) : At n t l st l := by
  unfold At; split
  · exact ⟨h, rfl⟩
  · exact ⟨fun y _ => h y, .inl ⟨h _, rfl⟩⟩

theorem At.local {n t : Nat} {l l' : Loc} {st : Que → St} (h : At n t l st l') (hl : queueOp l = none) :
    (∀ x, st x = .idle) ∧ l' = l := by
  unfold At at h; rw [hl] at h; exact h

/-- the members other than the queues and positions -/
def rest (s : WorkQueue.State) := (s.ratio, s.counter, s.halt, s.owner, s.joined, s.fin, s.runs)

/-- The relation, without the states of the queues. -/
structure Rel (n : Nat) (w : WorkQueue.State) (g : Que → G) (s : WorkQueue.State) : Prop where
  rest : rest s = rest w
  que : ∀ x, s.que x = (g x).q
  at_ : ∀ t, At n t (w.loc t) (fun x => (g x).st t) (s.loc t)

theorem Rel.fields {n : Nat} {w s : WorkQueue.State} {g : Que → G} (r : Rel n w g s) :
    s.ratio = w.ratio ∧ s.counter = w.counter ∧ s.halt = w.halt ∧ s.owner = w.owner ∧ s.joined = w.joined ∧ s.fin = w.fin ∧
    s.runs = w.runs := by
  have := r.rest
  simpa [Full.rest, Prod.mk.injEq] using this

/-- both go on at the same position after the same change of the members -/
theorem Rel.goto {n t : Nat} {w s w' s' : WorkQueue.State} {g : Que → G} (r : Rel n w g s) (hl : queueOp (w.loc t) = none)
    (h1 : Full.rest s' = Full.rest w') (h2 : ∀ x, s'.que x = s.que x) (h3 : w'.loc = w.loc) (h4 : s'.loc = s.loc) (l : Loc) :
    Rel n (w'.goto t l) g (s'.goto t l) := by
  refine ⟨h1, fun x => ?_, fun u => ?_⟩
  · rw [← r.que x, ← h2 x]; cases x <;> rfl
  · simp only [loc_goto, h3, h4]
    by_cases e : u = t
    · subst e; rw [upd_same, upd_same]; exact At.new ((r.at_ u).local hl).1
    · rw [upd_ne _ _ e, upd_ne _ _ e]; exact r.at_ u

/-- neither a result of a queue nor a call leads to waiting or to the end of a worker -/
theorem next_ne {n t : Nat} (l : Loc) (o : SimpleQueue.Out (Option Blk)) : next n t l o ≠ .wSleep ∧ next n t l o ≠ .exited := by
  unfold next gotLoc
  split <;> (try split) <;> simp

/-- the waiting workers and those that have exited are the same -/
theorem At.same {n t : Nat} {l l' m : Loc} {st : Que → St} (h : At n t l st l') (hm : m = .wSleep ∨ m = .exited) : l = m ↔ l' = m := by
  unfold At at h
  split at h
  · rw [h.2]
  · rename_i x op hq
    have h1 : l ≠ m := by rintro rfl; rcases hm with rfl | rfl <;> cases hq
    rcases h.2 with ⟨_, h⟩ | ⟨_, h⟩ | ⟨o, _, h⟩
    · rw [h]
    · rw [h]
    · have := next_ne (n := n) (t := t) l o
      rw [h]
      constructor
      · intro e; exact absurd e h1
      · intro e; rcases hm with rfl | rfl
        · exact absurd e this.1
        · exact absurd e this.2

theorem Rel.sleeping {n : Nat} {w s : WorkQueue.State} {g : Que → G} (r : Rel n w g s) : s.sleeping n = w.sleeping n := by
  unfold WorkQueue.State.sleeping
  congr 1
  funext k
  simp only [decide_eq_decide]
  exact ((r.at_ k).same (.inl rfl)).symm

theorem Rel.notifyOne {n c : Nat} {w s : WorkQueue.State} {g : Que → G} (r : Rel n w g s) :
    Rel n (w.notifyOne n c) g (s.notifyOne n c) := by
  unfold WorkQueue.State.notifyOne
  rw [r.sleeping]
  split
  · rename_i k hk
    have : k < n ∧ w.loc k = .wSleep := by
      have := List.mem_of_getElem? hk
      simpa [WorkQueue.State.sleeping] using this
    exact r.goto (by rw [this.2]; rfl) r.rest (fun _ => rfl) rfl rfl _
  · exact r

theorem Rel.notifyAll {n : Nat} {w s : WorkQueue.State} {g : Que → G} (r : Rel n w g s) : Rel n w.notifyAll g s.notifyAll := by
  refine ⟨r.rest, fun x => ?_, fun u => ?_⟩
  · rw [← r.que x]; cases x <;> rfl
  · simp only [WorkQueue.State.notifyAll]
    have := (r.at_ u).same (m := .wSleep) (.inl rfl)
    by_cases e : w.loc u = .wSleep
    · rw [if_pos e, if_pos (this.1 e)]
      have h := r.at_ u
      rw [e] at h
      exact At.new (h.local rfl).1
    · rw [if_neg e, if_neg (fun h => e (this.2 h))]
      exact r.at_ u

/-- a step outside the queues -/
theorem Rel.local {n t c : Nat} {w s w' : WorkQueue.State} {g : Que → G} {o : Option Out} (r : Rel n w g s) (hl : queueOp (w.loc t) = none)
    (h : w.stepAt n t c (w.loc t) = some (w', o)) : ∃ s', s.stepAt n t c (s.loc t) = some (s', o) ∧ Rel n w' g s' := by
  obtain ⟨f1, f2, f3, f4, f5, f6, f7⟩ := r.fields
  have hls := ((r.at_ t).local hl).2
  rw [hls]
  have go : ∀ {w' s' : WorkQueue.State} (l : Loc), Full.rest s' = Full.rest w' → (∀ x, s'.que x = s.que x) → w'.loc = w.loc → s'.loc = s.loc →
      Rel n (w'.goto t l) g (s'.goto t l) := fun l h1 h2 h3 h4 => r.goto hl h1 h2 h3 h4 l
  have go0 : ∀ l, Rel n (w.goto t l) g (s.goto t l) := fun l => go l r.rest (fun _ => rfl) rfl rfl
  have lk : ∀ {l : Loc} {w' : WorkQueue.State} {o : Option Out}, w.lock t l = some (w', o) → ∃ s', s.lock t l = some (s', o) ∧ Rel n w' g s' := by
    intro l w' o h
    unfold WorkQueue.State.lock at h ⊢
    split at h
    · rename_i ho
      cases h
      rw [f4, ho]
      refine ⟨_, rfl, go l ?_ (fun x => by cases x <;> rfl) rfl rfl⟩
      simp [Full.rest, f1, f2, f3, f5, f6, f7]
    · cases h
  have bk : ∀ rr, Rel n (w.back t rr) g (s.back t rr) := by
    intro rr; cases rr <;> exact go0 _
  have un : ∀ l, Rel n (w.unlock t l) g (s.unlock t l) := by
    intro l
    refine go l ?_ (fun x => by cases x <;> rfl) rfl rfl
    simp [Full.rest, f1, f2, f3, f5, f6, f7]
  generalize hw : w.loc t = l at h hl
  cases l with
  | idle => cases h
  | crash => cases h
  | exited => cases h
  | aCheck b p rr =>
    cases b with
    | none => cases h; exact ⟨_, rfl, bk rr⟩
    | some b =>
      simp only [stepAt, show s.isFinished b = w.isFinished b by cases b <;> simp [isFinished, f6]] at h ⊢
      split at h
      · rename_i hc; cases h; rw [if_pos hc]; exact ⟨_, rfl, bk rr⟩
      · rename_i hc
        rw [if_neg hc]
        split at h
        · rename_i hn; cases h; rw [if_pos hn]; exact ⟨_, rfl, go0 _⟩
        · rename_i hn
          rw [if_neg hn]
          cases b with
          | dummy => cases h; exact ⟨_, rfl, bk rr⟩
          | task i => cases h; exact ⟨_, rfl, go0 _⟩
  | aNotify rr k =>
    cases h
    have hq : queueOp (w.loc t) = none := by rw [hw]; rfl
    have r' : Rel n (if wrap k ≤ n then WorkQueue.State.notifyOne n c w else w) g (if wrap k ≤ n then WorkQueue.State.notifyOne n c s else s) := by
      split
      · exact r.notifyOne
      · exact r
    have hq' : queueOp ((if wrap k ≤ n then WorkQueue.State.notifyOne n c w else w).loc t) = none := by
      split
      · rcases (notifyOne_woken n c w).1 t with e | ⟨e, _⟩
        · rw [e]; exact hq
        · rw [hw] at e; cases e
      · exact hq
    refine ⟨_, rfl, ?_⟩
    cases rr <;> exact r'.goto hq' r'.rest (fun _ => rfl) rfl rfl _
  | vNotify =>
    cases h
    have hq' : queueOp ((WorkQueue.State.notifyAll w).loc t) = none := by
      simp only [WorkQueue.State.notifyAll, hw]; rfl
    exact ⟨_, rfl, r.notifyAll.goto hq' r.notifyAll.rest (fun _ => rfl) rfl rfl _⟩
  | cNotify1 =>
    cases h
    have hq' : queueOp ((WorkQueue.State.notifyAll w).loc t) = none := by
      simp only [WorkQueue.State.notifyAll, hw]; rfl
    exact ⟨_, rfl, r.notifyAll.goto hq' r.notifyAll.rest (fun _ => rfl) rfl rfl _⟩
  | cNotify2 =>
    cases h
    have hq' : queueOp ((WorkQueue.State.notifyAll w).loc t) = none := by
      simp only [WorkQueue.State.notifyAll, hw]; rfl
    exact ⟨_, rfl, r.notifyAll.goto hq' r.notifyAll.rest (fun _ => rfl) rfl rfl _⟩
  | vExec bs =>
    match bs with
    | [] => cases h; exact ⟨_, rfl, go0 _⟩
    | none :: _ => cases h; exact ⟨_, rfl, go0 _⟩
    | some .dummy :: _ => cases h; exact ⟨_, rfl, go0 _⟩
    | some (.task i) :: _ => cases h; exact ⟨_, rfl, go0 _⟩
  | cLock => exact lk h
  | wLock => exact lk h
  | wRelock => exact lk h
  | cUnlock => cases h; exact ⟨_, rfl, un _⟩
  | cOut => cases h; exact ⟨_, rfl, un _⟩
  | wEnter => cases h; exact ⟨_, rfl, un _⟩
  | wUnlock => cases h; exact ⟨_, rfl, un _⟩
  | wOut => cases h; exact ⟨_, rfl, un _⟩
  | dTest => cases h; rw [← f3]; exact ⟨_, rfl, go0 _⟩
  | cTest => cases h; rw [← f3]; exact ⟨_, rfl, go0 _⟩
  | wHalt => cases h; rw [← f3]; exact ⟨_, rfl, go0 _⟩
  | wHalt2 => cases h; rw [← f3]; exact ⟨_, rfl, go0 _⟩
  | count => cases h; rw [← f3]; exact ⟨_, rfl, go0 _⟩
  | pFin i => cases h; rw [← f6]; exact ⟨_, rfl, go0 _⟩
  | cHalt =>
    cases h
    refine ⟨_, rfl, go _ ?_ (fun x => by cases x <;> rfl) rfl rfl⟩
    simp [Full.rest, f1, f2, f4, f5, f6, f7]
  | cLoop k => cases k <;> (cases h; exact ⟨_, rfl, go0 _⟩)
  | cJoin k locked =>
    simp only [stepAt] at h ⊢
    split at h
    · rename_i hk; cases h; rw [if_pos hk]; exact ⟨_, rfl, go0 _⟩
    · rename_i hk
      rw [if_neg hk]
      split at h
      · rename_i hj; cases h; rw [if_pos (by rw [f5]; exact hj)]; exact ⟨_, rfl, go0 _⟩
      · rename_i hj
        rw [if_neg (by rw [f5]; exact hj)]
        split at h
        · rename_i he
          cases h
          rw [if_pos (((r.at_ k).same (.inr rfl)).1 he)]
          refine ⟨_, rfl, go _ ?_ (fun x => by cases x <;> rfl) rfl rfl⟩
          simp [Full.rest, f1, f2, f3, f4, f5, f6, f7]
        · cases h
  | setR v =>
    cases h
    refine ⟨_, rfl, go _ ?_ (fun x => by cases x <;> rfl) rfl rfl⟩
    simp [Full.rest, f2, f3, f4, f5, f6, f7]
  | gCnt => cases h; rw [← f2]; exact ⟨_, rfl, go0 _⟩
  | gRat k => cases h; rw [← f1]; exact ⟨_, rfl, go0 _⟩
  | gReset b =>
    cases h
    refine ⟨_, rfl, go _ ?_ (fun x => by cases x <;> rfl) rfl rfl⟩
    simp [Full.rest, f1, f3, f4, f5, f6, f7]
  | gInc b =>
    cases h
    refine ⟨_, rfl, go _ ?_ (fun x => by cases x <;> rfl) rfl rfl⟩
    simp [Full.rest, f1, f2, f3, f4, f5, f6, f7]
  | wSleep => cases h; exact ⟨_, rfl, go0 _⟩
  | wChk b =>
    match b with
    | none => cases h; exact ⟨_, rfl, go0 _⟩
    | some .dummy => cases h; exact ⟨_, rfl, go0 _⟩
    | some (.task i) => cases h; rw [← f6]; exact ⟨_, rfl, go0 _⟩
  | eTest i bs =>
    simp only [stepAt] at h ⊢
    rw [f6]
    split at h
    · rename_i hf; cases h; rw [if_pos hf]; exact ⟨_, rfl, go0 _⟩
    · rename_i hf; cases h; rw [if_neg hf]; exact ⟨_, rfl, go0 _⟩
  | eRun i bs =>
    cases h
    refine ⟨_, rfl, go _ ?_ (fun x => by cases x <;> rfl) rfl rfl⟩
    simp [Full.rest, f1, f2, f3, f4, f5, f6, f7]
  | eDone i bs =>
    cases h
    refine ⟨_, rfl, go _ ?_ (fun x => by cases x <;> rfl) rfl rfl⟩
    simp [Full.rest, f1, f2, f3, f4, f5, f6, f7]
  | ret o' => cases h; exact ⟨_, rfl, go0 _⟩
  | _ => cases hl

/-- the call of a member function begins -/
theorem Rel.begin {n t : Nat} {w s : WorkQueue.State} {g : Que → G} {x : Que} {op : SimpleQueue.Op (Option Blk)} (r : Rel n w g s)
    (hl : queueOp (w.loc t) = some (x, op)) (hi : (g x).st t = .idle) :
    Rel n w (setQ g x ⟨(g x).q, upd (g x).st t (.pending op)⟩) s := by
  refine ⟨r.rest, fun y => ?_, fun u => ?_⟩
  · rw [r.que y]; unfold setQ; split
    · rename_i e; subst e; rfl
    · rfl
  · have h := r.at_ u
    by_cases e : u = t
    · subst e
      unfold At at h ⊢
      rw [hl] at h ⊢
      simp only at h ⊢
      refine ⟨fun y hy => ?_, ?_⟩
      · simp only [setQ, if_neg hy]; exact h.1 y hy
      · rw [hi] at h
        rcases h.2 with ⟨_, h⟩ | ⟨h, _⟩ | ⟨o, h, _⟩
        · exact .inr (.inl ⟨by simp [setQ, upd_same], h⟩)
        · cases h
        · cases h
    · have : (fun y => (setQ g x ⟨(g x).q, upd (g x).st t (.pending op)⟩ y).st u) = fun y => (g y).st u := by
        funext y
        unfold setQ; split
        · rename_i e'; subst e'; simp only [upd_ne _ _ e]
        · rfl
      rw [this]; exact h

/-- a call takes effect: a step of the work queue whose queues act in one step -/
theorem Rel.lin {n t : Nat} {w s : WorkQueue.State} {g : Que → G} {x : Que} {op : SimpleQueue.Op (Option Blk)}
    {o : SimpleQueue.Out (Option Blk)} {g' : G} (r : Rel n w g s) (h : TStep (SimpleQueue.actualSpec _) (g x) (.lin t op o) g') (c : Nat) :
    ∃ s', (WorkQueue.sys n).move t c s = some (s', none) ∧ Rel n w (setQ g x g') s' := by
  generalize hg : g x = gx at h
  cases h with
  | @lin q st _ _ q' _ hst hs =>
    simp only [SimpleQueue.actualSpec, Option.some.injEq] at hs
    have ht := r.at_ t
    have hst' : (g x).st t = .pending op := by rw [hg]; exact hst
    have hqx : (g x).q = q := by rw [hg]
    have : queueOp (w.loc t) = some (x, op) ∧ s.loc t = w.loc t := by
      unfold At at ht
      split at ht
      · cases hst'.symm.trans (ht.1 x)
      · rename_i y op' hq
        by_cases e : x = y
        · subst e
          rcases ht.2 with ⟨h, _⟩ | ⟨h, h'⟩ | ⟨o, h, _⟩
          · cases hst'.symm.trans h
          · cases hst'.symm.trans h; exact ⟨hq, h'⟩
          · cases hst'.symm.trans h
        · cases hst'.symm.trans (ht.1 x e)
    obtain ⟨hq, hl⟩ := this
    have hqs : s.que x = q := by rw [r.que x, hqx]
    refine ⟨_, (by show s.stepAt n t c (s.loc t) = _; rw [hl]; exact stepAt_queue hq s), ?_⟩
    rw [hqs, hs]
    refine ⟨?_, fun y => ?_, fun u => ?_⟩
    · rw [← r.rest]; cases x <;> rfl
    · have := r.que y
      unfold setQ
      by_cases e : y = x
      · subst e; rw [if_pos rfl]; cases y <;> rfl
      · rw [if_neg e, ← this]; cases y <;> cases x <;> first | rfl | exact absurd rfl e
    · have h := r.at_ u
      have hloc : ((s.setQue x q').goto t (next n t (w.loc t) o)).loc = upd s.loc t (next n t (w.loc t) o) := by cases x <;> rfl
      rw [hloc]
      by_cases e : u = t
      · subst e
        rw [upd_same]
        unfold At at h ⊢
        rw [hq] at h ⊢
        refine ⟨fun y hy => ?_, .inr (.inr ⟨o, ?_, rfl⟩)⟩
        · simp only [setQ, if_neg hy]; exact h.1 y hy
        · simp [setQ, upd_same]
      · have : (fun y => (setQ g x ⟨q', upd st t (.done o)⟩ y).st u) = fun y => (g y).st u := by
          funext y
          unfold setQ; split
          · rename_i e'; subst e'; rw [hg]; simp only [upd_ne _ _ e]
          · rfl
        rw [this, upd_ne _ _ e]; exact h

/-- a call returns -/
theorem Rel.ret {n t : Nat} {w s : WorkQueue.State} {g : Que → G} {x : Que} {o : SimpleQueue.Out (Option Blk)} {g' : G} (r : Rel n w g s)
    (h : TStep (SimpleQueue.actualSpec _) (g x) (.ret t o) g') : Rel n (w.goto t (next n t (w.loc t) o)) (setQ g x g') s := by
  generalize hg : g x = gx at h
  cases h with
  | @ret q st _ _ hst =>
    have ht := r.at_ t
    have hst' : (g x).st t = .done o := by rw [hg]; exact hst
    refine ⟨r.rest, fun y => ?_, fun u => ?_⟩
    · rw [r.que y]; unfold setQ; split
      · rename_i e; subst e; rw [hg]
      · rfl
    · have h := r.at_ u
      rw [loc_goto]
      by_cases e : u = t
      · subst e
        rw [upd_same]
        unfold At at h
        split at h
        · cases hst'.symm.trans (h.1 x)
        · rename_i y op' hq
          by_cases e : x = y
          · subst e
            have hid : ∀ z, (setQ g x ⟨q, upd st u .idle⟩ z).st u = .idle := by
              intro z
              unfold setQ; split
              · simp [upd_same]
              · rename_i hz; exact h.1 z hz
            rcases h.2 with ⟨h, _⟩ | ⟨h, h'⟩ | ⟨o', h, h'⟩
            · cases hst'.symm.trans h
            · cases hst'.symm.trans h
            · cases hst'.symm.trans h; rw [h']; exact At.new hid
          · cases hst'.symm.trans (h.1 x e)
      · have : (fun y => (setQ g x ⟨q, upd st t .idle⟩ y).st u) = fun y => (g y).st u := by
          funext y
          unfold setQ; split
          · rename_i e'; subst e'; rw [hg]; simp only [upd_ne _ _ e]
          · rfl
        rw [this, upd_ne _ _ e]; exact h

theorem setQ_setQ {A : Type} (q : Que → A) (x : Que) (a b : A) : setQ (setQ q x a) x b = setQ q x b := by
  funext y; unfold setQ; split <;> rfl
theorem setQ_same {A : Type} (q : Que → A) (x : Que) (a : A) : setQ q x a x = a := if_pos rfl
theorem setQ_self {A : Type} (q : Que → A) (x : Que) : setQ q x (q x) = q := by
  funext y; unfold setQ; split
  · rename_i e; rw [e]
  · rfl

end Verif.WorkQueue.Full
