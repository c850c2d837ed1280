import Verif.WorkQueue.Throw.Spec
import Verif.WorkQueue.Close

/-
Executions in which allocations fail are executions without failures.
-/
namespace Verif.WorkQueue.Throw
open Verif.Conc WorkQueue.State

variable {S : Type} {n t c : Nat} {q q' : WorkQueue.State} {o : Option Out} {l : Loc}

/-- a client is in addWorkBlock and has not added anything yet -/
def adding : Loc → Bool
  | .aCheck _ _ .client | .aSize _ _ .client | .aPush _ _ .client _ | .vPush _ _ => true
  | _ => false

theorem step_adding (h : stepAt n q t c l = some (q', o)) (hl : adding l = true) :
    adding (q'.loc t) = false ∨ ∃ l', q' = q.goto t l' ∧ o = none ∧ adding l' = true := by
  have back : ∀ {s1 : WorkQueue.State}, adding ((s1.back t .client).loc t) = false := by
    intro s1; simp [State.back, loc_goto, upd_same, adding]
  cases l with
  | aCheck b p r =>
    cases r with
    | close k => cases hl
    | client =>
      cases b with
      | none => obtain ⟨rfl, rfl⟩ := Prod.mk.inj (Option.some.inj h); exact .inl back
      | some b =>
        simp only [stepAt] at h
        split at h
        · obtain ⟨rfl, rfl⟩ := Prod.mk.inj (Option.some.inj h); exact .inl back
        · split at h
          · obtain ⟨rfl, rfl⟩ := Prod.mk.inj (Option.some.inj h); exact .inr ⟨_, rfl, rfl, rfl⟩
          · split at h
            · obtain ⟨rfl, rfl⟩ := Prod.mk.inj (Option.some.inj h); exact .inl back
            · obtain ⟨rfl, rfl⟩ := Prod.mk.inj (Option.some.inj h)
              rw [loc_goto, upd_same]; exact .inl rfl
  | aSize b p r =>
    cases r with
    | close k => cases hl
    | client => obtain ⟨rfl, rfl⟩ := Prod.mk.inj (Option.some.inj h); exact .inr ⟨_, rfl, rfl, rfl⟩
  | aPush b p r m =>
    cases r with
    | close k => cases hl
    | client =>
      obtain ⟨rfl, rfl⟩ := Prod.mk.inj (Option.some.inj h)
      rw [loc_goto, upd_same]; exact .inl rfl
  | vPush bs p =>
    obtain ⟨rfl, rfl⟩ := Prod.mk.inj (Option.some.inj h)
    rw [loc_goto, upd_same]; exact .inl rfl
  | _ => cases hl

/-- not adding, not closing, not between calls -/
def past (l : Loc) : Prop := l ≠ .idle ∧ adding l = false ∧ closing l = false

theorem step_not_adding (h : stepAt n q t c l = some (q', o)) (hl : adding l = false) : adding (q'.loc t) = false := by
  have back : ∀ {s1 : WorkQueue.State} {r}, adding ((s1.back t r).loc t) = false := by
    intro s1 r; cases r <;> simp [State.back, loc_goto, upd_same, adding]
  unfold stepAt at h
  split at h
  all_goals try (split at h)
  all_goals try (split at h)
  all_goals try (split at h)
  all_goals try (simp only [State.lock] at h; split at h)
  all_goals (first | (cases h; done) | skip)
  all_goals obtain ⟨rfl, rfl⟩ := Prod.mk.inj (Option.some.inj h)
  all_goals (try (exact back))
  all_goals (try simp only [got, executed, unlock, loc_goto, upd_same])
  all_goals (try split)
  all_goals (try rfl)
  · rename_i r _ _; cases r <;> first | rfl | cases hl
  · rename_i r; cases r <;> first | rfl | cases hl

theorem past_step (h : stepAt n q t c l = some (q', none)) (hl : past l) : past (q'.loc t) :=
  ⟨(step_ret h).2 rfl, step_not_adding h hl.2.1, step_closing h hl.2.2⟩

theorem past_fails (hl : past l) : addAllocates l = false ∧ closeAllocates l = false := by
  obtain ⟨h1, h2, h3⟩ := hl
  cases l with
  | aPush b p r m => cases r <;> simp_all [adding, closing, addAllocates, closeAllocates, Ret.isClose]
  | cClear x => cases h3
  | vPush bs p => cases h2
  | _ => exact ⟨rfl, rfl⟩

/-! ### Steps -/

variable {s s' : State} {r : Option Res}

theorem move_cases (h : (sys n).move t c s = some (s', r)) : s.dead = false ∧ s.failed t = false ∧
    ((addAllocates (s.q.loc t) = true ∧ s' = { s with q := s.q.goto t .idle } ∧ r = some .threw) ∨
     (closeAllocates (s.q.loc t) = true ∧ s.dtor t = true ∧ s' = { s with dead := true } ∧ r = none) ∨
     (closeAllocates (s.q.loc t) = true ∧ s.dtor t = false ∧ s' = { s with failed := upd s.failed t true } ∧ r = some .threw) ∨
     (∃ d q', s.q.stepAt n t d (s.q.loc t) = some (q', none) ∧ s' = { s with q := q' } ∧ r = none) ∨
     (∃ d q' o, s.q.stepAt n t d (s.q.loc t) = some (q', some o) ∧ s.abandons n t = true ∧ s' = { s with dead := true } ∧ r = none) ∨
     (∃ d q' o, s.q.stepAt n t d (s.q.loc t) = some (q', some o) ∧ s.abandons n t = false ∧
       s' = { s with q := q', dtor := upd s.dtor t false } ∧ r = some (.ret o))) := by
  simp only [sys] at h
  split at h
  · cases h
  · rename_i hd
    simp only [Bool.or_eq_true, not_or, Bool.not_eq_true] at hd
    refine ⟨hd.1, hd.2, ?_⟩
    cases c with
    | zero =>
      simp only [State.fail] at h
      split at h
      · rename_i h1; cases h; exact .inl ⟨h1, rfl, rfl⟩
      · split at h
        · rename_i h1
          split at h
          · rename_i h2; cases h; exact .inr (.inl ⟨h1, h2, rfl, rfl⟩)
          · rename_i h2; cases h; exact .inr (.inr (.inl ⟨h1, by simpa using h2, rfl, rfl⟩))
        · cases h
    | succ d =>
      simp only [State.step] at h
      split at h
      · cases h
      · rename_i q' e; cases h; exact .inr (.inr (.inr (.inl ⟨d, q', e, rfl, rfl⟩)))
      · rename_i q' o e
        split at h
        · rename_i h2; cases h; exact .inr (.inr (.inr (.inr (.inl ⟨d, q', o, e, h2, rfl, rfl⟩))))
        · rename_i h2; cases h; exact .inr (.inr (.inr (.inr (.inr ⟨d, q', o, e, by simpa using h2, rfl, rfl⟩))))

theorem call_cases {op : Op} (h : (sys n).call t op s = some s') : s.dead = false ∧ s.failed t = false ∧ s.q.loc t = .idle ∧
    s' = { s with q := s.q.goto t (start n op), dtor := upd s.dtor t (op = .destroy) } := by
  simp only [sys] at h
  split at h
  · cases h
  · rename_i hd
    simp only [Bool.or_eq_true, not_or, Bool.not_eq_true] at hd
    simp only [Option.map_eq_some_iff] at h
    obtain ⟨q, h1, h2⟩ := h
    obtain ⟨h3, rfl⟩ := call_eq h1
    exact ⟨hd.1, hd.2, h3, h2.symm⟩

/-- one step of an execution -/
theorem run_cons {a : Act Op} {as : List (Act Op)} {h : List (Event Op Res)} (e : (sys n).run s (a :: as) = some (s', h)) :
    (∃ t op s1 h2, a = .call t op ∧ (sys n).call t op s = some s1 ∧ (sys n).run s1 as = some (s', h2) ∧ h = .call t op :: h2) ∨
    (∃ t c s1 r h2, a = .move t c ∧ (sys n).move t c s = some (s1, r) ∧ (sys n).run s1 as = some (s', h2) ∧ h = retEvents t r ++ h2) := by
  simp only [Sys.run, Option.bind_eq_some_iff, Option.map_eq_some_iff] at e
  obtain ⟨⟨s1, h1⟩, e1, ⟨s2, h2⟩, e2, e3⟩ := e
  cases e3
  cases a with
  | call t op =>
    simp only [Sys.exec, Option.map_eq_some_iff] at e1
    obtain ⟨s3, e1, e3⟩ := e1
    cases e3
    exact .inl ⟨t, op, _, _, rfl, e1, e2, rfl⟩
  | move t c =>
    simp only [Sys.exec, Option.map_eq_some_iff] at e1
    obtain ⟨⟨s3, o⟩, e1, e3⟩ := e1
    cases e3
    exact .inr ⟨t, c, _, o, _, rfl, e1, e2, by cases o <;> rfl⟩

theorem run_call {A B : Type} {M : Sys S A B} {s s1 s2 : S} {t : Nat} {op : A} {as : List (Act A)} {h : List (Event A B)}
    (h1 : M.call t op s = some s1) (h2 : M.run s1 as = some (s2, h)) : M.run s (.call t op :: as) = some (s2, .call t op :: h) := by
  simp only [Sys.run, Sys.exec, h1, h2, Option.map_some, Option.bind_some]; rfl

theorem run_move {A B : Type} {M : Sys S A B} {s s1 s2 : S} {t c : Nat} {o : Option B} {as : List (Act A)} {h : List (Event A B)}
    (h1 : M.move t c s = some (s1, o)) (h2 : M.run s1 as = some (s2, h)) : M.run s (.move t c :: as) = some (s2, retEvents t o ++ h) := by
  simp only [Sys.run, Sys.exec, h1, h2, Option.map_some, Option.bind_some]; cases o <;> rfl

theorem ends_retEvents {u : Nat} (hu : u ≠ t) (r : Option Res) (h : List (Event Op Res)) : ends u (retEvents t r ++ h) = ends u h := by
  cases r with
  | none => rfl
  | some o => simp only [retEvents, List.cons_append, List.nil_append, ends]; rw [if_neg (Ne.symm hu)]

/-- a call that is past the allocations does not throw -/
theorem past_run (as : List (Act Op)) : ∀ {s s' : State} {h : List (Event Op Res)}, (sys n).run s as = some (s', h) → past (s.q.loc t) →
    ends t h ≠ some .threw := by
  induction as with
  | nil => intro s s' h e _; cases e; simp [ends]
  | cons a as ih =>
    intro s s' h e hp
    rcases run_cons e with ⟨u, op, s1, h2, rfl, e1, e2, rfl⟩ | ⟨u, c, s1, r, h2, rfl, e1, e2, rfl⟩
    · obtain ⟨_, _, h3, rfl⟩ := call_cases e1
      have hne : t ≠ u := by rintro rfl; exact hp.1 h3
      show ends t h2 ≠ some .threw
      refine ih e2 ?_
      show past (upd s.q.loc u _ t)
      rw [upd_ne _ _ hne]; exact hp
    · obtain ⟨_, _, hc⟩ := move_cases e1
      by_cases htu : t = u
      · subst htu
        obtain ⟨h4, h5⟩ := past_fails hp
        rcases hc with ⟨h6, _⟩ | ⟨h6, _⟩ | ⟨h6, _⟩ | ⟨d, q', h6, rfl, rfl⟩ | ⟨d, q', o, h6, h7, rfl, rfl⟩ | ⟨d, q', o, h6, h7, rfl, rfl⟩
        · rw [h4] at h6; cases h6
        · rw [h5] at h6; cases h6
        · rw [h5] at h6; cases h6
        · exact ih e2 (past_step h6 hp)
        · exact ih e2 hp
        · simp only [retEvents, List.cons_append, List.nil_append, ends, if_true]; simp
      · rw [ends_retEvents htu]
        refine ih e2 ?_
        rcases hc with ⟨_, rfl, _⟩ | ⟨_, _, rfl, _⟩ | ⟨_, _, rfl, _⟩ | ⟨d, q', h6, rfl, rfl⟩ | ⟨d, q', o, h6, h7, rfl, rfl⟩ | ⟨d, q', o, h6, h7, rfl, rfl⟩
        · show past (upd s.q.loc u _ t)
          rw [upd_ne _ _ htu]; exact hp
        · exact hp
        · exact hp
        · obtain ⟨a, l', h8, w⟩ := step_loc h6
          simp only [h8]; rw [upd_ne _ _ htu]
          rcases w.all t with h9 | ⟨_, h9⟩
          · rw [h9]; exact hp
          · rw [h9]; exact ⟨by simp, rfl, rfl⟩
        · exact hp
        · obtain ⟨a, l', h8, w⟩ := step_loc h6
          simp only [h8]; rw [upd_ne _ _ htu]
          rcases w.all t with h9 | ⟨_, h9⟩
          · rw [h9]; exact hp
          · rw [h9]; exact ⟨by simp, rfl, rfl⟩

/-! ### Leaving out threads -/

/-- the queue as if some threads were between calls -/
def mask (D : Nat → Bool) (q : WorkQueue.State) : WorkQueue.State := { q with loc := fun u => bif D u then .idle else q.loc u }

variable {D : Nat → Bool}

theorem mask_goto (ht : D t = false) (q : WorkQueue.State) (l : Loc) : mask D (q.goto t l) = (mask D q).goto t l := by
  simp only [mask, goto, WorkQueue.State.mk.injEq, true_and]
  funext u
  simp only [upd]
  by_cases e : u = t
  · subst e; simp [ht]
  · simp [e]

theorem mask_setQue (q : WorkQueue.State) (x : Que) (v) : mask D (q.setQue x v) = (mask D q).setQue x v := by cases x <;> rfl
theorem mask_que (q : WorkQueue.State) (x : Que) : (mask D q).que x = q.que x := by cases x <;> rfl
theorem mask_push (q : WorkQueue.State) (x : Que) (b) : mask D (q.push x b) = (mask D q).push x b := by
  simp only [push, mask_setQue, mask_que]
theorem mask_pushVector (q : WorkQueue.State) (x : Que) (b) : mask D (q.pushVector x b) = (mask D q).pushVector x b := by
  simp only [pushVector, mask_setQue, mask_que]
theorem mask_popped (q : WorkQueue.State) (x : Que) : mask D (q.popped x) = (mask D q).popped x := by
  simp only [popped, mask_setQue, mask_que]
theorem mask_clear (q : WorkQueue.State) (x : Que) : mask D (q.clear x) = (mask D q).clear x := by
  simp only [clear, mask_setQue, mask_que]
theorem mask_front (q : WorkQueue.State) (x : Que) : (mask D q).front x = q.front x := by simp only [front, mask_que]
theorem mask_isEmpty (q : WorkQueue.State) (x : Que) : (mask D q).isEmpty x = q.isEmpty x := by simp only [State.isEmpty, mask_que]
theorem mask_size (q : WorkQueue.State) (x : Que) : (mask D q).size x = q.size x := by simp only [size, mask_que]
theorem mask_isFinished (q : WorkQueue.State) (b : Blk) : (mask D q).isFinished b = q.isFinished b := by cases b <;> rfl
theorem mask_back (ht : D t = false) (q : WorkQueue.State) (r : Ret) : mask D (q.back t r) = (mask D q).back t r := by
  cases r <;> exact mask_goto ht _ _
theorem mask_got (ht : D t = false) (q : WorkQueue.State) (b) : mask D (got n q t b) = got n (mask D q) t b := mask_goto ht _ _
theorem mask_executed (ht : D t = false) (q : WorkQueue.State) (b) : mask D (executed n q t b) = executed n (mask D q) t b :=
  mask_goto ht _ _
theorem mask_unlock (ht : D t = false) (q : WorkQueue.State) (l) : mask D (q.unlock t l) = (mask D q).unlock t l :=
  mask_goto ht _ _

theorem mask_sleeping (hd : ∀ u, D u = true → q.loc u ≠ .wSleep) : sleeping n (mask D q) = sleeping n q := by
  simp only [sleeping]
  refine List.filter_congr fun u _ => ?_
  simp only [mask]
  by_cases hD : D u = true
  · simp [hD, hd u hD]
  · simp [hD]

theorem mask_notifyOne (hd : ∀ u, D u = true → q.loc u ≠ .wSleep) : mask D (notifyOne n c q) = notifyOne n c (mask D q) := by
  unfold notifyOne
  rw [mask_sleeping hd]
  split
  · rename_i k hk
    have := List.mem_of_getElem? hk
    simp only [sleeping, List.mem_filter, List.mem_range, decide_eq_true_eq] at this
    refine mask_goto ?_ _ _
    cases hD : D k with
    | false => rfl
    | true => exact absurd this.2 (hd k hD)
  · rfl

theorem mask_notifyAll (q : WorkQueue.State) : mask D q.notifyAll = (mask D q).notifyAll := by
  simp only [mask, notifyAll, WorkQueue.State.mk.injEq, true_and]
  funext u
  by_cases hD : D u = true
  · simp [hD]
  · simp [hD]

/-- other threads do not notice that some are left out, provided these are not workers waiting or gone -/
theorem mask_step (ht : D t = false) (hd : ∀ u, D u = true → q.loc u ≠ .wSleep) (he : ∀ u, D u = true → q.loc u ≠ .exited)
    (h : stepAt n q t c l = some (q', o)) : stepAt n (mask D q) t c l = some (mask D q', o) := by
  have lock : ∀ l', q.lock t l' = some (q', o) → (mask D q).lock t l' = some (mask D q', o) := by
    intro l' h
    unfold State.lock at h ⊢
    split at h
    · rename_i ho
      obtain ⟨rfl, rfl⟩ := Prod.mk.inj (Option.some.inj h)
      have : (mask D q).owner = none := ho
      rw [this, mask_goto ht]; rfl
    · cases h
  cases l with
  | aCheck b p r =>
    cases b with
    | none => obtain ⟨rfl, rfl⟩ := Prod.mk.inj (Option.some.inj h); rw [mask_back ht]; rfl
    | some b =>
      simp only [stepAt, mask_isFinished] at h ⊢
      split at h
      · rename_i h1; rw [if_pos h1]; obtain ⟨rfl, rfl⟩ := Prod.mk.inj (Option.some.inj h); rw [mask_back ht]
      · rename_i h1; rw [if_neg h1]
        split at h
        · rename_i h2; rw [if_pos h2]; obtain ⟨rfl, rfl⟩ := Prod.mk.inj (Option.some.inj h); rw [mask_goto ht]
        · rename_i h2; rw [if_neg h2]
          split at h
          · obtain ⟨rfl, rfl⟩ := Prod.mk.inj (Option.some.inj h); rw [mask_back ht]
          · obtain ⟨rfl, rfl⟩ := Prod.mk.inj (Option.some.inj h); rw [mask_goto ht]
  | aSize b p r =>
    obtain ⟨rfl, rfl⟩ := Prod.mk.inj (Option.some.inj h)
    simp only [stepAt, mask_size, mask_goto ht]
  | aPush b p r m =>
    obtain ⟨rfl, rfl⟩ := Prod.mk.inj (Option.some.inj h)
    simp only [stepAt, mask_push, mask_goto ht]
  | aNotify r m =>
    obtain ⟨rfl, rfl⟩ := Prod.mk.inj (Option.some.inj h)
    simp only [stepAt, mask_back ht]
    split
    · rw [mask_notifyOne hd]
    · rfl
  | vPush bs p =>
    obtain ⟨rfl, rfl⟩ := Prod.mk.inj (Option.some.inj h)
    simp only [stepAt, mask_pushVector, mask_goto ht]
  | vNotify => obtain ⟨rfl, rfl⟩ := Prod.mk.inj (Option.some.inj h); simp only [stepAt, mask_goto ht, mask_notifyAll]
  | vExec bs =>
    match bs with
    | [] => obtain ⟨rfl, rfl⟩ := Prod.mk.inj (Option.some.inj h); simp only [stepAt, mask_goto ht]
    | none :: bs => obtain ⟨rfl, rfl⟩ := Prod.mk.inj (Option.some.inj h); simp only [stepAt, mask_goto ht]
    | some .dummy :: bs => obtain ⟨rfl, rfl⟩ := Prod.mk.inj (Option.some.inj h); simp only [stepAt, mask_goto ht]
    | some (.task i) :: bs => obtain ⟨rfl, rfl⟩ := Prod.mk.inj (Option.some.inj h); simp only [stepAt, mask_goto ht]
  | dTest => obtain ⟨rfl, rfl⟩ := Prod.mk.inj (Option.some.inj h); simp only [stepAt, mask_goto ht]; rfl
  | cLock => exact lock _ h
  | cTest => obtain ⟨rfl, rfl⟩ := Prod.mk.inj (Option.some.inj h); simp only [stepAt, mask_goto ht]; rfl
  | cHalt => obtain ⟨rfl, rfl⟩ := Prod.mk.inj (Option.some.inj h); simp only [stepAt, mask_goto ht]; rfl
  | cUnlock => obtain ⟨rfl, rfl⟩ := Prod.mk.inj (Option.some.inj h); simp only [stepAt, mask_unlock ht]
  | cClear x => cases x <;> obtain ⟨rfl, rfl⟩ := Prod.mk.inj (Option.some.inj h) <;> simp only [stepAt, mask_clear, mask_goto ht]
  | cNotify1 => obtain ⟨rfl, rfl⟩ := Prod.mk.inj (Option.some.inj h); simp only [stepAt, mask_goto ht, mask_notifyAll]
  | cLoop k => cases k <;> obtain ⟨rfl, rfl⟩ := Prod.mk.inj (Option.some.inj h) <;> simp only [stepAt, mask_goto ht]
  | cNotify2 => obtain ⟨rfl, rfl⟩ := Prod.mk.inj (Option.some.inj h); simp only [stepAt, mask_goto ht, mask_notifyAll]
  | cJoin k b =>
    have hex : q.loc k = .exited → (mask D q).loc k = .exited := by
      intro hk
      simp only [mask]
      cases hD : D k with
      | false => simpa using hk
      | true => exact absurd hk (he k hD)
    simp only [stepAt] at h ⊢
    split at h
    · rename_i h1; rw [if_pos h1]; obtain ⟨rfl, rfl⟩ := Prod.mk.inj (Option.some.inj h); rw [mask_goto ht]
    · rename_i h1; rw [if_neg h1]
      have ej : (mask D q).joined = q.joined := rfl
      rw [ej]
      split at h
      · rename_i h2; rw [if_pos h2]; obtain ⟨rfl, rfl⟩ := Prod.mk.inj (Option.some.inj h); rw [mask_goto ht]
      · rename_i h2; rw [if_neg h2]
        split at h
        · rename_i h3; rw [if_pos (hex h3)]; obtain ⟨rfl, rfl⟩ := Prod.mk.inj (Option.some.inj h); rw [mask_goto ht]; rfl
        · cases h
  | cOut => obtain ⟨rfl, rfl⟩ := Prod.mk.inj (Option.some.inj h); simp only [stepAt, mask_unlock ht]
  | count => obtain ⟨rfl, rfl⟩ := Prod.mk.inj (Option.some.inj h); simp only [stepAt, mask_goto ht]; rfl
  | iE x => cases x <;> obtain ⟨rfl, rfl⟩ := Prod.mk.inj (Option.some.inj h) <;> simp only [stepAt, mask_isEmpty, mask_goto ht]
  | nB x k => cases x <;> obtain ⟨rfl, rfl⟩ := Prod.mk.inj (Option.some.inj h) <;> simp only [stepAt, mask_size, mask_goto ht]
  | setR r => obtain ⟨rfl, rfl⟩ := Prod.mk.inj (Option.some.inj h); simp only [stepAt, mask_goto ht]; rfl
  | pFin i => obtain ⟨rfl, rfl⟩ := Prod.mk.inj (Option.some.inj h); simp only [stepAt, mask_goto ht]; rfl
  | gHigh =>
    simp only [stepAt, mask_front] at h ⊢
    split at h <;> obtain ⟨rfl, rfl⟩ := Prod.mk.inj (Option.some.inj h)
    · rw [mask_got ht, mask_popped]
    · rw [mask_goto ht, mask_popped]
  | gCnt => obtain ⟨rfl, rfl⟩ := Prod.mk.inj (Option.some.inj h); simp only [stepAt, mask_goto ht]; rfl
  | gRat k => obtain ⟨rfl, rfl⟩ := Prod.mk.inj (Option.some.inj h); simp only [stepAt, mask_goto ht]; rfl
  | gLowE => obtain ⟨rfl, rfl⟩ := Prod.mk.inj (Option.some.inj h); simp only [stepAt, mask_isEmpty, mask_goto ht]
  | gLowPop =>
    simp only [stepAt, mask_front] at h ⊢
    split at h <;> obtain ⟨rfl, rfl⟩ := Prod.mk.inj (Option.some.inj h) <;> rw [mask_goto ht, mask_popped]
  | gReset b => obtain ⟨rfl, rfl⟩ := Prod.mk.inj (Option.some.inj h); simp only [stepAt, mask_got ht]; rfl
  | gMed =>
    simp only [stepAt, mask_front] at h ⊢
    split at h <;> obtain ⟨rfl, rfl⟩ := Prod.mk.inj (Option.some.inj h) <;> rw [mask_goto ht, mask_popped]
  | gInc b => obtain ⟨rfl, rfl⟩ := Prod.mk.inj (Option.some.inj h); simp only [stepAt, mask_got ht]; rfl
  | gLow =>
    simp only [stepAt, mask_front] at h ⊢
    split at h <;> obtain ⟨rfl, rfl⟩ := Prod.mk.inj (Option.some.inj h) <;> rw [mask_got ht, mask_popped]
  | wE x => cases x <;> obtain ⟨rfl, rfl⟩ := Prod.mk.inj (Option.some.inj h) <;> simp only [stepAt, mask_isEmpty, mask_goto ht]
  | wLock => exact lock _ h
  | wHalt => obtain ⟨rfl, rfl⟩ := Prod.mk.inj (Option.some.inj h); simp only [stepAt, mask_goto ht]; rfl
  | wEnter => obtain ⟨rfl, rfl⟩ := Prod.mk.inj (Option.some.inj h); simp only [stepAt, mask_unlock ht]
  | wSleep => obtain ⟨rfl, rfl⟩ := Prod.mk.inj (Option.some.inj h); simp only [stepAt, mask_goto ht]
  | wRelock => exact lock _ h
  | wHalt2 => obtain ⟨rfl, rfl⟩ := Prod.mk.inj (Option.some.inj h); simp only [stepAt, mask_goto ht]; rfl
  | wUnlock => obtain ⟨rfl, rfl⟩ := Prod.mk.inj (Option.some.inj h); simp only [stepAt, mask_unlock ht]
  | wChk b =>
    match b with
    | none => obtain ⟨rfl, rfl⟩ := Prod.mk.inj (Option.some.inj h); simp only [stepAt, mask_goto ht]
    | some .dummy => obtain ⟨rfl, rfl⟩ := Prod.mk.inj (Option.some.inj h); simp only [stepAt, mask_goto ht]
    | some (.task i) => obtain ⟨rfl, rfl⟩ := Prod.mk.inj (Option.some.inj h); simp only [stepAt, mask_goto ht]; rfl
  | wOut => obtain ⟨rfl, rfl⟩ := Prod.mk.inj (Option.some.inj h); simp only [stepAt, mask_unlock ht]
  | eTest i bs =>
    simp only [stepAt] at h ⊢
    have ef : (mask D q).fin = q.fin := rfl
    rw [ef]
    split at h
    · rename_i h1; rw [if_pos h1]; obtain ⟨rfl, rfl⟩ := Prod.mk.inj (Option.some.inj h); rw [mask_executed ht]
    · rename_i h1; rw [if_neg h1]; obtain ⟨rfl, rfl⟩ := Prod.mk.inj (Option.some.inj h); rw [mask_goto ht]
  | eRun i bs => obtain ⟨rfl, rfl⟩ := Prod.mk.inj (Option.some.inj h); simp only [stepAt, mask_goto ht]; rfl
  | eDone i bs => obtain ⟨rfl, rfl⟩ := Prod.mk.inj (Option.some.inj h); simp only [stepAt, mask_executed ht]; rfl
  | ret v => obtain ⟨rfl, rfl⟩ := Prod.mk.inj (Option.some.inj h); simp only [stepAt, mask_goto ht]
  | idle | exited | crash => cases h

/-! ### Executions -/

/-- who is in a call of addWorkBlock that will throw, `h` being the rest of the history -/
def doomed (s : State) (h : List (Event Op Res)) (u : Nat) : Bool := adding (s.q.loc u) && decide (ends u h = some .threw)

theorem doomed_ends {u : Nat} {h : List (Event Op Res)} (hd : doomed s h u = true) : adding (s.q.loc u) = true ∧ ends u h = some .threw := by
  simpa [doomed] using hd

theorem mask_eq {a : WorkQueue.State} {D' : Nat → Bool} (h : ∀ u, D u = D' u ∨ q.loc u = .idle) (e : a = mask D q) : a = mask D' q := by
  rw [e]
  simp only [mask, WorkQueue.State.mk.injEq, true_and]
  funext u
  rcases h u with h | h
  · rw [h]
  · simp [h]

theorem mask_goto_eq {D' : Nat → Bool} (h : ∀ u, u ≠ t → D u = D' u) (ht : (bif D t then .idle else q.loc t) = bif D' t then .idle else l) :
    mask D q = mask D' (q.goto t l) := by
  simp only [mask, goto, WorkQueue.State.mk.injEq, true_and]
  funext u
  by_cases hu : u = t
  · subst hu; rw [upd_same]; exact ht
  · rw [upd_ne _ _ hu, h u hu]

theorem adding_start (n : Nat) (op : Op) (h : adding (start n op) = true) : isAdd op = true := by
  cases op with
  | addVector bs p => rfl
  | add b p => rfl
  | _ => cases h

theorem start_idle (n : Nat) (op : Op) : start n op ≠ .idle := by
  cases op with
  | addVector bs p => simp only [start]; split <;> simp
  | _ => simp [start]

theorem isAdd_start (n : Nat) (op : Op) (h : isAdd op = true) : adding (start n op) = true ∨ past (start n op) := by
  cases op with
  | add b p => exact .inl rfl
  | addVector bs p =>
    simp only [start]
    split
    · exact .inl rfl
    · exact .inr ⟨by simp, rfl, rfl⟩
  | _ => cases h

/-- Every execution with failures is one without: the calls of addWorkBlock that throw are left out, those of closeWorkerQueue that
throw do not go on. -/
theorem calm_run (as : List (Act Op)) : ∀ {s s' : State} {h : List (Event Op Res)}, (sys n).run s as = some (s', h) →
    ∃ bs, (WorkQueue.sys n).run (mask (doomed s h) s.q) bs = some (s'.q, calm h) := by
  induction as with
  | nil =>
    intro s s' h e
    cases e
    refine ⟨[], ?_⟩
    have : mask (doomed s []) s.q = s.q := by
      have : doomed s [] = fun _ => false := by funext u; simp [doomed, ends]
      rw [this]; simp [mask]
    rw [this]; rfl
  | cons a as ih =>
    intro s s' h e
    rcases run_cons e with ⟨t, op, s1, h2, rfl, e1, e2, rfl⟩ | ⟨t, c, s1, r, h2, rfl, e1, e2, rfl⟩
    · obtain ⟨bs, hbs⟩ := ih e2
      obtain ⟨_, _, hid, rfl⟩ := call_cases e1
      have other : ∀ u, u ≠ t → doomed s (.call t op :: h2) u =
          doomed { s with q := s.q.goto t (start n op), dtor := upd s.dtor t (op = .destroy) } h2 u := by
        intro u hu
        simp only [doomed, ends, loc_goto]; rw [upd_ne _ _ hu]; rfl
      have hdt : doomed s (.call t op :: h2) t = false := by simp [doomed, hid, adding]
      by_cases hx : isAdd op = true ∧ ends t h2 = some .threw
      · refine ⟨bs, ?_⟩
        simp only [calm]; rw [if_pos hx]
        have hadd : adding (start n op) = true := by
          rcases isAdd_start n op hx.1 with h | h
          · exact h
          · refine absurd hx.2 (past_run (t := t) as e2 ?_)
            show past (upd s.q.loc t _ t)
            rw [upd_same]; exact h
        have : mask (doomed s (.call t op :: h2)) s.q =
            mask (doomed { s with q := s.q.goto t (start n op), dtor := upd s.dtor t (op = .destroy) } h2) (s.q.goto t (start n op)) := by
          refine mask_goto_eq other ?_
          have : doomed { s with q := s.q.goto t (start n op), dtor := upd s.dtor t (op = .destroy) } h2 t = true := by
            simp only [doomed, loc_goto, upd_same, hadd, hx.2]; rfl
          rw [hdt, this]; simp [hid]
        rw [this]; exact hbs
      · refine ⟨.call t op :: bs, ?_⟩
        simp only [calm]; rw [if_neg hx]
        have hl : (mask (doomed s (.call t op :: h2)) s.q).loc t = .idle := by simp [mask, hid]
        have hm : mask (doomed s (.call t op :: h2)) (s.q.goto t (start n op)) =
            mask (doomed { s with q := s.q.goto t (start n op), dtor := upd s.dtor t (op = .destroy) } h2) (s.q.goto t (start n op)) := by
          refine mask_eq (fun u => ?_) rfl
          by_cases hu : u = t
          · subst hu
            left
            rw [hdt]
            simp only [doomed, loc_goto, upd_same]
            cases ha : adding (start n op) with
            | false => rfl
            | true =>
              have : ¬ ends u h2 = some .threw := fun h => hx ⟨adding_start n op ha, h⟩
              simp [this]
          · exact .inl (other u hu)
        refine run_call (s1 := (mask (doomed s (.call t op :: h2)) s.q).goto t (start n op)) ?_ ?_
        · show State.call n _ t op = _
          unfold State.call; rw [hl]
        · rw [← mask_goto hdt, hm]; exact hbs
    · obtain ⟨bs, hbs⟩ := ih e2
      have noad : ∀ {u}, adding (s.q.loc u) = false → ∀ h, doomed s h u = false := by
        intro u hu h; simp [doomed, hu]
      -- a step of the queue itself
      have stp : ∀ {d q' o} {s1 : State}, s.q.stepAt n t d (s.q.loc t) = some (q', o) → s1.q = q' →
          (∃ bs, (WorkQueue.sys n).run (mask (doomed s1 h2) s1.q) bs = some (s'.q, calm h2)) →
          (o = none → r = none) → (∀ v, o = some v → r = some (.ret v)) →
          (sys n).run s1 as = some (s', h2) →
          ∃ bs, (WorkQueue.sys n).run (mask (doomed s (retEvents t r ++ h2)) s.q) bs = some (s'.q, calm (retEvents t r ++ h2)) := by
        rintro d q' o s1 hst rfl ⟨bs, hbs⟩ hr1 hr2 e2
        obtain ⟨a, l', hl1, hw⟩ := step_loc hst
        have oth : ∀ u, u ≠ t → doomed s (retEvents t r ++ h2) u = doomed s1 h2 u := by
          intro u hu
          simp only [doomed]; rw [ends_retEvents hu]
          have : adding (s1.q.loc u) = adding (s.q.loc u) := by
            rw [hl1, upd_ne _ _ hu]
            rcases hw.all u with h3 | ⟨h3, h4⟩
            · rw [h3]
            · rw [h3, h4]; rfl
          rw [this]
        by_cases hd : doomed s (retEvents t r ++ h2) t = true
        · obtain ⟨hd1, hd2⟩ := doomed_ends hd
          have ho : o = none := by
            cases o with
            | none => rfl
            | some v => rw [hr2 v rfl] at hd2; simp [retEvents, ends] at hd2
          have hr := hr1 ho
          subst hr
          refine ⟨bs, ?_⟩
          have hd2 : ends t h2 = some .threw := hd2
          rcases step_adding hst hd1 with h3 | ⟨l2, h3, _, h4⟩
          · refine absurd hd2 (past_run as e2 ⟨?_, h3, ?_⟩)
            · exact (step_ret hst).2 ho
            · refine step_closing hst ?_
              generalize s.q.loc t = l at hd1
              cases l with
              | aCheck b p r => cases r <;> simp_all [adding, closing, Ret.isClose]
              | aSize b p r => cases r <;> simp_all [adding, closing, Ret.isClose]
              | aPush b p r m => cases r <;> simp_all [adding, closing, Ret.isClose]
              | _ => first | rfl | cases hd1
          · have : mask (doomed s (retEvents t none ++ h2)) s.q = mask (doomed s1 h2) s1.q := by
              rw [h3]
              refine mask_goto_eq oth ?_
              have h5 : doomed s1 h2 t = true := by
                simp only [doomed, h3, loc_goto, upd_same, h4, hd2]; rfl
              rw [hd, h5]; rfl
            rw [this]; exact hbs
        · have hdf : doomed s (retEvents t r ++ h2) t = false := by simpa using hd
          have hns : ∀ u, doomed s (retEvents t r ++ h2) u = true → s.q.loc u ≠ .wSleep := by
            intro u hu h; have := (doomed_ends hu).1; rw [h] at this; cases this
          have hne : ∀ u, doomed s (retEvents t r ++ h2) u = true → s.q.loc u ≠ .exited := by
            intro u hu h; have := (doomed_ends hu).1; rw [h] at this; cases this
          have hms := mask_step hdf hns hne hst
          have hl : (mask (doomed s (retEvents t r ++ h2)) s.q).loc t = s.q.loc t := by simp [mask, hdf]
          refine ⟨.move t d :: bs, ?_⟩
          have hm : mask (doomed s (retEvents t r ++ h2)) s1.q = mask (doomed s1 h2) s1.q := by
            refine mask_eq (fun u => ?_) rfl
            by_cases hu : u = t
            · subst hu
              cases o with
              | some v => exact .inr ((step_ret hst).1 v rfl)
              | none =>
                left
                have hr := hr1 rfl
                subst hr
                rw [hdf]
                simp only [doomed]
                cases ha : adding (s1.q.loc u) with
                | false => rfl
                | true =>
                  have hcl : adding (s.q.loc u) = true := by
                    cases hb : adding (s.q.loc u) with
                    | true => rfl
                    | false =>
                      rw [step_not_adding hst hb] at ha; cases ha
                  have : ends u h2 ≠ some .threw := by
                    intro h
                    simp only [doomed, hcl, retEvents, List.nil_append, h] at hdf
                    cases hdf
                  simp [this]
            · exact .inl (oth u hu)
          have he : calm (retEvents t r ++ h2) = retEvents t o ++ calm h2 := by
            cases o with
            | none => rw [hr1 rfl]; rfl
            | some v => rw [hr2 v rfl]; rfl
          rw [he]
          refine run_move (s1 := mask (doomed s (retEvents t r ++ h2)) s1.q) ?_ ?_
          · show State.stepAt n _ t d _ = _
            rw [hl]; exact hms
          · rw [hm]; exact hbs
      obtain ⟨_, _, hc⟩ := move_cases e1
      rcases hc with ⟨h6, rfl, rfl⟩ | ⟨h6, h7, rfl, rfl⟩ | ⟨h6, h7, rfl, rfl⟩ | ⟨d, q', h6, rfl, rfl⟩ | ⟨d, q', o, h6, h7, rfl, rfl⟩ | ⟨d, q', o, h6, h7, rfl, rfl⟩
      · refine ⟨bs, ?_⟩
        have hadd : adding (s.q.loc t) = true := by
          generalize s.q.loc t = l at h6
          cases l with
          | aPush b p r m => cases r <;> first | rfl | cases h6
          | vPush bs p => rfl
          | _ => cases h6
        have : mask (doomed s (retEvents t (some .threw) ++ h2)) s.q = mask (doomed { s with q := s.q.goto t .idle } h2) (s.q.goto t .idle) := by
          refine mask_goto_eq (fun u hu => ?_) ?_
          · simp only [doomed]; rw [ends_retEvents hu, loc_goto, upd_ne _ _ hu]
          · have h5 : doomed s (retEvents t (some .threw) ++ h2) t = true := by simp [doomed, hadd, retEvents, ends]
            rw [h5]
            simp
        rw [this]; exact hbs
      · exact ⟨bs, hbs⟩
      · refine ⟨bs, ?_⟩
        have hadd : adding (s.q.loc t) = false := by
          generalize s.q.loc t = l at h6
          cases l with
          | aPush b p r m => cases r <;> first | rfl | cases h6
          | cClear x => rfl
          | _ => first | rfl | cases h6
        have : doomed s (retEvents t (some .threw) ++ h2) = doomed { s with failed := upd s.failed t true } h2 := by
          funext u
          by_cases hu : u = t
          · subst hu; simp [doomed, hadd]
          · simp only [doomed]; rw [ends_retEvents hu]
        rw [this]; exact hbs
      · exact stp h6 rfl ⟨bs, hbs⟩ (fun _ => rfl) (fun v h => by cases h) e2
      · exact ⟨bs, hbs⟩
      · exact stp h6 rfl ⟨bs, hbs⟩ (fun h => by cases h) (fun v h => by cases h; rfl) e2

end Verif.WorkQueue.Throw
