import Verif.WorkBlock.Prog

/-
The property C134: programs that use any number of WorkBlocks and futures.
-/
namespace Verif.WorkBlock.Prog

variable {V : Type} {eval : List Nat → Nat → Res V}

/-- C134: every statement of every program answers as specified (including which statements are undefined), and the
functions run are those specified, in that order. -/
theorem programs (ops : List POp) :
    (PS.init.run eval ops).2 = (User.init.run eval ops).2 ∧ (PS.init.run eval ops).1.w.log = (User.init.run eval ops).1.log := by
  obtain ⟨e, m, h⟩ := run_rep (eval := eval) ops init_rep
  exact ⟨e, h.log⟩

/-- A value that tells the runs apart: the number of runs before. -/
def demoEval : List Nat → Nat → Res Nat := fun log f => .value (10 * f + log.length)

/-- Two blocks; block 0 is moved to block 2 and that to block 1, whose future is broken; the futures taken from block 0
are fulfilled by the run in block 1. -/
example : (PS.init.run demoEval [.make 0 7, .make 1 8, .getFuture 0, .getFuture 1, .moveMake 2 0, .getFuture 0, .execute 0, .get 0,
      .assign 1 2, .get 1, .isFinished 1, .execute 1, .get 0, .getReturnVal 1, .isFinished 2, .get 2, .update 0 5, .execute 0,
      .getReturnVal 0, .reset 1, .get 0, .getReturnVal 1, .destroy 1, .execute 1]).2 =
    [some .unit, some .unit, some .unit, some .unit, some .unit, some .unit, some (.throws .noState), some .blocks,
      some .unit, some (.result .broken), some (.bool false), some .unit, some (.result (.value 70)), some (.result (.value 70)),
      some (.bool false), none, some .unit, some .unit,
      some (.result (.value 51)), some .unit, some (.result (.value 70)), some .blocks, some .unit, none] := by decide

theorem run_append (s : PS V) (xs ys : List POp) : (s.run eval (xs ++ ys)).1 = ((s.run eval xs).1.run eval ys).1 := by
  induction xs generalizing s with
  | nil => rfl
  | cons x xs ih => simp only [List.cons_append, PS.run]; exact ih _

theorem settled_some {jobs : List (Option (Res V))} {j k : Nat} {r x : Res V} (h : jobs[j]? = some (some x)) :
    (settled jobs k r)[j]? = some (some x) := by
  by_cases e : j = k
  · subst e; simp [settled, h]
  · rw [settled_ne _ _ e]; exact h

theorem giveUp_some {a : User V} {j v : Nat} {x : Res V} (h : a.jobs[j]? = some (some x)) : (a.giveUp v).jobs[j]? = some (some x) := by
  unfold User.giveUp; split
  · rw [settle_jobs]; exact settled_some h
  · exact h

theorem new_some {a : User V} {j v f : Nat} {x : Res V} (h : a.jobs[j]? = some (some x)) : (a.newJob v f).jobs[j]? = some (some x) := by
  have hj : j < a.jobs.length := by
    rcases Nat.lt_or_ge j a.jobs.length with h' | h'
    · exact h'
    · rw [List.getElem?_eq_none h'] at h; cases h
  simp only [User.newJob]
  rw [List.getElem?_append_left hj]; exact h

/-- the specification never changes the result of a job -/
theorem job_stable {a : User V} {j : Nat} {x : Res V} (h : a.jobs[j]? = some (some x)) (op : POp) :
    (a.step eval op).1.jobs[j]? = some (some x) := by
  cases op <;> simp only [User.step] <;> (repeat' split) <;>
    first
      | exact h
      | exact new_some h
      | exact giveUp_some h
      | exact new_some (giveUp_some h)
      | (simp only [settle_jobs]; exact settled_some h)

theorem giveUp_held (a : User V) (v : Nat) : (a.giveUp v).held = a.held := by
  unfold User.giveUp; split
  · exact settle_held _ _ _
  · rfl

/-- futures taken are kept -/
theorem held_stable {a : User V} {k : Nat} {x : Option Nat} (h : a.held[k]? = some x) (op : POp) :
    (a.step eval op).1.held[k]? = some x := by
  have hk : k < a.held.length := by
    rcases Nat.lt_or_ge k a.held.length with h' | h'
    · exact h'
    · rw [List.getElem?_eq_none h'] at h; cases h
  cases op <;> simp only [User.step] <;> (repeat' split) <;>
    (try simp only [User.newJob, giveUp_held, settle_held, List.getElem?_append_left hk]) <;> exact h

theorem get_stable {a : User V} {k : Nat} {r : Res V} (ops : List POp) (h : (a.step eval (.get k)).2 = some (.result r)) :
    ((a.run eval ops).1.step eval (.get k)).2 = some (.result r) := by
  induction ops generalizing a with
  | nil => exact h
  | cons op ops ih =>
    simp only [User.run]
    apply ih
    change (a.held[k]?).bind a.answer = _ at h
    change ((a.step eval op).1.held[k]?).bind (a.step eval op).1.answer = _
    cases hk : a.held[k]? with
    | none => rw [hk] at h; cases h
    | some x =>
      rw [held_stable hk op]
      rw [hk] at h
      simp only [Option.bind_some] at h ⊢
      cases x with
      | none => cases h
      | some j =>
        simp only [User.answer] at h ⊢
        cases hj : a.jobs[j]? with
        | none => rw [hj] at h; simp at h
        | some y =>
          cases y with
          | none => rw [hj] at h; simp at h
          | some z =>
            rw [hj] at h
            rw [job_stable hj op]
            exact h

/-- C134, futures: once get() of a future has answered, it answers the same ever after, whatever is done to the blocks:
executed again, reset, given other functions, moved, assigned to, destroyed. -/
theorem future_settled (before after : List POp) (k : Nat) (r : Res V)
    (h : ((PS.init.run eval before).1.step eval (.get k)).2 = some (.result r)) :
    ((PS.init.run eval (before ++ after)).1.step eval (.get k)).2 = some (.result r) := by
  obtain ⟨e1, m1, h1⟩ := run_rep (eval := eval) before init_rep
  obtain ⟨e2, m2, h2⟩ := run_rep (eval := eval) after h1
  rw [(step_rep (eval := eval) h1 _).1] at h
  rw [run_append, (step_rep (eval := eval) h2 _).1]
  exact get_stable after h

/-- every job without a result belongs to a block -/
def Owned (a : User V) : Prop := ∀ j, a.jobs[j]? = some none → ∃ v f, a.slots v = .live f j

theorem settled_none {jobs : List (Option (Res V))} {j k : Nat} {r : Res V} (h : (settled jobs k r)[j]? = some none) :
    jobs[j]? = some none ∧ j ≠ k := by
  by_cases e : j = k
  · subst e
    unfold settled at h
    split at h
    · rename_i hs; rw [h] at hs; cases hs
    · rw [List.getElem?_set_self'] at h
      cases hj : jobs[j]? <;> rw [hj] at h <;> simp at h
  · rw [settled_ne _ _ e] at h; exact ⟨h, e⟩

theorem giveUp_none {a : User V} {j v : Nat} (h : (a.giveUp v).jobs[j]? = some none) :
    a.jobs[j]? = some none ∧ ∀ f, a.slots v ≠ .live f j := by
  unfold User.giveUp at h; split at h
  · rename_i g k hk
    rw [settle_jobs] at h
    obtain ⟨h1, h2⟩ := settled_none h
    refine ⟨h1, fun f e => h2 ?_⟩
    rw [hk] at e; cases e; rfl
  · rename_i hn
    exact ⟨h, fun f => hn f j⟩

theorem owned_new {a a' : User V} {v f : Nat} (ha : Owned a) (hs : a'.slots = a.slots)
    (hj : ∀ j, a'.jobs[j]? = some none → a.jobs[j]? = some none ∧ ∀ f, a.slots v ≠ .live f j) : Owned (a'.newJob v f) := by
  intro j h
  simp only [User.newJob] at h ⊢
  rcases Nat.lt_trichotomy j a'.jobs.length with h1 | h1 | h1
  · rw [List.getElem?_append_left h1] at h
    obtain ⟨h2, h3⟩ := hj j h
    obtain ⟨u, g, e⟩ := ha j h2
    refine ⟨u, g, ?_⟩
    have : u ≠ v := fun c => h3 g (by rw [← c]; exact e)
    simp only [upd, this, if_false, hs, e]
  · exact ⟨v, f, by simp [upd, h1]⟩
  · rw [List.getElem?_eq_none (by simp; omega)] at h; cases h

theorem owned_step {a : User V} (ha : Owned a) (op : POp) : Owned (a.step eval op).1 := by
  cases op with
  | make v f =>
    simp only [User.step]; split
    · rename_i h
      exact owned_new ha rfl fun j hj => ⟨hj, fun f e => by rw [h] at e; cases e⟩
    · exact ha
  | moveMake v u =>
    simp only [User.step]; split
    · rename_i h
      intro j hj
      obtain ⟨x, g, e⟩ := ha j hj
      by_cases hxu : x = u
      · exact ⟨v, g, by simp [upd, ← hxu, e]⟩
      · refine ⟨x, g, ?_⟩
        have : x ≠ v := fun c => by rw [c, h.1] at e; cases e
        simp [upd, this, hxu, e]
    · exact ha
  | assign v u =>
    simp only [User.step]; split
    · intro j hj
      obtain ⟨hj, hv⟩ := giveUp_none hj
      obtain ⟨x, g, e⟩ := ha j hj
      by_cases hxu : x = u
      · exact ⟨v, g, by simp [upd, ← hxu, e]⟩
      · refine ⟨x, g, ?_⟩
        have : x ≠ v := fun c => hv g (by rw [← c]; exact e)
        simp [upd, this, hxu, e]
    · exact ha
  | destroy v =>
    simp only [User.step]; split
    · exact ha
    · intro j hj
      obtain ⟨hj, hv⟩ := giveUp_none hj
      obtain ⟨x, g, e⟩ := ha j hj
      refine ⟨x, g, ?_⟩
      have : x ≠ v := fun c => hv g (by rw [← c]; exact e)
      simp [upd, this, e]
  | execute v =>
    simp only [User.step]; split
    · exact ha
    · exact ha
    · exact ha
    · split
      · exact ha
      · intro j hj
        simp only [settle_jobs] at hj
        obtain ⟨x, g, e⟩ := ha j (settled_none hj).1
        exact ⟨x, g, by simpa [settle_slots] using e⟩
  | reset v =>
    simp only [User.step]; split
    · exact ha
    · exact ha
    · exact owned_new ha (giveUp_slots a v) fun j hj => giveUp_none hj
  | update v f =>
    simp only [User.step]; split
    · exact ha
    · exact owned_new ha (giveUp_slots a v) fun j hj => giveUp_none hj
  | isFinished v => exact ha
  | getReturnVal v => exact ha
  | getFuture v =>
    simp only [User.step]; split <;> exact ha
  | get k => exact ha

theorem owned_run (ops : List POp) : ∀ {a : User V}, Owned a → Owned (a.run eval ops).1 := by
  induction ops with
  | nil => exact id
  | cons op ops ih => exact fun ha => ih (owned_step ha op)

/-- C134, nobody waits in vain: if get() of a future would block, there is a block that is not finished, and executing it
makes the future ready: get() then returns the result of that run.  Hence no future is left waiting when the last block is
gone. -/
theorem future_awaits_block (ops : List POp) (k : Nat) (h : ((PS.init.run eval ops).1.step eval (.get k)).2 = some .blocks) :
    ∃ v f, ((PS.init.run eval ops).1.step eval (.isFinished v)).2 = some (.bool false) ∧
      ((PS.init.run eval ops).1.step eval (.execute v)).2 = some .unit ∧
      ((PS.init.run eval ops).1.step eval (.execute v)).1.w.log = (PS.init.run eval ops).1.w.log ++ [f] ∧
      ((((PS.init.run eval ops).1.step eval (.execute v)).1).step eval (.get k)).2 =
        some (.result (eval (PS.init.run eval ops).1.w.log f)) := by
  obtain ⟨e1, m1, h1⟩ := run_rep (eval := eval) ops init_rep
  have ho : Owned (User.init.run eval ops).1 := owned_run ops (by intro j hj; simp [User.init] at hj)
  revert h1 ho h
  generalize (PS.init.run eval ops).1 = s
  generalize (User.init.run eval ops).1 = a
  intro h h1 ho
  rw [(step_rep (eval := eval) h1 _).1] at h
  simp only [User.step] at h
  cases hk : a.held[k]? with
  | none => rw [hk] at h; cases h
  | some x =>
    rw [hk] at h
    cases x with
    | none => cases h
    | some j =>
      have hj := h1.heldLt j (List.mem_of_getElem? hk)
      simp only [Option.bind_some, User.answer] at h
      cases hx : a.jobs[j] with
      | some y => rw [List.getElem?_eq_getElem hj, hx] at h; simp at h
      | none =>
        have hn : a.jobs[j]? = some none := by rw [List.getElem?_eq_getElem hj, hx]
        obtain ⟨v, f, hv⟩ := ho j hn
        have hend : a.ended j = false := by simp [User.ended, hn]
        obtain ⟨e2, m2, h2⟩ := step_rep (eval := eval) h1 (.execute v)
        refine ⟨v, f, ?_, ?_, ?_, ?_⟩
        · rw [(step_rep (eval := eval) h1 _).1]; simp [User.step, hv, hend]
        · rw [e2]; simp [User.step, hv, hend]
        · rw [h2.log, h1.log]; simp [User.step, hv, hend]
        · rw [(step_rep (eval := eval) h2 _).1, h1.log]
          simp [User.step, hv, hend, settle_held, hk, User.answer, settle_jobs, Prog.settled, hx, hj]

example : ((PS.init.run demoEval [.make 0 7, .getFuture 0, .moveMake 1 0]).1.step demoEval (.get 0)).2 = some .blocks := by decide

/-- the statements that plan a run -/
def POp.plans : POp → Bool
  | .make _ _ | .reset _ | .update _ _ => true
  | _ => false

theorem runs_step (a : User V) (hlt : ∀ v f j, a.slots v = .live f j → j < a.jobs.length) (op : POp) :
    ((a.step eval op).1.jobs.countP (·.isNone)) + (a.step eval op).1.log.length ≤
      a.jobs.countP (·.isNone) + a.log.length + (if POp.plans op then 1 else 0) := by
  have hset : ∀ j r, (settled a.jobs j r).countP (·.isNone) ≤ a.jobs.countP (·.isNone) := by
    intro j r
    unfold settled
    split
    · exact Nat.le_refl _
    · by_cases hj : j < a.jobs.length
      · rw [List.countP_set hj]; simp
      · rw [List.set_eq_of_length_le (by omega)]; exact Nat.le_refl _
  have hset' : ∀ j r, a.ended j = false → j < a.jobs.length → (settled a.jobs j r).countP (·.isNone) + 1 ≤ a.jobs.countP (·.isNone) := by
    intro j r he hj
    unfold settled
    unfold User.ended at he
    rw [he]
    simp only [Bool.false_eq_true, if_false]
    have hx : a.jobs[j].isNone = true := by
      rw [List.getElem?_eq_getElem hj] at he
      cases hx : a.jobs[j] with
      | none => rfl
      | some y => rw [hx] at he; cases he
    have hpos : 0 < a.jobs.countP (·.isNone) := List.countP_pos_iff.2 ⟨a.jobs[j], List.getElem_mem hj, hx⟩
    rw [List.countP_set hj]; simp [hx]; omega
  have hgive : ∀ v, (a.giveUp v).jobs.countP (·.isNone) ≤ a.jobs.countP (·.isNone) := by
    intro v
    unfold User.giveUp; split
    · rw [settle_jobs]; exact hset _ _
    · exact Nat.le_refl _
  have hgl : ∀ v, (a.giveUp v).log = a.log := by
    intro v
    unfold User.giveUp; split
    · exact settle_log _ _ _
    · rfl
  have hnew : ∀ (b : User V) v f, (b.newJob v f).jobs.countP (·.isNone) = b.jobs.countP (·.isNone) + 1 := by
    intro b v f; simp [User.newJob]
  cases op with
  | make v f =>
    simp only [User.step]; split
    · rw [hnew]; simp [User.newJob, POp.plans]; omega
    · exact Nat.le_add_right _ _
  | moveMake v u =>
    simp only [User.step]; split <;> simp
  | assign v u =>
    simp only [User.step]; split
    · have := hgive v; simp only [hgl]; omega
    · exact Nat.le_add_right _ _
  | destroy v =>
    simp only [User.step]; split
    · exact Nat.le_add_right _ _
    · have := hgive v; simp only [hgl]; omega
  | execute v =>
    simp only [User.step]; split
    · exact Nat.le_add_right _ _
    · exact Nat.le_add_right _ _
    · exact Nat.le_add_right _ _
    · rename_i f j hv
      split
      · exact Nat.le_add_right _ _
      · rename_i he
        have := hset' j (eval a.log f) (by simpa using he) (hlt v f j hv)
        simp only [settle_jobs, List.length_append, List.length_singleton]; omega
  | reset v =>
    simp only [User.step]; split
    · exact Nat.le_add_right _ _
    · exact Nat.le_add_right _ _
    · have := hgive v
      rw [hnew]; simp only [User.newJob, hgl, POp.plans, if_true]; omega
  | update v f =>
    simp only [User.step]; split
    · exact Nat.le_add_right _ _
    · have := hgive v
      rw [hnew]; simp only [User.newJob, hgl, POp.plans, if_true]; omega
  | isFinished v => simp [User.step]
  | getReturnVal v => simp [User.step]
  | getFuture v => simp only [User.step]; split <;> simp
  | get k => simp [User.step]

theorem runs_run (ops : List POp) : ∀ {m : Nat → Nat} {s : PS V} {a : User V}, Rep m none s a →
    (a.run eval ops).1.log.length ≤ a.jobs.countP (·.isNone) + a.log.length + ops.countP POp.plans := by
  induction ops with
  | nil => intro m s a _; simp [User.run]
  | cons op ops ih =>
    intro m s a h
    obtain ⟨-, m1, h1⟩ := step_rep (eval := eval) h op
    have h2 := ih h1
    have h3 := runs_step (eval := eval) a (fun v f j e => by have := h.slot v nofun; rw [e] at this; exact this.1) op
    simp only [User.run, List.countP_cons]
    omega

/-- C134, once per plan: however the blocks are moved and executed, functions are run at most as often as blocks were made,
reset or given a function. -/
theorem runs_at_most_planned (ops : List POp) : (PS.init.run eval ops).1.w.log.length ≤ ops.countP POp.plans := by
  rw [(programs ops).2]
  simpa [User.init] using runs_run (eval := eval) ops (init_rep (V := V))

end Verif.WorkBlock.Prog
