import Verif.WorkBlock.TasksStep

/-
The property C144: programs that give packaged tasks of their own to work blocks.
-/
namespace Verif.WorkBlock.Tasks

variable {V : Type} {eval : List Nat → Nat → Res V}

theorem run_append (s : TS V) (xs ys : List TOp) : s.run eval (xs ++ ys) = (s.run eval xs).run eval ys := by
  induction xs generalizing s with
  | nil => rfl
  | cons x xs ih => exact ih _

theorem run_good {s : TS V} (k : SInv s) (ops : List TOp) : Good s (s.run eval ops) := by
  induction ops generalizing s with
  | nil => exact .refl k
  | cons op ops ih => exact (good_step (eval := eval) k op).trans (ih (good_step k op).inv)

theorem inv_init : SInv (TS.init : TS V) := by
  refine ⟨⟨fun k i h => ?_, fun k l i h => ?_, fun i h => ?_⟩, fun v b h => ?_, fun i h => ?_⟩
  · obtain ⟨b, v⟩ := k; cases b <;> cases h
  · obtain ⟨b, v⟩ := k; cases b <;> cases h
  · simp [TS.init, PS.init] at h
  · cases h
  · cases h

theorem inv_run (ops : List TOp) : SInv (TS.init.run eval ops) := (run_good inv_init ops).inv

/-- futures taken are kept -/
theorem held_step (s : TS V) (op : TOp) {k : Nat} (h : k < s.ps.held.length) :
    (s.step eval op).1.ps.held[k]? = s.ps.held[k]? ∧ k < (s.step eval op).1.ps.held.length := by
  have key : ∀ x, (s.ps.held ++ [x])[k]? = s.ps.held[k]? ∧ k < (s.ps.held ++ [x]).length :=
    fun x => ⟨List.getElem?_append_left h, by simp; omega⟩
  cases op with
  | blk op =>
    cases op <;> simp only [TS.step, PS.step] <;> (repeat' split) <;>
      first
        | exact ⟨rfl, h⟩
        | exact key _
        | exact ⟨trivial, h⟩
        | (rw [call_eq]; exact ⟨rfl, h⟩)
  | updateTask v p =>
    simp only [TS.step]; split
    · rw [call_eq]; exact ⟨rfl, h⟩
    · exact ⟨rfl, h⟩
  | _ =>
    simp only [TS.step] <;> (repeat' split) <;>
      first
        | exact ⟨rfl, h⟩
        | exact key _

theorem held_run (s : TS V) (ops : List TOp) {k : Nat} (h : k < s.ps.held.length) :
    (s.run eval ops).ps.held[k]? = s.ps.held[k]? := by
  induction ops generalizing s with
  | nil => rfl
  | cons op ops ih =>
    obtain ⟨h1, h2⟩ := held_step (eval := eval) s op h
    exact (ih _ h2).trans h1

/-- a task that is not used stays as it is -/
theorem task_step (s : TS V) (op : TOp) {p : Nat} (h : op.uses p = false) : (s.step eval op).1.tasks p = s.tasks p := by
  cases op with
  | blk op => rfl
  | _ =>
    simp only [TOp.uses, decide_eq_false_iff_not, not_or] at h
    simp only [TS.step] <;> (repeat' split) <;>
      first
        | rfl
        | (simp only [upd, Ne.symm h, if_false])
        | (simp only [upd, Ne.symm h.1, Ne.symm h.2, if_false])

theorem task_run (s : TS V) (ops : List TOp) {p : Nat} (h : ∀ op ∈ ops, op.uses p = false) : (s.run eval ops).tasks p = s.tasks p := by
  induction ops generalizing s with
  | nil => rfl
  | cons op ops ih =>
    exact (ih _ fun o ho => h o (List.mem_cons_of_mem _ ho)).trans (task_step s op (h op List.mem_cons_self))

theorem answer_eq (ops : List TOp) (k : Nat) : answer eval ops k = ((TS.init.run eval ops).ps.held[k]?).bind (TS.init.run eval ops).ps.w.answer := rfl

/-- the answer of a future whose shared state holds `x` -/
def shown : Option (Res V) → Out V
  | some r => .result r
  | none => .blocks

/-- what the future of shared state `i` answers -/
theorem answer_state {ops : List TOp} {k i : Nat} (h : (TS.init.run eval ops).ps.held[k]? = some (some i)) {x : Option (Res V)}
    (hx : (TS.init.run eval ops).ps.w.states[i]? = some x) : answer eval ops k = some (shown x) := by
  rw [answer_eq, h]
  simp only [Option.bind_some, World.answer, World.read, hx, Option.join_some]
  cases x <;> rfl

/-! ### Futures in every program -/

/-- C144: once get() of a future has answered, it answers the same ever after, whatever is done to blocks and tasks. -/
theorem future_settled (before after : List TOp) (k : Nat) (r : Res V) (h : answer eval before k = some (.result r)) :
    answer eval (before ++ after) k = some (.result r) := by
  rw [answer_eq] at h
  cases hk : (TS.init.run eval before).ps.held[k]? with
  | none => rw [hk] at h; cases h
  | some x =>
    rw [hk, Option.bind_some] at h
    cases x with
    | none => cases h
    | some i =>
      have hi := (inv_run (eval := eval) before).held i (List.mem_of_getElem? hk)
      have hx := List.getElem?_eq_getElem hi
      simp only [World.answer, World.read, Option.bind_some, hx, Option.join_some] at h
      cases hy : (TS.init.run eval before).ps.w.states[i] with
      | none => rw [hy] at h; cases h
      | some y =>
        rw [hy] at h hx
        simp only [Option.some.injEq, Out.result.injEq] at h
        subst h
        have g := run_good (eval := eval) (inv_run (eval := eval) before) after
        refine answer_state (i := i) (x := some y) ?_ ?_
        · rw [run_append, held_run _ _ (by rcases Nat.lt_or_ge k (TS.init.run eval before).ps.held.length with h1 | h1
                                           · exact h1
                                           · rw [List.getElem?_eq_none h1] at hk; cases hk)]
          exact hk
        · rw [run_append]; exact g.stable _ _ hx

/-- C144: when all blocks and tasks are gone no future waits. -/
theorem no_future_waits (ops : List TOp) (h : allGone eval ops) (k : Nat) : answer eval ops k ≠ some .blocks := by
  intro e
  rw [answer_eq] at e
  cases hk : (TS.init.run eval ops).ps.held[k]? with
  | none => rw [hk] at e; cases e
  | some x =>
    rw [hk, Option.bind_some] at e
    cases x with
    | none => cases e
    | some i =>
      have k0 := inv_run (eval := eval) ops
      have hi := k0.held i (List.mem_of_getElem? hk)
      have hx := List.getElem?_eq_getElem hi
      simp only [World.answer, World.read, Option.bind_some, hx, Option.join_some] at e
      cases hy : (TS.init.run eval ops).ps.w.states[i] with
      | some y => rw [hy] at e; cases e
      | none =>
        rw [hy] at hx
        obtain ⟨⟨b, v⟩, hv⟩ := k0.inv.own i hx
        cases b with
        | true => simp only [ref, (h v).1] at hv; cases hv
        | false => simp only [ref, (h v).2] at hv; cases hv

/-! ### Futures taken from a task before it is given to a block -/

/-- the task and its shared state, when its future has been taken and is not ready -/
theorem taken (before mid : List TOp) (p : Nat) (ht : answers eval before (.taskFuture p) (some .unit)) (hm : ∀ op ∈ mid, op.uses p = false)
    (hb : answer eval (before ++ .taskFuture p :: mid) (futures eval before) = some .blocks) :
    ∃ t i, (TS.init.run eval (before ++ .taskFuture p :: mid)).tasks p = some t ∧ t.state = some i ∧ t.retrieved = true ∧
      (TS.init.run eval (before ++ .taskFuture p :: mid)).ps.held[futures eval before]? = some (some i) ∧
      futures eval before < (TS.init.run eval (before ++ .taskFuture p :: mid)).ps.held.length ∧
      (TS.init.run eval (before ++ .taskFuture p :: mid)).ps.w.states[i]? = some none := by
  let s0 := TS.init.run eval before
  have key : ∃ t i, (s0.step eval (.taskFuture p)).1.tasks p = some t ∧ t.state = some i ∧ t.retrieved = true ∧
      (s0.step eval (.taskFuture p)).1.ps.held = s0.ps.held ++ [some i] := by
    change ((s0.step eval (.taskFuture p)).2 = some .unit) at ht
    simp only [TS.step] at ht ⊢
    split at ht
    · rename_i t hp
      split at ht
      · rename_i t' i hg
        refine ⟨t', i, by simp [upd], ?_⟩
        unfold Task.getFuture at hg
        split at hg
        · cases hg
        · rename_i j hj
          split at hg
          · cases hg
          · cases hg; exact ⟨hj, rfl, rfl⟩
      · cases ht
    · cases ht
  obtain ⟨t, i, h1, h2, h3, h4⟩ := key
  have hs : TS.init.run eval (before ++ .taskFuture p :: mid) = (s0.step eval (.taskFuture p)).1.run eval mid := run_append _ _ _
  have hlen : futures eval before < (s0.step eval (.taskFuture p)).1.ps.held.length := by rw [h4]; simp [futures, s0]
  have hk : (TS.init.run eval (before ++ .taskFuture p :: mid)).ps.held[futures eval before]? = some (some i) := by
    rw [hs, held_run _ _ hlen, h4]
    simp [futures, s0]
  refine ⟨t, i, by rw [hs, task_run _ _ hm, h1], h2, h3, hk, ?_, ?_⟩
  · rcases Nat.lt_or_ge (futures eval before) (TS.init.run eval (before ++ .taskFuture p :: mid)).ps.held.length with h | h
    · exact h
    · rw [List.getElem?_eq_none h] at hk; cases hk
  · have k0 := inv_run (eval := eval) (before ++ .taskFuture p :: mid)
    have hi := k0.held i (List.mem_of_getElem? hk)
    have hx := List.getElem?_eq_getElem hi
    rw [answer_state hk hx] at hb
    rw [hx]
    cases hy : (TS.init.run eval (before ++ .taskFuture p :: mid)).ps.w.states[i] with
    | none => rfl
    | some y => rw [hy] at hb; cases hb

/-- C144, violated in every program: a future taken from a task, not yet ready when the task is given to the constructor of a
block, is broken from then on, whatever becomes of the block. -/
theorem given_future_broken (before mid after : List TOp) (p v : Nat) (ht : answers eval before (.taskFuture p) (some .unit))
    (hm : ∀ op ∈ mid, op.uses p = false) (hb : answer eval (before ++ .taskFuture p :: mid) (futures eval before) = some .blocks)
    (hv : ¬ answers eval (before ++ .taskFuture p :: mid) (.give v p) none) :
    answers eval (before ++ .taskFuture p :: mid) (.give v p) (some .unit) ∧
    answer eval ((before ++ .taskFuture p :: mid) ++ .give v p :: after) (futures eval before) = some (.result .broken) := by
  obtain ⟨t, i, h1, h2, h3, h4, h5, h6⟩ := taken before mid p ht hm hb
  generalize before ++ .taskFuture p :: mid = ops at *
  have hn : (TS.init.run eval ops).ps.blocks v = none := by
    cases h : (TS.init.run eval ops).ps.blocks v with
    | none => rfl
    | some b => exact absurd (by simp only [answers, TS.step, h]) hv
  have e := ofTask_some (TS.init.run eval ops).ps.w t h2
  refine ⟨by simp only [answers, TS.step, hn, h1, e], ?_⟩
  rw [show ops ++ TOp.give v p :: after = (ops ++ [.give v p]) ++ after by simp]
  refine future_settled _ _ _ _ ?_
  refine answer_state (i := i) (x := some .broken) ?_ ?_
  · rw [run_append, held_run _ _ h5]; exact h4
  · rw [run_append]
    simp only [TS.run, TS.step, hn, h1, e]
    exact set_same _ _ (by rw [alloc_old _ (lt_of_some h6)]; exact h6)

/-- C144, violated in every program: updateTask with such a task throws, and its future never gets a value, whatever becomes of the
block. -/
theorem updated_future_lost (before mid after : List TOp) (p v : Nat) (ht : answers eval before (.taskFuture p) (some .unit))
    (hm : ∀ op ∈ mid, op.uses p = false) (hb : answer eval (before ++ .taskFuture p :: mid) (futures eval before) = some .blocks)
    (hv : ¬ answers eval (before ++ .taskFuture p :: mid) (.updateTask v p) none) :
    answers eval (before ++ .taskFuture p :: mid) (.updateTask v p) (some (.throws .alreadyRetrieved)) ∧
    (answer eval ((before ++ .taskFuture p :: mid) ++ .updateTask v p :: after) (futures eval before) = some .blocks ∨
      answer eval ((before ++ .taskFuture p :: mid) ++ .updateTask v p :: after) (futures eval before) = some (.result .broken)) := by
  obtain ⟨t, i, h1, h2, h3, h4, h5, h6⟩ := taken before mid p ht hm hb
  generalize before ++ .taskFuture p :: mid = ops at *
  have k0 := inv_run (eval := eval) ops
  cases hbl : (TS.init.run eval ops).ps.blocks v with
  | none => exact absurd (by simp only [answers, TS.step, hbl]) hv
  | some b =>
    have e : b.updateTask (TS.init.run eval ops).ps.w t =
        ((TS.init.run eval ops).ps.w.abandon b.task.state, { b with loaded := false, task := t, finished := false }, some .alreadyRetrieved) := by
      simp [Block.updateTask, Block.reset, Task.getFuture, h2, h3]
    refine ⟨by simp only [answers, TS.step, hbl, h1, e, PS.call], ?_⟩
    have hne : b.task.state ≠ some i := by
      intro h
      have := k0.inv.inj (true, v) (false, p) i (by simp only [ref, hbl, Option.bind_some, h]) (by simp only [ref, h1, Option.bind_some, h2])
      cases this
    have k1 := (good_step (eval := eval) k0 (.updateTask v p)).inv
    have d : Dead i ((TS.init.run eval ops).step eval (.updateTask v p)).1 := by
      refine .inr ?_
      simp only [TS.step, hbl, h1, e, PS.call]
      refine ⟨?_, v, { b with loaded := false, task := t, finished := false }, by simp [upd], h2, rfl⟩
      exact ((Tr.abandon _ _).keep i (lt_of_some h6) hne).trans h6
    have d' := (run_good (eval := eval) k1 after).dead i d
    have hk : (TS.init.run eval (ops ++ .updateTask v p :: after)).ps.held[futures eval before]? = some (some i) := by
      rw [run_append, held_run _ _ h5]; exact h4
    have hs : TS.init.run eval (ops ++ .updateTask v p :: after) = ((TS.init.run eval ops).step eval (.updateTask v p)).1.run eval after := run_append _ _ _
    rw [← hs] at d'
    rcases d' with d' | ⟨d', _⟩
    · exact .inr (answer_state hk d')
    · exact .inl (answer_state hk d')

/-! ### Futures taken from the block -/

/-- C144: a task that has a function, whatever was done with it before, makes an unfinished block, and a future taken from the block then
gets the result of its function when the block is executed. -/
theorem given_runs_partial (ops : List TOp) (p v : Nat) (h : answers eval ops (.give v p) (some .unit)) :
    ∃ t, (TS.init.run eval ops).tasks p = some t ∧
      answers eval (ops ++ [.give v p]) (.blk (.isFinished v)) (some (.bool false)) ∧
      answer eval (ops ++ [.give v p, .blk (.getFuture v)]) (futures eval ops) = some .blocks ∧
      answer eval (ops ++ [.give v p, .blk (.getFuture v), .blk (.execute v)]) (futures eval ops) =
        some (.result (eval (TS.init.run eval ops).ps.w.log t.fn)) ∧
      answers eval (ops ++ [.give v p, .blk (.getFuture v), .blk (.execute v)]) (.blk (.isFinished v)) (some (.bool true)) := by
  have k0 := inv_run (eval := eval) ops
  simp only [answers, answer, run_append, futures] at h ⊢
  generalize TS.init.run eval ops = s at h k0 ⊢
  cases hb : s.ps.blocks v with
  | some b => simp [TS.step, hb] at h
  | none =>
    cases ht : s.tasks p with
    | none => simp [TS.step, hb, ht] at h
    | some t =>
      cases hs : t.state with
      | none => simp [TS.step, hb, ht, Block.ofTask, Block.reset, Task.reset, hs] at h
      | some i =>
        have e := ofTask_some s.ps.w t hs
        have hi : i < s.ps.w.states.length := k0.inv.lt (false, p) i (by simp [ref, ht, hs])
        have hnew : (s.ps.w.alloc.1.abandon (some i)).states[s.ps.w.states.length]? = some none := by
          simp only [World.abandon]
          rw [set_other _ _ (by omega)]
          simp [World.alloc]
        have hlog : (s.ps.w.alloc.1.abandon (some i)).log = s.ps.w.log := set_log _ _ _
        refine ⟨t, rfl, ?_, ?_, ?_, ?_⟩
        · simp [TS.run, TS.step, hb, ht, e, PS.step, upd, Block.isFinished]
        · simp [TS.run, TS.step, hb, ht, e, PS.step, upd, Block.getFuture, World.answer, World.read, hnew]
        · simp only [TS.run, TS.step, hb, ht, e, PS.step, upd, if_true, Block.getFuture, PS.call, Block.execute, Task.run, hnew, hlog]
          simp only [Bool.false_eq_true, if_false, List.getElem?_concat_length, Option.bind_some, World.answer, World.read]
          rw [set_same _ _ (by exact hnew)]
          rfl
        · simp only [TS.run, TS.step, hb, ht, e, PS.step, upd, if_true, Block.getFuture, PS.call, Block.execute, Task.run, hnew, hlog]
          simp [upd, Block.isFinished]

/-- C144: a task that updateTask accepts makes the block unfinished.  If the task has not been run, a future taken from the block then
gets the result of its function when the block is executed; if it has, executing the block throws. -/
theorem updated_runs_partial (ops : List TOp) (p v : Nat) (h : answers eval ops (.updateTask v p) (some .unit)) :
    ∃ t, (TS.init.run eval ops).tasks p = some t ∧
      answers eval (ops ++ [.updateTask v p]) (.blk (.isFinished v)) (some (.bool false)) ∧
      ((answer eval (ops ++ [.updateTask v p, .blk (.getFuture v)]) (futures eval ops) = some .blocks ∧
        answer eval (ops ++ [.updateTask v p, .blk (.getFuture v), .blk (.execute v)]) (futures eval ops) =
          some (.result (eval (TS.init.run eval ops).ps.w.log t.fn)) ∧
        answers eval (ops ++ [.updateTask v p, .blk (.getFuture v), .blk (.execute v)]) (.blk (.isFinished v)) (some (.bool true))) ∨
       (∃ r, answer eval (ops ++ [.updateTask v p, .blk (.getFuture v)]) (futures eval ops) = some (.result r)) ∧
        answers eval (ops ++ [.updateTask v p]) (.blk (.execute v)) (some (.throws .alreadySatisfied)) ∧
        answers eval (ops ++ [.updateTask v p, .blk (.execute v)]) (.blk (.isFinished v)) (some (.bool false))) := by
  have k0 := inv_run (eval := eval) ops
  simp only [answers, answer, run_append, futures] at h ⊢
  generalize TS.init.run eval ops = s at h k0 ⊢
  cases hb : s.ps.blocks v with
  | none => simp [TS.step, hb] at h
  | some b =>
    cases ht : s.tasks p with
    | none => simp [TS.step, hb, ht] at h
    | some t =>
      cases hs : t.state with
      | none => simp [TS.step, hb, ht, Block.updateTask, Block.reset, Task.getFuture, hs, PS.call] at h
      | some i =>
        cases hr : t.retrieved with
        | true => simp [TS.step, hb, ht, Block.updateTask, Block.reset, Task.getFuture, hs, hr, PS.call] at h
        | false =>
          have e : b.updateTask s.ps.w t = (s.ps.w.abandon b.task.state, ⟨⟨t.fn, some i, true⟩, some i, false, true⟩, none) := by
            simp [Block.updateTask, Block.reset, Task.getFuture, hs, hr]
          have hi : i < s.ps.w.states.length := k0.inv.lt (false, p) i (by simp [ref, ht, hs])
          have hne : b.task.state ≠ some i := by
            intro h
            have := k0.inv.inj (true, v) (false, p) i (by simp [ref, hb, h]) (by simp [ref, ht, hs])
            cases this
          have hkeep : (s.ps.w.abandon b.task.state).states[i]? = s.ps.w.states[i]? := (Tr.abandon _ _).keep i hi hne
          have hlog : (s.ps.w.abandon b.task.state).log = s.ps.w.log := by
            cases b.task.state with
            | none => rfl
            | some j => exact set_log _ _ _
          refine ⟨t, rfl, ?_, ?_⟩
          · simp [TS.run, TS.step, hb, ht, e, PS.step, PS.call, upd, Block.isFinished]
          · have hx := List.getElem?_eq_getElem hi
            cases hy : s.ps.w.states[i] with
            | none =>
              rw [hy] at hx
              rw [hx] at hkeep
              refine .inl ⟨?_, ?_, ?_⟩
              · simp [TS.run, TS.step, hb, ht, e, PS.step, PS.call, upd, Block.getFuture, World.answer, World.read, hkeep]
              · simp only [TS.run, TS.step, hb, ht, e, PS.step, upd, if_true, Block.getFuture, PS.call, Block.execute, Task.run, hkeep, hlog]
                simp only [Bool.false_eq_true, if_false, List.getElem?_concat_length, Option.bind_some, World.answer, World.read]
                rw [set_same _ _ (by exact hkeep)]
                rfl
              · simp only [TS.run, TS.step, hb, ht, e, PS.step, upd, if_true, Block.getFuture, PS.call, Block.execute, Task.run, hkeep, hlog]
                simp [upd, Block.isFinished]
            | some r =>
              rw [hy] at hx
              rw [hx] at hkeep
              refine .inr ⟨⟨r, ?_⟩, ?_, ?_⟩
              · simp [TS.run, TS.step, hb, ht, e, PS.step, PS.call, upd, Block.getFuture, World.answer, World.read, hkeep]
              · simp [TS.run, TS.step, hb, ht, e, PS.step, upd, PS.call, Block.execute, Task.run, hkeep]
              · simp [TS.run, TS.step, hb, ht, e, PS.step, upd, PS.call, Block.execute, Task.run, hkeep, Block.isFinished]

/-! ### Concrete programs -/

/-- results of functions in the examples -/
def demo : List Nat → Nat → Res Nat := fun log f => .value (10 * f + log.length)

/-- a task whose future is taken, which is then given to block 1; a block in between, and what is done later -/
example : answers demo [.task 0 7] (.taskFuture 0) (some .unit) ∧ (∀ op ∈ [TOp.blk (.make 2 8)], op.uses 0 = false) ∧
    answer demo ([.task 0 7] ++ .taskFuture 0 :: [.blk (.make 2 8)]) (futures demo [.task 0 7]) = some .blocks ∧
    ¬ answers demo ([.task 0 7] ++ .taskFuture 0 :: [.blk (.make 2 8)]) (.give 1 0) none ∧
    ¬ answers demo ([.task 0 7] ++ .taskFuture 0 :: [.blk (.make 2 8)]) (.updateTask 2 0) none := by
  refine ⟨rfl, by simp [TOp.uses], rfl, ?_, ?_⟩ <;> (unfold answers; decide)

/-- C144 is violated: the function 7 has been run by the block, but the future taken from the task is broken. -/
theorem given_violation : answer demo [.task 0 7, .taskFuture 0, .give 1 0, .blk (.execute 1)] 0 = some (.result .broken) ∧
    (TS.init.run demo [.task 0 7, .taskFuture 0, .give 1 0, .blk (.execute 1)]).ps.w.log = [7] := ⟨rfl, rfl⟩

/-- C144 is violated: updateTask throws, the block then claims to be finished although nothing has been run, and the future taken from
the task waits until the block is destroyed. -/
theorem updated_violation :
    answers demo [.task 0 7, .taskFuture 0, .blk (.make 1 8)] (.updateTask 1 0) (some (.throws .alreadyRetrieved)) ∧
    answers demo [.task 0 7, .taskFuture 0, .blk (.make 1 8), .updateTask 1 0] (.blk (.execute 1)) (some .unit) ∧
    answers demo [.task 0 7, .taskFuture 0, .blk (.make 1 8), .updateTask 1 0, .blk (.execute 1)] (.blk (.isFinished 1)) (some (.bool true)) ∧
    (TS.init.run demo [.task 0 7, .taskFuture 0, .blk (.make 1 8), .updateTask 1 0, .blk (.execute 1)]).ps.w.log = [] ∧
    answer demo [.task 0 7, .taskFuture 0, .blk (.make 1 8), .updateTask 1 0, .blk (.execute 1)] 0 = some .blocks ∧
    answer demo [.task 0 7, .taskFuture 0, .blk (.make 1 8), .updateTask 1 0, .blk (.execute 1), .blk (.destroy 1)] 0 = some (.result .broken) :=
  ⟨rfl, rfl, rfl, rfl, rfl, rfl⟩

/-- the hypotheses of `future_settled`, `given_runs_partial` and both cases of `updated_runs_partial` are met -/
example : answer demo [.task 0 7, .taskFuture 0, .taskRun 0] 0 = some (.result (.value 70)) ∧
    answers demo [.task 0 7, .taskFuture 0, .taskRun 0] (.give 1 0) (some .unit) ∧
    answers demo [.blk (.make 1 8), .task 0 7] (.updateTask 1 0) (some .unit) ∧
    answers demo [.blk (.make 1 8), .task 0 7, .taskRun 0] (.updateTask 1 0) (some .unit) ∧
    answers demo [.blk (.make 1 8), .task 0 7, .taskRun 0, .updateTask 1 0] (.blk (.execute 1)) (some (.throws .alreadySatisfied)) :=
  ⟨rfl, rfl, rfl, rfl, rfl⟩

/-- the hypothesis of `no_future_waits` is met after a program that takes futures -/
example : allGone demo [.task 0 7, .taskFuture 0, .give 1 0, .blk (.getFuture 1), .blk (.destroy 1), .taskDestroy 0] ∧
    futures demo [.task 0 7, .taskFuture 0, .give 1 0, .blk (.getFuture 1), .blk (.destroy 1), .taskDestroy 0] = 2 := by
  refine ⟨fun v => ?_, rfl⟩
  match v with
  | 0 => exact ⟨rfl, rfl⟩
  | 1 => exact ⟨rfl, rfl⟩
  | v + 2 => exact ⟨rfl, rfl⟩

end Verif.WorkBlock.Tasks
