import Verif.WorkBlock.Spec

/-
The property C68 of WorkBlock.
-/
namespace Verif.WorkBlock

variable {V : Type} {eval : List Nat → Nat → Res V}

/-- the block `b` in world `w` is the abstract block `a` -/
structure Rep (w : World V) (b : Block) (a : Abs V) : Prop where
  loaded : b.loaded = true
  retrieved : b.task.retrieved = true
  fn : b.task.fn = a.fn
  finished : b.finished = a.finished
  log : w.log = a.log
  done : a.finished = a.result.isSome
  state : ∃ i, b.task.state = some i ∧ b.future = some i ∧ w.states[i]? = some a.result

theorem set_other (w : World V) {i j : Nat} (r : Res V) (h : i ≠ j) : (w.set i r).states[j]? = w.states[j]? := by
  unfold World.set
  split
  · exact List.getElem?_set_ne h
  · rfl

theorem set_same (w : World V) {i : Nat} (r : Res V) (h : w.states[i]? = some none) : (w.set i r).states[i]? = some (some r) := by
  have hi : i < w.states.length := by
    rcases Nat.lt_or_ge i w.states.length with h' | h'
    · exact h'
    · rw [List.getElem?_eq_none h'] at h; cases h
  unfold World.set
  rw [h]
  exact List.getElem?_set_self hi

theorem set_log (w : World V) (i : Nat) (r : Res V) : (w.set i r).log = w.log := by
  unfold World.set; split <;> rfl

theorem reset_rep {w : World V} {t : Task} {b : Block} (hl : b.loaded = true) (ht : b.task = t) {i : Nat} (hs : t.state = some i)
    (hi : i < w.states.length) : ∃ w' b', b.reset w = (w', b', none) ∧ Rep w' b' ⟨t.fn, false, none, w.log⟩ ∧
      b'.future = some w.states.length := by
  subst ht
  refine ⟨(w.alloc.1).abandon (some i), ⟨⟨b.task.fn, some w.alloc.2, true⟩, some w.alloc.2, false, true⟩, ?_, ?_, rfl⟩
  · simp [Block.reset, hl, Task.reset, hs, Task.getFuture]
  · refine ⟨rfl, rfl, rfl, rfl, set_log _ _ _, rfl, w.alloc.2, rfl, rfl, ?_⟩
    simp only [World.abandon]
    rw [set_other _ _ (by simp only [World.alloc]; omega)]
    simp [World.alloc]

theorem update_rep {w : World V} {b : Block} {t : Task} (hn : t.new w) (hne : t.state ≠ b.task.state) :
    ∃ w' b', b.updateTask w t = (w', b', none) ∧ Rep w' b' ⟨t.fn, false, none, w.log⟩ := by
  obtain ⟨i, h1, h2, h3⟩ := hn
  have hstate : (w.abandon b.task.state).states[i]? = some none := by
    cases hb : b.task.state with
    | none => exact h2
    | some j =>
      rw [hb, h1] at hne
      simp only [World.abandon]
      rw [set_other _ _ (fun e => hne (by rw [e]))]; exact h2
  have hlog : (w.abandon b.task.state).log = w.log := by
    cases hb : b.task.state with
    | none => rfl
    | some j => exact set_log _ _ _
  refine ⟨w.abandon b.task.state, ⟨⟨t.fn, some i, true⟩, some i, false, true⟩, ?_, rfl, rfl, rfl, rfl, hlog, rfl, i, rfl, rfl, hstate⟩
  simp [Block.updateTask, Block.reset, Task.getFuture, h1, h3]

theorem step_rep {w : World V} {b : Block} {a : Abs V} (r : Rep w b a) {op : Op}
    (hf : ∀ t, op = .updateTask t → t.new w ∧ t.state ≠ b.task.state) :
    Rep (step eval (w, b) op).1.1 (step eval (w, b) op).1.2 (a.step eval op).1 ∧
      (step eval (w, b) op).2 = (a.step eval op).2 := by
  obtain ⟨i, h1, h2, h3⟩ := r.state
  have hi : i < w.states.length := by
    rcases Nat.lt_or_ge i w.states.length with h | h
    · exact h
    · rw [List.getElem?_eq_none h] at h3; cases h3
  cases op with
  | execute =>
    have hfin := r.finished
    cases haf : a.finished with
    | true =>
      rw [haf] at hfin
      have : b.execute eval w = (w, b, none) := by simp [Block.execute, hfin]
      simp only [step, this, step.fin, Abs.step, haf, if_true]
      exact ⟨r, trivial⟩
    | false =>
      rw [haf] at hfin
      have hr : a.result = none := by
        have := r.done; rw [haf] at this
        cases h : a.result with
        | none => rfl
        | some x => rw [h] at this; cases this
      rw [hr] at h3
      have : b.execute eval w = (({ w with log := w.log ++ [b.task.fn] } : World V).set i (eval w.log b.task.fn), { b with finished := true }, none) := by
        simp [Block.execute, hfin, r.loaded, Task.run, h1, h3]
      simp only [step, this, step.fin, Abs.step, haf, Bool.false_eq_true, if_false]
      refine ⟨⟨r.loaded, r.retrieved, r.fn, rfl, ?_, rfl, i, h1, h2, ?_⟩, trivial⟩
      · rw [set_log]; simp [r.log, r.fn]
      · have := set_same ({ w with log := w.log ++ [b.task.fn] } : World V) (eval w.log b.task.fn) h3
        rw [this, r.log, r.fn]
  | reset =>
    obtain ⟨w', b', e, r', _⟩ := reset_rep r.loaded rfl h1 hi
    simp only [step, e, step.fin, Abs.step]
    rw [r.log, r.fn] at r'
    exact ⟨r', trivial⟩
  | updateWorkFunction f =>
    have hn : (Task.make w f).2.new (Task.make w f).1 := ⟨w.states.length, rfl, by simp [Task.make, World.alloc], rfl⟩
    obtain ⟨w', b', e, r'⟩ := update_rep (b := b) hn (by rw [h1]; simp only [Task.make, World.alloc]; intro e; cases e; omega)
    simp only [step, Block.updateWorkFunction, e, step.fin, Abs.step]
    have : (Task.make w f).1.log = a.log := r.log
    rw [this] at r'
    exact ⟨r', trivial⟩
  | updateTask t =>
    obtain ⟨hn, hne⟩ := hf t rfl
    obtain ⟨w', b', e, r'⟩ := update_rep hn hne
    simp only [step, e, step.fin, Abs.step]
    rw [r.log] at r'
    exact ⟨r', trivial⟩
  | isFinished => exact ⟨r, by simp [step, Abs.step, Block.isFinished, r.finished]⟩
  | getReturnVal =>
    refine ⟨r, ?_⟩
    simp only [step, Abs.step, Block.returnVal, World.read, h2, Option.bind_some, h3, Option.join_some]

theorem run_rep (ops : List Op) : ∀ {w : World V} {b : Block} {a : Abs V}, Rep w b a → fresh eval (w, b) ops →
    Rep (run eval (w, b) ops).1.1 (run eval (w, b) ops).1.2 (a.run eval ops).1 ∧
      (run eval (w, b) ops).2 = (a.run eval ops).2 := by
  induction ops with
  | nil => intro w b a r _; exact ⟨r, rfl⟩
  | cons op ops ih =>
    intro w b a r hf
    have key : (∀ t, op = .updateTask t → t.new w ∧ t.state ≠ b.task.state) ∧ fresh eval (step eval (w, b) op).1 ops := by
      cases op with
      | updateTask t => exact ⟨fun t' h => by cases h; exact hf.1, hf.2⟩
      | _ => exact ⟨fun t' h => (by cases h), hf⟩
    obtain ⟨r1, e1⟩ := step_rep (eval := eval) r key.1
    obtain ⟨r2, e2⟩ := ih r1 key.2
    exact ⟨r2, by simp only [run, Abs.run, e1]; exact congrArg _ e2⟩

/-- C68: a block made from a function, after any calls: every result is as specified, no call throws, and the runs of
functions are exactly those specified (in particular execute runs the function iff the block is not finished). -/
theorem history (w : World V) (f : Nat) : ∃ w' b, Block.ofFn w f = (w', some b) ∧
    ∀ ops, fresh eval (w', b) ops →
      (run eval (w', b) ops).2 = (Abs.run eval ⟨f, false, none, w.log⟩ ops).2 ∧
      (run eval (w', b) ops).1.1.log = (Abs.run eval ⟨f, false, none, w.log⟩ ops).1.log := by
  obtain ⟨w', b', e, r, _⟩ := reset_rep (w := (Task.make w f).1) (b := { task := (Task.make w f).2, future := none, finished := false, loaded := true })
    rfl rfl (i := w.states.length) rfl (by simp [Task.make, World.alloc])
  refine ⟨w', b', by simp only [Block.ofFn, Block.ofTask, e], fun ops hf => ?_⟩
  obtain ⟨r2, e2⟩ := run_rep ops r hf
  exact ⟨e2, r2.log⟩

/-- C68, the same for a block made from a packaged_task that has a function. -/
theorem history_task (w : World V) (t : Task) (i : Nat) (ht : t.state = some i) (hi : i < w.states.length) :
    ∃ w' b, Block.ofTask w t = (w', some b) ∧
    ∀ ops, fresh eval (w', b) ops →
      (run eval (w', b) ops).2 = (Abs.run eval ⟨t.fn, false, none, w.log⟩ ops).2 ∧
      (run eval (w', b) ops).1.1.log = (Abs.run eval ⟨t.fn, false, none, w.log⟩ ops).1.log := by
  obtain ⟨w', b', e, r, _⟩ := reset_rep (w := w) (b := { task := t, future := none, finished := false, loaded := true }) rfl rfl ht hi
  refine ⟨w', b', by simp only [Block.ofTask, e], fun ops hf => ?_⟩
  obtain ⟨r2, e2⟩ := run_rep ops r hf
  exact ⟨e2, r2.log⟩

/-- The value of a run depends on the runs before: here it is their number. -/
def count : List Nat → Nat → Res Nat := fun log f => .value (100 * f + log.length)

/-- A history with all the calls. -/
example : ∃ w b, Block.ofFn (⟨[none], []⟩ : World Nat) 3 = (w, some b) ∧
    fresh count (w, b) [.execute, .execute, .getReturnVal, .reset, .isFinished, .getReturnVal, .execute, .getReturnVal,
      .updateTask ⟨5, some 0, false⟩, .execute, .getReturnVal] ∧
    (run count (w, b) [.execute, .execute, .getReturnVal, .reset, .isFinished, .getReturnVal, .execute, .getReturnVal,
      .updateTask ⟨5, some 0, false⟩, .execute, .getReturnVal]).2 =
      [.unit, .unit, .result (.value 300), .unit, .bool false, .blocks, .unit, .result (.value 301), .unit, .unit,
       .result (.value 502)] := by
  refine ⟨_, _, rfl, ⟨⟨⟨0, rfl, rfl, rfl⟩, by decide⟩, trivial⟩, rfl⟩

/-- the future of a block that is not finished, after an execution -/
theorem execute_future {w : World V} {b : Block} {a : Abs V} (r : Rep w b a) (hf : b.finished = false) :
    (b.execute eval w).1.read b.getFuture = some (eval w.log b.task.fn) := by
  obtain ⟨i, h1, h2, h3⟩ := r.state
  have hr : a.result = none := by
    have := r.done; rw [← r.finished, hf] at this
    cases h : a.result with
    | none => rfl
    | some x => rw [h] at this; cases this
  rw [hr] at h3
  have := set_same ({ w with log := w.log ++ [b.task.fn] } : World V) (eval w.log b.task.fn) h3
  simp [Block.execute, hf, r.loaded, Task.run, h1, h3, Block.getFuture, World.read, h2, this]

/-- C68, futures: after any calls, a future that get_future gives out while the block is unfinished is ready with the
result of the execution as soon as the block is executed. -/
theorem future_of_execution (w : World V) (f : Nat) : ∃ w' b, Block.ofFn w f = (w', some b) ∧
    ∀ ops, fresh eval (w', b) ops → (run eval (w', b) ops).1.2.isFinished = false →
      ((run eval (w', b) ops).1.2.execute eval (run eval (w', b) ops).1.1).1.read (run eval (w', b) ops).1.2.getFuture
        = some (eval (run eval (w', b) ops).1.1.log (run eval (w', b) ops).1.2.task.fn) := by
  obtain ⟨w', b', e, r, _⟩ := reset_rep (w := (Task.make w f).1) (b := { task := (Task.make w f).2, future := none, finished := false, loaded := true })
    rfl rfl (i := w.states.length) rfl (by simp [Task.make, World.alloc])
  refine ⟨w', b', by simp only [Block.ofFn, Block.ofTask, e], fun ops hf hn => ?_⟩
  obtain ⟨r2, _⟩ := run_rep ops r hf
  exact execute_future r2 hn

/-- A ready future stays as it is, whatever is done with the block. -/
theorem future_stable (w : World V) (b : Block) (op : Op) (i : Nat) (x : Res V) (h : w.states[i]? = some (some x)) :
    (step eval (w, b) op).1.1.states[i]? = some (some x) := by
  have hset : ∀ (w : World V) j r, w.states[i]? = some (some x) → (w.set j r).states[i]? = some (some x) := by
    intro w j r h
    by_cases e : j = i
    · subst e; simp [World.set, h]
    · rw [set_other _ _ e]; exact h
  have habandon : ∀ (w : World V) o, w.states[i]? = some (some x) → (w.abandon o).states[i]? = some (some x) := by
    intro w o h
    cases o with
    | none => exact h
    | some j => exact hset _ _ _ h
  have halloc : ∀ (w : World V), w.states[i]? = some (some x) → w.alloc.1.states[i]? = some (some x) := by
    intro w h
    have hi : i < w.states.length := by
      rcases Nat.lt_or_ge i w.states.length with h' | h'
      · exact h'
      · rw [List.getElem?_eq_none h'] at h; cases h
    simp only [World.alloc]
    rw [List.getElem?_append_left hi]; exact h
  have hreset : ∀ (w : World V) (b : Block), w.states[i]? = some (some x) → (b.reset w).1.states[i]? = some (some x) := by
    intro w b h
    have hw : ((if b.loaded then b.task.reset w else (w, b.task, none) : World V × Task × Option Exc)).1.states[i]? = some (some x) := by
      split
      · unfold Task.reset
        split
        · exact h
        · exact habandon _ _ (halloc _ h)
      · exact h
    unfold Block.reset
    split
    · next e => rw [e] at hw; exact hw
    · next e =>
      rw [e] at hw
      split <;> exact hw
  have hupdate : ∀ (w : World V) (b : Block) t, w.states[i]? = some (some x) → (b.updateTask w t).1.states[i]? = some (some x) := by
    intro w b t h
    have := hreset (w.abandon b.task.state) { b with loaded := false, task := t } (habandon _ _ h)
    unfold Block.updateTask
    split <;> (next e => rw [e] at this; exact this)
  have hfin : ∀ r : World V × Block × Option Exc, (step.fin r).1.1 = r.1 := by
    rintro ⟨_, _, _ | _⟩ <;> rfl
  cases op with
  | execute =>
    simp only [step, hfin, Block.execute]
    split
    · exact h
    · split
      · have : (b.task.run eval w).1.states[i]? = some (some x) := by
          unfold Task.run
          split
          · exact h
          · split
            · exact hset _ _ _ h
            · exact h
        split <;> (next e => rw [e] at this; exact this)
      · exact h
  | reset => simp only [step, hfin]; exact hreset _ _ h
  | updateWorkFunction f => simp only [step, hfin, Block.updateWorkFunction]; exact hupdate _ _ _ (halloc _ h)
  | updateTask t => simp only [step, hfin]; exact hupdate _ _ _ h
  | isFinished => exact h
  | getReturnVal => exact h

/-! ### Where C68 does not apply -/

/-- The default constructor always throws, in both variants: the task has no shared state. -/
theorem default_throws (w : World V) : (Block.default w).2 = none := rfl

/-- A future that the caller took from a packaged_task before giving it to a new block is never fulfilled: it is broken at
once. -/
theorem ofTask_breaks_future (w : World V) (t : Task) (i : Nat) (ht : t.state = some i) (hw : w.states[i]? = some none) :
    (Block.ofTask w t).1.read (some i) = some .broken := by
  have hi : i < w.states.length := by
    rcases Nat.lt_or_ge i w.states.length with h' | h'
    · exact h'
    · rw [List.getElem?_eq_none h'] at hw; cases hw
  have ha : (w.alloc).1.states[i]? = some none := by
    simp only [World.alloc]; rw [List.getElem?_append_left hi]; exact hw
  have := set_same w.alloc.1 .broken ha
  simp [Block.ofTask, Block.reset, Task.reset, ht, Task.getFuture, World.read, World.abandon, this]

/-- updateTask with a task whose future the caller has taken throws, and the block has lost its function: execute then
marks it finished without running anything. -/
theorem updateTask_retrieved (w : World V) (b : Block) (t : Task) (i : Nat) (ht : t.state = some i) (hr : t.retrieved = true) :
    ∃ w' b', b.updateTask w t = (w', b', some .alreadyRetrieved) ∧ b'.isFinished = false ∧
      ∃ b'', b'.execute eval w' = (w', b'', none) ∧ b''.isFinished = true := by
  refine ⟨w.abandon b.task.state, { b with loaded := false, task := t, finished := false }, ?_, rfl,
    { b with loaded := false, task := t, finished := true }, ?_, ?_⟩
  · simp [Block.updateTask, Block.reset, Task.getFuture, ht, hr]
  · simp [Block.execute]
  · rfl

/-- updateTask with a task that has already run, its future not taken: execute throws and the block stays unfinished. -/
theorem updateTask_spent (w : World V) (b : Block) (t : Task) (i : Nat) (x : Res V) (ht : t.state = some i) (hr : t.retrieved = false)
    (hw : w.states[i]? = some (some x)) :
    ∃ w' b', b.updateTask w t = (w', b', none) ∧ b'.isFinished = false ∧ b'.execute eval w' = (w', b', some .alreadySatisfied) := by
  refine ⟨w.abandon b.task.state, ⟨⟨t.fn, some i, true⟩, some i, false, true⟩, ?_, rfl, ?_⟩
  · simp [Block.updateTask, Block.reset, Task.getFuture, ht, hr]
  · have : (w.abandon b.task.state).states[i]? = some (some x) := by
      cases b.task.state with
      | none => exact hw
      | some j =>
        by_cases e : j = i
        · subst e; simp [World.abandon, World.set, hw]
        · simp only [World.abandon]; rw [set_other _ _ e]; exact hw
    simp [Block.execute, Task.run, this]

/-- A block made by moving is the old one; the old one, if it was not finished, throws when executed, and if it was,
execute does nothing; it cannot be reset. -/
theorem moved_from (w : World V) (b : Block) (hl : b.loaded = true) :
    b.moveFrom.1 = b ∧
    (b.moveFrom.2.execute eval w).1 = w ∧ (b.moveFrom.2.execute eval w).2.2 = (if b.isFinished then none else some .noState) ∧
    (b.moveFrom.2.reset w).2.2 = some .noState := by
  refine ⟨rfl, ?_, ?_, ?_⟩
  · cases h : b.finished <;> simp [Block.execute, Block.moveFrom, h, hl, Task.run]
  · cases h : b.finished <;> simp [Block.execute, Block.moveFrom, h, hl, Task.run, Block.isFinished]
  · simp [Block.reset, Block.moveFrom, hl, Task.reset]

/-- Move assignment breaks the future of the block assigned to, if that was not executed. -/
theorem moveAssign_breaks (w : World V) (a b : Block) (i : Nat) (ha : a.task.state = some i) (hw : w.states[i]? = some none) :
    (a.moveAssign w b).1.read (some i) = some .broken := by
  have := set_same w .broken hw
  simp [Block.moveAssign, ha, World.abandon, World.read, this]

/-- WorkBlock<void>: getReturnVal returns normally although the function threw. -/
theorem void_drops_exceptions : ∃ w b, Block.ofFn (⟨[], []⟩ : World Nat) 3 = (w, some b) ∧
    ∃ w' b', b.execute (fun _ _ => .error 1) w = (w', b', none) ∧ b'.returnVal w' = some (.error 1) ∧ b'.returnVoid w' = some () :=
  ⟨_, _, rfl, _, _, rfl, rfl, rfl⟩

end Verif.WorkBlock
