import Verif.WorkBlock.Memory

/-
C145: work blocks when memory runs out.
-/
namespace Verif.WorkBlock
variable {V : Type} {eval : List Nat → Nat → Res V}

/-- the block `b` in world `w` is the abstract block `m` -/
structure MRep (w : World V) (b : Block) (m : Lossy V) : Prop where
  loaded : b.loaded = !m.lost
  retrieved : b.task.retrieved = true
  fn : b.task.fn = m.abs.fn
  finished : b.finished = m.abs.finished
  log : w.log = m.abs.log
  done : m.lost = false → m.abs.finished = m.abs.result.isSome
  state : ∃ i, b.task.state = some i ∧ b.future = some i ∧ w.states[i]? = some m.abs.result

theorem Rep.lossy {w : World V} {b : Block} {a : Abs V} (r : Rep w b a) : MRep w b ⟨a, false⟩ :=
  ⟨r.loaded, r.retrieved, r.fn, r.finished, r.log, fun _ => r.done, r.state⟩

theorem MRep.whole {w : World V} {b : Block} {m : Lossy V} (r : MRep w b m) (h : m.lost = false) : Rep w b m.abs :=
  ⟨by rw [r.loaded, h]; rfl, r.retrieved, r.fn, r.finished, r.log, r.done h, r.state⟩

theorem reset_lost {w : World V} {b : Block} (hl : b.loaded = false) (hr : b.task.retrieved = true) {i : Nat} (hs : b.task.state = some i) :
    b.reset w = (w, { b with finished := false }, some .alreadyRetrieved) := by
  simp [Block.reset, hl, Task.getFuture, hs, hr]

theorem mstep_rep {w : World V} {b : Block} {m : Lossy V} (r : MRep w b m) {op : MOp}
    (hf : ∀ t, op = .ok (.updateTask t) → t.new w ∧ t.state ≠ b.task.state) :
    MRep (mstep eval (w, b) op).1.1 (mstep eval (w, b) op).1.2 (m.step eval op).1 ∧
      (mstep eval (w, b) op).2 = (m.step eval op).2 := by
  obtain ⟨i, h1, h2, h3⟩ := r.state
  cases hm : m.lost with
  | false =>
    have r0 := r.whole hm
    have S := fun op hf => step_rep (eval := eval) r0 (op := op) hf
    cases op with
    | ok op =>
      have K := S op (fun t e => hf t (by rw [e]))
      cases op with
      | execute =>
        refine ⟨?_, ?_⟩
        · simp only [mstep, Lossy.step, hm, Bool.false_eq_true, if_false]; exact K.1.lossy
        · simp only [mstep, Lossy.step, hm, Bool.false_eq_true, if_false, K.2, Abs.step]
          split <;> rfl
      | reset =>
        refine ⟨?_, ?_⟩
        · simp only [mstep, Lossy.step, hm, Bool.false_eq_true, if_false]; exact K.1.lossy
        · simp only [mstep, Lossy.step, hm, Bool.false_eq_true, if_false, K.2, Abs.step]
      | updateWorkFunction f => exact ⟨K.1.lossy, congrArg MOut.out K.2⟩
      | updateTask t => exact ⟨K.1.lossy, congrArg MOut.out K.2⟩
      | isFinished => exact ⟨r, congrArg MOut.out K.2⟩
      | getReturnVal => exact ⟨r, congrArg MOut.out K.2⟩
    | resetFails =>
      have hl : b.loaded = true := r0.loaded
      simp only [mstep, Block.resetFails, hl, if_true, h1, Lossy.step, hm, Bool.false_eq_true, if_false]
      exact ⟨r, trivial⟩
    | updateFails f =>
      exact ⟨⟨rfl, r.retrieved, r.fn, r.finished, r.log, fun h => (by cases h), r.state⟩, rfl⟩
  | true =>
    have hl : b.loaded = false := by rw [r.loaded, hm]; rfl
    have hi : i < w.states.length := by
      rcases Nat.lt_or_ge i w.states.length with h | h
      · exact h
      · rw [List.getElem?_eq_none h] at h3; cases h3
    have hd : ∀ {f : Bool}, (m.lost = false → f = m.abs.result.isSome) := fun h => by rw [hm] at h; cases h
    have hreset : MRep w { b with finished := false } { m with abs := { m.abs with finished := false } } :=
      ⟨r.loaded, r.retrieved, r.fn, rfl, r.log, hd, r.state⟩
    cases op with
    | ok op =>
      cases op with
      | execute =>
        cases hfin : b.finished with
        | true =>
          have : b.execute eval w = (w, b, none) := by simp [Block.execute, hfin]
          simp only [mstep, step, this, step.fin, Lossy.step, hm, if_true]
          exact ⟨⟨r.loaded.trans (by rw [hm]), r.retrieved, r.fn, hfin, r.log, fun h => (by cases h), r.state⟩, trivial⟩
        | false =>
          have : b.execute eval w = (w, { b with finished := true }, none) := by simp [Block.execute, hfin, hl]
          simp only [mstep, step, this, step.fin, Lossy.step, hm, if_true]
          exact ⟨⟨r.loaded.trans (by rw [hm]), r.retrieved, r.fn, rfl, r.log, fun h => (by cases h), r.state⟩, trivial⟩
      | reset =>
        simp only [mstep, step, reset_lost hl r.retrieved h1, step.fin, Lossy.step, hm, if_true]
        rw [hm] at hreset
        exact ⟨hreset, trivial⟩
      | updateWorkFunction f =>
        have hn : (Task.make w f).2.new (Task.make w f).1 := ⟨w.states.length, rfl, by simp [Task.make, World.alloc], rfl⟩
        obtain ⟨w', b', e, r'⟩ := update_rep (b := b) hn (by rw [h1]; simp only [Task.make, World.alloc]; intro e; cases e; omega)
        have hlog : (Task.make w f).1.log = m.abs.log := r.log
        rw [hlog] at r'
        simp only [mstep, step, Block.updateWorkFunction, e, step.fin, Lossy.step]
        exact ⟨r'.lossy, trivial⟩
      | updateTask t =>
        obtain ⟨hn, hne⟩ := hf t rfl
        obtain ⟨w', b', e, r'⟩ := update_rep hn hne
        rw [r.log] at r'
        simp only [mstep, step, e, step.fin, Lossy.step]
        exact ⟨r'.lossy, trivial⟩
      | isFinished => exact ⟨r, by simp [mstep, step, Lossy.step, Abs.step, Block.isFinished, r.finished]⟩
      | getReturnVal =>
        refine ⟨r, ?_⟩
        simp only [mstep, step, Lossy.step, Abs.step, Block.returnVal, World.read, h2, Option.bind_some, h3, Option.join_some]
    | resetFails =>
      have e : b.resetFails w = ((w, { b with finished := false }), .out (.throws .alreadyRetrieved)) := by
        rw [Block.resetFails, if_neg (by rw [hl]; decide), reset_lost hl r.retrieved h1]; rfl
      simp only [mstep, e, Lossy.step, hm, if_true]
      rw [hm] at hreset
      exact ⟨hreset, trivial⟩
    | updateFails f =>
      exact ⟨⟨rfl, r.retrieved, r.fn, r.finished, r.log, fun h => (by cases h), r.state⟩, rfl⟩

theorem mrun_rep (ops : List MOp) : ∀ {w : World V} {b : Block} {m : Lossy V}, MRep w b m → mfresh eval (w, b) ops →
    MRep (mrun eval (w, b) ops).1.1 (mrun eval (w, b) ops).1.2 (m.run eval ops).1 ∧
      (mrun eval (w, b) ops).2 = (m.run eval ops).2 := by
  induction ops with
  | nil => intro w b m r _; exact ⟨r, rfl⟩
  | cons op ops ih =>
    intro w b m r hf
    obtain ⟨r1, e1⟩ := mstep_rep (eval := eval) r hf.1
    obtain ⟨r2, e2⟩ := ih r1 hf.2
    exact ⟨r2, by simp only [mrun, Lossy.run, e1]; exact congrArg _ e2⟩

theorem ofFn_rep (w : World V) (f : Nat) : ∃ w' b, Block.ofFn w f = (w', some b) ∧ Rep w' b ⟨f, false, none, w.log⟩ := by
  obtain ⟨w', b', e, r, _⟩ := reset_rep (w := (Task.make w f).1) (b := { task := (Task.make w f).2, future := none, finished := false, loaded := true })
    rfl rfl (i := w.states.length) rfl (by simp [Task.make, World.alloc])
  exact ⟨w', b', by simp only [Block.ofFn, Block.ofTask, e], r⟩

/-- Exactly what blocks do in every history in which any calls get no memory: all results, and the functions that are run. -/
theorem memory_exact (w : World V) (f : Nat) : ∃ w' b, Block.ofFn w f = (w', some b) ∧
    ∀ ops, mfresh eval (w', b) ops →
      (mrun eval (w', b) ops).2 = (Lossy.run eval ⟨⟨f, false, none, w.log⟩, false⟩ ops).2 ∧
      (mrun eval (w', b) ops).1.1.log = (Lossy.run eval ⟨⟨f, false, none, w.log⟩, false⟩ ops).1.abs.log := by
  obtain ⟨w', b, e, r⟩ := ofFn_rep w f
  refine ⟨w', b, e, fun ops hf => ?_⟩
  obtain ⟨r2, e2⟩ := mrun_rep ops r.lossy hf
  exact ⟨e2, r2.log⟩

/-- no update fails -/
def noFailedUpdate (ops : List MOp) : Prop := ∀ f, .updateFails f ∉ ops

theorem lossy_ideal (ops : List MOp) : ∀ (a : Abs V), noFailedUpdate ops →
    (Lossy.run eval ⟨a, false⟩ ops).2 = (a.mrun eval ops).2 ∧ (Lossy.run eval ⟨a, false⟩ ops).1 = ⟨(a.mrun eval ops).1, false⟩ := by
  induction ops with
  | nil => intro a _; exact ⟨rfl, rfl⟩
  | cons op ops ih =>
    intro a hn
    have hs : (Lossy.step eval ⟨a, false⟩ op).1 = ⟨(a.mstep eval op).1, false⟩ ∧ (Lossy.step eval ⟨a, false⟩ op).2 = (a.mstep eval op).2 := by
      cases op with
      | updateFails f => exact absurd (List.mem_cons_self ..) (hn f)
      | resetFails => exact ⟨rfl, rfl⟩
      | ok op =>
        cases op with
        | execute => refine ⟨rfl, ?_⟩; simp only [Lossy.step, Abs.mstep, Abs.step, Bool.false_eq_true, if_false]; split <;> rfl
        | _ => exact ⟨rfl, rfl⟩
    obtain ⟨h1, h2⟩ := ih (a.mstep eval op).1 (fun f h => hn f (List.mem_cons_of_mem _ h))
    refine ⟨?_, ?_⟩
    · simp only [Lossy.run, Abs.mrun, hs.1, hs.2, h1]
    · simp only [Lossy.run, Abs.mrun, hs.1, h2]

/-- C145, restricted: calls of reset that get no memory have no effect.  In every history without failing updates, they throw and all
other calls do what they would do without them.
Missing: calls of updateWorkFunction that get no memory, see `failed_update_loses`. -/
theorem failed_reset_partial (w : World V) (f : Nat) : ∃ w' b, Block.ofFn w f = (w', some b) ∧
    ∀ ops, mfresh eval (w', b) ops → noFailedUpdate ops →
      (mrun eval (w', b) ops).2 = (Abs.mrun eval ⟨f, false, none, w.log⟩ ops).2 ∧
      (mrun eval (w', b) ops).1.1.log = (Abs.mrun eval ⟨f, false, none, w.log⟩ ops).1.log := by
  obtain ⟨w', b, e, H⟩ := memory_exact (eval := eval) w f
  refine ⟨w', b, e, fun ops hf hn => ?_⟩
  obtain ⟨h1, h2⟩ := H ops hf
  obtain ⟨h3, h4⟩ := lossy_ideal (eval := eval) ops ⟨f, false, none, w.log⟩ hn
  rw [h4] at h2
  exact ⟨h1.trans h3, h2⟩

/-- The call does not give the block a new function. -/
def noUpdate : MOp → Prop
  | .ok (.updateWorkFunction _) | .ok (.updateTask _) => False
  | _ => True

theorem lost_step {w : World V} {b : Block} (hl : b.loaded = false) (hr : b.task.retrieved = true) (i : Nat) (hi : b.task.state = some i)
    (hfu : b.future = some i) (op : MOp) (ho : noUpdate op) :
    ∃ fin, (mstep eval (w, b) op).1 = (w, { b with finished := fin }) := by
  cases op with
  | updateFails f => exact ⟨b.finished, by simp only [mstep, Block.updateFails, ← hl]⟩
  | resetFails =>
    exact ⟨false, by simp only [mstep, Block.resetFails, hl, Bool.false_eq_true, if_false, reset_lost hl hr hi, step.fin]⟩
  | ok op =>
    cases op with
    | execute =>
      refine ⟨true, ?_⟩
      cases hfin : b.finished with
      | true =>
        have : b.execute eval w = (w, b, none) := by simp [Block.execute, hfin]
        simp only [mstep, step, this, step.fin, ← hfin]
      | false =>
        have : b.execute eval w = (w, { b with finished := true }, none) := by simp [Block.execute, hfin, hl]
        simp only [mstep, step, this, step.fin]
    | reset => exact ⟨false, by simp only [mstep, step, reset_lost hl hr hi, step.fin]⟩
    | updateWorkFunction f => exact ho.elim
    | updateTask t => exact ho.elim
    | isFinished => exact ⟨b.finished, rfl⟩
    | getReturnVal => exact ⟨b.finished, rfl⟩

theorem lost_run {w : World V} (ops : List MOp) : ∀ {b : Block}, b.loaded = false → b.task.retrieved = true → ∀ i, b.task.state = some i →
    b.future = some i → (∀ op ∈ ops, noUpdate op) → ∃ fin, (mrun eval (w, b) ops).1 = (w, { b with finished := fin }) := by
  induction ops with
  | nil => intro b _ _ i _ _ _; exact ⟨b.finished, rfl⟩
  | cons op ops ih =>
    intro b hl hr i hi hfu ho
    obtain ⟨fin, e⟩ := lost_step (eval := eval) (w := w) hl hr i hi hfu op (ho op (List.mem_cons_self ..))
    obtain ⟨fin', e'⟩ := ih (b := { b with finished := fin }) hl hr i hi hfu (fun o h => ho o (List.mem_cons_of_mem _ h))
    exact ⟨fin', by rw [mrun, e]; exact e'⟩

/-- C145 fails, in every history: after a call of updateWorkFunction that gets no memory, whatever is called except updates that succeed,
no function is ever run; a future taken from the block before, if the function had not run, waits for ever, also when the block has been
executed and says that it is finished; and reset throws. -/
theorem failed_update_loses (w : World V) (f : Nat) : ∃ w' b, Block.ofFn w f = (w', some b) ∧
    ∀ ops, mfresh eval (w', b) ops → ∀ g rest, (∀ op ∈ rest, noUpdate op) →
      let s := (mrun eval (w', b) ops).1
      let s1 := (mstep eval s (.updateFails g)).1
      let s2 := (mrun eval s1 rest).1
      s2.1.log = s.1.log ∧ s2.1.read s.2.getFuture = s.1.read s.2.getFuture ∧ s2.2.returnVal s2.1 = s.1.read s.2.getFuture ∧
      (mstep eval s2 (.ok .execute)).2 = .out .unit ∧ (mstep eval s2 (.ok .execute)).1.1 = s2.1 ∧
      (mstep eval s2 (.ok .execute)).1.2.isFinished = true ∧
      (mstep eval s2 (.ok .reset)).2 = .out (.throws .alreadyRetrieved) := by
  obtain ⟨w', b, e, r⟩ := ofFn_rep w f
  refine ⟨w', b, e, fun ops hf g rest hu => ?_⟩
  obtain ⟨r2, -⟩ := mrun_rep ops r.lossy hf
  intro s s1 s2
  obtain ⟨i, h1, h2, h3⟩ := r2.state
  have e1 : s1 = (s.1, { s.2 with loaded := false }) := rfl
  obtain ⟨fin, e2⟩ : ∃ fin, s2 = (s.1, { s.2 with loaded := false, finished := fin }) :=
    lost_run (eval := eval) (w := s.1) rest (b := { s.2 with loaded := false }) rfl r2.retrieved i h1 h2 hu
  refine ⟨by rw [e2], by rw [e2], by rw [e2]; rfl, ?_⟩
  rw [e2]
  refine ⟨?_, ?_, ?_, ?_⟩
  · simp only [mstep, step, Block.execute]; cases fin <;> rfl
  · simp only [mstep, step, Block.execute]; cases fin <;> rfl
  · simp only [mstep, step, Block.execute]; cases fin <;> rfl
  · have hs : s.2.task.state = some i := h1
    have hr : s.2.task.retrieved = true := r2.retrieved
    simp only [mstep, step]
    rw [reset_lost (b := { s.2 with loaded := false, finished := fin }) rfl hr hs]; rfl

/-- A successful update after any history makes the block whole: from then on it is a new block (C68) until the next failing update. -/
theorem update_recovers (w : World V) (f : Nat) : ∃ w' b, Block.ofFn w f = (w', some b) ∧
    ∀ ops, mfresh eval (w', b) ops → ∀ g rest,
      let s1 := (mstep eval (mrun eval (w', b) ops).1 (.ok (.updateWorkFunction g))).1
      mfresh eval s1 rest → noFailedUpdate rest →
      (mrun eval s1 rest).2 = (Abs.mrun eval ⟨g, false, none, (mrun eval (w', b) ops).1.1.log⟩ rest).2 ∧
      (mrun eval s1 rest).1.1.log = (Abs.mrun eval ⟨g, false, none, (mrun eval (w', b) ops).1.1.log⟩ rest).1.log := by
  obtain ⟨w', b, e, r⟩ := ofFn_rep w f
  refine ⟨w', b, e, fun ops hf g rest => ?_⟩
  obtain ⟨r2, -⟩ := mrun_rep ops r.lossy hf
  intro s1 hf1 hn
  obtain ⟨r3, -⟩ := mstep_rep (eval := eval) r2 (op := .ok (.updateWorkFunction g)) (fun t h => (by cases h))
  obtain ⟨r4, e4⟩ := mrun_rep rest r3 hf1
  have hlog := r2.log
  obtain ⟨h3, h4⟩ := lossy_ideal (eval := eval) rest ⟨g, false, none, (mrun eval (w', b) ops).1.1.log⟩ hn
  have key : (Lossy.step eval (Lossy.run eval ⟨⟨f, false, none, w.log⟩, false⟩ ops).1 (.ok (.updateWorkFunction g))).1 =
      ⟨⟨g, false, none, (mrun eval (w', b) ops).1.1.log⟩, false⟩ := by rw [hlog]; rfl
  rw [key] at r4 e4
  refine ⟨e4.trans h3, ?_⟩
  have := r4.log
  rw [h4] at this
  exact this

/-- A constructor from a function that gets no memory leaves nothing behind: no function has been run, all futures there were are as
before, and what was made meanwhile does not wait. -/
theorem failed_ctor (w : World V) (f : Nat) (inReset : Bool) :
    (Block.ofFnFails w f inReset).log = w.log ∧
    (∀ i, i < w.states.length → (Block.ofFnFails w f inReset).states[i]? = w.states[i]?) ∧
    ∀ i, w.states.length ≤ i → (Block.ofFnFails w f inReset).states[i]? ≠ some none := by
  cases inReset with
  | false =>
    refine ⟨rfl, fun _ _ => rfl, fun i hi => ?_⟩
    simp only [Block.ofFnFails, Bool.false_eq_true, if_false]
    rw [List.getElem?_eq_none hi]; intro h; cases h
  | true =>
    have hs := set_same (w.alloc).1 .broken (i := w.states.length) (by simp [World.alloc])
    refine ⟨set_log _ _ _, fun i hi => ?_, fun i hi => ?_⟩
    · simp only [Block.ofFnFails, if_true, Task.make, World.abandon]
      rw [set_other _ _ (by simp only [World.alloc]; omega)]
      simp only [World.alloc]; rw [List.getElem?_append_left hi]
    · simp only [Block.ofFnFails, if_true, Task.make, World.abandon]
      by_cases h : i = w.states.length
      · subst h
        rw [show (w.alloc.1.set w.alloc.2 Res.broken).states[w.states.length]? = some (some .broken) from hs]
        intro h; cases h
      · rw [set_other _ _ (by simp only [World.alloc]; omega)]
        simp only [World.alloc]
        rw [List.getElem?_eq_none (by simp; omega)]; intro h; cases h

/-- C145 fails for the constructor from a packaged task: if it gets no memory, the caller's task is lost and a future taken from it is
broken, in every state. -/
theorem failed_task_ctor_breaks (w : World V) (t : Task) (i : Nat) (ht : t.state = some i) (hw : w.states[i]? = some none) :
    (Block.ofTaskFails w t).read (some i) = some .broken := by
  have := set_same w .broken hw
  simp [Block.ofTaskFails, ht, World.abandon, World.read, this]

/-! ### The hypotheses are met, and a witness -/

/-- A failing reset in the middle of a history, before and after the function has run. -/
example : ∃ w b, Block.ofFn (⟨[], []⟩ : World Nat) 3 = (w, some b) ∧
    mfresh count (w, b) [.resetFails, .ok .execute, .resetFails, .ok .getReturnVal, .ok .reset, .ok .execute, .ok .getReturnVal] ∧
    noFailedUpdate [.resetFails, .ok .execute, .resetFails, .ok .getReturnVal, .ok .reset, .ok .execute, .ok .getReturnVal] ∧
    (mrun count (w, b) [.resetFails, .ok .execute, .resetFails, .ok .getReturnVal, .ok .reset, .ok .execute, .ok .getReturnVal]).2 =
      [.badAlloc, .out .unit, .badAlloc, .out (.result (.value 300)), .out .unit, .out .unit, .out (.result (.value 301))] := by
  refine ⟨_, _, rfl, ?_, ?_, rfl⟩
  · simp [mfresh]
  · simp [noFailedUpdate]

/-- C145 is false: after a failing update the function that the block had is not run by execute, the block is finished, and
getReturnVal does not return; a user would expect the value 300. -/
theorem failed_update_violation : ∃ w b, Block.ofFn (⟨[], []⟩ : World Nat) 3 = (w, some b) ∧
    mfresh count (w, b) [.updateFails 4, .ok .execute, .ok .isFinished, .ok .getReturnVal] ∧
    (mrun count (w, b) [.updateFails 4, .ok .execute, .ok .isFinished, .ok .getReturnVal]).2 =
      [.badAlloc, .out .unit, .out (.bool true), .out .blocks] ∧
    (Abs.mrun count ⟨3, false, none, []⟩ [.updateFails 4, .ok .execute, .ok .isFinished, .ok .getReturnVal]).2 =
      [.badAlloc, .out .unit, .out (.bool true), .out (.result (.value 300))] := by
  refine ⟨_, _, rfl, ?_, rfl, rfl⟩
  simp [mfresh]

/-- a history after which an update fails and later one succeeds -/
example : ∃ w b, Block.ofFn (⟨[], []⟩ : World Nat) 3 = (w, some b) ∧
    mfresh count (w, b) [.ok .execute, .updateFails 4, .ok .reset, .ok .execute] ∧
    (mrun count (w, b) [.ok .execute, .updateFails 4, .ok .reset, .ok .execute, .ok (.updateWorkFunction 5), .ok .execute,
      .ok .getReturnVal]).2 =
      [.out .unit, .badAlloc, .out (.throws .alreadyRetrieved), .out .unit, .out .unit, .out .unit, .out (.result (.value 501))] := by
  refine ⟨_, _, rfl, ?_, rfl⟩
  simp [mfresh]

/-- a packaged task whose future has been taken -/
example : (Block.ofTaskFails (⟨[none], []⟩ : World Nat) ⟨3, some 0, true⟩).read (some 0) = some .broken :=
  failed_task_ctor_breaks _ _ 0 rfl rfl

end Verif.WorkBlock
