import Verif.WorkBlock.TasksLemmas

/-
Lemmas for TasksProps.lean: one statement.
-/
namespace Verif.WorkBlock.Tasks

variable {V : Type} {eval : List Nat → Nat → Res V}

theorem ref_block (w w0 : World V) (bl : Nat → Option Block) (h h0 : List (Option Nat)) (ts : Nat → Option Task) (v : Nat) (ob : Option Block) :
    ref (⟨⟨w, upd bl v ob, h⟩, ts⟩ : TS V) = updK (ref ⟨⟨w0, bl, h0⟩, ts⟩) (true, v) (ob.bind (·.task.state)) := by
  funext ⟨b, u⟩
  cases b with
  | false => simp [ref, updK]
  | true =>
    by_cases e : u = v
    · subst e; simp [ref, updK, upd]
    · simp [ref, updK, upd, e]

theorem ref_task (ps : PS V) (ps0 : PS V) (hb : ps.blocks = ps0.blocks) (ts : Nat → Option Task) (p : Nat) (ot : Option Task) :
    ref (⟨ps, upd ts p ot⟩ : TS V) = updK (ref ⟨ps0, ts⟩) (false, p) (ot.bind (·.state)) := by
  funext ⟨b, u⟩
  cases b with
  | true => simp [ref, updK, hb]
  | false =>
    by_cases e : u = p
    · subst e; simp [ref, updK, upd]
    · simp [ref, updK, upd, e]

/-- every shared state that is not ready has one owner -/
structure SInv (s : TS V) : Prop where
  inv : Inv s.ps.w (ref s)
  fut : ∀ v b, s.ps.blocks v = some b → ∀ i, b.future = some i → i < s.ps.w.states.length
  held : ∀ i, some i ∈ s.ps.held → i < s.ps.w.states.length

/-- shared state `i` will never have a result other than broken_promise: it is so, or belongs to a block without function -/
def Dead (i : Nat) (s : TS V) : Prop :=
  s.ps.w.states[i]? = some (some .broken) ∨
  (s.ps.w.states[i]? = some none ∧ ∃ v b, s.ps.blocks v = some b ∧ b.task.state = some i ∧ b.loaded = false)

/-- what every statement preserves -/
structure Good (s s' : TS V) : Prop where
  inv : SInv s'
  stable : ∀ (i : Nat) r, s.ps.w.states[i]? = some (some r) → s'.ps.w.states[i]? = some (some r)
  dead : ∀ i, Dead i s → Dead i s'

theorem Good.refl {s : TS V} (h : SInv s) : Good s s := ⟨h, fun _ _ h => h, fun _ h => h⟩

theorem Good.trans {s s' s'' : TS V} (h : Good s s') (h' : Good s' s'') : Good s s'' :=
  ⟨h'.inv, fun i r e => h'.stable i r (h.stable i r e), fun i e => h'.dead i (h.dead i e)⟩

/-- block `v` changes, keeping its shared state or making a new one -/
theorem good_block {w w' : World V} {bl : Nat → Option Block} {h : List (Option Nat)} {ts : Nat → Option Task} (k : SInv (⟨⟨w, bl, h⟩, ts⟩ : TS V))
    {v : Nat} {b b' : Block} (hb : bl v = some b) (t : Tr w w' b.task.state b'.task.state)
    (hf : ∀ i, b'.future = some i → i < w'.states.length) 
    (hd : b.loaded = false → ∀ i, b.task.state = some i → w.states[i]? = some none → w'.states[i]? = some (some .broken) ∨
      (w'.states[i]? = w.states[i]? ∧ b'.task.state = some i ∧ b'.loaded = false)) :
    Good (⟨⟨w, bl, h⟩, ts⟩ : TS V) ⟨⟨w', upd bl v (some b'), h⟩, ts⟩ := by
  have hr : ref (⟨⟨w, bl, h⟩, ts⟩ : TS V) (true, v) = b.task.state := by simp [ref, hb]
  refine ⟨⟨?_, fun u c hc i hi => ?_, fun i hi => ?_⟩, t.stable, fun i hd' => ?_⟩
  · rw [ref_block w' w bl h h ts v (some b')]
    exact k.inv.tr hr t
  · simp only [upd] at hc
    split at hc
    · cases hc; exact hf i hi
    · exact Nat.lt_of_lt_of_le (k.fut u c hc i hi) t.len
  · exact Nat.lt_of_lt_of_le (k.held i hi) t.len
  · rcases hd' with h1 | ⟨h1, u, c, h2, h3, h4⟩
    · exact .inl (t.stable _ _ h1)
    · by_cases e : u = v
      · subst e
        have : c = b := by simp only [hb] at h2; exact (Option.some.inj h2).symm
        subst this
        rcases hd h4 i h3 h1 with h5 | ⟨h5, h6, h7⟩
        · exact .inl h5
        · exact .inr ⟨h5.trans h1, u, b', by simp [upd], h6, h7⟩
      · have hne : b.task.state ≠ some i := by
          intro h5
          have := k.inv.inj (true, u) (true, v) i ((congrArg (·.bind (·.task.state)) h2).trans h3) (by rw [hr, h5])
          exact e (congrArg Prod.snd this)
        exact .inr ⟨(t.keep i (lt_of_some h1) hne).trans h1, u, c, by simp only [upd, e, if_false]; exact h2, h3, h4⟩

/-- something else than a block with function `v` changes: its shared state goes from `x` to `y` -/
theorem good_task {w w' : World V} {bl : Nat → Option Block} {h : List (Option Nat)} {ts : Nat → Option Task} (k : SInv (⟨⟨w, bl, h⟩, ts⟩ : TS V))
    {p : Nat} {ot : Option Task} (t : Tr w w' ((ts p).bind (·.state)) (ot.bind (·.state))) :
    Good (⟨⟨w, bl, h⟩, ts⟩ : TS V) ⟨⟨w', bl, h⟩, upd ts p ot⟩ := by
  have hr : ref (⟨⟨w, bl, h⟩, ts⟩ : TS V) (false, p) = (ts p).bind (·.state) := rfl
  refine ⟨⟨?_, fun u c hc i hi => ?_, fun i hi => ?_⟩, t.stable, fun i hd' => ?_⟩
  · rw [ref_task ⟨w', bl, h⟩ ⟨w, bl, h⟩ rfl ts p ot]
    exact k.inv.tr hr t
  · exact Nat.lt_of_lt_of_le (k.fut u c hc i hi) t.len
  · exact Nat.lt_of_lt_of_le (k.held i hi) t.len
  · rcases hd' with h1 | ⟨h1, u, c, h2, h3, h4⟩
    · exact .inl (t.stable _ _ h1)
    · have hne : (ts p).bind (·.state) ≠ some i := by
        intro h5
        have := k.inv.inj (true, u) (false, p) i ((congrArg (·.bind (·.task.state)) h2).trans h3) (by rw [hr, h5])
        cases this
      exact .inr ⟨(t.keep i (lt_of_some h1) hne).trans h1, u, c, h2, h3, h4⟩

/-- block `v` is destroyed -/
theorem good_destroy {w : World V} {bl : Nat → Option Block} {h : List (Option Nat)} {ts : Nat → Option Task} (k : SInv (⟨⟨w, bl, h⟩, ts⟩ : TS V))
    {v : Nat} {b : Block} (hb : bl v = some b) : Good (⟨⟨w, bl, h⟩, ts⟩ : TS V) ⟨⟨w.abandon b.task.state, upd bl v none, h⟩, ts⟩ := by
  have hr : ref (⟨⟨w, bl, h⟩, ts⟩ : TS V) (true, v) = b.task.state := by simp [ref, hb]
  have t := Tr.abandon w b.task.state
  refine ⟨⟨?_, fun u c hc i hi => ?_, fun i hi => ?_⟩, t.stable, fun i hd' => ?_⟩
  · rw [ref_block (w.abandon b.task.state) w bl h h ts v none]
    exact k.inv.tr hr t
  · simp only [upd] at hc
    split at hc
    · cases hc
    · exact Nat.lt_of_lt_of_le (k.fut u c hc i hi) t.len
  · exact Nat.lt_of_lt_of_le (k.held i hi) t.len
  · rcases hd' with h1 | ⟨h1, u, c, h2, h3, h4⟩
    · exact .inl (t.stable _ _ h1)
    · by_cases e : u = v
      · subst e
        have : c = b := by simp only [hb] at h2; exact (Option.some.inj h2).symm
        subst this
        refine .inl ?_
        simp only [h3, World.abandon]; exact set_same _ _ h1
      · have hne : b.task.state ≠ some i := by
          intro h5
          have := k.inv.inj (true, u) (true, v) i ((congrArg (·.bind (·.task.state)) h2).trans h3) (by rw [hr, h5])
          exact e (congrArg Prod.snd this)
        exact .inr ⟨(t.keep i (lt_of_some h1) hne).trans h1, u, c, by simp only [upd, e, if_false]; exact h2, h3, h4⟩

/-- block `v`, which owns nothing, or does not exist, takes over block `u` -/
theorem good_moveBlock {w : World V} {bl : Nat → Option Block} {h : List (Option Nat)} {ts : Nat → Option Task} (k : SInv (⟨⟨w, bl, h⟩, ts⟩ : TS V))
    {v u : Nat} {b : Block} (hv : (bl v).bind (·.task.state) = none) (hu : bl u = some b) (hne : u ≠ v) :
    Good (⟨⟨w, bl, h⟩, ts⟩ : TS V) ⟨⟨w, upd (upd bl u (some b.moveFrom.2)) v (some b.moveFrom.1), h⟩, ts⟩ := by
  refine ⟨⟨?_, fun x c hc i hi => ?_, k.held⟩, fun _ _ h => h, fun i hd' => ?_⟩
  · have := k.inv.move (k := (true, u)) (l := (true, v)) hv (by simpa using hne)
    rw [ref_block w w _ h h ts v, ref_block w w bl h h ts u]
    have e : ref (⟨⟨w, bl, h⟩, ts⟩ : TS V) (true, u) = b.task.state := by simp [ref, hu]
    rw [e] at this
    exact this
  · simp only [upd] at hc
    split at hc
    · cases hc; exact k.fut u b hu i hi
    · split at hc
      · cases hc; cases hi
      · exact k.fut x c hc i hi
  · rcases hd' with h1 | ⟨h1, x, c, h2, h3, h4⟩
    · exact .inl h1
    · by_cases e : x = u
      · subst e
        have : c = b := by simp only [hu] at h2; exact (Option.some.inj h2).symm
        subst this
        exact .inr ⟨h1, v, c, by simp [upd, Block.moveFrom], h3, h4⟩
      · have e2 : x ≠ v := by
          rintro rfl
          rw [show bl x = some c from h2] at hv
          cases h3.symm.trans hv
        exact .inr ⟨h1, x, c, by simp only [upd, e, e2, if_false]; exact h2, h3, h4⟩

/-- task `p`, which owns nothing, or does not exist, takes over task `q` -/
theorem good_moveTask {w : World V} {bl : Nat → Option Block} {h : List (Option Nat)} {ts : Nat → Option Task} (k : SInv (⟨⟨w, bl, h⟩, ts⟩ : TS V))
    {p q : Nat} {t : Task} (hp : (ts p).bind (·.state) = none) (hq : ts q = some t) (hne : q ≠ p) :
    Good (⟨⟨w, bl, h⟩, ts⟩ : TS V) ⟨⟨w, bl, h⟩, upd (upd ts q (some (emptied t))) p (some t)⟩ := by
  refine ⟨⟨?_, k.fut, k.held⟩, fun _ _ h => h, fun i hd' => hd'⟩
  have := k.inv.move (k := (false, q)) (l := (false, p)) hp (by simpa using hne)
  rw [ref_task ⟨w, bl, h⟩ ⟨w, bl, h⟩ rfl _ p, ref_task ⟨w, bl, h⟩ ⟨w, bl, h⟩ rfl ts q]
  have e : ref (⟨⟨w, bl, h⟩, ts⟩ : TS V) (false, q) = t.state := by simp [ref, hq]
  rw [e] at this
  exact this

/-- block `v`, which owns nothing, or does not exist, takes over the state of task `p` -/
theorem good_give {w : World V} {bl : Nat → Option Block} {h : List (Option Nat)} {ts : Nat → Option Task} (k : SInv (⟨⟨w, bl, h⟩, ts⟩ : TS V))
    {v p : Nat} {t : Task} {b : Block} (hv : (bl v).bind (·.task.state) = none) (hp : ts p = some t) (hb : b.task.state = t.state)
    (hf : ∀ i, b.future = some i → i < w.states.length) :
    Good (⟨⟨w, bl, h⟩, ts⟩ : TS V) ⟨⟨w, upd bl v (some b), h⟩, upd ts p (some (emptied t))⟩ := by
  refine ⟨⟨?_, fun x c hc i hi => ?_, k.held⟩, fun _ _ h => h, fun i hd' => ?_⟩
  · have := k.inv.move (k := (false, p)) (l := (true, v)) hv (by simp)
    rw [ref_block w w bl h h _ v, ref_task ⟨w, bl, h⟩ ⟨w, bl, h⟩ rfl ts p]
    have e : ref (⟨⟨w, bl, h⟩, ts⟩ : TS V) (false, p) = t.state := by simp [ref, hp]
    rw [e, ← hb] at this
    exact this
  · simp only [upd] at hc
    split at hc
    · cases hc; exact hf i hi
    · exact k.fut x c hc i hi
  · rcases hd' with h1 | ⟨h1, x, c, h2, h3, h4⟩
    · exact .inl h1
    · have e2 : x ≠ v := by
        rintro rfl
        rw [show bl x = some c from h2] at hv
        cases h3.symm.trans hv
      exact .inr ⟨h1, x, c, by simp only [upd, e2, if_false]; exact h2, h3, h4⟩

/-- a future is taken -/
theorem good_held {w : World V} {bl : Nat → Option Block} {h : List (Option Nat)} {ts : Nat → Option Task} (k : SInv (⟨⟨w, bl, h⟩, ts⟩ : TS V))
    {x : Option Nat} (hx : ∀ i, x = some i → i < w.states.length) : Good (⟨⟨w, bl, h⟩, ts⟩ : TS V) ⟨⟨w, bl, h ++ [x]⟩, ts⟩ := by
  refine ⟨⟨k.inv, k.fut, fun i hi => ?_⟩, fun _ _ h => h, fun i hd => hd⟩
  rcases List.mem_append.1 hi with h1 | h1
  · exact k.held i h1
  · rw [List.mem_singleton] at h1; exact hx i h1.symm

theorem SInv.ok {w : World V} {bl : Nat → Option Block} {h : List (Option Nat)} {ts : Nat → Option Task} (k : SInv (⟨⟨w, bl, h⟩, ts⟩ : TS V))
    {v : Nat} {b : Block} (hb : bl v = some b) : Block.ok w b :=
  ⟨fun i hi => k.inv.lt (true, v) i (by simp [ref, hb, hi]), fun i hi => k.fut v b hb i hi⟩

theorem call_eq (s : PS V) (v : Nat) (r : World V × Block × Option Exc) : (s.call v r).1 = ⟨r.1, upd s.blocks v (some r.2.1), s.held⟩ := by
  obtain ⟨w, b, _ | e⟩ := r <;> rfl

/-- the block gives up its state -/
theorem good_drop {w : World V} {bl : Nat → Option Block} {h : List (Option Nat)} {ts : Nat → Option Task} (k : SInv (⟨⟨w, bl, h⟩, ts⟩ : TS V))
    {v : Nat} {b : Block} (hb : bl v = some b) :
    Good (⟨⟨w, bl, h⟩, ts⟩ : TS V) ⟨⟨w.abandon b.task.state, upd bl v (some { b with task := emptied b.task }), h⟩, ts⟩ := by
  have t := Tr.abandon w b.task.state
  refine good_block k hb t (fun i hi => Nat.lt_of_lt_of_le (k.fut v b hb i hi) t.len) fun _ i hi h1 => .inl ?_
  rw [hi]; exact set_same _ _ h1

theorem upd_upd {α : Type} (g : Nat → α) (v : Nat) (x y : α) : upd (upd g v x) v y = upd g v y := by
  funext u; simp only [upd]; split <;> rfl

theorem good_updateTask {w : World V} {bl : Nat → Option Block} {h : List (Option Nat)} {ts : Nat → Option Task} (k : SInv (⟨⟨w, bl, h⟩, ts⟩ : TS V))
    {v p : Nat} {b : Block} {t : Task} (hb : bl v = some b) (hp : ts p = some t) :
    Good (⟨⟨w, bl, h⟩, ts⟩ : TS V) ⟨⟨(b.updateTask w t).1, upd bl v (some (b.updateTask w t).2.1), h⟩, upd ts p (some (emptied t))⟩ := by
  obtain ⟨e1, e2, e3, _⟩ := updateTask_eq w b t (k.ok hb) (fun i hi => k.inv.lt (false, p) i (by simp [ref, hp, hi]))
  have g := good_drop k hb
  refine g.trans ?_
  have := good_give (b := (b.updateTask w t).2.1) (v := v) (p := p) g.inv (by simp [upd, emptied]) hp e2 (fun i hi => by rw [← e1]; exact e3.2 i hi)
  rw [upd_upd] at this
  rw [e1]; exact this

theorem Tr.trans {w w' w'' : World V} {x y z : Option Nat} (h : Tr w w' x y) (h' : Tr w' w'' y z) : Tr w w'' x z := by
  have hy : ∀ i, i < w.states.length → x ≠ some i → y ≠ some i := by
    intro i hi hx e
    rcases h.next i e with h1 | h1
    · exact hx h1
    · omega
  refine ⟨Nat.le_trans h.len h'.len, fun i hi hx => ?_, fun i r e => h'.stable i r (h.stable i r e), fun i e => ?_, fun i e => ?_⟩
  · rw [h'.keep i (Nat.lt_of_lt_of_le hi h.len) (hy i hi hx)]; exact h.keep i hi hx
  · rcases h'.own i e with h1 | ⟨h1, h2⟩
    · exact .inl h1
    · rw [h'.keep i h1 h2] at e
      rcases h.own i e with h3 | h3
      · exact absurd h3 h2
      · exact .inr h3
  · have := h'.len
    have := h.len
    rcases h'.next i e with h1 | h1
    · rcases h.next i h1 with h2 | h2
      · exact .inl h2
      · exact .inr ⟨h2.1, by omega⟩
    · exact .inr ⟨by omega, h1.2⟩

/-- a block is made -/
theorem good_new {w w' : World V} {bl : Nat → Option Block} {h : List (Option Nat)} {ts : Nat → Option Task} (k : SInv (⟨⟨w, bl, h⟩, ts⟩ : TS V))
    {v : Nat} {b : Block} (hb : bl v = none) (t : Tr w w' none b.task.state) (hf : ∀ i, b.future = some i → i < w'.states.length) :
    Good (⟨⟨w, bl, h⟩, ts⟩ : TS V) ⟨⟨w', upd bl v (some b), h⟩, ts⟩ := by
  have hr : ref (⟨⟨w, bl, h⟩, ts⟩ : TS V) (true, v) = none := by simp [ref, hb]
  refine ⟨⟨?_, fun u c hc i hi => ?_, fun i hi => ?_⟩, t.stable, fun i hd' => ?_⟩
  · rw [ref_block w' w bl h h ts v (some b)]
    exact k.inv.tr hr t
  · simp only [upd] at hc
    split at hc
    · cases hc; exact hf i hi
    · exact Nat.lt_of_lt_of_le (k.fut u c hc i hi) t.len
  · exact Nat.lt_of_lt_of_le (k.held i hi) t.len
  · rcases hd' with h1 | ⟨h1, u, c, h2, h3, h4⟩
    · exact .inl (t.stable _ _ h1)
    · have e : u ≠ v := by rintro rfl; rw [show bl u = some c from h2] at hb; cases hb
      exact .inr ⟨(t.keep i (lt_of_some h1) (by simp)).trans h1, u, c, by simp only [upd, e, if_false]; exact h2, h3, h4⟩

theorem ofTask_some (w : World V) (t : Task) {i : Nat} (ht : t.state = some i) :
    Block.ofTask w t = (w.alloc.1.abandon (some i), some ⟨⟨t.fn, some w.states.length, true⟩, some w.states.length, false, true⟩) := by
  simp [Block.ofTask, Block.reset, Task.reset, ht, Task.getFuture, World.alloc]

theorem good_step {s : TS V} (k : SInv s) (op : TOp) : Good s (s.step eval op).1 := by
  obtain ⟨⟨w, bl, h⟩, ts⟩ := s
  cases op with
  | blk op =>
    cases op with
    | make v f =>
      simp only [TS.step, PS.step]
      split
      · exact .refl k
      · rename_i hv
        have hv : bl v = none := hv
        have e := ofTask_some (Task.make w f).1 (Task.make w f).2 (i := w.states.length) rfl
        simp only [Block.ofFn, e]
        have t1 : Tr w (Task.make w f).1 none (some w.states.length) := Tr.fresh w none (fun i h => by cases h)
        have t2 := Tr.fresh (Task.make w f).1 (some w.states.length) (fun i h => by cases h; simp [Task.make, World.alloc])
        refine good_new k hv (t1.trans t2) (fun i hi => ?_)
        cases hi
        rw [abandon_length, alloc_length]; omega
    | moveMake v u =>
      simp only [TS.step, PS.step]
      split
      · rename_i b hv hu
        exact good_moveBlock k (by rw [show bl v = none from hv]; rfl) hu (by rintro rfl; rw [show bl u = some b from hu] at hv; cases hv)
      · exact .refl k
    | assign v u =>
      simp only [TS.step, PS.step]
      split
      · exact .refl k
      · rename_i hne
        split
        · rename_i a b hv hu
          have g := good_drop k hv
          refine g.trans ?_
          have := good_moveBlock (v := v) (u := u) (b := b) g.inv (by simp [upd, emptied]) (by simp only [upd, Ne.symm hne, if_false]; exact hu) (Ne.symm hne)
          have e : upd (upd (upd bl v (some { a with task := emptied a.task })) u (some b.moveFrom.2)) v (some b.moveFrom.1) = upd (upd bl u (some b.moveFrom.2)) v (some b.moveFrom.1) := by
            funext x; simp only [upd]; split <;> rfl
          rw [e] at this
          exact this
        · exact .refl k
    | destroy v =>
      simp only [TS.step, PS.step]
      split
      · rename_i b hv; exact good_destroy k hv
      · exact .refl k
    | execute v =>
      simp only [TS.step, PS.step]
      split
      · rename_i b hv
        rw [call_eq]
        obtain ⟨h1, h2, h3, h4, h5⟩ := execute_tr (eval := eval) w b
        refine good_block k hv h1 (fun i hi => ?_) fun hl i hi h6 => .inr ⟨?_, h2.trans hi, h4.trans hl⟩
        · rw [h3] at hi; exact Nat.lt_of_lt_of_le (k.fut v b hv i hi) h1.len
        · show (b.execute eval w).1.states[i]? = _
          rw [h5 hl]
      · exact .refl k
    | reset v =>
      simp only [TS.step, PS.step]
      split
      · rename_i b hv
        rw [call_eq]
        obtain ⟨h1, h2, h3, h4⟩ := reset_tr w b (k.ok hv)
        refine good_block k hv h1 h2.2 fun hl i hi h6 => .inr ⟨?_, (h4 hl).2.trans hi, h3.trans hl⟩
        show (b.reset w).1.states[i]? = _
        rw [(h4 hl).1]
      · exact .refl k
    | update v f =>
      simp only [TS.step, PS.step]
      split
      · rename_i b hv
        rw [call_eq]
        have ok := k.ok hv
        have hl := alloc_length w
        obtain ⟨e1, e2, e3, _⟩ := updateTask_eq (Task.make w f).1 b (Task.make w f).2
          ⟨fun i hi => by have := ok.1 i hi; simp only [Task.make]; omega, fun i hi => by have := ok.2 i hi; simp only [Task.make]; omega⟩
          (fun i hi => by cases hi; simp [Task.make, World.alloc])
        refine good_block k hv ?_ e3.2 fun _ i hi h1 => .inl ?_
        · rw [show (b.updateWorkFunction w f) = b.updateTask (Task.make w f).1 (Task.make w f).2 from rfl, e1, e2]
          exact Tr.fresh w _ ok.1
        · rw [show (b.updateWorkFunction w f) = b.updateTask (Task.make w f).1 (Task.make w f).2 from rfl, e1, hi]
          exact set_same _ _ (by rw [show (Task.make w f).1 = w.alloc.1 from rfl, alloc_old w (lt_of_some h1)]; exact h1)
      · exact .refl k
    | isFinished v => exact .refl k
    | getReturnVal v => exact .refl k
    | getFuture v =>
      simp only [TS.step, PS.step]
      split
      · rename_i b hv; exact good_held k (fun i hi => k.fut v b hv i hi)
      · exact .refl k
    | get j => exact .refl k
  | task p f =>
    simp only [TS.step]
    split
    · exact .refl k
    · rename_i hp
      refine good_task k ?_
      rw [show ts p = none from hp]
      exact Tr.fresh w none (fun i h => by cases h)
  | taskMove p q =>
    simp only [TS.step]
    split
    · rename_i t hp hq
      exact good_moveTask k (by rw [show ts p = none from hp]; rfl) hq (by rintro rfl; rw [show ts q = some t from hq] at hp; cases hp)
    · exact .refl k
  | taskAssign p q =>
    simp only [TS.step]
    split
    · exact .refl k
    · rename_i hne
      split
      · rename_i t u hp hq
        have g := good_task (ot := some (emptied t)) (p := p) k (w' := w.abandon t.state) (by rw [show ts p = some t from hp]; exact Tr.abandon w t.state)
        refine g.trans ?_
        have := good_moveTask (p := p) (q := q) (t := u) g.inv (by simp [upd, emptied]) (by simp only [upd, Ne.symm hne, if_false]; exact hq) (Ne.symm hne)
        have e : upd (upd (upd ts p (some (emptied t))) q (some (emptied u))) p (some u) = upd (upd ts q (some (emptied u))) p (some u) := by
          funext x; simp only [upd]; split <;> rfl
        rw [e] at this
        exact this
      · exact .refl k
  | taskDestroy p =>
    simp only [TS.step]
    split
    · rename_i t hp
      refine good_task k ?_
      rw [show ts p = some t from hp]
      exact Tr.abandon w t.state
    · exact .refl k
  | taskFuture p =>
    simp only [TS.step]
    split
    · rename_i t hp
      split
      · rename_i t' i hg
        have hs : t.state = some i ∧ t'.state = some i := by
          unfold Task.getFuture at hg
          split at hg
          · cases hg
          · rename_i j hj
            split at hg
            · cases hg
            · cases hg; exact ⟨hj, hj⟩
        refine (good_held k (x := some i) (fun j hj => ?_)).trans ?_
        · cases hj; exact k.inv.lt (false, p) i (by simp [ref, show ts p = some t from hp, hs.1])
        · refine good_task (good_held k (x := some i) (fun j hj => ?_)).inv ?_
          · cases hj; exact k.inv.lt (false, p) i (by simp [ref, show ts p = some t from hp, hs.1])
          · rw [show ts p = some t from hp]
            simp only [Option.bind_some, hs.1, hs.2]; exact .refl _ _
      · exact .refl k
    · exact .refl k
  | taskRun p =>
    simp only [TS.step]
    split
    · rename_i t hp
      have e : upd ts p (some t) = ts := by
        funext x; simp only [upd]; split
        · rename_i h; rw [h]; exact hp.symm
        · rfl
      have := good_task k (p := p) (ot := some t) (w' := (t.run eval w).1) (by
        rw [show ts p = some t from hp]
        simp only [Option.bind_some]
        unfold Task.run
        cases hs : t.state with
        | none => exact .refl _ _
        | some i =>
          simp only
          split
          · have := Tr.set ({ w with log := w.log ++ [t.fn] } : World V) i (eval w.log t.fn) (y := some i) (.inr rfl)
            exact ⟨this.len, this.keep, this.stable, this.own, this.next⟩
          · exact .refl _ _)
      rw [e] at this
      exact this
    · exact .refl k
  | taskReset p =>
    simp only [TS.step]
    split
    · rename_i t hp
      refine good_task k ?_
      rw [show ts p = some t from hp]
      simp only [Option.bind_some]
      unfold Task.reset
      cases hs : t.state with
      | none => simp only [hs]; exact .refl _ _
      | some i => exact Tr.fresh w (some i) (fun j hj => by cases hj; exact k.inv.lt (false, p) i (by simp [ref, show ts p = some t from hp, hs]))
    · exact .refl k
  | give v p =>
    simp only [TS.step]
    split
    · rename_i t hv hp
      have hv : bl v = none := hv
      have hp : ts p = some t := hp
      cases hs : t.state with
      | none =>
        have e : Block.ofTask w t = (w, none) := by simp [Block.ofTask, Block.reset, Task.reset, hs]
        simp only [e]
        refine good_task k ?_
        rw [hp]
        simp only [Option.bind_some, hs, emptied]; exact .refl _ _
      | some i =>
        have e := ofTask_some w t hs
        simp only [e]
        have g := good_give (v := v) (p := p) (b := ⟨t, none, false, true⟩) k (by rw [hv]; rfl) hp rfl (fun i hi => by cases hi)
        refine g.trans ?_
        have := good_block (v := v) (b := ⟨t, none, false, true⟩) (b' := ⟨⟨t.fn, some w.states.length, true⟩, some w.states.length, false, true⟩)
          (w' := w.alloc.1.abandon (some i)) g.inv (by simp [upd])
          (by simp only [hs]; exact Tr.fresh w (some i) (fun j hj => by cases hj; exact k.inv.lt (false, p) i (by simp [ref, hp, hs])))
          (fun j hj => by cases hj; rw [abandon_length, alloc_length]; omega) (fun hl => by cases hl)
        rw [upd_upd] at this
        exact this
    · exact .refl k
  | updateTask v p =>
    simp only [TS.step]
    split
    · rename_i b t hv hp
      rw [call_eq]
      exact good_updateTask k hv hp
    · exact .refl k

end Verif.WorkBlock.Tasks
