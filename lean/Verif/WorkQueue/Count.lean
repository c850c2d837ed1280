import Verif.WorkQueue.Place

/-
Counting: where the submitted blocks are.
-/
namespace Verif.WorkQueue
open Verif.Conc State

variable {n t c i : Nat} {s s' : State} {o : Option Out} {l : Loc}

/-- how often block `i` is in the hands of a thread at a position -/
def carries (i : Nat) : Loc → Nat
  | .aCheck b _ _ | .gReset b | .gInc b | .wChk b | .ret (.blk b) => if b = some (.task i) then 1 else 0
  | .aSize b _ _ | .aPush b _ _ _ => if b = .task i then 1 else 0
  | .vPush bs _ | .vExec bs | .eDone _ bs => bs.count (some (.task i))
  | .eTest j bs | .eRun j bs => (if j = i then 1 else 0) + bs.count (some (.task i))
  | _ => 0

/-- block `i` returned to a client -/
def gives (i : Nat) : Option Out → Nat
  | some (.blk b) => if b = some (.task i) then 1 else 0
  | _ => 0

theorem queued_eq (s : State) (i : Nat) : s.queued i = s.sum fun q => q.1.count (some (.task i)) := rfl

theorem queued_setQue (s : State) (q : Que) (x) (i : Nat) :
    (s.setQue q x).queued i + (s.que q).1.count (some (.task i)) = s.queued i + x.1.count (some (.task i)) := by
  cases q <;> simp [State.queued, setQue, que] <;> omega

theorem runs_setQue (s : State) (q : Que) (x) : (s.setQue q x).runs = s.runs := by cases q <;> rfl
theorem fin_setQue (s : State) (q : Que) (x) : (s.setQue q x).fin = s.fin := by cases q <;> rfl

theorem queued_push (s : State) (q : Que) (b) (i : Nat) :
    (s.push q b).queued i = s.queued i + if b = some (.task i) then 1 else 0 := by
  have := queued_setQue s q ((s.que q).1 ++ [b], false) i
  rw [push_eq]
  simp only [List.count_append, List.count_singleton, beq_iff_eq] at this
  omega

theorem queued_pushVector (s : State) (q : Que) (bs) (i : Nat) :
    (s.pushVector q bs).queued i = s.queued i + bs.count (some (.task i)) := by
  have := queued_setQue s q ((s.que q).1 ++ bs, (s.que q).1.isEmpty && bs.isEmpty) i
  rw [pushVector_eq]
  simp only [List.count_append] at this
  omega

theorem queued_popped_some {q : Que} {b} (h : s.front q = some b) (i : Nat) :
    (s.popped q).queued i + (if b = some (.task i) then 1 else 0) = s.queued i := by
  have := queued_setQue s q ((s.que q).1.tail, false) i
  rw [popped_eq]
  rw [front_eq] at h
  cases hq : (s.que q).1 with
  | nil => rw [hq] at h; cases h
  | cons x xs =>
    rw [hq] at h this
    cases h
    simp only [List.tail_cons, List.count_cons, beq_iff_eq] at this ⊢
    omega

theorem queued_popped_none {q : Que} (h : s.front q = none) (i : Nat) : (s.popped q).queued i = s.queued i := by
  have := queued_setQue s q ((s.que q).1.tail, false) i
  rw [popped_eq]
  rw [front_eq, List.head?_eq_none_iff] at h
  rw [h] at this ⊢
  simpa using this

theorem queued_clear (s : State) (q : Que) (i : Nat) : (s.clear q).queued i ≤ s.queued i := by
  have := queued_setQue s q ([], false) i
  rw [clear_eq]
  simp at this
  omega

theorem queued_notifyOne (s : State) : (notifyOne n c s).queued i = s.queued i := by
  rcases notifyOne_eq n c s with h | ⟨k, _, hk, h⟩ <;> rw [h] <;> rfl
theorem runs_notifyOne (s : State) : (notifyOne n c s).runs = s.runs := by
  rcases notifyOne_eq n c s with h | ⟨k, _, hk, h⟩ <;> rw [h] <;> rfl
theorem fin_notifyOne (s : State) : (notifyOne n c s).fin = s.fin := by
  rcases notifyOne_eq n c s with h | ⟨k, _, hk, h⟩ <;> rw [h] <;> rfl

theorem queued_goto (s : State) (l) : (s.goto t l).queued i = s.queued i := rfl
theorem runs_goto (s : State) (l) : (s.goto t l).runs = s.runs := rfl
theorem fin_goto (s : State) (l) : (s.goto t l).fin = s.fin := rfl

theorem queued_notifyAll (s : State) : s.notifyAll.queued i = s.queued i := rfl
theorem runs_notifyAll (s : State) : s.notifyAll.runs = s.runs := rfl
theorem fin_notifyAll (s : State) : s.notifyAll.fin = s.fin := rfl
theorem runs_push (s : State) (q b) : (s.push q b).runs = s.runs := runs_setQue _ _ _
theorem runs_pushVector (s : State) (q b) : (s.pushVector q b).runs = s.runs := runs_setQue _ _ _
theorem runs_popped (s : State) (q) : (s.popped q).runs = s.runs := runs_setQue _ _ _
theorem runs_clear (s : State) (q) : (s.clear q).runs = s.runs := runs_setQue _ _ _
theorem fin_push (s : State) (q b) : (s.push q b).fin = s.fin := fin_setQue _ _ _
theorem fin_pushVector (s : State) (q b) : (s.pushVector q b).fin = s.fin := fin_setQue _ _ _
theorem fin_popped (s : State) (q) : (s.popped q).fin = s.fin := fin_setQue _ _ _
theorem fin_clear (s : State) (q) : (s.clear q).fin = s.fin := fin_setQue _ _ _

/-- A step never multiplies a block. -/
theorem step_le (i : Nat) (h : stepAt n s t c l = some (s', o)) :
    carries i (s'.loc t) + s'.runs i + s'.queued i + gives i o ≤ carries i l + s.runs i + s.queued i := by
  have back : ∀ {s1 : State} {r}, carries i ((s1.back t r).loc t) = 0 ∧ (s1.back t r).runs = s1.runs ∧ (s1.back t r).queued i = s1.queued i := by
    intro s1 r
    cases r <;> refine ⟨?_, rfl, rfl⟩ <;> simp [State.back, loc_goto, upd_same, carries]
  unfold stepAt at h
  split at h
  all_goals try (split at h)
  all_goals try (split at h)
  all_goals try (split at h)
  all_goals try (simp only [State.lock] at h; split at h)
  all_goals (first | (cases h; done) | skip)
  all_goals obtain ⟨rfl, rfl⟩ := Prod.mk.inj (Option.some.inj h)
  all_goals (try (rw [back.1, back.2.1, back.2.2]; simp only [gives, queued_notifyOne, runs_notifyOne]; omega))
  all_goals simp only [got, executed, unlock, loc_goto, upd_same, runs_goto, queued_goto, gives]
  all_goals (try split)
  all_goals try simp only [runs_push, runs_pushVector, runs_popped, runs_clear, runs_notifyAll, queued_push, queued_pushVector,
    queued_notifyAll]
  all_goals (try (have := queued_popped_some ‹s.front .high = some _› i; simp only [carries]; omega))
  all_goals (try (have := queued_popped_some ‹s.front .med = some _› i; simp only [carries]; omega))
  all_goals (try (have := queued_popped_some ‹s.front .low = some _› i; simp only [carries]; omega))
  all_goals (try (have := queued_popped_none ‹s.front .high = none› i; simp only [carries]; simp; omega))
  all_goals (try (have := queued_popped_none ‹s.front .med = none› i; simp only [carries]; simp; omega))
  all_goals (try (have := queued_popped_none ‹s.front .low = none› i; simp only [carries]; simp; omega))
  all_goals (try (have := queued_clear s .high i; have := queued_clear s .med i; have := queued_clear s .low i; simp only [carries]; omega))
  all_goals (try (simp [carries]; done))
  all_goals (try (simp [carries, State.queued]; done))
  all_goals (try (simp [carries, State.queued, List.count_cons]; done))
  all_goals (try (simp [carries, State.queued, List.count_cons]; omega))
  all_goals (try (
    rename_i j bs
    simp only [carries, upd, State.queued]
    by_cases e : i = j
    · subst e; simp; omega
    · have : ¬ j = i := fun h => e h.symm
      simp [e, this]; done))
  all_goals (try (rename_i b e; cases e; simp only [carries]; omega))
  all_goals (try (rename_i o _ _ _; cases o <;> simp_all [carries]; done))

/-- A step loses a block only if it is finished, or the queue is being closed, or a null pointer is dereferenced. -/
theorem step_ge (i : Nat) (h : stepAt n s t c l = some (s', o)) (hf : s.fin i = false) (hc : ∀ q, l ≠ .cClear q)
    (hv : ∀ bs, l ≠ .vExec (none :: bs))
    (hp : place n t l) :
    carries i l + s.runs i + s.queued i ≤ carries i (s'.loc t) + s'.runs i + s'.queued i + gives i o := by
  have back : ∀ {s1 : State} {r}, carries i ((s1.back t r).loc t) = 0 ∧ (s1.back t r).runs = s1.runs ∧ (s1.back t r).queued i = s1.queued i := by
    intro s1 r
    cases r <;> refine ⟨?_, rfl, rfl⟩ <;> simp [State.back, loc_goto, upd_same, carries]
  unfold stepAt at h
  split at h
  all_goals try (split at h)
  all_goals try (split at h)
  all_goals try (split at h)
  all_goals try (simp only [State.lock] at h; split at h)
  all_goals (first | (cases h; done) | skip)
  all_goals obtain ⟨rfl, rfl⟩ := Prod.mk.inj (Option.some.inj h)
  all_goals (try (rw [back.1, back.2.1, back.2.2]; simp only [gives, queued_notifyOne, runs_notifyOne, carries]; simp; done))
  all_goals (try (
    rw [back.1, back.2.1, back.2.2]
    have hb : ∀ b : Blk, s.isFinished b = true → b ≠ .task i := by
      rintro b hb rfl; rw [State.isFinished, hf] at hb; cases hb
    have := hb _ (‹_ ∧ _› : _ ∧ _).1
    simp [gives, carries, this]; done))
  all_goals simp only [got, executed, unlock, loc_goto, upd_same, runs_goto, queued_goto, gives]
  all_goals (try split)
  all_goals try simp only [runs_push, runs_pushVector, runs_popped, runs_clear, runs_notifyAll, queued_push, queued_pushVector,
    queued_notifyAll]
  all_goals (try (have := queued_popped_some ‹s.front .high = some _› i; simp only [carries]; omega))
  all_goals (try (have := queued_popped_some ‹s.front .med = some _› i; simp only [carries]; omega))
  all_goals (try (have := queued_popped_some ‹s.front .low = some _› i; simp only [carries]; omega))
  all_goals (try (have := queued_popped_none ‹s.front .high = none› i; simp only [carries]; simp; omega))
  all_goals (try (have := queued_popped_none ‹s.front .med = none› i; simp only [carries]; simp; omega))
  all_goals (try (have := queued_popped_none ‹s.front .low = none› i; simp only [carries]; simp; omega))
  all_goals (try (
    have hb : ∀ j, s.fin j = true → j ≠ i := by
      rintro j hb rfl; rw [hf] at hb; cases hb
    have := hb _ ‹s.fin _ = true›
    simp only [place] at hp
    rcases hp with ⟨h1, rfl⟩ | h1 <;> simp [carries, this] <;> omega))
  all_goals (try (
    have hb : ∀ j, s.fin j = true → j ≠ i := by
      rintro j hb rfl; rw [hf] at hb; cases hb
    have := hb _ ‹s.fin _ = true›
    simp [carries, this]; done))
  all_goals (try (simp only [place] at hp; rcases hp with ⟨h1, rfl⟩ | h1 <;> simp [carries, State.queued] <;> omega))
  all_goals (try (exact absurd rfl (hc _)))
  all_goals (try (exact absurd rfl (hv _)))
  all_goals (try (simp [carries]; done))
  all_goals (try (simp [carries, State.queued]; done))
  all_goals (try (simp [carries, State.queued, List.count_cons]; done))
  all_goals (try (simp [carries, State.queued, List.count_cons]; omega))
  all_goals (try (
    rename_i j bs
    simp only [carries, upd, State.queued]
    by_cases e : i = j
    · subst e; simp; omega
    · have : ¬ j = i := fun h => e h.symm
      simp [e, this]; done))
  all_goals (try (rename_i b e; cases e; simp only [carries]; omega))
  all_goals (try (rename_i o _ _ _; cases o <;> simp_all [carries]; done))

theorem step_fin (h : stepAt n s t c l = some (s', o)) (i : Nat) :
    (s.fin i = true → s'.fin i = true) ∧ (s.runs i ≤ s'.runs i) ∧
    (s'.fin i = true → s.fin i = true ∨ ∃ bs, l = .eDone i bs) := by
  have back : ∀ {s1 : State} {r}, (s1.back t r).runs = s1.runs ∧ (s1.back t r).fin = s1.fin := by
    intro s1 r
    cases r <;> exact ⟨rfl, rfl⟩
  unfold stepAt at h
  split at h
  all_goals try (split at h)
  all_goals try (split at h)
  all_goals try (split at h)
  all_goals try (simp only [State.lock] at h; split at h)
  all_goals (first | (cases h; done) | skip)
  all_goals obtain ⟨rfl, rfl⟩ := Prod.mk.inj (Option.some.inj h)
  all_goals (try (rw [back.1, back.2]; refine ⟨?_, ?_, ?_⟩ <;> simp [runs_notifyOne, fin_notifyOne]; done))
  all_goals try simp only [got, executed, unlock, runs_goto, fin_goto]
  all_goals try simp only [runs_push, runs_pushVector, runs_popped, runs_clear, runs_notifyAll, fin_push, fin_pushVector, fin_popped, fin_clear, fin_notifyAll]
  all_goals (try (simp; done))
  · rename_i j bs
    refine ⟨id, ?_, Or.inl⟩
    simp only [upd]
    split
    · next e => subst e; omega
    · omega
  · rename_i j bs
    refine ⟨?_, Nat.le_refl _, ?_⟩ <;> simp only [upd] <;> split
    · simp
    · exact id
    · next e => subst e; exact fun _ => .inr ⟨bs, rfl⟩
    · exact Or.inl

/-! ### Sums over threads -/

theorem sum_change {f g : Nat → Nat} {t : Nat} (h : ∀ u, u ≠ t → g u = f u) (ts : List Nat) (hn : ts.Nodup) :
    if t ∈ ts then (ts.map g).sum + f t = (ts.map f).sum + g t else (ts.map g).sum = (ts.map f).sum := by
  induction ts with
  | nil => simp
  | cons u ts ih =>
    simp only [List.nodup_cons] at hn
    have ih := ih hn.2
    by_cases e : t = u
    · subst e
      rw [if_neg hn.1] at ih
      simp [ih]; omega
    · have := h u (fun h => e h.symm)
      simp only [List.mem_cons, e, false_or, List.map_cons, List.sum_cons, this]
      split <;> simp_all <;> omega

theorem carries_woken {a b : Nat → Loc} (w : Woken a b) (i u : Nat) : carries i (b u) = carries i (a u) := by
  rcases w.all u with h | ⟨h1, h2⟩
  · rw [h]
  · rw [h1, h2]; rfl

theorem handed_append (i : Nat) (h h' : List (Event Op Out)) : handed i (h ++ h') = handed i h + handed i h' := by
  induction h with
  | nil => simp [handed]
  | cons e h ih => cases e <;> simp [handed, ih] <;> omega

theorem adds_append (i : Nat) (h h' : List (Event Op Out)) : adds i (h ++ h') = adds i h + adds i h' := by
  induction h with
  | nil => simp [adds]
  | cons e h ih => cases e <;> simp [adds, ih] <;> omega

theorem handed_ret (i t : Nat) (o : Option Out) : handed i (retEvents t o) = gives i o := by
  rcases o with _ | o
  · rfl
  · cases o <;> simp [retEvents, handed, gives]

theorem adds_ret (i t : Nat) (o : Option Out) : adds i (retEvents (Op := Op) t o) = 0 := by
  cases o <;> rfl

theorem carries_start (n i : Nat) (op : Op) : carries i (start n op) = op.adds i := by
  cases op with
  | addVector bs p => simp only [start]; split <;> rfl
  | _ => simp [start, carries, Op.adds]

/-- All copies of block `i` known. -/
def total (s : State) (h : List (Event Op Out)) (i : Nat) (ts : List Nat) : Nat :=
  s.runs i + s.queued i + (ts.map fun t => carries i (s.loc t)).sum + handed i h

/-- nothing is multiplied -/
def Upper (s : State) (h : List (Event Op Out)) : Prop := ∀ i ts, ts.Nodup → total s h i ts ≤ adds i h

theorem upper_init (n : Nat) : Upper (State.init n) [] := by
  intro i ts _
  have : ∀ t, carries i ((State.init n).loc t) = 0 := by
    intro t; simp only [State.init]; split <;> rfl
  have h0 : ∀ ts : List Nat, (ts.map fun t => carries i ((State.init n).loc t)).sum = 0 := by
    intro ts; induction ts with
    | nil => rfl
    | cons u ts ih => rw [List.map_cons, List.sum_cons, ih, this]
  simp only [total, h0, handed, adds]
  simp [State.init, State.queued]

theorem total_call {h : List (Event Op Out)} {op : Op} (hc : s.call n t op = some s') (i : Nat) (ts : List Nat) (hn : ts.Nodup) :
    total s' (h ++ [.call t op]) i ts = total s h i ts + if t ∈ ts then op.adds i else 0 := by
  obtain ⟨hid, rfl⟩ := call_eq hc
  have := sum_change (f := fun u => carries i (s.loc u)) (g := fun u => carries i ((s.goto t (start n op)).loc u)) (t := t)
    (fun u hu => by simp only [loc_goto, upd_ne _ _ hu]) ts hn
  have h1 : carries i ((s.goto t (start n op)).loc t) = op.adds i := by rw [loc_goto, upd_same, carries_start]
  have h2 : carries i (s.loc t) = 0 := by rw [hid]; rfl
  simp only [h1, h2] at this
  simp only [total, runs_goto, queued_goto, handed_append, handed]
  split at this <;> simp_all <;> omega

theorem adds_call (i : Nat) (h : List (Event Op Out)) (t : Nat) (op : Op) : adds i (h ++ [.call t op]) = adds i h + op.adds i := by
  rw [adds_append]; simp [adds]

theorem step_sum (h : stepAt n s t c l = some (s', o)) (hl : s.loc t = l) (i : Nat) (ts : List Nat) (hn : ts.Nodup) :
    if t ∈ ts then (ts.map fun u => carries i (s'.loc u)).sum + carries i l = (ts.map fun u => carries i (s.loc u)).sum + carries i (s'.loc t)
    else (ts.map fun u => carries i (s'.loc u)).sum = (ts.map fun u => carries i (s.loc u)).sum := by
  obtain ⟨a, l', h1, h2⟩ := step_loc h
  have := sum_change (f := fun u => carries i (s.loc u)) (g := fun u => carries i (s'.loc u)) (t := t)
    (fun u hu => by simp only [h1, upd_ne _ _ hu]; exact carries_woken h2 i u) ts hn
  rw [hl] at this; exact this

theorem upper_call {h : List (Event Op Out)} {op : Op} (u : Upper s h) (hc : s.call n t op = some s') :
    Upper s' (h ++ [.call t op]) := by
  intro i ts hn
  rw [total_call hc i ts hn, adds_call]
  have := u i ts hn
  split <;> omega

theorem upper_move {h : List (Event Op Out)} (u : Upper s h) (hm : stepAt n s t c l = some (s', o)) (hl : s.loc t = l) :
    Upper s' (h ++ retEvents t o) := by
  intro i ts hn
  have h1 := step_le i hm
  have h2 := step_sum hm hl i ts hn
  rw [adds_append, adds_ret]
  simp only [total, handed_append, handed_ret]
  by_cases e : t ∈ ts
  · rw [if_pos e] at h2
    have := u i ts hn
    simp only [total] at this
    omega
  · rw [if_neg e] at h2
    have := u i (t :: ts) (List.nodup_cons.2 ⟨e, hn⟩)
    simp only [total, List.map_cons, List.sum_cons, hl] at this
    omega

/-! ### Finished blocks have run -/

structure Ran (s : State) : Prop where
  fin : ∀ i, s.fin i = true → 1 ≤ s.runs i
  done : ∀ t i bs, s.loc t = .eDone i bs → 1 ≤ s.runs i
  late : ∀ i, 1 ≤ s.runs i → s.fin i = true ∨ ∃ t bs, s.loc t = .eDone i bs

theorem ran_init (n : Nat) : Ran (State.init n) := by
  refine ⟨fun i h => (by cases h), fun t i bs h => ?_, fun i h => by simp [State.init] at h⟩
  simp only [State.init] at h
  split at h <;> cases h

theorem ran_call {op : Op} (r : Ran s) (hc : s.call n t op = some s') : Ran s' := by
  obtain ⟨hid, rfl⟩ := call_eq hc
  refine ⟨r.fin, fun u i bs h => ?_, fun i h => ?_⟩
  rotate_left
  · rcases r.late i h with h1 | ⟨u, bs, h1⟩
    · exact .inl h1
    · refine .inr ⟨u, bs, ?_⟩
      rw [loc_goto, upd_ne]
      · exact h1
      · rintro rfl; rw [hid] at h1; cases h1
  rw [loc_goto] at h
  by_cases e : u = t
  · subst e; rw [upd_same] at h
    cases op with
    | addVector bs p => simp only [start] at h; split at h <;> cases h
    | _ => cases h
  · rw [upd_ne _ _ e] at h; exact r.done u i bs h

theorem step_eDone (h : stepAt n s t c l = some (s', o)) {i bs} (he : s'.loc t = .eDone i bs) : 1 ≤ s'.runs i := by
  have back : ∀ {s1 : State} {r}, (s1.back t r).loc t ≠ .eDone i bs := by
    intro s1 r
    cases r <;> simp [State.back, loc_goto, upd_same]
  unfold stepAt at h
  split at h
  all_goals try (split at h)
  all_goals try (split at h)
  all_goals try (split at h)
  all_goals try (simp only [State.lock] at h; split at h)
  all_goals (first | (cases h; done) | skip)
  all_goals obtain ⟨rfl, rfl⟩ := Prod.mk.inj (Option.some.inj h)
  all_goals first
    | (exact absurd he back)
    | skip
  all_goals simp only [got, executed, unlock, loc_goto, upd_same] at he
  all_goals (try (split at he))
  all_goals (try (cases he; done))
  rename_i j bs'
  cases he
  simp [runs_goto, upd]

theorem step_late (h : stepAt n s t c l = some (s', o)) (i : Nat) :
    (s'.runs i = s.runs i ∨ ∃ bs, s'.loc t = .eDone i bs) ∧ ((∃ bs, l = .eDone i bs) → s'.fin i = true) := by
  have back : ∀ {s1 : State} {r}, (s1.back t r).runs = s1.runs := by
    intro s1 r
    cases r <;> rfl
  unfold stepAt at h
  split at h
  all_goals try (split at h)
  all_goals try (split at h)
  all_goals try (split at h)
  all_goals try (simp only [State.lock] at h; split at h)
  all_goals (first | (cases h; done) | skip)
  all_goals obtain ⟨rfl, rfl⟩ := Prod.mk.inj (Option.some.inj h)
  all_goals (try (refine ⟨.inl ?_, (by rintro ⟨_, e⟩; cases e; done)⟩; rw [back]; done))
  all_goals (try (refine ⟨.inl ?_, (by rintro ⟨_, e⟩; cases e; done)⟩; rw [back, runs_notifyOne]; done))
  all_goals (try (constructor; exact .inl rfl; rintro ⟨_, e⟩; cases e; done))
  all_goals (try (refine ⟨.inl ?_, (by rintro ⟨_, e⟩; cases e; done)⟩; simp only [got, runs_goto, runs_push, runs_pushVector, runs_popped, runs_clear]; done))
  · rename_i j bs
    refine ⟨?_, fun ⟨_, e⟩ => (by cases e)⟩
    by_cases e : i = j
    · subst e; exact .inr ⟨bs, by rw [loc_goto, upd_same]⟩
    · exact .inl (by simp [runs_goto, upd, e])
  · rename_i j bs
    refine ⟨.inl rfl, ?_⟩
    rintro ⟨_, e⟩
    cases e
    simp [executed, fin_goto, upd]

theorem ran_move (r : Ran s) (h : stepAt n s t c (s.loc t) = some (s', o)) : Ran s' := by
  constructor
  · intro i hi
    have := step_fin h i
    have hr : 1 ≤ s.runs i := by
      rcases this.2.2 hi with h1 | ⟨bs, h1⟩
      · exact r.fin i h1
      · exact r.done t i bs h1
    omega
  · intro u i bs hu
    by_cases e : u = t
    · subst e; exact step_eDone h hu
    · obtain ⟨a, l', h1, h2⟩ := step_loc h
      rw [h1, upd_ne _ _ e] at hu
      have h3 : s.loc u = .eDone i bs := by
        rcases h2.all u with h3 | ⟨h3, h4⟩
        · rw [← h3]; exact hu
        · rw [h4] at hu; cases hu
      have := r.done u i bs h3
      have := (step_fin h i).2.1
      omega
  · intro i hi
    rcases (step_late h i).1 with h1 | ⟨bs, h1⟩
    · rw [h1] at hi
      rcases r.late i hi with h2 | ⟨u, bs, h2⟩
      · exact .inl ((step_fin h i).1 h2)
      · by_cases e : u = t
        · subst e; exact .inl ((step_late h i).2 ⟨bs, h2⟩)
        · refine .inr ⟨u, bs, ?_⟩
          obtain ⟨a, l', h3, h4⟩ := step_loc h
          rw [h3, upd_ne _ _ e]
          exact h4.awake h2 (by simp)
    · exact .inr ⟨t, bs, h1⟩

/-! ### Without close nothing is lost -/

/-- addWorkBlock was called by closeWorkerQueue -/
def Ret.isClose : Ret → Bool
  | .client => false
  | .close _ => true

/-- positions of closeWorkerQueue -/
def closing : Loc → Bool
  | .dTest | .cLock | .cTest | .cHalt | .cUnlock | .cClear _ | .cNotify1 | .cLoop _ | .cNotify2 | .cJoin _ _ | .cOut => true
  | .aCheck _ _ r | .aSize _ _ r | .aPush _ _ r _ | .aNotify r _ => r.isClose
  | _ => false

theorem step_closing (h : stepAt n s t c l = some (s', o)) (hl : closing l = false) : closing (s'.loc t) = false := by
  have back : ∀ {s1 : State} {r}, closing ((s1.back t r).loc t) = r.isClose := by
    intro s1 r
    cases r <;> simp [State.back, loc_goto, upd_same, closing, Ret.isClose]
  unfold stepAt at h
  split at h
  all_goals try (split at h)
  all_goals try (split at h)
  all_goals try (split at h)
  all_goals try (simp only [State.lock] at h; split at h)
  all_goals (first | (cases h; done) | skip)
  all_goals obtain ⟨rfl, rfl⟩ := Prod.mk.inj (Option.some.inj h)
  all_goals (try (cases hl; done))
  all_goals (try (rw [back]; exact hl))
  all_goals (try simp only [got, executed, unlock, loc_goto, upd_same])
  all_goals (try split)
  all_goals (try rfl)
  all_goals (try exact hl)

end Verif.WorkQueue
