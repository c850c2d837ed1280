import Verif.WorkQueue.Eventually

/-!
# C121: every block is executed in the end

An execution that never ends is fair if every thread that can take a step again and again does so again and again.  (A thread
waiting for the lock can take a step when the lock is free; the end of a wait, by timeout, is a step.)  In a fair execution in
which the queue is not closed, every block that is submitted is executed, or given to a client by `getWorkBlock`.
-/

namespace Verif.WorkQueue
open Verif.Conc State

variable {n t : Nat} {E : Infinite (sys n)}

/-! ### Lemmas -/

theorem ratio_at (R : Nat) (h4 : 4 ≤ R) (hR : ∀ i t r, E.act i = .call t (.setRatio r) → r ≤ R) (j : Nat) : (E.st j).ratio ≤ R := by
  have : (E.st j).ratio ≤ R ∧ ∀ u r, (E.st j).loc u = .setR r → r ≤ R := by
    refine E.always (P := fun s => s.ratio ≤ R ∧ ∀ u r, s.loc u = .setR r → r ≤ R) ?_ (fun i ih => ?_) j
    · refine ⟨by show (4 : Int) ≤ R; omega, fun u r h => ?_⟩
      have h : (if u < n then Loc.wE .high else .idle) = .setR r := h
      split at h <;> cases h
    · rcases step_cases E i with ⟨u, op, ha, hid, hs, _⟩ | ⟨u, c, o, ha, hs, _⟩
      · rw [hs]
        refine ⟨ih.1, fun v r h => ?_⟩
        rw [loc_goto] at h
        by_cases e : v = u
        · subst e; rw [upd_same] at h
          cases op with
          | setRatio r' => cases h; exact hR i v r ha
          | addVector bs p => simp only [start] at h; split at h <;> cases h
          | _ => cases h
        · rw [upd_ne _ _ e] at h; exact ih.2 v r h
      · have key : (E.st (i + 1)).ratio ≤ R ∧ ∀ r, (E.st (i + 1)).loc u ≠ .setR r := by
          have hl := ih.2 u
          revert hs hl
          generalize (E.st i).loc u = l
          generalize E.st (i + 1) = s'
          have h1 := ih.1
          revert h1
          generalize E.st i = s
          intro h1 h hl
          have back : ∀ {s1 : State} {r : Ret}, (s1.back u r).ratio = s1.ratio ∧ ∀ x, (s1.back u r).loc u ≠ .setR x := by
            intro s1 r; cases r <;> simp [State.back, loc_goto, upd_same, goto]
          have one : ∀ s1 : State, (notifyOne n c s1).ratio = s1.ratio := by
            intro s1
            rcases notifyOne_eq n c s1 with h | ⟨k, _, hk, h⟩ <;> rw [h] <;> rfl
          have st : ∀ q x, (s.setQue q x).ratio = s.ratio := by intro q x; cases q <;> rfl
          unfold stepAt at h
          split at h
          all_goals try (split at h)
          all_goals try (split at h)
          all_goals try (split at h)
          all_goals try (simp only [State.lock] at h; split at h)
          all_goals (first | (cases h; done) | skip)
          all_goals obtain ⟨rfl, rfl⟩ := Prod.mk.inj (Option.some.inj h)
          all_goals (try (rw [back.1]; first | exact ⟨h1, back.2⟩ | (rw [one]; exact ⟨h1, back.2⟩)))
          all_goals (try simp only [got, executed, unlock, loc_goto, upd_same])
          all_goals (try (refine ⟨?_, fun r h => ?_⟩))
          all_goals (try (first | exact h1 | (simp only [goto, popped_eq, clear_eq, push_eq, pushVector_eq, st]; exact h1)))
          all_goals (try (cases h; done))
          all_goals (try (split at h <;> cases h; done))
          all_goals (try (have := hl _ rfl; simp only [goto]; omega))
        refine ⟨key.1, fun v r h => ?_⟩
        by_cases e : v = u
        · subst e; exact absurd h (key.2 r)
        · obtain ⟨a, l', e1, w⟩ := step_loc hs
          rw [e1, upd_ne _ _ e] at h
          rcases w.all v with h2 | ⟨_, h2⟩
          · rw [h2] at h; exact ih.2 v r h
          · rw [h2] at h; cases h
  exact this.1

theorem step_back {i : Nat} {op : Op} (h : E.act i = .call t op) : (E.st (i + 1)).loc t = start n op := by
  rcases step_cases E i with ⟨u, op', ha, hid, hs, _⟩ | ⟨u, c, o, ha, hs, _⟩
  · rw [ha] at h; cases h; rw [hs, loc_goto, upd_same]
  · rw [ha] at h; cases h

/-- a submitted block is finished or comes into its queue -/
theorem submit_leads (hf : E.Fair) (h0 : 0 < n) {i k : Nat} {op : Op} {p : Prio} (h : E.act i = .call t op) (hk : 0 < op.adds k)
    (hp : op.prio = some p) :
    ∃ j, i ≤ j ∧ ((E.st j).fin k = true ∨ ∃ m : Nat, ((E.st j).que (ofPrio p)).1[m]? = some (some (Blk.task k))) := by
  have hl := step_back h
  cases op with
  | add b p' =>
    cases hp
    obtain rfl : b = some (.task k) := by
      simp only [Op.adds] at hk
      split at hk
      · next h => exact h
      · omega
    obtain ⟨j, c, o, h1, h2, h3, _⟩ := advance hf hl rfl
    simp only [start, stepAt, isFinished] at h3
    split at h3
    · next hfin => exact ⟨j, by omega, .inl hfin.1⟩
    · simp only [Option.some.injEq, Prod.mk.injEq] at h3
      obtain ⟨j1, c1, o1, h4, h5, h6, _⟩ := advance (t := t) (i := j + 1) (l := .aSize (.task k) p .client) hf
        (by rw [← h3.1, loc_goto, upd_same]) rfl
      simp only [stepAt, Option.some.injEq, Prod.mk.injEq] at h6
      obtain ⟨j2, c2, o2, h7, h8, h9, _⟩ := advance (t := t) (i := j1 + 1) (l := .aPush (.task k) p .client _) hf
        (by rw [← h6.1, loc_goto, upd_same]) rfl
      simp only [stepAt, Option.some.injEq, Prod.mk.injEq] at h9
      refine ⟨j2 + 1, by omega, .inr ⟨((E.st j2).que (ofPrio p)).1.length, ?_⟩⟩
      have : (E.st (j2 + 1)).que (ofPrio p) = ((E.st j2).push (ofPrio p) (some (.task k))).que (ofPrio p) := by
        rw [← h9.1]; generalize ofPrio p = q; cases q <;> rfl
      rw [this, push_eq, que_setQue]
      simp
  | addVector bs p' =>
    cases hp
    have hm : some (.task k) ∈ bs := by
      simp only [Op.adds] at hk
      exact List.count_pos_iff.1 hk
    simp only [start, if_pos h0] at hl
    obtain ⟨j, c, o, h1, h2, h3, _⟩ := advance hf hl rfl
    simp only [stepAt, Option.some.injEq, Prod.mk.injEq] at h3
    obtain ⟨m, hm⟩ := List.getElem?_of_mem hm
    refine ⟨j + 1, by omega, .inr ⟨((E.st j).que (ofPrio p)).1.length + m, ?_⟩⟩
    have : (E.st (j + 1)).que (ofPrio p) = ((E.st j).pushVector (ofPrio p) bs).que (ofPrio p) := by
      rw [← h3.1]; generalize ofPrio p = q; cases q <;> rfl
    rw [this, pushVector_eq, que_setQue]
    simp only
    rw [List.getElem?_append_right (by omega), Nat.add_sub_cancel_left]
    exact hm
  | _ => cases hp

theorem handled_of (hf : E.Fair) {i k : Nat} {q : Que}
    (h : ∃ j, i ≤ j ∧ ((E.st j).fin k = true ∨ ∃ m : Nat, ((E.st j).que q).1[m]? = some (some (Blk.task k))))
    (ht : ∀ j (m : Nat), ((E.st j).que q).1[m]? = some (some (Blk.task k)) → ∃ x, some (.task k) ∈ (traffic n q (E.st j) (E.sched j x)).2) :
    ∃ j, i ≤ j ∧ handled E k j := by
  obtain ⟨j, h1, h2 | ⟨m, h2⟩⟩ := h
  · exact ⟨j, h1, .inl h2⟩
  · obtain ⟨x, hx⟩ := ht j m h2
    obtain ⟨j1, h3, h4⟩ := taken_handled hf q hx
    exact ⟨j1, by omega, h4⟩

/-! ### The properties -/

/-- C121, high priority (and `required`): a block submitted at time `i` is finished, or returned by `getWorkBlock`, at some time
after, whatever the other threads do. -/
theorem high_handled (hf : E.Fair) (hn : neverClosed E) (h0 : 0 < n) {i k : Nat} {op : Op} (h : E.act i = .call t op)
    (hk : 0 < op.adds k) (hp : op.prio = some .high ∨ op.prio = some .required) : ∃ j, i ≤ j ∧ handled E k j := by
  rcases hp with hp | hp
  all_goals exact handled_of (q := .high) hf (submit_leads hf h0 h hk hp) fun j m hm => high_taken hf hn h0 hm

/-- C121, medium priority: if from some moment on nobody submits high priority blocks, and finitely many threads (`ts`) fetch. -/
theorem medium_handled (hf : E.Fair) (hn : neverClosed E) (h0 : 0 < n) (hh : noMore E .high) (ts : List Nat) (hnd : ts.Nodup)
    (hts : ∀ t, (t < n ∨ ∃ i, E.act i = .call t .get) → t ∈ ts) {i k : Nat} {op : Op} (h : E.act i = .call t op)
    (hk : 0 < op.adds k) (hp : op.prio = some .medium) : ∃ j, i ≤ j ∧ handled E k j :=
  handled_of (q := .med) hf (submit_leads hf h0 h hk hp) fun _ _ hm => medium_taken hf hn h0 ts hnd hts (bounded_noMore hn hh) hm

/-- C121, low priority: if from some moment on nobody submits high priority blocks, finitely many threads (`ts`) fetch, and the
ratios set are at most `R`.  Any number of medium priority blocks may be submitted; the counter may overflow. -/
theorem low_handled (hf : E.Fair) (hn : neverClosed E) (h0 : 0 < n) (hh : noMore E .high) (ts : List Nat) (hnd : ts.Nodup)
    (hts : ∀ t, (t < n ∨ ∃ i, E.act i = .call t .get) → t ∈ ts) (R : Nat) (h4 : 4 ≤ R)
    (hR : ∀ i t r, E.act i = .call t (.setRatio r) → r ≤ R) (hlim : R + ts.length < 2147483648) {i k : Nat} {op : Op}
    (h : E.act i = .call t op) (hk : 0 < op.adds k) (hp : op.prio = some .low) : ∃ j, i ≤ j ∧ handled E k j :=
  handled_of (q := .low) hf (submit_leads hf h0 h hk hp) fun _ _ hm =>
    low_taken hf hn h0 ts hnd hts (bounded_noMore hn hh) R (ratio_at R h4 hR) hlim hm

/-- what a step returns -/
theorem step_out {c : Nat} {s s' : State} {o : Out} {l : Loc} (h : stepAt n s t c l = some (s', some o)) : l = .ret o := by
  unfold stepAt at h
  split at h
  all_goals try (split at h)
  all_goals try (split at h)
  all_goals try (split at h)
  all_goals try (simp only [State.lock] at h; split at h)
  all_goals (first | (cases h; done) | skip)
  all_goals obtain ⟨_, h⟩ := Prod.mk.inj (Option.some.inj h)
  all_goals (cases h; rfl)

theorem step_blk {c : Nat} {s s' : State} {o : Option Out} {l : Loc} {b : Option Blk} (h : stepAt n s t c l = some (s', o))
    (hl : s'.loc t = .ret (.blk b)) : inFetch l = true := by
  have back : ∀ {s1 : State} {r : Ret}, (s1.back t r).loc t ≠ .ret (.blk b) := by
    intro s1 r; cases r <;> simp [State.back, loc_goto, upd_same]
  unfold stepAt at h
  split at h
  all_goals try (split at h)
  all_goals try (split at h)
  all_goals try (split at h)
  all_goals try (simp only [State.lock] at h; split at h)
  all_goals (first | (cases h; done) | skip)
  all_goals obtain ⟨rfl, rfl⟩ := Prod.mk.inj (Option.some.inj h)
  all_goals (try rfl)
  all_goals (try (exact absurd hl back))
  all_goals (simp only [executed, unlock, loc_goto, upd_same] at hl)
  all_goals (first | (cases hl; done) | (split at hl <;> cases hl))

/-- without calls of `getWorkBlock` no client has a block -/
theorem no_blk (hg : ∀ i t, E.act i ≠ .call t .get) (j u : Nat) (hu : n ≤ u) (b : Option Blk) : (E.st j).loc u ≠ .ret (.blk b) := by
  have hfe := fetchers_at (E := E) (List.range n) (fun t h => by
    rcases h with h | ⟨i, h⟩
    · simpa using h
    · exact absurd h (hg i t))
  refine E.always (P := fun s => s.loc u ≠ .ret (.blk b)) ?_ (fun i ih h => ?_) j
  · intro h
    have h : (if u < n then Loc.wE .high else .idle) = .ret (.blk b) := h
    split at h <;> cases h
  · rcases step_cases E i with ⟨v, op, ha, hid, hs, _⟩ | ⟨v, c, o, ha, hs, _⟩
    · rw [hs, loc_goto] at h
      by_cases e : u = v
      · subst e; rw [upd_same] at h
        cases op with
        | addVector bs p => simp only [start] at h; split at h <;> cases h
        | _ => cases h
      · rw [upd_ne _ _ e] at h; exact ih h
    · by_cases e : u = v
      · subst e
        have := (hfe i).2 u (step_blk hs h)
        simp at this; omega
      · obtain ⟨a, l', e1, w⟩ := step_loc hs
        rw [e1, upd_ne _ _ e] at h
        rcases w.all u with h2 | ⟨_, h2⟩
        · rw [h2] at h; exact ih h
        · rw [h2] at h; cases h

theorem handled_fin (hg : ∀ i t, E.act i ≠ .call t .get) {j k : Nat} (h : handled E k j) : (E.st j).fin k = true ∧ 1 ≤ (E.st j).runs k := by
  rcases h with h | ⟨u, hu, h⟩
  · exact ⟨h, (known_run _ (E.reached j)).ran.fin k h⟩
  · rcases step_cases E j with ⟨v, op, ha, hid, hs, ho⟩ | ⟨v, c, o, ha, hs, ho⟩
    · rw [ho] at h; simp at h
    · rw [ho] at h
      cases o with
      | none => simp [retEvents] at h
      | some o =>
        simp only [retEvents, List.mem_singleton, Event.ret.injEq] at h
        obtain ⟨rfl, rfl⟩ := h
        exact absurd (step_out hs) (no_blk hg j u hu _)

/-- C121 if clients only submit blocks: in every fair execution in which the queue is not closed, nobody calls `getWorkBlock`, no more
high priority blocks are submitted from some moment on, and the ratios set are at most `R`, every block that is submitted is run
and finished in the end, whatever its priority. -/
theorem all_executed (hf : E.Fair) (hn : neverClosed E) (h0 : 0 < n) (hg : ∀ i t, E.act i ≠ .call t .get) (hh : noMore E .high)
    (R : Nat) (h4 : 4 ≤ R) (hR : ∀ i t r, E.act i = .call t (.setRatio r) → r ≤ R) (hlim : R + n < 2147483648) {i k : Nat} {op : Op}
    (h : E.act i = .call t op) (hk : 0 < op.adds k) : ∃ j, i ≤ j ∧ (E.st j).fin k = true ∧ 1 ≤ (E.st j).runs k := by
  have hts : ∀ t, (t < n ∨ ∃ i, E.act i = .call t .get) → t ∈ List.range n := fun t h => by
    rcases h with h | ⟨i, h⟩
    · simpa using h
    · exact absurd h (hg i t)
  have : ∃ j, i ≤ j ∧ handled E k j := by
    cases hp : op.prio with
    | none => cases op <;> first | (cases hp; done) | (simp [Op.adds] at hk)
    | some p =>
      cases p with
      | high => exact high_handled hf hn h0 h hk (.inl hp)
      | required => exact high_handled hf hn h0 h hk (.inr hp)
      | medium => exact medium_handled hf hn h0 hh _ List.nodup_range hts h hk hp
      | low => exact low_handled hf hn h0 hh _ List.nodup_range hts R h4 hR (by simpa using hlim) h hk hp
  obtain ⟨j, h1, h2⟩ := this
  exact ⟨j, h1, handled_fin hg h2⟩

/-! ### An execution that never ends -/

theorem run_split {as bs : List (Act Op)} {s s' : State} {h : List (Event Op Out)} (e : (sys n).run s (as ++ bs) = some (s', h)) :
    ∃ s1 h1, (sys n).run s as = some (s1, h1) := by
  induction as generalizing s h with
  | nil => exact ⟨s, [], rfl⟩
  | cons a as ih =>
    simp only [List.cons_append, Sys.run, Option.bind_eq_some_iff, Option.map_eq_some_iff] at e
    obtain ⟨⟨s1, h1⟩, e1, ⟨s2, h2⟩, e2, e3⟩ := e
    cases e3
    obtain ⟨s3, h3, e4⟩ := ih e2
    exact ⟨s3, h1 ++ h3, by simp [Sys.run, e1, e4]⟩

/-- `as`, then steps of the worker -/
def thenWorker (as : List (Act Op)) (i : Nat) : List (Act Op) := as.take i ++ List.replicate (i - as.length) (.move 0 0)

theorem thenWorker_succ (as : List (Act Op)) (i : Nat) : thenWorker as (i + 1) = thenWorker as i ++ [as.getD i (.move 0 0)] := by
  unfold thenWorker
  rcases Nat.lt_or_ge i as.length with h | h
  · rw [show i + 1 - as.length = 0 by omega, show i - as.length = 0 by omega]
    simp only [List.replicate_zero, List.append_nil, List.take_add_one, List.getD, List.getElem?_eq_getElem h, Option.getD_some,
      Option.toList_some]
  · rw [List.take_of_length_le (by omega), List.take_of_length_le h, show i + 1 - as.length = (i - as.length) + 1 by omega,
      List.replicate_succ']
    simp [List.getD, h]

theorem worker_can {s : State} (hi : ∀ t, 1 ≤ t → s.loc t = .idle) (k : Inv 1 s) (hlv : leaves (s.loc 0) = false) :
    ∃ s' o, stepAt 1 s 0 0 (s.loc 0) = some (s', o) := by
  suffices hs : (stepAt 1 s 0 0 (s.loc 0)).isSome = true by
    obtain ⟨x, hx⟩ := Option.isSome_iff_exists.1 hs
    exact ⟨x.1, x.2, hx⟩
  have hp := k.place 0
  have ho : holds (s.loc 0) = false → s.owner = none := by
    intro h
    cases ho : s.owner with
    | none => rfl
    | some u =>
      have := (k.owns u).2 ho
      cases u with
      | zero => rw [h] at this; cases this
      | succ u => rw [hi (u + 1) (by omega)] at this; cases this
  revert hp hlv ho
  generalize s.loc 0 = l
  intro hlv hp ho
  by_cases hr : ready l = true
  · exact ready_moves 0 hr
  · cases l <;> first | (exact absurd rfl hr) | (cases hlv; done) | (simp only [stepAt, State.lock, ho rfl]; rfl) | rfl |
      (simp only [place] at hp; omega) | skip

theorem then_runs (as : List (Act Op)) {s : State} {h : List (Event Op Out)} (e : (sys 1).run (sys 1).init as = some (s, h)) (hq : quiet s)
    (hi : ∀ t, 1 ≤ t → s.loc t = .idle) (hlv : leaves (s.loc 0) = false) (i : Nat) :
    ∃ s1 h1, (sys 1).run (sys 1).init (thenWorker as i) = some (s1, h1) ∧
      (as.length ≤ i → quiet s1 ∧ (∀ t, 1 ≤ t → s1.loc t = .idle) ∧ leaves (s1.loc 0) = false) := by
  induction i with
  | zero =>
    cases as with
    | nil => cases e; exact ⟨_, _, rfl, fun _ => ⟨hq, hi, hlv⟩⟩
    | cons a as => exact ⟨(sys 1).init, [], by simp [thenWorker, Sys.run], fun h => by simp at h⟩
  | succ i ih =>
    rcases Nat.lt_trichotomy (i + 1) as.length with h1 | h1 | h1
    · rw [← List.take_append_drop (i + 1) as] at e
      obtain ⟨s1, h2, e1⟩ := run_split e
      refine ⟨s1, h2, ?_, fun h => by omega⟩
      rw [thenWorker, show i + 1 - as.length = 0 by omega]; simpa using e1
    · refine ⟨s, h, ?_, fun _ => ⟨hq, hi, hlv⟩⟩
      rw [thenWorker, h1, Nat.sub_self, List.take_length]; simpa using e
    · obtain ⟨s1, h2, e1, h3⟩ := ih
      obtain ⟨hq1, hi1, hl1⟩ := h3 (by omega)
      obtain ⟨s2, o, e2⟩ := worker_can hi1 (inv_reachable ⟨_, _, e1⟩) hl1
      have e3 : (sys 1).run s1 [.move 0 0] = some (s2, retEvents 0 o) := by
        have : (sys 1).move 0 0 s1 = some (s2, o) := e2
        simp only [Sys.run, Sys.exec, this]
        cases o <;> rfl
      refine ⟨s2, h2 ++ retEvents 0 o, ?_, fun _ => ⟨step_quiet e2 hq1, fun t ht => ?_, step_leaves e2 hq1.2 hl1⟩⟩
      · rw [thenWorker_succ, show as.getD i (.move 0 0) = .move 0 0 by simp [List.getD, show as.length ≤ i by omega]]
        exact Sys.run_append _ e1 e3
      · obtain ⟨a, l', e4, w⟩ := step_loc e2
        rw [e4, upd_ne _ _ (by omega)]
        rcases w.all t with h | ⟨h, _⟩
        · rw [h]; exact hi1 t ht
        · rw [hi1 t ht] at h; cases h

/-- Every execution of a queue with one worker, without closing calls and with all calls completed, is the beginning of a fair
infinite one. -/
theorem extends_fair (as : List (Act Op)) {s : State} {h : List (Event Op Out)} (e : (sys 1).run (sys 1).init as = some (s, h)) (hq : quiet s)
    (hi : ∀ t, 1 ≤ t → s.loc t = .idle) (hlv : leaves (s.loc 0) = false) :
    ∃ E : Infinite (sys 1), E.Fair ∧ ∀ i, E.act i = as.getD i (.move 0 0) := by
  have ht := then_runs as e hq hi hlv
  let st : Nat → State := fun i => (ht i).choose
  have hst : ∀ i, ∃ h1, (sys 1).run (sys 1).init (thenWorker as i) = some (st i, h1) ∧
      (as.length ≤ i → quiet (st i) ∧ (∀ t, 1 ≤ t → (st i).loc t = .idle) ∧ leaves ((st i).loc 0) = false) := fun i => (ht i).choose_spec
  have hstep : ∀ i, ∃ x, (sys 1).exec (st i) (as.getD i (.move 0 0)) = some (st (i + 1), x) := by
    intro i
    obtain ⟨h1, e1, _⟩ := hst i
    obtain ⟨h2, e2, _⟩ := hst (i + 1)
    rw [thenWorker_succ] at e2
    cases hx : (sys 1).exec (st i) (as.getD i (.move 0 0)) with
    | none =>
      exfalso
      have : ∀ (l : List (Act Op)) (s0 : State) h1, (sys 1).run s0 l = some (st i, h1) →
          (sys 1).run s0 (l ++ [as.getD i (.move 0 0)]) = none := by
        intro l
        induction l with
        | nil => intro s0 h1 e; cases e; simp only [List.nil_append, Sys.run, hx]; rfl
        | cons a l ih =>
          intro s0 h1 e
          simp only [Sys.run, Option.bind_eq_some_iff, Option.map_eq_some_iff] at e
          obtain ⟨⟨s1, h1⟩, e1, ⟨s2, h2⟩, e2, e3⟩ := e
          cases e3
          simp only [List.cons_append, Sys.run, e1, Option.bind_some, ih _ _ e2, Option.map_none]
      rw [this _ _ _ e1] at e2; cases e2
    | some x =>
      have e3 : (sys 1).run (st i) [as.getD i (.move 0 0)] = some (x.1, x.2) := by
        simp only [Sys.run, hx, Option.bind_some, Option.map_some, List.append_nil]
      have := Sys.run_append _ e1 e3
      rw [this] at e2
      simp only [Option.some.injEq, Prod.mk.injEq] at e2
      exact ⟨x.2, by rw [← e2.1]⟩
  refine ⟨⟨fun i => as.getD i (.move 0 0), st, fun i => (hstep i).choose, ?_, fun i => (hstep i).choose_spec⟩, ?_, fun i => rfl⟩
  · obtain ⟨h1, e1, _⟩ := hst 0
    simp only [thenWorker, List.take_zero, Nat.zero_sub, List.replicate_zero, List.append_nil, Sys.run, Option.some.injEq,
      Prod.mk.injEq] at e1
    exact e1.1.symm
  · intro t hc i
    cases t with
    | zero =>
      refine ⟨max i as.length, by omega, 0, ?_⟩
      simp [List.getD, show as.length ≤ max i as.length by omega]
    | succ t =>
      obtain ⟨j, h1, c, h2⟩ := hc as.length
      obtain ⟨_, _, h3⟩ := hst j
      have h4 := (h3 h1).2.1 (t + 1) (by omega)
      have h2 : (stepAt 1 (st j) (t + 1) c ((st j).loc (t + 1))).isSome = true := h2
      rw [h4] at h2; cases h2

/-- `all_executed` and the others: three blocks are submitted, one of each priority -/
def threeAs : List (Act Op) := begin 1 (.add (some (.task 5)) .low) 5 ++ begin 2 (.addVector [some (.task 6), none] .medium) 3 ++
  begin 1 (.add (some (.task 7)) .high) 5

example : ∃ E : Infinite (sys 1), E.Fair ∧ neverClosed E ∧ (∀ i t, E.act i ≠ .call t .get) ∧ noMore E .high ∧
    (∀ i t r, E.act i = .call t (.setRatio r) → r ≤ (4 : Nat)) ∧ E.act 0 = .call 1 (.add (some (.task 5)) .low) ∧
    E.act 6 = .call 2 (.addVector [some (.task 6), none] .medium) ∧ E.act 10 = .call 1 (.add (some (.task 7)) .high) := by
  obtain ⟨E, h1, h2⟩ := extends_fair threeAs rfl ⟨fun t => match t with | 0 => rfl | 1 => rfl | 2 => rfl | t + 3 => rfl, rfl⟩
    (fun t ht => match t with | 0 => by omega | 1 => rfl | 2 => rfl | t + 3 => rfl) rfl
  have hc : ∀ i t op, E.act i = .call t op → i ≤ 10 ∧ (op = .add (some (.task 5)) .low ∨ op = .addVector [some (.task 6), none] .medium ∨
      op = .add (some (.task 7)) .high) := by
    intro i t op h
    rw [h2] at h
    match i with
    | 0 => cases h; simp
    | 6 => cases h; simp
    | 10 => cases h; simp
    | 1 | 2 | 3 | 4 | 5 | 7 | 8 | 9 | 11 | 12 | 13 | 14 | 15 => cases h
    | i + 16 => cases h
  refine ⟨E, h1, ?_, ?_, ⟨11, ?_⟩, ?_, by rw [h2]; rfl, by rw [h2]; rfl, by rw [h2]; rfl⟩
  · intro i t
    refine ⟨fun h => ?_, fun h => ?_⟩
    · have := (hc i t _ h).2; simp at this
    · have := (hc i t _ h).2; simp at this
  · intro i t h
    have := (hc i t _ h).2; simp at this
  · intro i hi t op h
    have := (hc i t op h).1; omega
  · intro i t r h
    have := (hc i t _ h).2; simp at this

end Verif.WorkQueue
