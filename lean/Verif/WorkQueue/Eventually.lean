import Verif.WorkQueue.Live

/-
Lemmas for C121: what is queued is taken, what is taken is executed.
-/
namespace Verif.WorkQueue
open Verif.Conc State

variable {n t c : Nat} {s s' : State} {o : Option Out} {l : Loc} {E : Infinite (sys n)}

/-! ### Blocks taken are executed or returned -/

/-- block `k` is finished, or a client has got it from `getWorkBlock` -/
def handled (E : Infinite (sys n)) (k j : Nat) : Prop :=
  (E.st j).fin k = true ∨ ∃ u, n ≤ u ∧ .ret u (.blk (some (.task k))) ∈ E.out j

theorem done_leads (hf : E.Fair) {i k : Nat} {bs} (hl : (E.st i).loc t = .eDone k bs) : ∃ j, i ≤ j ∧ (E.st j).fin k = true := by
  obtain ⟨j, c, o, h1, h2, h3, _⟩ := advance hf hl rfl
  simp only [stepAt, Option.some.injEq, Prod.mk.injEq] at h3
  exact ⟨j + 1, by omega, by rw [← h3.1]; simp [executed, goto, upd_same]⟩

theorem test_leads (hf : E.Fair) {i k : Nat} {bs} (hl : (E.st i).loc t = .eTest k bs) : ∃ j, i ≤ j ∧ (E.st j).fin k = true := by
  obtain ⟨j, c, o, h1, h2, h3, _⟩ := advance hf hl rfl
  cases hk : (E.st j).fin k with
  | true => exact ⟨j, h1, hk⟩
  | false =>
    simp only [stepAt, hk, Option.some.injEq, Prod.mk.injEq, Bool.false_eq_true, if_false] at h3
    obtain ⟨j1, c1, o1, h4, h5, h6, _⟩ := advance (t := t) (l := .eRun k bs) (i := j + 1) hf (by rw [← h3.1, loc_goto, upd_same]) rfl
    simp only [stepAt, Option.some.injEq, Prod.mk.injEq] at h6
    obtain ⟨j2, h7, h8⟩ := done_leads (t := t) (k := k) (bs := bs) (i := j1 + 1) hf (by rw [← h6.1, loc_goto, upd_same])
    exact ⟨j2, by omega, h8⟩

theorem got_leads (hf : E.Fair) {i k : Nat} {s1 : State} (hs : E.st i = got n s1 t (some (.task k))) : ∃ j, i ≤ j ∧ handled E k j := by
  have hl : (E.st i).loc t = if t < n then .wChk (some (.task k)) else .ret (.blk (some (.task k))) := by
    rw [hs, got, loc_goto, upd_same]
  split at hl
  · obtain ⟨j, c, o, h1, h2, h3, _⟩ := advance hf hl rfl
    cases hk : (E.st j).fin k with
    | true => exact ⟨j, h1, .inl hk⟩
    | false =>
      simp only [stepAt, hk, Option.some.injEq, Prod.mk.injEq, Bool.false_eq_true, if_false] at h3
      obtain ⟨j1, h4, h5⟩ := test_leads (t := t) (k := k) (bs := []) (i := j + 1) hf (by rw [← h3.1, loc_goto, upd_same])
      exact ⟨j1, by omega, .inl h5⟩
  · next ht =>
    obtain ⟨j, c, o, h1, h2, h3, h4⟩ := advance hf hl rfl
    simp only [stepAt, Option.some.injEq, Prod.mk.injEq] at h3
    refine ⟨j, h1, .inr ⟨t, by omega, ?_⟩⟩
    rw [h4, ← h3.2]; simp [retEvents]

/-- the thread that takes a block from a queue executes it (a worker) or returns it (a client) -/
theorem take_leads (hf : E.Fair) {i k : Nat} {q : Que} (hs : stepAt n (E.st i) t c ((E.st i).loc t) = some (E.st (i + 1), o))
    (ht : takes q ((E.st i).loc t) = true) (hb : ((E.st i).que q).1.head? = some (some (.task k))) : ∃ j, i ≤ j ∧ handled E k j := by
  revert hs ht
  generalize hl : (E.st i).loc t = l
  intro hs ht
  cases l with
  | gHigh =>
    obtain rfl : q = .high := by simpa [takes] using ht
    simp only [stepAt, front_eq, hb, Option.some.injEq, Prod.mk.injEq] at hs
    obtain ⟨j, h1, h2⟩ := got_leads hf hs.1.symm
    exact ⟨j, by omega, h2⟩
  | gLow =>
    obtain rfl : q = .low := by simpa [takes] using ht
    simp only [stepAt, front_eq, hb, Option.some.injEq, Prod.mk.injEq] at hs
    obtain ⟨j, h1, h2⟩ := got_leads hf hs.1.symm
    exact ⟨j, by omega, h2⟩
  | gLowPop =>
    obtain rfl : q = .low := by simpa [takes] using ht
    simp only [stepAt, front_eq, hb, Option.some.injEq, Prod.mk.injEq] at hs
    obtain ⟨j, c, o, h1, h2, h3, _⟩ := advance (t := t) (l := .gReset (some (.task k))) (i := i + 1) hf
      (by rw [← hs.1, loc_goto, upd_same]) rfl
    simp only [stepAt, Option.some.injEq, Prod.mk.injEq] at h3
    obtain ⟨j1, h4, h5⟩ := got_leads hf h3.1.symm
    exact ⟨j1, by omega, h5⟩
  | gMed =>
    obtain rfl : q = .med := by simpa [takes] using ht
    simp only [stepAt, front_eq, hb, Option.some.injEq, Prod.mk.injEq] at hs
    obtain ⟨j, c, o, h1, h2, h3, _⟩ := advance (t := t) (l := .gInc (some (.task k))) (i := i + 1) hf
      (by rw [← hs.1, loc_goto, upd_same]) rfl
    simp only [stepAt, Option.some.injEq, Prod.mk.injEq] at h3
    obtain ⟨j1, h4, h5⟩ := got_leads hf h3.1.symm
    exact ⟨j1, by omega, h5⟩
  | _ => cases ht

/-- the moment a block is taken -/
theorem taken_at (q : Que) {b : Option Blk} (k : Nat) : ∀ {i}, b ∈ (traffic n q (E.st i) (E.sched i k)).2 →
    ∃ j t c o, i ≤ j ∧ E.act j = .move t c ∧ stepAt n (E.st j) t c ((E.st j).loc t) = some (E.st (j + 1), o) ∧
      takes q ((E.st j).loc t) = true ∧ ((E.st j).que q).1.head? = some b := by
  induction k with
  | zero => intro i h; simp [Infinite.sched, traffic] at h
  | succ k ih =>
    intro i h
    simp only [Infinite.sched, traffic, E.step i] at h
    rcases step_cases E i with ⟨u, op, ha, _⟩ | ⟨u, c, o, ha, hs, _⟩
    · rw [ha] at h
      obtain ⟨j, t, c, o, h1, h2⟩ := ih h
      exact ⟨j, t, c, o, by omega, h2⟩
    · rw [ha] at h
      simp only [List.mem_append] at h
      rcases h with h | h
      · split at h
        · next ht =>
          exact ⟨i, u, c, o, by omega, ha, hs, ht, by simpa using h⟩
        · cases h
      · obtain ⟨j, t, c, o, h1, h2⟩ := ih h
        exact ⟨j, t, c, o, by omega, h2⟩

theorem taken_handled (hf : E.Fair) (q : Que) {i k m : Nat} (h : some (.task k) ∈ (traffic n q (E.st i) (E.sched i m)).2) :
    ∃ j, i ≤ j ∧ handled E k j := by
  obtain ⟨j, t, c, o, h1, _, h3, h4, h5⟩ := taken_at q m h
  obtain ⟨j1, h6, h7⟩ := take_leads hf h3 h4 h5
  exact ⟨j1, by omega, h7⟩

/-! ### How many blocks are taken -/

/-- how many blocks are taken from queue `q` in `k` actions from time `i` on -/
def takenIn (E : Infinite (sys n)) (q : Que) (i k : Nat) : Nat := taken n q (E.st i) (E.sched i k)

/-- at time `i` -/
def takenNow (E : Infinite (sys n)) (q : Que) (i : Nat) : Nat :=
  match E.act i with
  | .call _ _ => 0
  | .move t _ => takesN q (E.st i) ((E.st i).loc t)

theorem takenIn_succ (q : Que) (i k : Nat) : takenIn E q i (k + 1) = takenNow E q i + takenIn E q (i + 1) k := by
  have h := E.step i
  simp only [takenIn, takenNow, Infinite.sched]
  cases ha : E.act i with
  | call t op => rw [ha] at h; rw [taken_call q h]; simp
  | move t c => rw [ha] at h; rw [taken_move q h]

theorem takenIn_add (q : Que) (j k : Nat) : ∀ i, takenIn E q i (j + k) = takenIn E q i j + takenIn E q (i + j) k := by
  induction j with
  | zero => intro i; simp [takenIn, Infinite.sched, taken, traffic]
  | succ j ih =>
    intro i
    rw [show j + 1 + k = (j + k) + 1 by omega, takenIn_succ, takenIn_succ, ih (i + 1), show i + 1 + j = i + (j + 1) by omega]
    omega

/-- only so many blocks are ever taken from `q` -/
def bounded (E : Infinite (sys n)) (q : Que) : Prop := ∃ B, ∀ i k, takenIn E q i k ≤ B

theorem bounded_of {q : Que} {i B : Nat} (h : ∀ k, takenIn E q i k ≤ B) : bounded E q := by
  refine ⟨takenIn E q 0 i + B, fun j k => ?_⟩
  have h1 := takenIn_add (E := E) q j k 0
  have h2 := takenIn_add (E := E) q i (j + k) 0
  have h3 := takenIn_add (E := E) q (j + k) i 0
  have h4 := h (j + k)
  simp only [Nat.zero_add] at h1 h2 h3
  have : i + (j + k) = j + k + i := by omega
  rw [this] at h2
  omega

/-- a block is taken from `q` after time `i`, if more are taken than any number -/
theorem unbounded {q : Que} (h : ¬ bounded E q) (i : Nat) : ∃ j t c o b, i ≤ j ∧ E.act j = .move t c ∧
    stepAt n (E.st j) t c ((E.st j).loc t) = some (E.st (j + 1), o) ∧
      takes q ((E.st j).loc t) = true ∧ ((E.st j).que q).1.head? = some b := by
  have : ∃ k, 0 < takenIn E q i k := by
    apply Classical.byContradiction
    intro hn
    exact h (bounded_of (i := i) (B := 0) fun k => Nat.le_of_not_lt fun hk => hn ⟨k, hk⟩)
  obtain ⟨k, hk⟩ := this
  simp only [takenIn, taken, List.length_pos_iff_exists_mem] at hk
  obtain ⟨b, hb⟩ := hk
  obtain ⟨j, t, c, o, h1⟩ := taken_at q k hb
  exact ⟨j, t, c, o, b, h1⟩

/-! ### If nobody adds blocks any more, only so many are taken -/

/-- what a thread may still append to queue `q` -/
def pend (q : Que) : Loc → Nat
  | .aCheck (some _) p _ | .aSize _ p _ | .aPush _ p _ _ => if ofPrio p = q then 1 else 0
  | .vPush bs p => if ofPrio p = q then bs.length else 0
  | _ => 0

theorem step_pend (q : Que) (h : stepAt n s t c l = some (s', o)) (hl : closing l = false) :
    (appends q l).length + pend q (s'.loc t) ≤ pend q l := by
  have back : ∀ {s1 : State} {r : Ret}, pend q ((s1.back t r).loc t) = 0 := by
    intro s1 r
    cases r <;> simp [State.back, loc_goto, upd_same, pend]
  unfold stepAt at h
  split at h
  all_goals try (split at h)
  all_goals try (split at h)
  all_goals try (split at h)
  all_goals try (simp only [State.lock] at h; split at h)
  all_goals (first | (cases h; done) | skip)
  all_goals obtain ⟨rfl, rfl⟩ := Prod.mk.inj (Option.some.inj h)
  all_goals (try (rw [back]; simp [appends]; done))
  all_goals (try (cases hl; done))
  all_goals (try simp only [got, executed, unlock, loc_goto, upd_same])
  all_goals (try (simp [appends, pend]; done))
  all_goals (try (split <;> simp [appends, pend]; done))
  all_goals (simp only [appends, pend]; split <;> simp)

/-- whether a call submits blocks of a priority served from queue `q` -/
def addsTo (q : Que) (op : Op) : Bool := op.prio.map ofPrio = some q

theorem start_pend (q : Que) {op : Op} (h : addsTo q op = false) : pend q (start n op) = 0 := by
  cases op with
  | add b p =>
    have : ¬ ofPrio p = q := by simpa [addsTo, Op.prio] using h
    cases b <;> simp [start, pend, this]
  | addVector bs p =>
    have : ¬ ofPrio p = q := by simpa [addsTo, Op.prio] using h
    simp only [start]; split <;> simp [pend, this]
  | _ => rfl

/-- from some moment on nobody adds blocks to queue `q` -/
def noMore (E : Infinite (sys n)) (q : Que) : Prop := ∃ N, ∀ i, N ≤ i → ∀ t op, E.act i = .call t op → addsTo q op = false

theorem appended_le (hn : neverClosed E) {q : Que} {ts : List Nat} (hts : ts.Nodup) {N : Nat}
    (hN : ∀ i, N ≤ i → ∀ t op, E.act i = .call t op → addsTo q op = false) (k : Nat) : ∀ {i}, N ≤ i →
    (∀ u, u ∉ ts → pend q ((E.st i).loc u) = 0) → (traffic n q (E.st i) (E.sched i k)).1.length ≤ weigh (pend q) ts (E.st i) := by
  induction k with
  | zero => intro i _ _; simp [Infinite.sched, traffic]
  | succ k ih =>
    intro i hi hz
    have hz' : (∀ u, u ∉ ts → pend q ((E.st (i + 1)).loc u) = 0) ∧
        ∀ x, (∃ t c, E.act i = .move t c ∧ x = (appends q ((E.st i).loc t)).length) ∨ (x = 0 ∧ ∃ t op, E.act i = .call t op) →
          x + weigh (pend q) ts (E.st (i + 1)) ≤ weigh (pend q) ts (E.st i) := by
      rcases step_cases E i with ⟨v, op, ha, hid, hs, _⟩ | ⟨v, c, o, ha, hs, _⟩
      · have h0 := start_pend (n := n) q (hN i hi v op ha)
        have : ∀ u, pend q ((E.st (i + 1)).loc u) = pend q ((E.st i).loc u) := by
          intro u
          rw [hs, loc_goto]
          by_cases e : u = v
          · subst e; rw [upd_same, h0, hid]; rfl
          · rw [upd_ne _ _ e]
        refine ⟨fun u hu => by rw [this]; exact hz u hu, ?_⟩
        rintro x (⟨t, c, hc, _⟩ | ⟨rfl, _⟩)
        · rw [ha] at hc; cases hc
        · rw [weigh_eq fun u _ => this u]; omega
      · have h0 := step_pend q hs ((quiet_at hn i).1 v)
        have h1 := step_others (f := pend q) rfl hs
        refine ⟨fun u hu => ?_, ?_⟩
        · by_cases e : u = v
          · subst e; have := hz u hu; omega
          · rw [h1 u e]; exact hz u hu
        · rintro x (⟨t, c', hc, rfl⟩ | ⟨rfl, t, op, hc⟩)
          · rw [ha] at hc; cases hc
            by_cases hv : v ∈ ts
            · have := weigh_at (f := pend q) ts hts hv h1
              omega
            · have h2 := hz v hv
              rw [weigh_eq fun u hu => h1 u (by rintro rfl; exact hv hu)]
              omega
          · rw [ha] at hc; cases hc
    obtain ⟨hz1, hz2⟩ := hz'
    have := ih (i := i + 1) (by omega) hz1
    simp only [Infinite.sched, traffic, E.step i]
    cases ha : E.act i with
    | call t op =>
      have := hz2 0 (.inr ⟨rfl, t, op, ha⟩)
      simp only
      omega
    | move t c =>
      have := hz2 _ (.inl ⟨t, c, ha, rfl⟩)
      simp only [List.length_append]
      omega

theorem bounded_noMore (hn : neverClosed E) {q : Que} (h : noMore E q) : bounded E q := by
  obtain ⟨N, hN⟩ := h
  obtain ⟨ts, h1, h2⟩ := (inv_reachable (E.reachable N)).finite
  refine bounded_of (i := N) (B := ((E.st N).que q).1.length + weigh (pend q) ts (E.st N)) fun k => ?_
  have h3 := appended_le hn h1 hN k (Nat.le_refl N) (fun u hu => by rw [h2 u hu]; rfl)
  obtain ⟨gone, g1, g2, _⟩ := traffic_run q (E.sched N k) (E.run k N)
  have g3 := g2.length_le
  have g4 := congrArg List.length g1
  simp only [List.length_append] at g4
  show (traffic n q (E.st N) (E.sched N k)).2.length ≤ _
  omega

/-! ### Blocks queued are taken -/

theorem high_taken (hf : E.Fair) (hn : neverClosed E) (h0 : 0 < n) {i p : Nat} {b : Option Blk} (hb : (E.st i).high.1[p]? = some b) :
    ∃ k, b ∈ (traffic n .high (E.st i) (E.sched i k)).2 := by
  obtain ⟨k, hk⟩ := many_moves hf hn h0 i (28 + 22 * p + 1)
  refine ⟨k, List.mem_of_getElem? (i := p) (high_waits 0 h0 _ _ (E.reached i) (E.run k i) ?_ p b hb (by omega))⟩
  have := notClosed_hist hn 0 (i + k)
  rw [E.hist_append, Nat.zero_add] at this
  exact this

theorem medium_taken (hf : E.Fair) (hn : neverClosed E) (h0 : 0 < n) (ts : List Nat) (hnd : ts.Nodup)
    (hts : ∀ t, (t < n ∨ ∃ i, E.act i = .call t .get) → t ∈ ts) (hh : bounded E .high)
    {i p : Nat} {b : Option Blk} (hb : (E.st i).med.1[p]? = some b) :
    ∃ k, b ∈ (traffic n .med (E.st i) (E.sched i k)).2 := by
  obtain ⟨B, hB⟩ := hh
  obtain ⟨k, hk⟩ := many_moves hf hn h0 i (28 + 22 * (B + p + ts.length * (p + ts.length + 2)) + 1)
  refine ⟨k, List.mem_of_getElem? (i := p) (medium_waits ts hnd 0 h0 _ _ (E.reached i) (E.run k i) ?_ ?_ p b hb ?_)⟩
  · have := notClosed_hist hn 0 (i + k)
    rw [E.hist_append, Nat.zero_add] at this
    exact this
  · intro t h
    refine hts t (h.imp_right fun h => ?_)
    rcases List.mem_append.1 h with h | h
    · obtain ⟨j, _, _, h⟩ := E.mem_sched _ h; exact ⟨j, h⟩
    · obtain ⟨j, _, _, h⟩ := E.mem_sched _ h; exact ⟨j, h⟩
  · have := hB i k
    simp only [takenIn] at this
    omega

/-! ### Low priority -/

/-- what happens to the counter -/
theorem step_count (h : stepAt n s t c l = some (s', o)) :
    (s'.counter = s.counter ∧ counts l = 0) ∨ s'.counter = 0 ∨ (s'.counter = wrap (s.counter + 1)) := by
  have back : ∀ {s1 : State} {r : Ret}, (s1.back t r).counter = s1.counter := by
    intro s1 r; cases r <;> rfl
  unfold stepAt at h
  split at h
  all_goals try (split at h)
  all_goals try (split at h)
  all_goals try (split at h)
  all_goals try (simp only [State.lock] at h; split at h)
  all_goals (first | (cases h; done) | skip)
  all_goals obtain ⟨rfl, rfl⟩ := Prod.mk.inj (Option.some.inj h)
  all_goals (try (rw [back]; refine .inl ⟨?_, rfl⟩; first | rfl | (split <;> first | rfl | exact counter_notifyOne _); done))
  all_goals (try (exact .inl ⟨rfl, rfl⟩))
  all_goals (try (exact .inr (.inl rfl)))
  all_goals (try (exact .inr (.inr rfl)))
  all_goals (refine .inl ⟨?_, rfl⟩; first | (simp only [goto, push_eq, pushVector_eq, counter_setQue]; done) | (rw [back, counter_notifyOne]))

theorem counter_range (i : Nat) : -2147483648 ≤ (E.st i).counter ∧ (E.st i).counter < 2147483648 := by
  refine E.always (P := fun s => -2147483648 ≤ s.counter ∧ s.counter < 2147483648) ?_ (fun i ih => ?_) i
  · show -2147483648 ≤ (0 : Int) ∧ (0 : Int) < 2147483648
    omega
  · rcases step_cases E i with ⟨u, op, ha, hid, hs, _⟩ | ⟨u, c, o, ha, hs, _⟩
    · rw [hs]; exact ih
    · rcases step_count hs with h | h | h
      · rw [h.1]; exact ih
      · rw [h]; omega
      · rw [h]; simp only [wrap]; omega

/-- the distance of the counter from 0, counting upwards -/
def below (v : Int) : Nat := ((-v) % 4294967296).toNat

/-- If medium priority blocks are taken again and again, the counter is 0 again (after an overflow, if need be). -/
theorem counter_zero (hf : E.Fair) (h : ¬ bounded E .med) (i : Nat) : ∃ j, i ≤ j ∧ (E.st j).counter = 0 := by
  generalize hd : below (E.st i).counter = d
  induction d generalizing i with
  | zero =>
    refine ⟨i, Nat.le_refl _, ?_⟩
    have := counter_range (E := E) i
    simp only [below] at hd
    omega
  | succ d ih =>
    have hc : ∃ j, i ≤ j ∧ (E.st (j + 1)).counter ≠ (E.st j).counter := by
      obtain ⟨j, t, c, o, b, h1, h2, h3, h4, h5⟩ := unbounded h i
      have hl : (E.st j).loc t = .gMed := by
        revert h4
        cases (E.st j).loc t <;> simp [takes]
      rw [hl] at h3
      simp only [stepAt, front_eq, h5, Option.some.injEq, Prod.mk.injEq] at h3
      obtain ⟨j1, c1, o1, h6, h7, h8, _⟩ := advance (t := t) (l := .gInc b) (i := j + 1) hf (by rw [← h3.1, loc_goto, upd_same]) rfl
      simp only [stepAt, Option.some.injEq, Prod.mk.injEq] at h8
      refine ⟨j1, by omega, ?_⟩
      have : (E.st (j1 + 1)).counter = wrap ((E.st j1).counter + 1) := by rw [← h8.1]; rfl
      rw [this]
      simp only [wrap]
      have := counter_range (E := E) j1
      omega
    obtain ⟨j, h1, h2, h3⟩ := Infinite.least hc
    have hj : ∀ k, i ≤ k → k ≤ j → (E.st k).counter = (E.st i).counter := by
      intro k h4 h5
      induction k with
      | zero => cases Nat.le_zero.1 h4; rfl
      | succ k ihk =>
        by_cases e : i = k + 1
        · rw [e]
        · have := h3 k (by omega) (by omega)
          rw [Classical.not_not.1 this]
          exact ihk (by omega) (by omega)
    have hj' := hj j h1 (Nat.le_refl _)
    rcases step_cases E j with ⟨u, op, ha, hid, hs, _⟩ | ⟨u, c, o, ha, hs, _⟩
    · exact absurd (by rw [hs]; rfl) h2
    · rcases step_count hs with h | h | h
      · exact absurd h.1 h2
      · exact ⟨j + 1, by omega, h⟩
      · obtain ⟨j1, h4, h5⟩ := ih (j + 1) (by
          rw [h, hj']
          simp only [below, wrap] at hd ⊢
          omega)
        exact ⟨j1, by omega, h5⟩

theorem fetchers_at (ts : List Nat) (hts : ∀ t, (t < n ∨ ∃ i, E.act i = .call t .get) → t ∈ ts) (i : Nat) : fetchers n ts (E.st i) := by
  refine (start_wait ts (fun t h => hts t (.inl h)) _ (E.reached i) (fun t h => ?_) (init_wait ts)).1
  obtain ⟨j, _, _, h⟩ := E.mem_sched _ h
  exact hts t (.inr ⟨j, h⟩)

theorem always_sched {P : State → Prop} (h : ∀ j, P (E.st j)) (k : Nat) : ∀ i, always n P (E.st i) (E.sched i k) := by
  induction k with
  | zero => intro i; exact h i
  | succ k ih => intro i; exact ⟨h i, by rw [E.step i]; exact ih (i + 1)⟩

theorem always_from {P : State → Prop} {i : Nat} (h : ∀ j, i ≤ j → P (E.st j)) (k : Nat) : ∀ j, i ≤ j → always n P (E.st j) (E.sched j k) := by
  induction k with
  | zero => intro j hj; exact h j hj
  | succ k ih => intro j hj; exact ⟨h j hj, by rw [E.step j]; exact ih (j + 1) (by omega)⟩

theorem always_last {P : State → Prop} (k : Nat) : ∀ i, always n P (E.st i) (E.sched i k) → P (E.st (i + k)) := by
  induction k with
  | zero => intro i h; exact h
  | succ k ih =>
    intro i h
    have := h.2
    rw [E.step i] at this
    have := ih (i + 1) this
    rw [show i + 1 + k = i + (k + 1) by omega] at this
    exact this

theorem low_taken (hf : E.Fair) (hn : neverClosed E) (h0 : 0 < n) (ts : List Nat) (hnd : ts.Nodup)
    (hts : ∀ t, (t < n ∨ ∃ i, E.act i = .call t .get) → t ∈ ts) (hh : bounded E .high) (R : Nat) (hR : ∀ j, (E.st j).ratio ≤ R)
    (hlim : R + ts.length < 2147483648) {i p : Nat} {b : Option Blk} (hb : (E.st i).low.1[p]? = some b) :
    ∃ k, b ∈ (traffic n .low (E.st i) (E.sched i k)).2 := by
  apply Classical.byContradiction
  intro hno
  -- the block stays where it is
  have stay : ∀ k, always n (fun s => s.low.1 ≠ [] ∧ s.halt = false) (E.st i) (E.sched i k) ∧ takenIn E .low i k ≤ p := by
    intro k
    rcases stay_run .low b (E.sched i k) p (E.run k i) (quiet_at hn i) (notClosed_hist hn i k) hb with h | h
    · exact absurd ⟨k, List.mem_of_getElem? h⟩ hno
    · exact h
  have hlow : ∀ j, i ≤ j → (E.st j).low.1 ≠ [] := by
    intro j hj
    have := (always_last (j - i) i (stay (j - i)).1).1
    rw [show i + (j - i) = j by omega] at this
    exact this
  have bl : bounded E .low := bounded_of fun k => (stay k).2
  -- only so many medium priority blocks are taken
  have bm : bounded E .med := by
    apply Classical.byContradiction
    intro hm
    obtain ⟨j, h1, h2⟩ := counter_zero hf hm i
    obtain ⟨L, hL⟩ := bl
    refine hm (bounded_of (i := j) (B := (R + ts.length) * (1 + L + ts.length)) fun k => ?_)
    have w1 : weigh (commits R) ts (E.st j) ≤ ts.length := weigh_le (commits_le R) ts _
    have w2 : weigh resets ts (E.st j) ≤ ts.length := weigh_le (fun l => by cases l <;> simp [resets]) ts _
    have h := share_run (R := R) (B := R) ts hnd (fun t h => hts t (.inl h)) (by omega) (E.sched j k) (Int.le_refl _) (by omega) (E.run k j)
      (fetchers_at ts hts j) (fun t h => by obtain ⟨j, _, _, h⟩ := E.mem_sched _ h; exact hts t (.inr ⟨j, h⟩))
      (always_from (i := i) (fun j hj => ⟨hlow j hj, hR j⟩) k j h1) (by omega) (by omega)
    have h3 : (R + ts.length) * (1 + taken n .low (E.st j) (E.sched j k) + weigh resets ts (E.st j)) ≤ (R + ts.length) * (1 + L + ts.length) := by
      have := hL j k
      simp only [takenIn] at this
      exact Nat.mul_le_mul_left _ (by omega)
    have h4 : ((R : Int) + ts.length) * ((1 + taken n .low (E.st j) (E.sched j k) + weigh resets ts (E.st j) : Nat) : Int) =
      (((R + ts.length) * (1 + taken n .low (E.st j) (E.sched j k) + weigh resets ts (E.st j)) : Nat) : Int) := by push_cast; rfl
    rw [h4, h2] at h
    simp only [takenIn]
    omega
  obtain ⟨A, hA⟩ := hh
  obtain ⟨B, hB⟩ := bm
  obtain ⟨C, hC⟩ := bl
  obtain ⟨k, hk⟩ := many_moves hf hn h0 i (28 + 22 * (A + B + C) + 1)
  have h1 := work_run .low h0 (E.sched i k) (E.run k i) (place_reachable (E.reachable i)) (stay k).1
  have h2 := toGo_le .low ((E.st i).loc 0)
  have h3 := hA i k
  have h4 := hB i k
  have h5 := hC i k
  simp only [takenIn] at h3 h4 h5
  simp only [gained, reduceCtorEq, if_false] at h1
  have : 22 * (taken n .high (E.st i) (E.sched i k) + (taken n .med (E.st i) (E.sched i k) + taken n .low (E.st i) (E.sched i k))) ≤
    22 * (A + B + C) := Nat.mul_le_mul_left _ (by omega)
  omega

end Verif.WorkQueue
