import Verif.WorkQueue.Props
import Verif.WorkQueue.Close
import Verif.WorkQueue.Joined
import Verif.WorkQueue.Flag

/-
The properties C66, C67, C72 and C73 of WorkQueue.  `n` is the number of workers.
-/
namespace Verif.WorkQueue
open Verif.Conc State

/-! ### C66 closing terminates -/

/-- C66, partial: the full statement has no condition on who closes the queue and when; see `two_closers_violation`.  Here any
number of clients do, but not at the same time.  In every state after closeWorkerQueue has set the halt flag: there is a bound on the number of steps all threads
together can still make without further calls.  When nobody can make a step any more, not counting workers waking up by timeout,
all workers have exited and all calls have returned, except that without workers calls may have dereferenced a null pointer. -/
theorem close_terminates_partial (n : Nat) (as : List (Act Op)) (s : State) (h : List (Event Op Out))
    (e : (sys n).run (sys n).init as = some (s, h)) (hx : closedInTurn h) (hh : s.halt = true) :
    ∃ bound, ∀ bs s' h', onlyMoves bs → (sys n).run s bs = some (s', h') → bs.length ≤ bound ∧
      (stuck n s' → (∀ t, t < n → s'.loc t = .exited) ∧ ∀ t, n ≤ t → s'.loc t = .idle ∨ (n = 0 ∧ s'.loc t = .crash)) := by
  obtain ⟨x, k⟩ := closer_run as e hx
  obtain ⟨ts, h1, h2⟩ := k.inv.finite
  refine ⟨measure (30 * ts.length + 61) n ts s, fun bs s' h' ho e' => ⟨bounded_run _ bs hh k.inv h1 h2 (Nat.le_refl _) ho e', fun hst => ?_⟩⟩
  obtain ⟨x', k'⟩ := closer_run (as ++ bs) (Sys.run_append as e e') (inTurn_more bs ho e' hx)
  have hh' : s'.halt = true := halt_run bs hh e'
  obtain ⟨g1, g2⟩ := stuck_closed k' hh' hst
  refine ⟨g1, fun t ht => ?_⟩
  rcases g2 t ht with h | h
  · exact .inl h
  · have := k'.inv.place t
    rw [h] at this
    exact .inr ⟨this, h⟩

/-- C66: the bound exists however many clients close the queue: a closed queue comes to rest. -/
theorem close_bounded (n : Nat) (s : State) (hs : (sys n).Reachable s) (hh : s.halt = true) :
    ∃ bound, ∀ bs s' h', onlyMoves bs → (sys n).run s bs = some (s', h') → bs.length ≤ bound := by
  have k := inv_reachable hs
  obtain ⟨ts, h1, h2⟩ := k.finite
  exact ⟨measure (30 * ts.length + 61) n ts s, fun bs s' h' ho e' => bounded_run _ bs hh k h1 h2 (Nat.le_refl _) ho e'⟩

/-- C66, partial in the same way: when closeWorkerQueue has returned to client `x`, all workers have exited. -/
theorem closed_exited_partial (n x : Nat) (as : List (Act Op)) (s : State) (h : List (Event Op Out))
    (e : (sys n).run (sys n).init as = some (s, h)) (hx : closedInTurn h) (op : Op) (hop : op.closes = true) (hm : .call x op ∈ h)
    (hr : s.loc x = .idle) : s.halt = true ∧ ∀ t, t < n → s.loc t = .exited := by
  obtain ⟨y, k⟩ := closer_run as e hx
  by_cases exy : x = y
  rotate_left
  · obtain ⟨g1, g2⟩ := k.past x op hop hm exy
    exact ⟨g1, fun t ht => k.inv.joined t (g2 t ht)⟩
  subst exy
  have hh : s.halt = true := by
    rcases k.early op hop hm with h | h
    · exact h
    · rw [hr] at h; cases h
  refine ⟨hh, fun t ht => k.inv.joined t ?_⟩
  rcases k.done hh with h | h
  · rw [hr] at h; cases h
  · exact h t ht

/-- C73: when closeWorkerQueue has returned to a client, all workers have exited, however many clients close the queue and when. -/
theorem closed_exited (n x : Nat) (as : List (Act Op)) (s : State) (h : List (Event Op Out))
    (e : (sys n).run (sys n).init as = some (s, h)) (hm : .call x .close ∈ h) (hr : s.loc x = .idle) :
    s.halt = true ∧ ∀ t, t < n → s.loc t = .exited := by
  have k := joins_run as e
  refine ⟨(k.early x hm).resolve_right (by rw [hr]; simp [beforeHalt]), fun t ht => k.inv.joined t ?_⟩
  exact (k.done x hm).resolve_right (by rw [hr]; simp [inside, closing]) t ht

/-- C73: when closeWorkerQueue of a queue with workers has returned, no block is executed any more, whatever calls follow. -/
theorem closed_silent (n x : Nat) (hn : 0 < n) (as : List (Act Op)) (s : State) (h : List (Event Op Out))
    (e : (sys n).run (sys n).init as = some (s, h)) (hm : .call x .close ∈ h) (hr : s.loc x = .idle)
    (bs : List (Act Op)) (s' : State) (h' : List (Event Op Out)) (e' : (sys n).run s bs = some (s', h')) : s'.runs = s.runs :=
  (silent_run hn bs (joins_run as e).inv (closed_exited n x as s h e hm hr).2 e').1

/-- C73 for the destructor, partial as C66: when it, or closeWorkerQueue, of a queue with workers has returned,
no block is executed any more, whatever calls follow. -/
theorem closed_silent_partial (n x : Nat) (hn : 0 < n) (as : List (Act Op)) (s : State) (h : List (Event Op Out))
    (e : (sys n).run (sys n).init as = some (s, h)) (hx : closedInTurn h) (op : Op) (hop : op.closes = true) (hm : .call x op ∈ h)
    (hr : s.loc x = .idle) (bs : List (Act Op)) (s' : State) (h' : List (Event Op Out)) (e' : (sys n).run s bs = some (s', h')) :
    s'.runs = s.runs :=
  (silent_run hn bs (closer_run as e hx).choose_spec.inv (closed_exited_partial n x as s h e hx op hop hm hr).2 e').1

/-- A queue with two workers, one of them waiting and one about to execute, closed to the end by client 2. -/
example : ∃ as s h, (sys 2).run (sys 2).init as = some (s, h) ∧ closedBy 2 h ∧ s.halt = true ∧ .call 2 .close ∈ h ∧ s.loc 2 = .idle ∧
    s.runs 7 = 1 := by
  refine ⟨begin 3 (.add (some (.task 7)) .low) 5 ++ go 0 9 ++ go 1 6 ++ begin 2 .close 20 ++ go 0 3 ++ go 1 3 ++ go 0 12 ++ go 2 4,
    _, _, rfl, ?_, rfl, ?_, rfl, rfl⟩
  · intro t op hm hc
    simp at hm
    rcases hm with ⟨rfl, rfl⟩ | ⟨rfl, rfl⟩
    · cases hc
    · rfl
  · simp

/-- A queue with one worker closed first by client 2 and then by client 3. -/
example : ∃ as s h, (sys 1).run (sys 1).init as = some (s, h) ∧ closedInTurn h ∧ s.halt = true ∧ .call 2 .close ∈ h ∧ .call 3 .close ∈ h ∧
    s.loc 2 = .idle ∧ s.loc 3 = .idle := by
  refine ⟨go 0 6 ++ begin 2 .close 15 ++ go 0 3 ++ go 2 3 ++ begin 3 .close 6, _, _, rfl, ?_, rfl, ?_, ?_, rfl, rfl⟩
  · simp [closedInTurn, inTurn, closers, Op.closes, upd]
  · simp
  · simp

/-- Clients 2 and 3 close a queue with one worker at the same time, and the call of client 3 returns first. -/
example : ∃ as s h, (sys 1).run (sys 1).init as = some (s, h) ∧ .call 2 .close ∈ h ∧ .call 3 .close ∈ h ∧ s.loc 2 = .cJoin 0 false ∧
    s.loc 3 = .idle := by
  refine ⟨go 0 6 ++ begin 2 .close 15 ++ begin 3 .close 0 ++ go 0 3 ++ go 3 6, _, _, rfl, ?_, ?_, rfl, rfl⟩
  · simp
  · simp

/-- Calls of one client do not overlap: if only client `x` closes the queue, the condition of the theorems above is met. -/
theorem closed_by_one (n x : Nat) (as : List (Act Op)) (s : State) (h : List (Event Op Out))
    (e : (sys n).run (sys n).init as = some (s, h)) (hx : closedBy x h) : closedInTurn h := closedBy_inTurn as e hx

/-- C66 fails if two clients close the queue at the same time: the second one waits for the workers while holding the lock they
need in order to exit.  Then nobody can go on, and the worker has not exited. -/
theorem two_closers_violation : ∃ as s h, (sys 1).run (sys 1).init as = some (s, h) ∧ s.halt = true ∧ stuck 1 s ∧
    s.loc 0 ≠ .exited ∧ s.loc 1 ≠ .idle ∧ s.loc 2 ≠ .idle ∧ ∀ t, s.loc t ≠ .wSleep := by
  have : ∃ as s h, (sys 1).run (sys 1).init as = some (s, h) ∧ s.halt = true ∧ s.owner = some 2 ∧ s.joined 0 = false ∧ s.loc 0 = .wLock ∧
      s.loc 1 = .cJoin 0 false ∧ s.loc 2 = .cJoin 0 true ∧ ∀ t, s.loc (t + 3) = .idle :=
    ⟨begin 1 .close 4 ++ begin 2 .close 2 ++ go 1 11 ++ go 0 6, _, _, rfl, rfl, rfl, rfl, rfl, rfl, rfl, fun _ => rfl⟩
  obtain ⟨as, s, h, e, hh, ho, hj, h0, h1, h2, h3⟩ := this
  refine ⟨as, s, h, e, hh, fun t c _ => ?_, by simp [h0], by simp [h1], by simp [h2], fun t => ?_⟩
  · show stepAt 1 s t c (s.loc t) = none
    match t with
    | 0 => simp [h0, stepAt, State.lock, ho]
    | 1 => simp [h1, stepAt, hj, h0]
    | 2 => simp [h2, stepAt, hj, h0]
    | t + 3 => rw [h3]; rfl
  · match t with
    | 0 => simp [h0]
    | 1 => simp [h1]
    | 2 => simp [h2]
    | t + 3 => simp [h3]

/-! ### C67 waking workers -/

/-- C67, partial: the full statement has no condition on the interleaving and the size of the queue; see `lost_wakeup_violation`
and `not_notified_violation`.  If a worker is waiting, and the queue for priority `p` has at most as many blocks as there are
workers, a call of addWorkBlock that is not interrupted wakes a waiting worker, and the block is queued. -/
theorem add_wakes_partial (n t c i : Nat) (p : Prio) (s : State) (hs : (sys n).Reachable s) (hl : s.loc t = .idle)
    (hw : ∃ k, s.loc k = .wSleep) (hf : s.fin i = false ∨ p = .required)
    (hq : (s.que (ofPrio p)).1.length ≤ n) (hn : n < 2147483648) :
    ∃ s', (sys n).run s [.call t (.add (some (.task i)) p), .move t c, .move t c, .move t c, .move t c] =
        some (s', [.call t (.add (some (.task i)) p)]) ∧
      (∃ k, s.loc k = .wSleep ∧ s'.loc k = .wRelock) ∧ (s'.que (ofPrio p)).1 = (s.que (ofPrio p)).1 ++ [some (.task i)] := by
  have hp := (inv_reachable hs).place
  obtain ⟨k, hk⟩ := hw
  have hkn : k < n := by have := hp k; rw [hk] at this; exact this
  have htk : t ≠ k := by rintro rfl; rw [hl] at hk; cases hk
  -- the four steps
  let s1 := s.goto t (.aCheck (some (.task i)) p .client)
  let s2 := s1.goto t (.aSize (.task i) p .client)
  let s3 := s2.goto t (.aPush (.task i) p .client (s.que (ofPrio p)).1.length)
  let s4 := (s3.push (ofPrio p) (some (.task i))).goto t (.aNotify .client (s.que (ofPrio p)).1.length)
  let s5 := (notifyOne n c s4).goto t (.ret .unit)
  have e1 : s.call n t (.add (some (.task i)) p) = some s1 := by simp [State.call, hl, start, s1]
  have l1 : s1.loc t = .aCheck (some (.task i)) p .client := by simp only [s1]; rw [loc_goto, upd_same]
  have l2 : s2.loc t = .aSize (.task i) p .client := by simp only [s2]; rw [loc_goto, upd_same]
  have l3 : s3.loc t = .aPush (.task i) p .client (s.que (ofPrio p)).1.length := by simp only [s3]; rw [loc_goto, upd_same]
  have l4 : s4.loc t = .aNotify .client (s.que (ofPrio p)).1.length := by simp only [s4]; rw [loc_goto, upd_same]
  have e2 : stepAt n s1 t c (s1.loc t) = some (s2, none) := by
    have : ¬ (s1.isFinished (.task i) = true ∧ p ≠ .required) := by
      rintro ⟨h1, h2⟩
      rcases hf with h | h
      · have : s1.isFinished (.task i) = s.fin i := rfl
        rw [this, h] at h1; cases h1
      · exact h2 h
    rw [l1]; simp only [stepAt, this, if_false]
    rw [if_pos (by omega)]
  have e3 : stepAt n s2 t c (s2.loc t) = some (s3, none) := by rw [l2]; simp only [stepAt, size_eq]; cases p <;> rfl
  have e4 : stepAt n s3 t c (s3.loc t) = some (s4, none) := by rw [l3]; rfl
  have e5 : stepAt n s4 t c (s4.loc t) = some (s5, none) := by
    rw [l4]
    simp only [stepAt]
    rw [wrap_id (by omega) (by omega), if_pos (by omega)]; rfl
  have ne : ∀ u, u ≠ t → s4.loc u = s.loc u := by
    intro u hu
    simp only [s4, s3, s2, s1, loc_goto, push_eq, loc_setQue]
    rw [upd_ne _ _ hu, upd_ne _ _ hu, upd_ne _ _ hu, upd_ne _ _ hu]
  refine ⟨s5, ?_, ?_, ?_⟩
  · simp only [Sys.run, Sys.exec, sys, e1, e2, e3, e4, e5, Option.map_some, Option.bind_some]; rfl
  · have hk4 : s4.loc k = .wSleep := by rw [ne k (Ne.symm htk)]; exact hk
    have : ∃ j, s4.loc j = .wSleep ∧ notifyOne n c s4 = s4.goto j .wRelock := notifyOne_some ⟨k, hkn, hk4⟩
    obtain ⟨j, hj, e⟩ := this
    have hjt : j ≠ t := by rintro rfl; rw [l4] at hj; cases hj
    refine ⟨j, by rw [← ne j hjt]; exact hj, ?_⟩
    simp only [s5, e, loc_goto]
    rw [upd_ne _ _ hjt, upd_same]
  · have h1 : s5.que (ofPrio p) = s4.que (ofPrio p) := by
      have : (notifyOne n c s4).data = s4.data := notifyOne_data _ _ _
      simp only [State.data, Prod.mk.injEq] at this
      cases p <;> simp [s5, ofPrio, que, goto, this]
    have h2 : s4.que (ofPrio p) = (s3.push (ofPrio p) (some (.task i))).que (ofPrio p) := by cases p <;> rfl
    rw [h1, h2, push_eq, que_setQue]
    cases p <;> rfl

/-- C67, partial as above: a notification that comes too early costs no more than the timeout.  When a waiting worker wakes up, the
lock is free, the queue is not closed and nobody else acts, it fetches the next block in the order of C64, and executes it
unless it is finished or null. -/
theorem timeout_fetches_partial (n t : Nat) (s : State) (ht : t < n) (hl : s.loc t = .wSleep) (ho : s.owner = none) (hh : s.halt = false) :
    ∃ k s', (sys n).run s (go t k) = some (s', []) ∧ s'.queues = s.queues.fetch.1 ∧ s'.loc t = .wE .high ∧
      ∀ q b, s.queues.fetch.2 = some (q, b) → ∀ i, s'.runs i = s.runs i + (if b = some (.task i) ∧ s.fin i = false then 1 else 0) := by
  let s1 := s.goto t .wRelock
  let s2 := { s1 with owner := some t }.goto t .wHalt2
  let s3 := s2.goto t .wUnlock
  let s4 := s3.unlock t .gHigh
  have l1 : s1.loc t = .wRelock := by simp only [s1]; rw [loc_goto, upd_same]
  have l2 : s2.loc t = .wHalt2 := by simp only [s2]; rw [loc_goto, upd_same]
  have l3 : s3.loc t = .wUnlock := by simp only [s3]; rw [loc_goto, upd_same]
  have l4 : s4.loc t = .gHigh := by simp only [s4, unlock]; rw [loc_goto, upd_same]
  have e1 : stepAt n s t 0 (s.loc t) = some (s1, none) := by rw [hl]; rfl
  have e2 : stepAt n s1 t 0 (s1.loc t) = some (s2, none) := by
    rw [l1]; have : s1.owner = none := ho
    simp only [stepAt, State.lock, this]; rfl
  have e3 : stepAt n s2 t 0 (s2.loc t) = some (s3, none) := by
    rw [l2]; have : s2.halt = false := hh
    simp only [stepAt, this]; rfl
  have e4 : stepAt n s3 t 0 (s3.loc t) = some (s4, none) := by rw [l3]; rfl
  obtain ⟨s5, fr, hq, al⟩ := fetch_alone (n := n) l4
  have a5 : Alone n t s (got n s5 t (s4.queues.fetch.2.bind (·.2))) [] :=
    Alone.step e1 (Alone.step e2 (Alone.step e3 (Alone.step e4 al)))
  have hq4 : s4.queues = s.queues := rfl
  rw [hq4] at hq a5
  generalize hb : s.queues.fetch.2.bind (·.2) = b at a5
  have hr5 : s5.runs = s.runs := fr.runs
  have hf5 : s5.fin = s.fin := fr.fin
  rw [got, if_pos ht] at a5
  let s6 := s5.goto t (.wChk b)
  have l6 : s6.loc t = .wChk b := by simp only [s6]; rw [loc_goto, upd_same]
  have fin : ∀ s', Alone n t s6 s' [] → s'.queues = s5.queues → s'.loc t = .wE .high →
      (∀ i, s'.runs i = s.runs i + (if b = some (.task i) ∧ s.fin i = false then 1 else 0)) →
      ∃ k s', (sys n).run s (go t k) = some (s', []) ∧ s'.queues = s.queues.fetch.1 ∧ s'.loc t = .wE .high ∧
      ∀ q b, s.queues.fetch.2 = some (q, b) → ∀ i, s'.runs i = s.runs i + (if b = some (.task i) ∧ s.fin i = false then 1 else 0) := by
    intro s' a h1 h2 h3
    obtain ⟨k, hk⟩ := a5.trans a
    refine ⟨k, s', hk, h1.trans hq, h2, fun q b' hqb i => ?_⟩
    rw [hqb] at hb
    simp only [Option.bind_some] at hb
    subst hb
    exact h3 i
  match b, hb with
  | none, _ =>
    refine fin (s6.goto t (.wE .high)) (Alone.step (o := none) (by rw [l6]; rfl) (.refl _)) rfl (by rw [loc_goto, upd_same]) fun i => ?_
    simp only [runs_goto, s6, hr5]; simp
  | some .dummy, _ =>
    refine fin (s6.goto t (.wE .high)) (Alone.step (o := none) (by rw [l6]; rfl) (.refl _)) rfl (by rw [loc_goto, upd_same]) fun i => ?_
    simp only [runs_goto, s6, hr5]; simp
  | some (.task j), _ =>
    cases hfj : s.fin j with
    | true =>
      refine fin (s6.goto t (.wE .high)) (Alone.step (o := none) ?_ (.refl _)) rfl (by rw [loc_goto, upd_same]) fun i => ?_
      · rw [l6]; simp only [stepAt]
        have : s6.fin j = true := by show s5.fin j = true; rw [hf5]; exact hfj
        rw [this]; rfl
      · simp only [runs_goto, s6, hr5]
        by_cases e : j = i
        · subst e; simp [hfj]
        · simp [e]
    | false =>
      let s7 := s6.goto t (.eTest j [])
      let s8 := s7.goto t (.eRun j [])
      let s9 := { s8 with runs := upd s8.runs j (s8.runs j + 1) }.goto t (.eDone j [])
      let s10 := executed n { s9 with fin := upd s9.fin j true } t []
      have f6 : s6.fin j = false := by show s5.fin j = false; rw [hf5]; exact hfj
      have f7 : s7.fin j = false := f6
      have l7 : s7.loc t = .eTest j [] := by simp only [s7]; rw [loc_goto, upd_same]
      have l8 : s8.loc t = .eRun j [] := by simp only [s8]; rw [loc_goto, upd_same]
      have l9 : s9.loc t = .eDone j [] := by simp only [s9]; rw [loc_goto, upd_same]
      have e6 : stepAt n s6 t 0 (s6.loc t) = some (s7, none) := by rw [l6]; simp only [stepAt, f6]; rfl
      have e7 : stepAt n s7 t 0 (s7.loc t) = some (s8, none) := by rw [l7]; simp only [stepAt, f7]; rfl
      have e8 : stepAt n s8 t 0 (s8.loc t) = some (s9, none) := by rw [l8]; rfl
      have e9 : stepAt n s9 t 0 (s9.loc t) = some (s10, none) := by rw [l9]; rfl
      refine fin s10 (Alone.step e6 (Alone.step e7 (Alone.step e8 (Alone.step e9 (.refl _))))) ?_ ?_ fun i => ?_
      · simp only [s10, executed, queues_goto]
        show s9.queues = _
        simp only [s9, queues_goto]
        show s8.queues = _
        simp only [s8, s7, s6, queues_goto]
      · simp only [s10, executed, if_pos ht]; rw [loc_goto, upd_same]
      · have : s10.runs = upd s5.runs j (s5.runs j + 1) := rfl
        rw [this, hr5]
        by_cases e : i = j
        · subst e; rw [upd_same]; simp [hfj]
        · rw [upd_ne _ _ e]; simp [Ne.symm e]

/-- A waiting worker, and one that can be woken. -/
example : ∃ as s h, (sys 1).run (sys 1).init as = some (s, h) ∧ s.loc 5 = .idle ∧ s.loc 0 = .wSleep ∧ s.fin 7 = false ∧
    (s.que (ofPrio .low)).1.length ≤ 1 ∧ s.owner = none ∧ s.halt = false :=
  ⟨go 0 6, _, _, rfl, rfl, rfl, rfl, by decide, rfl, rfl⟩

/-- the vector overload: until a thread calling it has notified the workers it is at one of two positions -/
theorem vector_wakes_from (n t k : Nat) (as : List (Act Op)) : ∀ {s s' : State} {h : List (Event Op Out)}, s.loc k = .wSleep →
    (s.loc t = .vNotify ∨ ∃ bs p, s.loc t = .vPush bs p) → (sys n).run s as = some (s', h) → s'.loc t = .idle →
    ∃ as1 as2 s1 h1, as = as1 ++ as2 ∧ (sys n).run s as1 = some (s1, h1) ∧ s1.loc k ≠ .wSleep := by
  induction as with
  | nil =>
    intro s s' h hk ht e hi
    cases e
    rcases ht with ht | ⟨_, _, ht⟩ <;> rw [ht] at hi <;> cases hi
  | cons a as ih =>
    intro s s' h hk ht e hi
    simp only [Sys.run, Option.bind_eq_some_iff, Option.map_eq_some_iff] at e
    obtain ⟨⟨s1, h1⟩, e1, ⟨s2, h2⟩, e2, e3⟩ := e
    obtain ⟨rfl, rfl⟩ := Prod.mk.inj e3
    by_cases hk1 : s1.loc k = .wSleep
    · have ht1 : s1.loc t = .vNotify ∨ ∃ bs p, s1.loc t = .vPush bs p := by
        cases a with
        | call u op =>
          simp only [Sys.exec, Option.map_eq_some_iff] at e1
          obtain ⟨s3, e1, e4⟩ := e1
          obtain ⟨rfl, rfl⟩ := Prod.mk.inj e4
          obtain ⟨hu, rfl⟩ := call_eq e1
          have hut : t ≠ u := by
            rintro rfl
            rcases ht with ht | ⟨_, _, ht⟩ <;> rw [ht] at hu <;> cases hu
          rw [loc_goto, upd_ne _ _ hut]; exact ht
        | move u c =>
          simp only [Sys.exec, Option.map_eq_some_iff] at e1
          obtain ⟨⟨s3, o⟩, e1, e4⟩ := e1
          obtain ⟨rfl, rfl⟩ := Prod.mk.inj e4
          change stepAt n s u c (s.loc u) = some (s3, o) at e1
          change s3.loc k = .wSleep at hk1
          by_cases hut : t = u
          · subst hut
            have hkt : k ≠ t := by
              rintro rfl
              rcases ht with ht | ⟨_, _, ht⟩ <;> rw [ht] at hk <;> cases hk
            rcases ht with ht | ⟨_, _, ht⟩ <;> rw [ht] at e1 <;>
              obtain ⟨rfl, rfl⟩ := Prod.mk.inj (Option.some.inj e1)
            · rw [loc_goto, upd_ne _ _ hkt] at hk1
              simp [notifyAll, hk] at hk1
            · left; show ((_ : State).goto t .vNotify).loc t = _
              rw [loc_goto, upd_same]
          · obtain ⟨b, l', h3, h4⟩ := step_loc e1
            show s3.loc t = _ ∨ ∃ bs p, s3.loc t = _
            rw [h3, upd_ne _ _ hut]
            rcases ht with ht | ⟨bs, p, ht⟩
            · exact .inl (h4.awake ht (by simp))
            · exact .inr ⟨bs, p, h4.awake ht (by simp)⟩
      obtain ⟨as1, as2, s3, h3, h4, h5, h6⟩ := ih hk1 ht1 e2 hi
      refine ⟨a :: as1, as2, s3, h1 ++ h3, by rw [h4]; rfl, ?_, h6⟩
      simp [Sys.run, e1, h5]
    · exact ⟨[a], as, s1, h1, rfl, by simp [Sys.run, e1], hk1⟩

/-- C67: however it is interleaved with other calls and the workers, a call of addWorkBlock with a vector wakes every worker
that was waiting when it began: between its beginning and its end there is a moment when that worker does not wait. -/
theorem vector_wakes (n : Nat) (hn : 0 < n) (t k : Nat) (bs : List (Option Blk)) (p : Prio) (s : State) (hk : s.loc k = .wSleep)
    (as : List (Act Op)) (s' : State) (h : List (Event Op Out)) (e : (sys n).run s (.call t (.addVector bs p) :: as) = some (s', h))
    (hr : s'.loc t = .idle) :
    ∃ as1 as2 s1 h1, as = as1 ++ as2 ∧ (sys n).run s (.call t (.addVector bs p) :: as1) = some (s1, h1) ∧ s1.loc k ≠ .wSleep := by
  simp only [Sys.run, Option.bind_eq_some_iff, Option.map_eq_some_iff] at e
  obtain ⟨⟨s1, h1⟩, e1, ⟨s2, h2⟩, e2, e3⟩ := e
  obtain ⟨rfl, rfl⟩ := Prod.mk.inj e3
  have e1' := e1
  simp only [Sys.exec, Option.map_eq_some_iff] at e1'
  obtain ⟨s3, e4, e5⟩ := e1'
  obtain ⟨rfl, rfl⟩ := Prod.mk.inj e5
  obtain ⟨hu, rfl⟩ := call_eq e4
  have hkt : k ≠ t := by rintro rfl; rw [hu] at hk; cases hk
  obtain ⟨as1, as2, s1, h1, h4, h5, h6⟩ := vector_wakes_from n t k as (by rw [loc_goto, upd_ne _ _ hkt]; exact hk)
    (.inr ⟨bs, p, by rw [loc_goto, upd_same]; simp [start, hn]⟩) e2 hr
  refine ⟨as1, as2, s1, [.call t (.addVector bs p)] ++ h1, h4, ?_, h6⟩
  simp only [Sys.run, Option.bind_eq_some_iff, Option.map_eq_some_iff]
  exact ⟨_, e1, _, h5, rfl⟩

/-- C67: such a call that is not interrupted appends its blocks, and none of the workers waits any more. -/
theorem vector_wakes_alone (n : Nat) (hn : 0 < n) (t : Nat) (bs : List (Option Blk)) (p : Prio) (s : State) (hl : s.loc t = .idle) :
    ∃ s', (sys n).run s (begin t (.addVector bs p) 3) = some (s', [.call t (.addVector bs p), .ret t .unit]) ∧ s'.loc t = .idle ∧
      (s'.que (ofPrio p)).1 = (s.que (ofPrio p)).1 ++ bs ∧ ∀ k, s'.loc k ≠ .wSleep := by
  let s1 := s.goto t (.vPush bs p)
  let s2 := (s1.pushVector (ofPrio p) bs).goto t .vNotify
  let s3 := s2.notifyAll.goto t (.ret .unit)
  have h1 : s.call n t (.addVector bs p) = some s1 := by simp [State.call, hl, start, hn, s1]
  have l1 : s1.loc t = .vPush bs p := by simp only [s1]; rw [loc_goto, upd_same]
  have l2 : s2.loc t = .vNotify := by simp only [s2]; rw [loc_goto, upd_same]
  have l3 : s3.loc t = .ret .unit := by simp only [s3]; rw [loc_goto, upd_same]
  refine ⟨s3.goto t .idle, ?_, by rw [loc_goto, upd_same], ?_, fun k => ?_⟩
  · simp [begin, go, List.replicate, Sys.run, Sys.exec, sys, h1, l1, l2, l3, stepAt, s2, s3]
  · have : ∀ (s : State) l q, (s.goto t l).que q = s.que q := by intro s l q; cases q <;> rfl
    have h2 : ∀ (s : State) q, s.notifyAll.que q = s.que q := by intro s q; cases q <;> rfl
    simp only [s3, s2, s1]
    rw [this, this, h2, this, pushVector_eq, que_setQue, this]
  · rw [loc_goto]
    by_cases e : k = t
    · subst e; rw [upd_same]; simp
    · rw [upd_ne _ _ e]
      simp only [s3]
      rw [loc_goto, upd_ne _ _ e]
      simp only [notifyAll]
      split
      · simp
      · assumption

/-- A waiting worker, and a vector added while another client adds a block. -/
example : ∃ as s h as' s' h', (sys 1).run (sys 1).init as = some (s, h) ∧ s.loc 0 = .wSleep ∧
    (sys 1).run s (.call 5 (.addVector [some (.task 7), some (.task 8)] .low) :: as') = some (s', h') ∧ s'.loc 5 = .idle :=
  ⟨go 0 6, _, _, go 5 1 ++ begin 6 (.add (some (.task 9)) .high) 5 ++ go 5 2, _, _, rfl, rfl, rfl, rfl⟩

/-- C67 fails: a worker finds the queues empty; before it waits a block is added, and the notification is lost.  The block stays
queued while the only worker waits and no call is in progress. -/
theorem lost_wakeup_violation : ∃ as s h, (sys 1).run (sys 1).init as = some (s, h) ∧ s.loc 0 = .wSleep ∧ (∀ t, s.loc (t + 1) = .idle) ∧
    s.queued 7 = 1 ∧ s.halt = false :=
  ⟨go 0 3 ++ begin 1 (.add (some (.task 7)) .high) 5 ++ go 0 3, _, _, rfl, rfl,
    fun t => match t with | 0 => rfl | _ + 1 => rfl, rfl, rfl⟩

/-- C67 fails: from such a state on, blocks can be added without any notification while the worker waits: here the queue has
more blocks than there are workers. -/
theorem not_notified_violation : ∃ as s s' h h', (sys 1).run (sys 1).init as = some (s, h) ∧ s.loc 0 = .wSleep ∧
    (sys 1).run s (begin 1 (.add (some (.task 9)) .high) 5) = some (s', h') ∧ s'.loc 0 = .wSleep ∧ s'.loc 1 = .idle ∧
    s'.queued 7 = 1 ∧ s'.queued 8 = 1 ∧ s'.queued 9 = 1 :=
  ⟨go 0 3 ++ begin 1 (.add (some (.task 7)) .high) 5 ++ begin 1 (.add (some (.task 8)) .high) 5 ++ go 0 3, _, _, _, _, rfl, rfl, rfl, rfl,
    rfl, rfl, rfl, rfl⟩

/-! ### C72 observers -/

theorem goto_goto (s : State) (t : Nat) (a b : Loc) : (s.goto t a).goto t b = s.goto t b := by
  have h : ∀ f : Nat → Loc, upd (upd f t a) t b = upd f t b := by
    intro f; funext u; by_cases e : u = t
    · subst e; rw [upd_same, upd_same]
    · rw [upd_ne _ _ e, upd_ne _ _ e, upd_ne _ _ e]
  simp only [goto, h]

theorem goto_idle {t : Nat} {s : State} (hl : s.loc t = .idle) : s.goto t .idle = s := by
  have h : upd s.loc t .idle = s.loc := by
    funext u; by_cases e : u = t
    · subst e; rw [upd_same, hl]
    · rw [upd_ne _ _ e]
  simp only [goto, h]

/-- C72: getWorkerCount returns the number of workers until the queue is closed, and 0 from then on; it changes nothing. -/
theorem workerCount_alone (n t : Nat) (s : State) (hl : s.loc t = .idle) :
    (sys n).run s (begin t .workerCount 2) = some (s, [.call t .workerCount, .ret t (.num (if s.halt then 0 else n))]) := by
  simp [begin, go, List.replicate, Sys.run, Sys.exec, sys, State.call, hl, start, loc_goto, upd_same, stepAt, goto_goto, goto_idle hl]
  rfl

/-- C72, partial: the full statement says that the result was the number of blocks at some moment during the call.  numBlock, not
interrupted, returns the number of queued blocks and changes nothing. -/
theorem numBlock_alone_partial (n t : Nat) (s : State) (hl : s.loc t = .idle) :
    (sys n).run s (begin t .numBlock 4) = some (s, [.call t .numBlock, .ret t (.num s.blocks)]) := by
  simp [begin, go, List.replicate, Sys.run, Sys.exec, sys, State.call, hl, start, loc_goto, upd_same, stepAt, goto_goto, goto_idle hl, size_eq]
  simp [State.blocks, que, goto]

/-- C72, partial: the full statement says that the queue was empty at some moment during a call that returns true, and contained a
block at some moment during a call that returns false; see `isEmpty_violation` and `isEmpty_flag_violation`.  isEmpty, not
interrupted, changes nothing and tells whether there are blocks, provided no empty vector has been added. -/
theorem isEmpty_alone_partial (n t : Nat) (as : List (Act Op)) (s : State) (h : List (Event Op Out))
    (e : (sys n).run (sys n).init as = some (s, h)) (hl : s.loc t = .idle) :
    ∃ k b, (sys n).run s (begin t .isEmpty k) = some (s, [.call t .isEmpty, .ret t (.bool b)]) ∧
      (b = true → s.blocks = 0) ∧ ((∀ u p, .call u (.addVector [] p) ∉ h) → s.blocks = 0 → b = true) := by
  have hf : ∀ q, (∀ u p, .call u (.addVector [] p) ∉ h) → (s.que q).2 = false := by
    intro q hv
    cases hq : (s.que q).2 with
    | false => rfl
    | true =>
      obtain ⟨u, p, hm⟩ := flag_run as e q hq
      exact absurd hm (hv u p)
  have ie : ∀ l q, (s.goto t l).isEmpty q = s.isEmpty q := by intro l q; cases q <;> rfl
  have eh : s.isEmpty .high = (s.high.1.isEmpty && !s.high.2) := rfl
  have em : s.isEmpty .med = (s.med.1.isEmpty && !s.med.2) := rfl
  have el : s.isEmpty .low = (s.low.1.isEmpty && !s.low.2) := rfl
  have fh : _ → s.high.2 = false := hf .high
  have fm : _ → s.med.2 = false := hf .med
  have fl : _ → s.low.2 = false := hf .low
  cases h1 : s.isEmpty .high with
  | false =>
    refine ⟨2, false, ?_, by simp, fun hv hb => ?_⟩
    · simp [begin, go, List.replicate, Sys.run, Sys.exec, sys, State.call, hl, start, loc_goto, upd_same, stepAt, goto_goto, goto_idle hl, ie, h1]
    · rw [eh, fh hv] at h1
      simp only [State.blocks] at hb
      have : s.high.1 = [] := List.eq_nil_of_length_eq_zero (by omega)
      simp [this] at h1
  | true =>
    cases h2 : s.isEmpty .med with
    | false =>
      refine ⟨3, false, ?_, by simp, fun hv hb => ?_⟩
      · simp [begin, go, List.replicate, Sys.run, Sys.exec, sys, State.call, hl, start, loc_goto, upd_same, stepAt, goto_goto, goto_idle hl, ie, h1, h2]
      · rw [em, fm hv] at h2
        simp only [State.blocks] at hb
        have : s.med.1 = [] := List.eq_nil_of_length_eq_zero (by omega)
        simp [this] at h2
    | true =>
      refine ⟨4, s.isEmpty .low, ?_, fun h3 => ?_, fun hv hb => ?_⟩
      · simp [begin, go, List.replicate, Sys.run, Sys.exec, sys, State.call, hl, start, loc_goto, upd_same, stepAt, goto_goto, goto_idle hl, ie, h1, h2]
      · rw [eh] at h1; rw [em] at h2; rw [el] at h3
        simp at h1 h2 h3
        simp [State.blocks, h1.1, h2.1, h3.1]
      · simp only [State.blocks] at hb
        have : s.low.1 = [] := List.eq_nil_of_length_eq_zero (by omega)
        rw [el, fl hv, this]; rfl

/-- Blocks are queued, a client is idle. -/
example : ∃ as s h, (sys 1).run (sys 1).init as = some (s, h) ∧ s.loc 5 = .idle ∧ s.blocks = 3 ∧ ∀ u p, .call u (.addVector [] p) ∉ h := by
  refine ⟨begin 1 (.add (some (.task 7)) .low) 5 ++ begin 2 (.addVector [some (.task 8), some (.task 9)] .high) 3, _, _, rfl, rfl, rfl, ?_⟩
  intro u p; simp

/-- C72 fails: isEmpty returns true although the queue was never empty during the call.  Client 2 looks at the high priority
queue, then a block is added there, then client 3 takes the medium priority block. -/
theorem isEmpty_violation : ∃ pre mid s h s' h', (sys 1).run (sys 1).init pre = some (s, h) ∧
    (sys 1).run s (begin 2 .isEmpty 1 ++ mid ++ go 2 3) = some (s', h') ∧ .ret 2 (.bool true) ∈ h' ∧
    0 ∉ sizes 1 s (begin 2 .isEmpty 1 ++ mid ++ go 2 3) := by
  have : ∃ pre mid s h s' h', (sys 1).run (sys 1).init pre = some (s, h) ∧
    (sys 1).run s (begin 2 .isEmpty 1 ++ mid ++ go 2 3) = some (s', h') ∧
    h' = [.call 2 .isEmpty, .call 1 (.add (some (.task 8)) .high), .ret 1 .unit, .ret 3 (.blk (some (.task 7))), .ret 2 (.bool true)] ∧
    sizes 1 s (begin 2 .isEmpty 1 ++ mid ++ go 2 3) = [1, 1, 1, 1, 1, 1, 2, 2, 2, 1, 1, 1, 1, 1, 1] :=
    ⟨begin 1 (.add (some (.task 7)) .medium) 5 ++ begin 3 .get 3, begin 1 (.add (some (.task 8)) .high) 5 ++ go 3 3,
      _, _, _, _, rfl, rfl, rfl, rfl⟩
  obtain ⟨pre, mid, s, h, s', h', e1, e2, e3, e4⟩ := this
  refine ⟨pre, mid, s, h, s', h', e1, e2, ?_, ?_⟩
  · rw [e3]; simp
  · rw [e4]; decide

/-- C72 fails: after an empty vector has been added, isEmpty returns false although there is no block. -/
theorem isEmpty_flag_violation : ∃ as s h s' h', (sys 1).run (sys 1).init as = some (s, h) ∧ s.blocks = 0 ∧ s.loc 2 = .idle ∧
    (sys 1).run s (begin 2 .isEmpty 2) = some (s', h') ∧ .ret 2 (.bool false) ∈ h' :=
  ⟨begin 1 (.addVector [] .high) 3, _, _, _, _, rfl, rfl, rfl, rfl, by simp⟩

end Verif.WorkQueue
