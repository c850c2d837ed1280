import Verif.WorkQueue.Props
import Verif.WorkQueue.PropsClose

/-
The properties C105 (data races) and C106 (isFinished) of WorkQueue.
-/
namespace Verif.WorkQueue
open Verif.Conc State

variable {n t c i : Nat} {s s' : State} {o : Option Out} {l : Loc} {h : List (Event Op Out)}

/-- only a thread that has run a function is about to set the flag -/
theorem step_done (e : stepAt n s t c l = some (s', o)) {bs} (he : s'.loc t = .eDone i bs) : s'.runs i = s.runs i + 1 := by
  have back : ∀ {s1 : State} {r}, (s1.back t r).loc t ≠ .eDone i bs := by
    intro s1 r
    cases r <;> simp [State.back, loc_goto, upd_same]
  unfold stepAt at e
  split at e
  all_goals try (split at e)
  all_goals try (split at e)
  all_goals try (split at e)
  all_goals try (simp only [State.lock] at e; split at e)
  all_goals (first | (cases e; done) | skip)
  all_goals obtain ⟨rfl, rfl⟩ := Prod.mk.inj (Option.some.inj e)
  all_goals first
    | (exact absurd he back)
    | skip
  all_goals simp only [got, executed, unlock, loc_goto, upd_same] at he
  all_goals (try (split at he))
  all_goals (try (cases he; done))
  rename_i j bs'
  cases he
  simp [runs_goto, upd]

/-- Two threads about to set the flag of the same block have both run its function. -/
def Twice (s : State) : Prop := ∀ t u i bs bs', t ≠ u → s.loc t = .eDone i bs → s.loc u = .eDone i bs' → 2 ≤ s.runs i

theorem twice_run (as : List (Act Op)) (e : (sys n).run (sys n).init as = some (s, h)) : Ran s ∧ Twice s := by
  refine Sys.run_invariant (M := sys n) (I := fun s => Ran s ∧ Twice s) (allowed := fun _ _ => True) ?_ ?_ as
    ⟨ran_init n, ?_⟩ (fun _ _ _ => trivial) e
  · intro s t op s' k _ hc
    refine ⟨ran_call k.1 hc, ?_⟩
    obtain ⟨hid, rfl⟩ := call_eq hc
    have st : ∀ i bs, start n op ≠ .eDone i bs := by
      intro i bs; cases op <;> simp only [start] <;> (try split) <;> simp
    intro u v i bs bs' hn hu hv
    rw [loc_goto] at hu hv
    by_cases e1 : u = t
    · subst e1; rw [upd_same] at hu; exact absurd hu (st i bs)
    · by_cases e2 : v = t
      · subst e2; rw [upd_same] at hv; exact absurd hv (st i bs')
      · rw [upd_ne _ _ e1] at hu; rw [upd_ne _ _ e2] at hv
        exact k.2 u v i bs bs' hn hu hv
  · intro s t c s' o k hm
    refine ⟨ran_move k.1 hm, ?_⟩
    obtain ⟨a, l', h1, h2⟩ := step_loc hm
    have other : ∀ u i bs, u ≠ t → s'.loc u = .eDone i bs → s.loc u = .eDone i bs := by
      intro u i bs hu hd
      rw [h1, upd_ne _ _ hu] at hd
      rcases h2.all u with h3 | ⟨h3, h4⟩
      · rw [← h3]; exact hd
      · rw [h4] at hd; cases hd
    have one : ∀ u i bs bs', u ≠ t → s'.loc t = .eDone i bs → s'.loc u = .eDone i bs' → 2 ≤ s'.runs i := by
      intro u i bs bs' hu hd he
      have := k.1.done u i bs' (other u i bs' hu he)
      have := step_done hm hd
      omega
    intro u v i bs bs' hn hu hv
    by_cases e1 : u = t
    · subst e1; exact one v i bs bs' (fun h => hn h.symm) hu hv
    · by_cases e2 : v = t
      · subst e2; exact one u i bs' bs hn hv hu
      · have := k.2 u v i bs bs' hn (other u i bs e1 hu) (other v i bs' e2 hv)
        have := (step_fin hm i).2.1
        omega
  · intro t u i bs bs' _ ht _
    simp only [sys, State.init] at ht
    split at ht <;> cases ht

/-- a client asks whether a block is finished only in a call of isFinished -/
theorem polled_run (as : List (Act Op)) (e : (sys n).run (sys n).init as = some (s, h)) (i : Nat) (hp : notPolled i h) (t : Nat) :
    s.loc t ≠ .pFin i := by
  have := Sys.run_history (M := sys n) (I := fun s h => notPolled i h → ∀ t, s.loc t ≠ .pFin i) ?_ ?_ as (h0 := []) ?_ e
  · exact this hp t
  · intro s t op s' h k hc hp u
    obtain ⟨hid, rfl⟩ := call_eq hc
    rw [loc_goto]
    by_cases e1 : u = t
    · subst e1
      rw [upd_same]
      cases op with
      | finished j =>
        intro he
        cases he
        exact hp u (by simp)
      | addVector bs p => simp only [start]; split <;> simp
      | _ => simp [start]
    · rw [upd_ne _ _ e1]
      exact k (fun v hv => hp v (by simp [hv])) u
  · intro s t c s' o h k hm hp u
    have k := k (fun v hv => hp v (by simp [hv]))
    obtain ⟨a, l', h1, h2⟩ := step_loc hm
    by_cases e1 : u = t
    · subst e1
      have back : ∀ {s1 : State} {r}, (s1.back u r).loc u ≠ .pFin i := by
        intro s1 r
        cases r <;> simp [State.back, loc_goto, upd_same]
      clear h1
      simp only [sys] at hm
      unfold stepAt at hm
      split at hm
      all_goals try (split at hm)
      all_goals try (split at hm)
      all_goals try (split at hm)
      all_goals try (simp only [State.lock] at hm; split at hm)
      all_goals (first | (cases hm; done) | skip)
      all_goals obtain ⟨rfl, rfl⟩ := Prod.mk.inj (Option.some.inj hm)
      all_goals first
        | (exact back)
        | skip
      all_goals simp only [got, executed, unlock, loc_goto, upd_same]
      all_goals (try split)
      all_goals simp
    · rw [h1, upd_ne _ _ e1]
      rcases h2.all u with h3 | ⟨h3, h4⟩
      · rw [h3]; exact k u
      · rw [h4]; simp
  · intro _ t
    simp only [sys, State.init]
    split <;> simp

/-! ### C105 data races -/

/-- C105: at every other position a step neither depends on the flag of a block nor changes it: `accesses` lists all
accesses to flags. -/
theorem flag_frame (n : Nat) (s : State) (t c : Nat) (l : Loc) (i : Nat) (b : Bool)
    (hl : ∀ w, accesses n s l ≠ some (.flag i, w)) :
    stepAt n { s with fin := upd s.fin i b } t c l =
      (stepAt n s t c l).map fun r => ({ r.1 with fin := upd r.1.fin i b }, r.2) := by
  cases l with
  | aCheck bo p r =>
    rcases bo with _ | (_ | j)
    · cases r <;> rfl
    · simp only [stepAt, State.isFinished]
      cases r <;> split <;> (try rfl) <;> split <;> rfl
    · have hj : j ≠ i := fun e => hl false (by rw [e]; rfl)
      have hf : ({ s with fin := upd s.fin i b } : State).isFinished (.task j) = s.isFinished (.task j) := by
        simp [State.isFinished, upd, hj]
      simp only [stepAt, hf]
      cases r <;> split <;> (try rfl) <;> split <;> rfl
  | aSize bb p r => cases p <;> rfl
  | aPush bb p r k => cases p <;> rfl
  | aNotify r k =>
    simp only [stepAt]
    split
    · simp only [notifyOne]
      have : sleeping n { s with fin := upd s.fin i b } = sleeping n s := rfl
      rw [this]
      cases (sleeping n s)[c % (sleeping n s).length]? <;> cases r <;> rfl
    · cases r <;> rfl
  | vPush bs p => cases p <;> rfl
  | vExec bs => rcases bs with _ | ⟨_ | (_ | j), bs⟩ <;> rfl
  | cClear q => cases q <;> rfl
  | iE q => cases q <;> rfl
  | wE q => cases q <;> rfl
  | nB q k => cases q <;> rfl
  | cLoop k => cases k <;> rfl
  | cJoin k lk =>
    simp only [stepAt]
    split
    · rfl
    · split
      · rfl
      · split <;> rfl
  | cLock => simp only [stepAt, State.lock]; cases s.owner <;> rfl
  | wLock => simp only [stepAt, State.lock]; cases s.owner <;> rfl
  | wRelock => simp only [stepAt, State.lock]; cases s.owner <;> rfl
  | gHigh =>
    show (match s.front .high with | some _ => _ | none => _) = _
    simp only [stepAt]
    cases s.front .high <;> rfl
  | gLowPop =>
    show (match s.front .low with | some _ => _ | none => _) = _
    simp only [stepAt]
    cases s.front .low <;> rfl
  | gLow =>
    show (match s.front .low with | some _ => _ | none => _) = _
    simp only [stepAt]
    cases s.front .low <;> rfl
  | gMed =>
    show (match s.front .med with | some _ => _ | none => _) = _
    simp only [stepAt]
    cases s.front .med <;> rfl
  | wChk bo =>
    rcases bo with _ | (_ | j)
    · rfl
    · rfl
    · have hj : j ≠ i := fun e => hl false (by rw [e]; rfl)
      simp [stepAt, upd, hj]; rfl
  | pFin j =>
    have hj : j ≠ i := fun e => hl false (by rw [e]; rfl)
    simp [stepAt, upd, hj]; rfl
  | eTest j bs =>
    have hj : j ≠ i := fun e => hl false (by rw [e]; rfl)
    simp only [stepAt]
    have : (upd s.fin i b) j = s.fin j := by simp [upd, hj]
    simp only [this]
    split <;> rfl
  | eDone j bs =>
    have hj : j ≠ i := fun e => hl true (by rw [e]; rfl)
    have : upd (upd s.fin i b) j true = upd (upd s.fin j true) i b := by
      funext k; simp only [upd]; split
      · rename_i e; subst e; simp [hj]
      · rfl
    simp only [stepAt, executed, this]; rfl
  | _ => rfl

theorem access_flag {b : Bool} (ha : accesses n s l = some (.flag i, b)) :
    (b = true ∧ ∃ bs, l = .eDone i bs) ∨ (b = false ∧ (l = .pFin i ∨ 1 ≤ carries i l)) := by
  unfold accesses at ha
  split at ha <;> (try split at ha) <;> cases ha <;> simp [carries]

theorem access_function {b : Bool} (ha : accesses n s l = some (.function i, b)) : ∃ bs, l = .eRun i bs := by
  unfold accesses at ha
  split at ha <;> (try split at ha) <;> cases ha
  exact ⟨_, rfl⟩

theorem access_thread {b : Bool} {k : Nat} (ha : accesses n s l = some (.thread k, b)) : closing l = true := by
  unfold accesses at ha
  split at ha <;> (try split at ha) <;> cases ha
  rfl

/-- C105: for every number of workers, in every execution: a block submitted at most once is never run by two threads at
once, and the only two accesses to its flag that can race are a worker's (or, without workers, the submitter's) setting it
and a client's calling isFinished. -/
theorem only_polls_race (n : Nat) (as : List (Act Op)) (s : State) (h : List (Event Op Out))
    (e : (sys n).run (sys n).init as = some (s, h)) (i : Nat) (ha : adds i h ≤ 1) :
    ¬ race n s (.function i) ∧
    (∀ t u b, t ≠ u → accesses n s (s.loc t) = some (.flag i, true) → accesses n s (s.loc u) = some (.flag i, b) →
      (∃ bs, s.loc t = .eDone i bs) ∧ s.loc u = .pFin i) := by
  have up := (known_run as e).upper i
  obtain ⟨ran, tw⟩ := twice_run as e
  constructor
  · rintro ⟨t, u, b, hn, h1, h2⟩
    obtain ⟨bs, h1⟩ := access_function h1
    obtain ⟨bs', h2⟩ := access_function h2
    have := up [t, u] (by simp [hn])
    simp only [total, List.map_cons, List.map_nil, List.sum_cons, List.sum_nil, h1, h2, carries, if_true] at this
    omega
  · intro t u b hn h1 h2
    rcases access_flag h1 with ⟨_, bs, h1⟩ | ⟨h1, _⟩
    · refine ⟨⟨bs, h1⟩, ?_⟩
      have hr := ran.done t i bs h1
      rcases access_flag h2 with ⟨_, bs', h2⟩ | ⟨_, h2 | h2⟩
      · have := tw t u i bs bs' hn h1 h2
        have := up [] List.nodup_nil
        simp only [total] at this
        omega
      · exact h2
      · have := up [u] (by simp)
        simp only [total, List.map_cons, List.map_nil, List.sum_cons, List.sum_nil] at this
        omega
    · cases h1

/-- C105: for every number of workers, in every execution: no data race on the function of a block submitted at most
once, none on its flag if moreover no client asks whether it is finished, none on the thread objects if calls that close
the queue do not overlap. -/
theorem race_free_partial (n : Nat) (as : List (Act Op)) (s : State) (h : List (Event Op Out))
    (e : (sys n).run (sys n).init as = some (s, h)) :
    (∀ i, adds i h ≤ 1 → ¬ race n s (.function i)) ∧
    (∀ i, adds i h ≤ 1 → notPolled i h → ¬ race n s (.flag i)) ∧
    (closedInTurn h → ∀ k, ¬ race n s (.thread k)) := by
  refine ⟨fun i ha => (only_polls_race n as s h e i ha).1, fun i ha hp => ?_, fun hx k => ?_⟩
  · rintro ⟨t, u, b, hn, h1, h2⟩
    exact polled_run as e i hp u ((only_polls_race n as s h e i ha).2 t u b hn h1 h2).2
  · rintro ⟨t, u, b, hn, h1, h2⟩
    obtain ⟨x, kx⟩ := closer_run as e hx
    have only := kx.only
    have h1 := access_thread h1
    have h2 := access_thread h2
    have ht : t = x := Classical.byContradiction fun c => by rw [only t c] at h1; cases h1
    have hu : u = x := Classical.byContradiction fun c => by rw [only u c] at h2; cases h2
    exact hn (ht.trans hu.symm)

/-- A worker is running block 7 while a second worker runs block 8 and a client has begun to close the queue. -/
example : ∃ as s h, (sys 2).run (sys 2).init as = some (s, h) ∧ adds 7 h = 1 ∧ adds 8 h = 1 ∧ closedBy 5 h ∧
    accesses 2 s (s.loc 0) = some (.function 7, true) ∧ accesses 2 s (s.loc 1) = some (.flag 8, true) ∧
    accesses 2 s (s.loc 5) = some (.thread 0, true) := by
  refine ⟨begin 5 (.add (some (.task 7)) .high) 5 ++ begin 5 (.add (some (.task 8)) .high) 5 ++ go 0 4 ++ go 1 5 ++ begin 5 .close 20,
    _, _, rfl, rfl, rfl, ?_, rfl, rfl, rfl⟩
  intro t op hm ho
  simp at hm
  rcases hm with ⟨rfl, rfl⟩ | ⟨rfl, rfl⟩ | ⟨rfl, rfl⟩ <;> simp

/-- C105 does not hold if a client asks whether a block is finished: it may read the flag while a worker writes it. -/
theorem poll_race : ∃ as s h, (sys 1).run (sys 1).init as = some (s, h) ∧ adds 7 h = 1 ∧ race 1 s (.flag 7) := by
  refine ⟨begin 5 (.add (some (.task 7)) .high) 5 ++ go 0 5 ++ begin 5 (.finished 7) 0, _, _, rfl, rfl, ?_⟩
  exact ⟨0, 5, false, by decide, rfl, rfl⟩

/-- C105 does not hold for a block submitted twice: two workers may run its function at once. -/
theorem twice_race : ∃ as s h, (sys 2).run (sys 2).init as = some (s, h) ∧ (∀ i, notPolled i h) ∧ race 2 s (.function 7) := by
  refine ⟨begin 5 (.add (some (.task 7)) .high) 5 ++ begin 5 (.add (some (.task 7)) .high) 5 ++ go 0 4 ++ go 1 4, _, _, rfl,
    ?_, ⟨0, 1, true, by decide, rfl, rfl⟩⟩
  intro i t; simp

/-- C105 does not hold if two clients close the queue: both may be about to join the same thread. -/
theorem close_race : ∃ as s h, (sys 1).run (sys 1).init as = some (s, h) ∧ race 1 s (.thread 0) := by
  exact ⟨begin 5 .close 15 ++ begin 6 .close 2, _, _, rfl, 5, 6, true, by decide, rfl, rfl⟩

/-! ### C106 isFinished -/

/-- C106: for every number of workers, in every execution: the answer of isFinished is true only if the block's function
has run to its end; it is false only if the function has never run to its end, or the thread that has just run it has not yet set the flag. -/
theorem finished_answer_partial (n : Nat) (as : List (Act Op)) (s : State) (h : List (Event Op Out))
    (e : (sys n).run (sys n).init as = some (s, h)) (t i : Nat) (ht : s.loc t = .pFin i) :
    ∃ b s', (∀ c, (sys n).move t c s = some (s', none)) ∧ s'.loc t = .ret (.bool b) ∧
      (b = true → 1 ≤ s.runs i) ∧ (b = false → s.runs i = 0 ∨ ∃ u bs, s.loc u = .eDone i bs) := by
  have ran := (known_run as e).ran
  refine ⟨s.fin i, s.goto t (.ret (.bool (s.fin i))), fun c => by simp only [sys, ht, stepAt], by rw [loc_goto, upd_same], ran.fin i, fun hb => ?_⟩
  rcases Nat.eq_zero_or_pos (s.runs i) with h0 | h0
  · exact .inl h0
  · rcases ran.late i h0 with h1 | h1
    · rw [hb] at h1; cases h1
    · exact .inr h1

/-- C106: once finished, a block stays finished. -/
theorem finished_stays (n : Nat) (as : List (Act Op)) (s s' : State) (h : List (Event Op Out)) (i : Nat)
    (e : (sys n).run s as = some (s', h)) (hf : s.fin i = true) : s'.fin i = true := by
  refine Sys.run_invariant (M := sys n) (I := fun s => s.fin i = true) (allowed := fun _ _ => True) ?_ ?_ as hf
    (fun _ _ _ => trivial) e
  · intro s t op s' k _ hc
    obtain ⟨_, rfl⟩ := call_eq hc
    exact k
  · intro s t c s' o k hm
    exact (step_fin hm i).1 k

/-- C106 does not hold at once: the function has run to its end (so wait() and getReturnVal() return), but isFinished answers
false. -/
theorem finished_violation : ∃ as s h, (sys 1).run (sys 1).init as = some (s, h) ∧ s.runs 7 = 1 ∧
    s.loc 5 = .ret (.bool false) ∧ .call 5 (.finished 7) ∈ h := by
  refine ⟨begin 5 (.add (some (.task 7)) .high) 5 ++ go 0 5 ++ begin 5 (.finished 7) 1, _, _, rfl, rfl, rfl, ?_⟩
  simp

end Verif.WorkQueue
