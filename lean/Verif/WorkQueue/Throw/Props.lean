import Verif.WorkQueue.Throw.Lemmas
import Verif.WorkQueue.PropsClose

/-
The properties C115, C116 and C117 of WorkQueue: allocations that fail.  `n` is the number of workers.
-/
namespace Verif.WorkQueue.Throw
open Verif.Conc WorkQueue.State

/-! ### Concrete executions -/

/-- thread `t` takes `k` steps -/
def go (t k : Nat) : List (Act Op) := List.replicate k (.move t 1)

/-- thread `t` calls `op` and takes `k` steps -/
def begin (t : Nat) (op : Op) (k : Nat) : List (Act Op) := .call t op :: go t k

/-- the allocation that thread `t` is about to make fails -/
def oom (t : Nat) : List (Act Op) := [.move t 0]

/-! ### C115 failing calls of addWorkBlock -/

/-- C115: Every execution in which allocations fail ends in the state of an execution without failures in which the calls of
addWorkBlock that threw were not made (and those of closeWorkerQueue that threw have stopped where they did), with the same
events otherwise. -/
theorem failures_refine (n : Nat) (as : List (Act Op)) (s : State) (h : List (Event Op Res))
    (e : (sys n).run (sys n).init as = some (s, h)) :
    ∃ bs, (WorkQueue.sys n).run (WorkQueue.sys n).init bs = some (s.q, calm h) := by
  obtain ⟨bs, hbs⟩ := calm_run as e
  refine ⟨bs, ?_⟩
  have : mask (doomed (sys n).init h) (sys n).init.q = (WorkQueue.sys n).init := by
    have hd : doomed (sys n).init h = fun _ => false := by
      funext u
      have : adding ((WorkQueue.State.init n).loc u) = false := by
        simp only [WorkQueue.State.init]; split <;> rfl
      show (adding ((WorkQueue.State.init n).loc u) && _) = false
      rw [this]; rfl
    rw [hd]; rfl
  rw [this] at hbs
  exact hbs

/-- the state of a queue with failures is one of a queue without -/
theorem reachable {n : Nat} {s : State} (h : (sys n).Reachable s) : (WorkQueue.sys n).Reachable s.q := by
  obtain ⟨as, h, e⟩ := h
  obtain ⟨bs, hbs⟩ := failures_refine n as s h e
  exact ⟨bs, _, hbs⟩

/-- C115 (C63): a block has been run and handed out at most as often as it was added without exception; if it was never, it is neither
queued nor held by a worker. -/
theorem at_most_once (n : Nat) (as : List (Act Op)) (s : State) (h : List (Event Op Res))
    (e : (sys n).run (sys n).init as = some (s, h)) (i : Nat) :
    s.q.runs i + handed i (calm h) ≤ adds i (calm h) ∧
    (adds i (calm h) = 0 → s.q.queued i = 0 ∧ ∀ t, fetched i (s.q.loc t) = false) := by
  obtain ⟨bs, hbs⟩ := failures_refine n as s h e
  refine ⟨(WorkQueue.at_most_once n bs _ _ hbs i).1, fun ha => ?_⟩
  have k := (known_run bs hbs).upper i
  constructor
  · have := k [] List.nodup_nil
    simp only [total] at this
    omega
  · intro t
    cases hf : fetched i (s.q.loc t) with
    | false => rfl
    | true =>
      have h1 := fetched_carries hf
      have := k [t] (by simp)
      simp only [total, List.map_cons, List.map_nil, List.sum_cons, List.sum_nil] at this
      omega

theorem calm_calls {t : Nat} {op : Op} (h : List (Event Op Res)) (hm : .call t op ∈ calm h) : .call t op ∈ h := by
  induction h with
  | nil => cases hm
  | cons e h ih =>
    cases e with
    | call u op' =>
      simp only [calm] at hm
      split at hm
      · exact List.mem_cons_of_mem _ (ih hm)
      · rcases List.mem_cons.1 hm with h1 | h1
        · cases h1; exact List.mem_cons_self
        · exact List.mem_cons_of_mem _ (ih h1)
    | ret u o =>
      cases o with
      | threw => exact List.mem_cons_of_mem _ (ih hm)
      | ret o =>
        rcases List.mem_cons.1 hm with h1 | h1
        · cases h1
        · exact List.mem_cons_of_mem _ (ih h1)

/-- C115 (C63): in a queue with workers that nobody closes, a block added once without exception, whatever other calls of addWorkBlock
threw, has been run exactly once when the queue is drained. -/
theorem exactly_once (n : Nat) (hn : 0 < n) (as : List (Act Op)) (s : State) (h : List (Event Op Res))
    (e : (sys n).run (sys n).init as = some (s, h)) (hc : ∀ t, .call t .close ∉ h ∧ .call t .destroy ∉ h) (i : Nat)
    (ha : adds i (calm h) = 1) (hh : handed i (calm h) = 0)
    (hq : s.q.high.1 = [] ∧ s.q.med.1 = [] ∧ s.q.low.1 = []) (hcl : ∀ t, n ≤ t → s.q.loc t = .idle)
    (hw : ∀ t, t < n → busy (s.q.loc t) = false) : s.q.runs i = 1 ∧ s.q.fin i = true := by
  obtain ⟨bs, hbs⟩ := failures_refine n as s h e
  refine WorkQueue.exactly_once n hn bs s.q (calm h) hbs ?_ i ha hh hq hcl hw
  intro t
  exact ⟨fun h => (hc t).1 (calm_calls _ h), fun h => (hc t).2 (calm_calls _ h)⟩

/-- Block 7 cannot be added the first time; block 8 can, and so can block 7 the second time. -/
example : ∃ as s h, (sys 1).run (sys 1).init as = some (s, h) ∧ .ret 2 .threw ∈ h ∧ (∀ t, .call t .close ∉ h ∧ .call t .destroy ∉ h) ∧
    adds 7 (calm h) = 1 ∧ adds 9 (calm h) = 0 ∧ handed 7 (calm h) = 0 ∧ (s.q.high.1 = [] ∧ s.q.med.1 = [] ∧ s.q.low.1 = []) ∧
    (∀ t, 1 ≤ t → s.q.loc t = .idle) ∧ (∀ t, t < 1 → busy (s.q.loc t) = false) ∧ s.q.runs 8 = 1 := by
  refine ⟨begin 2 (.add (some (.task 7)) .low) 2 ++ oom 2 ++ begin 3 (.addVector [some (.task 9)] .high) 0 ++ oom 3 ++
    begin 3 (.addVector [some (.task 8)] .medium) 3 ++ begin 2 (.add (some (.task 7)) .low) 5 ++ go 0 40,
    _, _, rfl, by simp, by intro t; simp, rfl, rfl, rfl, ⟨rfl, rfl, rfl⟩, ?_, ?_, rfl⟩
  · intro t ht
    match t with
    | 0 => omega
    | 1 => rfl
    | 2 => rfl
    | 3 => rfl
    | t + 4 => rfl
  · intro t ht
    match t with
    | 0 => rfl
    | t + 1 => omega

/-! ### C116 failing calls of closeWorkerQueue -/

/-- a call that failed stays where it was -/
theorem failed_at {n : Nat} (as : List (Act Op)) {s : State} {h : List (Event Op Res)} (e : (sys n).run (sys n).init as = some (s, h)) :
    ∀ t, s.failed t = true → closeAllocates (s.q.loc t) = true := by
  refine Sys.run_invariant (M := sys n) (I := fun s => ∀ t, s.failed t = true → closeAllocates (s.q.loc t) = true)
    (allowed := fun _ _ => True) ?_ ?_ as (fun t h => by cases h) (fun _ _ _ => trivial) e
  · intro s t op s' k _ hc u hu
    obtain ⟨_, hf, hid, rfl⟩ := call_cases hc
    have hne : u ≠ t := by rintro rfl; rw [hf] at hu; cases hu
    show closeAllocates (upd s.q.loc t _ u) = true
    rw [upd_ne _ _ hne]; exact k u hu
  · intro s t c s' r k hm u hu
    obtain ⟨_, hf, hc⟩ := move_cases hm
    have other : ∀ {d q' o}, s.q.stepAt n t d (s.q.loc t) = some (q', o) → s.failed u = true → closeAllocates (q'.loc u) = true := by
      intro d q' o hst hu
      have hne : u ≠ t := by rintro rfl; rw [hf] at hu; cases hu
      obtain ⟨a, l', h8, w⟩ := step_loc hst
      rw [h8, upd_ne _ _ hne]
      have := k u hu
      rw [w.awake rfl (by intro h; rw [h] at this; cases this)]; exact this
    rcases hc with ⟨_, rfl, _⟩ | ⟨_, _, rfl, _⟩ | ⟨h6, _, rfl, _⟩ | ⟨d, q', h6, rfl, rfl⟩ | ⟨d, q', o, h6, h7, rfl, rfl⟩ | ⟨d, q', o, h6, h7, rfl, rfl⟩
    · have hne : u ≠ t := by rintro rfl; rw [hf] at hu; cases hu
      show closeAllocates (upd s.q.loc t _ u) = true
      rw [upd_ne _ _ hne]; exact k u hu
    · exact k u hu
    · by_cases hne : u = t
      · subst hne; exact h6
      · simp only [upd_ne _ _ hne] at hu; exact k u hu
    · exact other h6 hu
    · exact k u hu
    · exact other h6 hu

/-- calls that close the queue, once past the test of the halt flag, have set it -/
theorem closing_halt {n : Nat} (as : List (Act Op)) {s : WorkQueue.State} {h : List (Event Op Out)}
    (e : (WorkQueue.sys n).run (WorkQueue.sys n).init as = some (s, h)) (t : Nat) (ht : closing (s.loc t) = true) :
    beforeHalt (s.loc t) = true ∨ s.halt = true := by
  refine Sys.run_invariant (M := WorkQueue.sys n) (I := fun s => ∀ t, closing (s.loc t) = true → beforeHalt (s.loc t) = true ∨ s.halt = true)
    (allowed := fun _ _ => True) ?_ ?_ as ?_ (fun _ _ _ => trivial) e t ht
  · intro s t op s' k _ hc u hu
    obtain ⟨hid, rfl⟩ := call_eq hc
    by_cases e : u = t
    · subst e
      rw [loc_goto, upd_same] at hu ⊢
      rw [(closing_start n op).1] at hu
      exact .inl ((closing_start n op).2.2.2 hu)
    · rw [loc_goto, upd_ne _ _ e] at hu ⊢; exact k u hu
  · intro s t c s' o k hm u hu
    have hm : stepAt n s t c (s.loc t) = some (s', o) := hm
    have mono : s.halt = true → s'.halt = true := by
      intro h
      rcases (step_halt hm).1 with h1 | ⟨_, h1, _⟩
      · rw [h1]; exact h
      · exact h1
    by_cases e : u = t
    · subst e
      cases hcl : closing (s.loc u) with
      | false => rw [step_closing hm hcl] at hu; cases hu
      | true =>
        rcases k u hcl with h | h
        · exact ((step_close hm hcl).2.2.2 h).symm
        · exact .inr (mono h)
    · obtain ⟨a, l', e1, w⟩ := step_loc hm
      rw [e1, upd_ne _ _ e] at hu ⊢
      rcases w.all u with h | ⟨h1, h2⟩
      · rw [h] at hu ⊢
        exact (k u hu).imp_right mono
      · rw [h2] at hu; cases hu
  · intro t ht
    have : closing ((WorkQueue.State.init n).loc t) = false := by simp only [WorkQueue.State.init]; split <;> rfl
    exact absurd ht (by rw [show (WorkQueue.sys n).init = WorkQueue.State.init n from rfl, this]; simp)

/-- C116: if a call of closeWorkerQueue has thrown, the halt flag is set. -/
theorem failed_halt (n : Nat) (s : State) (hs : (sys n).Reachable s) (x : Nat) (hx : s.failed x = true) : s.q.halt = true := by
  obtain ⟨as, h, e⟩ := hs
  obtain ⟨bs, hbs⟩ := failures_refine n as s h e
  have h1 := failed_at as e x hx
  generalize hl : s.q.loc x = l at h1
  have h2 := closing_halt bs hbs x
  rw [hl] at h2
  cases l with
  | aPush b p r c =>
    cases r with
    | client => cases h1
    | close k => rcases h2 rfl with h | h
                 · cases h
                 · exact h
  | cClear q => rcases h2 rfl with h | h
                · cases h
                · exact h
  | _ => cases h1

/-- C116: after closeWorkerQueue has set the halt flag, whether it then throws or not, there is a bound on the number of steps all threads
together can still make without further calls. -/
theorem failed_bounded (n : Nat) (s : State) (hs : (sys n).Reachable s) (hh : s.q.halt = true) :
    ∃ bound, ∀ bs s' h', onlyMoves bs → (sys n).run s bs = some (s', h') → bs.length ≤ bound := by
  obtain ⟨ts, h1, h2⟩ := (inv_reachable (reachable hs)).finite
  let W := 30 * ts.length + 61
  let m : State → Nat := fun s => measure W n ts s.q + (ts.map fun u => if s.failed u then 0 else 1).sum + (if s.dead then 0 else 1)
  refine ⟨m s, fun bs => ?_⟩
  have key : ∀ bs s s' h', (sys n).Reachable s → s.q.halt = true → (∀ u, u ∉ ts → s.q.loc u = .idle) → onlyMoves bs →
      (sys n).run s bs = some (s', h') → bs.length ≤ m s := by
    intro bs
    induction bs with
    | nil => intros; simp
    | cons a bs ih =>
      intro s s' h' hs hh hi ho e
      have hre : ∀ {s1 t c r}, (sys n).move t c s = some (s1, r) → (sys n).Reachable s1 := by
        intro s1 t c r hm
        obtain ⟨as, h, e⟩ := hs
        refine ⟨as ++ [.move t c], _, Sys.run_append as e (run_move hm rfl)⟩
      rcases run_cons e with ⟨t, op, s1, h2, rfl, e1, e2, rfl⟩ | ⟨t, c, s1, r, h2, rfl, e1, e2, rfl⟩
      · exact absurd (by simp) (ho t op)
      · have go := fun hh' hi' => ih s1 s' h2 (hre e1) hh' hi' (fun t op hm => ho t op (by simp [hm])) e2
        simp only [List.length_cons]
        have htm : s.q.loc t ≠ .idle → t ∈ ts := by
          intro hne
          by_cases h : t ∈ ts
          · exact h
          · exact absurd (hi t h) hne
        have stp : ∀ {d q' o}, s.q.stepAt n t d (s.q.loc t) = some (q', o) → measure W n ts q' < measure W n ts s.q ∧ q'.halt = true ∧
            ∀ u, u ∉ ts → q'.loc u = .idle := by
          intro d q' o hst
          refine ⟨measure_step hh (inv_reachable (reachable hs)) h1 hi (Nat.le_refl _) hst, ?_, ?_⟩
          · rcases (step_halt hst).1 with h | ⟨_, h, _⟩
            · rw [h]; exact hh
            · exact h
          · intro u hu
            obtain ⟨a, l', e4, w⟩ := step_loc hst
            have hne : u ≠ t := by rintro rfl; rw [hi u hu] at hst; cases hst
            rw [e4, upd_ne _ _ hne]
            exact w.awake (hi u hu) (by simp)
        obtain ⟨hd, hf, hc⟩ := move_cases e1
        rcases hc with ⟨h6, rfl, rfl⟩ | ⟨h6, h7, rfl, rfl⟩ | ⟨h6, h7, rfl, rfl⟩ | ⟨d, q', h6, rfl, rfl⟩ | ⟨d, q', o, h6, h7, rfl, rfl⟩ | ⟨d, q', o, h6, h7, rfl, rfl⟩
        · have hne : s.q.loc t ≠ .idle := by intro h; rw [h] at h6; cases h6
          have := go hh (fun u hu => by
            show upd s.q.loc t .idle u = .idle
            by_cases e : u = t
            · subst e; rw [upd_same]
            · rw [upd_ne _ _ e]; exact hi u hu)
          have hlt : measure W n ts (s.q.goto t .idle) < measure W n ts s.q := by
            unfold measure
            have h3 := sum_but (f := fun u => rank W n s.q (s.q.loc u)) (g := fun u => rank W n (s.q.goto t .idle) ((s.q.goto t .idle).loc u))
              (d := 0) ts h1 (htm hne) (fun u hu => by
                rw [loc_goto, upd_ne _ _ hu]; exact Nat.le_refl _)
            have h4 : rank W n (s.q.goto t .idle) ((s.q.goto t .idle).loc t) = 0 := by
              rw [loc_goto, upd_same]; simp [rank, base, extra, fetching]
            have h5 : 0 < rank W n s.q (s.q.loc t) := by
              generalize s.q.loc t = l at h6
              cases l with
              | aPush b p r m => simp only [rank, base]; omega
              | vPush bs p => simp only [rank, base]; omega
              | _ => cases h6
            have h6 : load (s.q.goto t .idle) = load s.q := rfl
            simp only [Nat.zero_mul] at h3
            rw [h6]
            omega
          simp only [m] at this ⊢
          omega
        · have := go hh hi
          simp only [m, hd] at this ⊢
          simp at this ⊢
          omega
        · have hne : s.q.loc t ≠ .idle := by intro h; rw [h] at h6; cases h6
          have := go hh hi
          have h3 := sum_but (f := fun u => if s.failed u then 0 else 1) (g := fun u => if upd s.failed t true u then 0 else 1) (d := 0) ts h1
            (htm hne) (fun u hu => by rw [upd_ne _ _ hu]; exact Nat.le_refl _)
          simp only [upd_same, hf] at h3
          simp only [m] at this ⊢
          simp at h3
          omega
        · obtain ⟨g1, g2, g3⟩ := stp h6
          have := go g2 g3
          simp only [m] at this ⊢
          omega
        · have := go hh hi
          simp only [m, hd] at this ⊢
          simp at this ⊢
          omega
        · obtain ⟨g1, g2, g3⟩ := stp h6
          have := go g2 g3
          simp only [m] at this ⊢
          omega
  intro s' h' ho e
  exact key bs s s' h' hs hh h2 ho e

/-- C116: when nobody can make a step any more, not even by a timeout, after closeWorkerQueue has set the halt flag, and the
calls that close the queue and have not returned have all thrown, then all workers have exited. -/
theorem failed_exits (n : Nat) (s : State) (hs : (sys n).Reachable s) (hh : s.q.halt = true) (hd : s.dead = false)
    (hc : ∀ t, closing (s.q.loc t) = true → s.failed t = true) (hr : rest n s) : ∀ k, k < n → s.q.loc k = .exited := by
  have k := inv_reachable (reachable hs)
  obtain ⟨as, h, e⟩ := hs
  have fa := failed_at as e
  have hst : ∀ t, s.failed t = false → stepAt n s.q t 0 (s.q.loc t) = none := by
    intro t ht
    have := hr t 1
    simp only [sys, hd, ht, Bool.or_self] at this
    cases hx : stepAt n s.q t 0 (s.q.loc t) with
    | none => rfl
    | some r =>
      obtain ⟨q', o⟩ := r
      cases o with
      | none => simp [State.step, hx] at this
      | some v =>
        simp only [State.step, hx, Bool.false_eq_true, if_false] at this
        split at this <;> cases this
  have hw : ∀ t, s.failed t = false → waits (s.q.loc t) = true := by
    intro t ht
    cases hc : waits (s.q.loc t) with
    | true => rfl
    | false => exact absurd (hst t ht) (step_some hc)
  have hown : s.q.owner = none := by
    cases ho : s.q.owner with
    | none => rfl
    | some u =>
      exfalso
      have h1 := (k.owns u).2 ho
      cases hf : s.failed u with
      | true =>
        have h2 := fa u hf
        cases hl : s.q.loc u <;> rw [hl] at h1 h2 <;> simp [holds, closeAllocates] at h1 h2
      | false =>
        have h2 := hw u hf
        cases hl : s.q.loc u <;> rw [hl] at h1 h2 <;> simp [holds, waits] at h1 h2
        have := hc u (by rw [hl]; rfl)
        rw [hf] at this; cases this
  intro t ht
  have hf : s.failed t = false := by
    cases hf : s.failed t with
    | false => rfl
    | true =>
      have h2 := fa t hf
      have h3 := k.place t
      cases hl : s.q.loc t <;> rw [hl] at h2 h3 <;> simp [closeAllocates, place] at h2 h3 <;> omega
  have h1 := hw t hf
  have h2 := k.place t
  have h3 := hst t hf
  cases hl : s.q.loc t <;> rw [hl] at h1 h2 h3 <;> simp [waits, place, stepAt, State.lock, hown] at h1 h2 h3 <;> omega

/-- closeWorkerQueue is in progress and has not begun to join -/
def preJoin : Loc → Bool
  | .cJoin _ _ | .cOut => false
  | l => closing l

theorem step_preJoin {n t c : Nat} {q q' : WorkQueue.State} {o : Option Out} {l : Loc} (h : stepAt n q t c l = some (q', o))
    (hl : preJoin l = false) : preJoin (q'.loc t) = false := by
  cases hcl : closing l with
  | false =>
    have h1 := step_closing h hcl
    generalize q'.loc t = l' at h1
    cases l' <;> first | rfl | exact h1
  | true =>
    cases l <;> simp [preJoin, closing] at hl hcl
    · simp_all
    · simp_all
    · simp_all
    · simp_all
    · simp only [stepAt] at h
      split at h
      · obtain ⟨rfl, rfl⟩ := Prod.mk.inj (Option.some.inj h)
        rw [loc_goto, upd_same]; split <;> rfl
      · split at h
        · obtain ⟨rfl, rfl⟩ := Prod.mk.inj (Option.some.inj h)
          rw [loc_goto, upd_same]; rfl
        · split at h
          · obtain ⟨rfl, rfl⟩ := Prod.mk.inj (Option.some.inj h)
            rw [loc_goto, upd_same]; rfl
          · cases h
    · obtain ⟨rfl, rfl⟩ := Prod.mk.inj (Option.some.inj h)
      rw [unlock, loc_goto, upd_same]; rfl

/-- the same for histories without failures -/
def shuts : List (Event Op Out) → Nat
  | [] => 0
  | .call _ op :: h => (if op.closes then 1 else 0) + shuts h
  | .ret _ _ :: h => shuts h

theorem shuts_calm (h : List (Event Op Res)) : shuts (calm h) = closings h := by
  induction h with
  | nil => rfl
  | cons e h ih =>
    cases e with
    | call t op =>
      simp only [calm, closings]
      split
      · rename_i hx
        rw [ih]
        have : op.closes = false := by
          have := hx.1
          cases op <;> first | rfl | cases this
        rw [this]; simp
      · simp only [shuts, ih]
    | ret t o => cases o <;> simp only [calm, shuts, closings, ih]

theorem shuts_append (h h' : List (Event Op Out)) : shuts (h ++ h') = shuts h + shuts h' := by
  induction h with
  | nil => simp [shuts]
  | cons e h ih =>
    cases e with
    | call t op => simp only [List.cons_append, shuts, ih]; omega
    | ret t o => simp only [List.cons_append, shuts, ih]

theorem shuts_ret (t : Nat) (o : Option Out) : shuts (retEvents t o) = 0 := by cases o <;> rfl

/-- Threads that close the queue have called; as long as there is one such call, no thread has been joined before it joins. -/
structure Single (s : WorkQueue.State) (h : List (Event Op Out)) : Prop where
  one : ∀ t, closing (s.loc t) = true → 1 ≤ shuts h
  two : ∀ t u, t ≠ u → closing (s.loc t) = true → closing (s.loc u) = true → 2 ≤ shuts h
  pre : ∀ j, s.joined j = true → 1 ≤ shuts h ∧ (shuts h ≤ 1 → ∀ t, preJoin (s.loc t) = false)

theorem preJoin_closing {l : Loc} (h : preJoin l = true) : closing l = true := by
  cases l <;> first | exact h | rfl

theorem single_run {n : Nat} (as : List (Act Op)) {s : WorkQueue.State} {h : List (Event Op Out)}
    (e : (WorkQueue.sys n).run (WorkQueue.sys n).init as = some (s, h)) : Single s h := by
  have h0 : Single (WorkQueue.State.init n) [] := by
    have hl : ∀ t, closing ((WorkQueue.State.init n).loc t) = false := by
      intro t; simp only [WorkQueue.State.init]; split <;> rfl
    exact ⟨fun t h => (by rw [hl] at h; cases h), fun t u _ h => (by rw [hl] at h; cases h), fun j h => (by cases h)⟩
  refine Sys.run_history (M := WorkQueue.sys n) (I := Single) ?_ ?_ as h0 e
  · intro s t op s' h k hc
    obtain ⟨hid, rfl⟩ := call_eq hc
    have hcl := (closing_start n op).1
    have hs : shuts (h ++ [.call t op]) = shuts h + if op.closes then 1 else 0 := by rw [shuts_append]; simp [shuts]
    have ot : ∀ u, u ≠ t → (s.goto t (start n op)).loc u = s.loc u := fun u hu => by rw [loc_goto, upd_ne _ _ hu]
    have self : closing ((s.goto t (start n op)).loc t) = true → op.closes = true := by
      rw [loc_goto, upd_same, hcl]; exact id
    refine ⟨fun u hu => ?_, fun u v huv hu hv => ?_, fun j hj => ?_⟩
    · by_cases e : u = t
      · subst e; rw [hs, self hu]; simp
      · rw [ot u e] at hu; have := k.one u hu; omega
    · by_cases e : u = t
      · subst e
        rw [ot v (Ne.symm huv)] at hv
        rw [hs, self hu]; have := k.one v hv; simp; omega
      · rw [ot u e] at hu
        by_cases e' : v = t
        · subst e'
          rw [hs, self hv]; have := k.one u hu; simp; omega
        · rw [ot v e'] at hv
          have := k.two u v huv hu hv; omega
    · obtain ⟨k1, k2⟩ := k.pre j hj
      refine ⟨by omega, fun hle u => ?_⟩
      by_cases e : u = t
      · subst e
        cases hp : preJoin ((s.goto u (start n op)).loc u) with
        | false => rfl
        | true =>
          have := self (preJoin_closing hp)
          rw [hs, this] at hle; simp at hle; omega
      · rw [ot u e]; exact k2 (by omega) u
  · intro s t c s' o h k hm
    have hm : stepAt n s t c (s.loc t) = some (s', o) := hm
    have hs : shuts (h ++ retEvents t o) = shuts h := by rw [shuts_append, shuts_ret]; rfl
    obtain ⟨a, l', e1, w⟩ := step_loc hm
    have ot : ∀ u, u ≠ t → closing (s'.loc u) = closing (s.loc u) ∧ preJoin (s'.loc u) = preJoin (s.loc u) := by
      intro u hu
      rw [e1, upd_ne _ _ hu]
      rcases w.all u with h | ⟨h1, h2⟩
      · rw [h]; exact ⟨rfl, rfl⟩
      · rw [h1, h2]; exact ⟨rfl, rfl⟩
    have cl : ∀ u, closing (s'.loc u) = true → closing (s.loc u) = true := by
      intro u hu
      by_cases e : u = t
      · subst e
        cases hcl : closing (s.loc u) with
        | true => rfl
        | false => rw [step_closing hm hcl] at hu; cases hu
      · rw [← (ot u e).1]; exact hu
    refine ⟨fun u hu => ?_, fun u v huv hu hv => ?_, fun j hj => ?_⟩
    · rw [hs]; exact k.one u (cl u hu)
    · rw [hs]; exact k.two u v huv (cl u hu) (cl v hv)
    · rw [hs]
      have old : ∀ i, s.joined i = true → 1 ≤ shuts h ∧ (shuts h ≤ 1 → ∀ u, preJoin (s'.loc u) = false) := by
        intro i hi
        obtain ⟨k1, k2⟩ := k.pre i hi
        refine ⟨k1, fun hle u => ?_⟩
        by_cases e : u = t
        · subst e; exact step_preJoin hm (k2 hle u)
        · rw [(ot u e).2]; exact k2 hle u
      rcases step_joined hm with h3 | ⟨k', b, h3, h4, h5⟩
      · rw [h3] at hj; exact old j hj
      · have hcl : closing (s.loc t) = true := by rw [h3]; rfl
        refine ⟨k.one t hcl, fun hle u => ?_⟩
        by_cases e : u = t
        · subst e; rw [h5]; rfl
        · rw [(ot u e).2]
          cases hp : preJoin (s.loc u) with
          | false => rfl
          | true => have := k.two u t e (preJoin_closing hp) hcl; omega

theorem closeAllocates_preJoin {l : Loc} (h : closeAllocates l = true) : preJoin l = true := by
  cases l with
  | aPush b p r c => cases r with | close k => rfl | _ => cases h
  | cClear q => cases q with | high => rfl | _ => cases h
  | _ => cases h

/-- C116 fails: if the call of closeWorkerQueue of a queue with workers throws, and no other call has closed the queue, destroying the queue
ends the program. -/
theorem destroy_after_failure (n : Nat) (hn : 0 < n) (as : List (Act Op)) (s : State) (h : List (Event Op Res))
    (e : (sys n).run (sys n).init as = some (s, h)) (x : Nat) (hx : s.failed x = true) (h1 : closings h = 1) (hd : s.dead = false)
    (t : Nat) (ht : s.q.loc t = .idle) :
    ∃ s', (sys n).run s (begin t .destroy 2) = some (s', [.call t .destroy]) ∧ s'.dead = true := by
  obtain ⟨bs, hbs⟩ := failures_refine n as s h e
  have hh := failed_halt n s ⟨as, h, e⟩ x hx
  have k := single_run bs hbs
  have hj : ∀ j, s.q.joined j = false := by
    intro j
    cases hj : s.q.joined j with
    | false => rfl
    | true =>
      have h2 := (k.pre j hj).2 (by rw [shuts_calm]; omega) x
      have h3 := failed_at as e x hx
      rw [closeAllocates_preJoin h3] at h2; cases h2
  have hf : s.failed t = false := by
    cases hf : s.failed t with
    | false => rfl
    | true => have := failed_at as e t hf; rw [ht] at this; cases this
  let s1 : State := { s with q := s.q.goto t .dTest, dtor := upd s.dtor t true }
  let s2 : State := { s1 with q := s1.q.goto t (.ret .unit) }
  have e1 : (sys n).call t .destroy s = some s1 := by
    simp [sys, hd, hf, State.call, ht, s1, start]
  have e2 : (sys n).move t 1 s1 = some (s2, none) := by
    simp [sys, s1, hd, hf, State.step, goto, upd_same, stepAt, hh, s2]
  have hab : s2.abandons n t = true := by
    simp only [State.abandons, Bool.and_eq_true]
    refine ⟨upd_same _ _ _, ?_⟩
    rw [List.any_eq_true]
    exact ⟨0, List.mem_range.2 hn, by show (!s.q.joined 0) = true; rw [hj]; rfl⟩
  have e3 : (sys n).move t 1 s2 = some ({ s2 with dead := true }, none) := by
    have h3 : s2.q.loc t = .ret .unit := upd_same _ _ _
    have h4 : s2.dead = false := hd
    have h5 : s2.failed t = false := hf
    simp only [sys, h4, h5, Bool.or_self, Bool.false_eq_true, if_false, State.step, h3, stepAt, hab, if_true]
  exact ⟨_, run_call e1 (run_move e2 (run_move e3 rfl)), rfl⟩

theorem step_exited {n t c : Nat} {q q' : WorkQueue.State} {o : Option Out} {l : Loc} (h : stepAt n q t c l = some (q', o))
    (hl : q'.loc t = .exited) : l = .wOut := by
  have back : ∀ {s1 : WorkQueue.State} {r}, (s1.back t r).loc t ≠ .exited := by
    intro s1 r; cases r <;> simp [State.back, loc_goto, upd_same]
  unfold stepAt at h
  split at h
  all_goals try (split at h)
  all_goals try (split at h)
  all_goals try (split at h)
  all_goals try (simp only [State.lock] at h; split at h)
  all_goals (first | (cases h; done) | skip)
  all_goals obtain ⟨rfl, rfl⟩ := Prod.mk.inj (Option.some.inj h)
  all_goals (try rfl)
  all_goals (try (exact absurd hl back))
  all_goals (try simp only [got, executed, unlock, loc_goto, upd_same] at hl)
  all_goals (try (split at hl))
  all_goals (try (cases hl; done))
  all_goals (try (split at hl))
  all_goals (cases hl)

theorem reach_call {n t : Nat} {op : Op} {s s' : State} (hs : (sys n).Reachable s) (hc : (sys n).call t op s = some s') :
    (sys n).Reachable s' := by
  obtain ⟨as, h, e⟩ := hs
  exact ⟨as ++ [.call t op], _, Sys.run_append as e (run_call hc rfl)⟩

theorem reach_move {n t c : Nat} {s s' : State} {r : Option Res} (hs : (sys n).Reachable s) (hm : (sys n).move t c s = some (s', r)) :
    (sys n).Reachable s' := by
  obtain ⟨as, h, e⟩ := hs
  exact ⟨as ++ [.move t c], _, Sys.run_append as e (run_move hm rfl)⟩

/-- C116: a call of closeWorkerQueue that finds the halt flag set (because another call has thrown, or has not yet returned) and comes to a
worker that has not exited waits for ever, and the worker never exits. -/
theorem second_close_waits (n : Nat) (s : State) (hs : (sys n).Reachable s) (t k : Nat) (hl : s.q.loc t = .cJoin k true) (hk : k < n)
    (hx : s.q.loc k ≠ .exited) (bs : List (Act Op)) (s' : State) (h' : List (Event Op Res)) (e : (sys n).run s bs = some (s', h')) :
    s'.q.loc t = .cJoin k true ∧ s'.q.loc k ≠ .exited := by
  have key : (sys n).Reachable s' ∧ s'.q.loc t = .cJoin k true ∧ s'.q.loc k ≠ .exited := by
    refine Sys.run_invariant (M := sys n) (I := fun s => (sys n).Reachable s ∧ s.q.loc t = .cJoin k true ∧ s.q.loc k ≠ .exited)
      (allowed := fun _ _ => True) ?_ ?_ bs ⟨hs, hl, hx⟩ (fun _ _ _ => trivial) e
    · intro s u op s' ⟨hs, h1, h2⟩ _ hc
      have i := inv_reachable (reachable hs)
      refine ⟨reach_call hs hc, ?_⟩
      obtain ⟨_, _, hid, rfl⟩ := call_cases hc
      have hut : t ≠ u := by rintro rfl; rw [h1] at hid; cases hid
      have huk : k ≠ u := by
        rintro rfl
        have := i.place k
        rw [hid] at this
        simp only [place] at this
        omega
      refine ⟨?_, ?_⟩
      · show (s.q.goto u _).loc t = _
        rw [loc_goto, upd_ne _ _ hut]; exact h1
      · show (s.q.goto u _).loc k ≠ _
        rw [loc_goto, upd_ne _ _ huk]; exact h2
    · intro s u c s' r ⟨hs, h1, h2⟩ hm
      have i := inv_reachable (reachable hs)
      refine ⟨reach_move hs hm, ?_⟩
      have own : s.q.owner = some t := (i.owns t).1 (by rw [h1]; rfl)
      have hkt : k ≠ t := by
        rintro rfl
        have := i.place k
        rw [h1] at this
        simp only [place] at this
        omega
      have stp : ∀ {d q' o}, s.q.stepAt n u d (s.q.loc u) = some (q', o) → q'.loc t = .cJoin k true ∧ q'.loc k ≠ .exited := by
        intro d q' o hst
        obtain ⟨a, l', e1, w⟩ := step_loc hst
        have hut : t ≠ u := by
          rintro rfl
          rw [h1] at hst
          have hj : s.q.joined k = false := by
            cases hj : s.q.joined k with
            | false => rfl
            | true => exact absurd (i.joined k hj) h2
          simp only [stepAt, hj, h2] at hst
          rw [if_neg (by omega)] at hst
          cases hst
        refine ⟨by rw [e1, upd_ne _ _ hut, w.awake h1 (by simp)], ?_⟩
        by_cases huk : k = u
        · subst huk
          intro hex
          have := step_exited hst hex
          rw [(i.owns k).1 (by rw [this]; rfl)] at own
          cases own; exact hkt rfl
        · rw [e1, upd_ne _ _ huk]
          rcases w.all k with h | ⟨_, h⟩
          · rw [h]; exact h2
          · rw [h]; simp
      obtain ⟨hd, hf, hc⟩ := move_cases hm
      rcases hc with ⟨h6, rfl, rfl⟩ | ⟨h6, h7, rfl, rfl⟩ | ⟨h6, h7, rfl, rfl⟩ | ⟨d, q', h6, rfl, rfl⟩ | ⟨d, q', o, h6, h7, rfl, rfl⟩ | ⟨d, q', o, h6, h7, rfl, rfl⟩
      · have hut : t ≠ u := by rintro rfl; rw [h1] at h6; cases h6
        have huk : k ≠ u := by
          rintro rfl
          have := i.place k
          generalize s.q.loc k = l at h6 this
          cases l with
          | aPush b p r c => cases r <;> simp [addAllocates, place] at h6 this; omega
          | vPush b p => simp [place] at this; omega
          | _ => cases h6
        refine ⟨?_, ?_⟩
        · show (s.q.goto u _).loc t = _
          rw [loc_goto, upd_ne _ _ hut]; exact h1
        · show (s.q.goto u _).loc k ≠ _
          rw [loc_goto, upd_ne _ _ huk]; exact h2
      · exact ⟨h1, h2⟩
      · exact ⟨h1, h2⟩
      · exact stp h6
      · exact ⟨h1, h2⟩
      · exact stp h6
  exact key.2

/-- an ordinary step -/
theorem move_step {n t : Nat} {s : State} {q' : WorkQueue.State} (hd : s.dead = false) (hf : s.failed t = false)
    (h : stepAt n s.q t 0 (s.q.loc t) = some (q', none)) : (sys n).move t 1 s = some ({ s with q := q' }, none) := by
  simp only [sys, hd, hf, Bool.or_self, Bool.false_eq_true, if_false, State.step, h]

/-- the joins of a call that is alone and holds the lock -/
theorem join_all (n t : Nat) (d : Nat) : ∀ (k : Nat) (s : State), k + d = n → s.dead = false → s.failed t = false →
    s.q.loc t = .cJoin k true → (∀ j, j < n → s.q.loc j = .exited) → (∀ j, j < k → s.q.joined j = true) → n ≤ t →
    ∃ s', (sys n).run s (go t (d + 1)) = some (s', []) ∧ s'.q.loc = upd s.q.loc t .cOut ∧ (∀ j, j < n → s'.q.joined j = true) ∧
      s'.dead = false ∧ s'.failed = s.failed ∧ s'.dtor = s.dtor ∧ s'.q.halt = s.q.halt := by
  induction d with
  | zero =>
    intro k s hk hd hf hl hx hj ht
    have e1 : stepAt n s.q t 0 (s.q.loc t) = some (s.q.goto t .cOut, none) := by
      rw [hl]; simp [stepAt, show k = n by omega]
    exact ⟨_, run_move (move_step hd hf e1) rfl, rfl, fun j hj' => hj j (by omega), hd, rfl, rfl, rfl⟩
  | succ d ih =>
    intro k s hk hd hf hl hx hj ht
    have hkn : k ≠ n := by omega
    have : ∃ q', stepAt n s.q t 0 (s.q.loc t) = some (q', none) ∧ q'.loc = upd s.q.loc t (.cJoin (k + 1) true) ∧
        (∀ j, j < k + 1 → q'.joined j = true) ∧ q'.halt = s.q.halt := by
      cases hjk : s.q.joined k with
      | true =>
        refine ⟨s.q.goto t (.cJoin (k + 1) true), by rw [hl]; simp [stepAt, hkn, hjk], rfl, fun j h => ?_, rfl⟩
        show s.q.joined j = true
        by_cases e : j = k
        · subst e; exact hjk
        · exact hj j (by omega)
      | false =>
        refine ⟨{ s.q with joined := upd s.q.joined k true }.goto t (.cJoin (k + 1) true), by
          rw [hl]; simp [stepAt, hkn, hjk, hx k (by omega)], rfl, fun j h => ?_, rfl⟩
        show upd s.q.joined k true j = true
        by_cases e : j = k
        · subst e; exact upd_same _ _ _
        · rw [upd_ne _ _ e]; exact hj j (by omega)
    obtain ⟨q', e1, e2, e3, e4⟩ := this
    obtain ⟨s', f1, f2, f3, f4, f5, f6, f7⟩ := ih (k + 1) { s with q := q' } (by omega) hd hf (by show q'.loc t = _; rw [e2, upd_same])
      (fun j hj' => by show q'.loc j = _; rw [e2, upd_ne _ _ (by omega)]; exact hx j hj') e3 ht
    refine ⟨s', run_move (move_step hd hf e1) f1, ?_, f3, f4, f5, f6, f7.trans e4⟩
    rw [f2, e2]
    funext u
    simp only [upd]
    split <;> rfl

/-- C116: once all workers have exited, a further call of closeWorkerQueue, while no other thread holds the lock, joins them and returns, and
then the queue can be destroyed. -/
theorem second_close_succeeds_partial (n : Nat) (s : State) (hs : (sys n).Reachable s) (hd : s.dead = false) (hh : s.q.halt = true)
    (hx : ∀ k, k < n → s.q.loc k = .exited) (ho : s.q.owner = none) (t : Nat) (ht : s.q.loc t = .idle) :
    ∃ s', (sys n).run s (begin t .close (n + 5) ++ begin t .destroy 2) =
        some (s', [.call t .close, .ret t (.ret .unit), .call t .destroy, .ret t (.ret .unit)]) ∧
      s'.dead = false ∧ ∀ k, k < n → s'.q.joined k = true := by
  have hnt : n ≤ t := by
    have := (inv_reachable (reachable hs)).place t
    rw [ht] at this; exact this
  have hf : s.failed t = false := by
    obtain ⟨as, h, e⟩ := hs
    cases hf : s.failed t with
    | false => rfl
    | true => have := failed_at as e t hf; rw [ht] at this; cases this
  let s1 : State := { s with q := s.q.goto t .cLock, dtor := upd s.dtor t false }
  let s2 : State := { s1 with q := { s1.q with owner := some t }.goto t .cTest }
  let s3 : State := { s2 with q := s2.q.goto t (.cJoin 0 true) }
  have e1 : (sys n).call t .close s = some s1 := by simp [sys, hd, hf, State.call, ht, s1, start]
  have e2 : (sys n).move t 1 s1 = some (s2, none) := by
    refine move_step hd hf ?_
    have : s1.q.loc t = .cLock := upd_same _ _ _
    rw [this]
    have : s1.q.owner = none := ho
    simp [stepAt, State.lock, this]
  have e3 : (sys n).move t 1 s2 = some (s3, none) := by
    refine move_step hd hf ?_
    have : s2.q.loc t = .cTest := upd_same _ _ _
    rw [this]
    have : s2.q.halt = true := hh
    simp [stepAt, this]
  have l3 : ∀ j, j < n → s3.q.loc j = .exited := by
    intro j hj
    have hne : j ≠ t := by omega
    simp only [s3, s2, s1, goto, upd_ne _ _ hne]; exact hx j hj
  obtain ⟨s4, e4, f2, f3, f4, f5, f6, f7⟩ := join_all n t n 0 s3 (by omega) hd hf (upd_same _ _ _) l3 (fun j hj => by omega) hnt
  let s5 : State := { s4 with q := s4.q.unlock t (.ret .unit) }
  have hf4 : s4.failed t = false := by rw [f5]; exact hf
  have hl4 : s4.q.loc t = .cOut := by rw [f2, upd_same]
  have e5 : (sys n).move t 1 s4 = some (s5, none) := by
    refine move_step f4 hf4 ?_
    rw [hl4]; rfl
  let s6 : State := { s5 with q := s5.q.goto t .idle, dtor := upd s5.dtor t false }
  have hab : ∀ q, s4.abandons n q = false := by
    intro q
    simp only [State.abandons]
    have : ((List.range n).any fun k => !s4.q.joined k) = false := by
      rw [List.any_eq_false]
      intro k hk
      simp [f3 k (List.mem_range.1 hk)]
    rw [this]; simp
  have e6 : (sys n).move t 1 s5 = some (s6, some (.ret .unit)) := by
    have h1 : s5.q.loc t = .ret .unit := upd_same _ _ _
    have h2 : s5.dead = false := f4
    have h3 : s5.failed t = false := hf4
    have h4 : s5.abandons n t = false := hab t
    simp only [sys, h2, h3, Bool.or_self, Bool.false_eq_true, if_false, State.step, h1, stepAt, h4, s6]
  let s7 : State := { s6 with q := s6.q.goto t .dTest, dtor := upd s6.dtor t true }
  have e7 : (sys n).call t .destroy s6 = some s7 := by
    have h1 : s6.q.loc t = .idle := upd_same _ _ _
    have h2 : s6.dead = false := f4
    have h3 : s6.failed t = false := hf4
    simp [sys, h2, h3, State.call, h1, s7, start]
  let s8 : State := { s7 with q := s7.q.goto t (.ret .unit) }
  have e8 : (sys n).move t 1 s7 = some (s8, none) := by
    refine move_step f4 hf4 ?_
    have : s7.q.loc t = .dTest := upd_same _ _ _
    rw [this]
    have : s7.q.halt = true := by show s4.q.halt = true; rw [f7]; exact hh
    simp [stepAt, this]
  let s9 : State := { s8 with q := s8.q.goto t .idle, dtor := upd s8.dtor t false }
  have e9 : (sys n).move t 1 s8 = some (s9, some (.ret .unit)) := by
    have h1 : s8.q.loc t = .ret .unit := upd_same _ _ _
    have h2 : s8.dead = false := f4
    have h3 : s8.failed t = false := hf4
    have h4 : s8.abandons n t = false := by
      have := hab t
      simp only [State.abandons, Bool.and_eq_false_iff] at this ⊢
      refine .inr ?_
      rw [List.any_eq_false]
      intro k hk
      show ¬ (!s4.q.joined k) = true
      simp [f3 k (List.mem_range.1 hk)]
    simp only [sys, h2, h3, Bool.or_self, Bool.false_eq_true, if_false, State.step, h1, stepAt, h4, s9]
  refine ⟨s9, ?_, f4, f3⟩
  have hgo : begin t .close (n + 5) = .call t .close :: .move t 1 :: .move t 1 :: (go t (n + 1) ++ [.move t 1, .move t 1]) := by
    simp only [begin, go]
    have : List.replicate ((n + 1) + 2) (Act.move (Op := Op) t 1) = List.replicate (n + 1) (.move t 1) ++ List.replicate 2 (.move t 1) :=
      List.replicate_append_replicate.symm
    rw [show n + 5 = ((n + 1) + 2) + 1 + 1 by omega, List.replicate_succ, List.replicate_succ, this]
    rfl
  rw [hgo]
  have r1 := Sys.run_append (M := sys n) (go t (n + 1)) e4 (run_move e5 (run_move (as := []) e6 rfl))
  have r2 := run_call e1 (run_move e2 (run_move e3 r1))
  exact Sys.run_append (M := sys n) _ r2 (run_call e7 (run_move e8 (run_move (as := []) e9 rfl)))

/-- closeWorkerQueue has thrown where it makes its block; the worker is then told of it by a timeout and exits; client 3 closes again and
destroys the queue. -/
example : ∃ as s h, (sys 1).run (sys 1).init as = some (s, h) ∧ .ret 2 .threw ∈ h ∧ s.failed 2 = true ∧ s.dead = false ∧ closings h = 1 ∧
    s.q.halt = true ∧ (∀ k, k < 1 → s.q.loc k = .exited) ∧ s.q.owner = none ∧ s.q.loc 3 = .idle := by
  refine ⟨go 0 6 ++ begin 2 .close 4 ++ oom 2 ++ go 0 4, _, _, rfl, by simp, rfl, rfl, rfl, rfl, ?_, rfl, rfl⟩
  intro k hk
  match k with
  | 0 => rfl
  | k + 1 => omega

/-- C116 fails: closeWorkerQueue has thrown while a worker was waiting, another client calls it, and both that call and the worker
wait for ever, whatever else happens. -/
theorem second_close_violation : ∃ as s h, (sys 1).run (sys 1).init as = some (s, h) ∧ .ret 2 .threw ∈ h ∧ s.failed 2 = true ∧
    .call 3 .close ∈ h ∧ (∀ o, .ret 3 o ∉ h) ∧
    ∀ bs s' h', (sys 1).run s bs = some (s', h') → s'.q.loc 3 ≠ .idle ∧ s'.q.loc 0 ≠ .exited := by
  refine ⟨go 0 6 ++ begin 2 .close 4 ++ oom 2 ++ begin 3 .close 2, _, _, rfl, by simp, rfl, by simp, by intro o; simp, ?_⟩
  intro bs s' h' e
  obtain ⟨h1, h2⟩ := second_close_waits 1 _ ⟨go 0 6 ++ begin 2 .close 4 ++ oom 2 ++ begin 3 .close 2, _, rfl⟩ 3 0 rfl (by omega)
    (by intro h; cases h) bs s' h' e
  exact ⟨by rw [h1]; simp, h2⟩

/-- C116 fails: after closeWorkerQueue has thrown, the worker has exited, and destroying the queue ends the program. -/
theorem destroy_violation : ∃ as s h, (sys 1).run (sys 1).init as = some (s, h) ∧ .ret 2 .threw ∈ h ∧ s.q.loc 0 = .exited ∧
    .call 3 .destroy ∈ h ∧ s.dead = true :=
  ⟨go 0 6 ++ begin 2 .close 4 ++ oom 2 ++ go 0 4 ++ begin 3 .destroy 2, _, _, rfl, by simp, rfl, by simp, rfl⟩

/-- C116 fails: the destructor itself meets a failing allocation. -/
theorem destroy_oom_violation : ∃ as s h, (sys 1).run (sys 1).init as = some (s, h) ∧ (∀ t, .call t .close ∉ h) ∧ s.dead = true :=
  ⟨begin 2 .destroy 5 ++ oom 2, _, _, rfl, by intro t; simp, rfl⟩

/-! ### C117 the constructor -/

theorem startThreads_eq (fails : Nat → Bool) (k : Nat) : ∀ kk, (startThreads fails kk k = .ok (kk + k) ∧ ∀ j, kk ≤ j → j < kk + k → fails j = false) ∨
    ∃ j, kk ≤ j ∧ j < kk + k ∧ fails j = true ∧ (∀ i, kk ≤ i → i < j → fails i = false) ∧
      startThreads fails kk k = if 0 < j then .terminated else .threw := by
  induction k with
  | zero => intro kk; exact .inl ⟨rfl, fun j h1 h2 => by omega⟩
  | succ k ih =>
    intro kk
    cases hf : fails kk with
    | true => exact .inr ⟨kk, Nat.le_refl _, by omega, hf, fun i h1 h2 => by omega, by simp [startThreads, hf]⟩
    | false =>
      have hs : startThreads fails kk (k + 1) = startThreads fails (kk + 1) k := by simp [startThreads, hf]
      rw [hs]
      rcases ih (kk + 1) with ⟨h1, h2⟩ | ⟨j, h1, h2, h3, h4, h5⟩
      · refine .inl ⟨by rw [h1]; congr 1; omega, fun j hj hj' => ?_⟩
        by_cases e : j = kk
        · rw [e]; exact hf
        · exact h2 j (by omega) (by omega)
      · refine .inr ⟨j, by omega, by omega, h3, fun i hi hi' => ?_, h5⟩
        by_cases e : i = kk
        · rw [e]; exact hf
        · exact h4 i (by omega) hi'

/-- C117: the constructor yields a queue with `n` workers exactly if there is memory and all threads can be started. -/
theorem construct_ok (memory : Bool) (fails : Nat → Bool) (n m : Nat) :
    construct memory fails n = .ok m ↔ m = n ∧ (n = 0 ∨ memory = true ∧ ∀ j, j < n → fails j = false) := by
  unfold construct
  by_cases hn : n = 0
  · subst hn
    simp only [ne_eq, not_true_eq_false, if_false, Built.ok.injEq, true_or, and_true]
    exact eq_comm
  · rw [if_pos hn]
    cases memory with
    | false => simp [hn]
    | true =>
      simp only [if_true, hn, false_or, true_and]
      rcases startThreads_eq fails n 0 with ⟨h1, h2⟩ | ⟨j, h1, h2, h3, h4, h5⟩
      · rw [h1]
        simp only [Nat.zero_add, Built.ok.injEq]
        exact ⟨fun h => ⟨h.symm, fun j hj => h2 j (by omega) (by omega)⟩, fun h => h.1.symm⟩
      · rw [h5]
        constructor
        · intro h; split at h <;> cases h
        · rintro ⟨_, h⟩
          rw [h j (by omega)] at h3; cases h3

/-- C117, partial: the full statement is that a constructor that fails throws.  It does exactly if there is no memory or the first thread
cannot be started; see `construct_terminates`. -/
theorem construct_throws_partial (memory : Bool) (fails : Nat → Bool) (n : Nat) :
    construct memory fails n = .threw ↔ 0 < n ∧ (memory = false ∨ fails 0 = true) := by
  unfold construct
  by_cases hn : n = 0
  · subst hn; simp
  · rw [if_pos hn]
    cases memory with
    | false => simp; omega
    | true =>
      simp only [if_true, Bool.true_eq_false, false_or]
      rcases startThreads_eq fails n 0 with ⟨h1, h2⟩ | ⟨j, h1, h2, h3, h4, h5⟩
      · rw [h1]
        constructor
        · intro h; cases h
        · rintro ⟨_, h⟩
          rw [h2 0 (by omega) (by omega)] at h; cases h
      · rw [h5]
        by_cases hj : 0 < j
        · rw [if_pos hj]
          constructor
          · intro h; cases h
          · rintro ⟨_, h⟩
            rw [h4 0 (by omega) hj] at h; cases h
        · rw [if_neg hj]
          have : j = 0 := by omega
          subst this
          exact ⟨fun _ => ⟨by omega, h3⟩, fun _ => rfl⟩

/-- C117 fails: if the first thread can be started and a later one cannot, the constructor ends the program, and only then. -/
theorem construct_terminates (memory : Bool) (fails : Nat → Bool) (n : Nat) :
    construct memory fails n = .terminated ↔ memory = true ∧ fails 0 = false ∧ ∃ j, j < n ∧ fails j = true := by
  unfold construct
  by_cases hn : n = 0
  · subst hn; simp
  · rw [if_pos hn]
    cases memory with
    | false => simp
    | true =>
      simp only [if_true, true_and]
      rcases startThreads_eq fails n 0 with ⟨h1, h2⟩ | ⟨j, h1, h2, h3, h4, h5⟩
      · rw [h1]
        constructor
        · intro h; cases h
        · rintro ⟨_, j, hj, h⟩
          rw [h2 j (by omega) (by omega)] at h; cases h
      · rw [h5]
        by_cases hj : 0 < j
        · rw [if_pos hj]
          exact ⟨fun _ => ⟨h4 0 (by omega) hj, j, by omega, h3⟩, fun _ => rfl⟩
        · rw [if_neg hj]
          have : j = 0 := by omega
          subst this
          constructor
          · intro h; cases h
          · rintro ⟨h, _⟩
            rw [h3] at h; cases h

/-- three of four threads can be started -/
theorem construct_violation : construct true (fun k => k = 3) 4 = .terminated ∧ construct true (fun k => k = 4) 4 = .ok 4 ∧
    construct true (fun k => k = 0) 4 = .threw := by decide

end Verif.WorkQueue.Throw
