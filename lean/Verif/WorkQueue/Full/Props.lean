import Verif.SimpleQueue.Props
import Verif.WorkQueue.PropsClose
import Verif.WorkQueue.Full.Run

/-
The properties C63, C64, C66 and C73 of WorkQueue together with the code of its queues.  `n` is the number of workers.
-/
namespace Verif.WorkQueue.Full
open Verif.Conc

/-- no thread can go on, except by the timeout of a waiting worker -/
def stuck (n : Nat) (f : State) : Prop := ∀ t c, f.w.loc t ≠ .wSleep → (sys n).move t c f = none

/-- Every execution of the work queue with the code of its queues has the same history as an execution in which the queues act in
one step, with the same runs of the blocks' functions. -/
theorem refines (n : Nat) (as : List (Act Op)) (f : State) (h : List (Event Op Out)) (e : (sys n).run (sys n).init as = some (f, h)) :
    ∃ bs s, (WorkQueue.sys n).run (WorkQueue.sys n).init bs = some (s, h) ∧ s.runs = f.w.runs ∧ s.fin = f.w.fin ∧ s.halt = f.w.halt := by
  obtain ⟨bs, s, g, _, e1, k, _⟩ := related_run (P := fun _ => True) as (related_init n _) (fun _ _ => trivial) e
  obtain ⟨f1, f2, f3, f4, f5, f6, f7⟩ := k.rel.fields
  exact ⟨bs, s, e1, f7, f6, f3⟩

/-- the queues of the work queue have the properties of SimpleQueue -/
theorem queues_ok (n : Nat) (f : State) (h : (sys n).Reachable f) (x : Que) : (SimpleQueue.sys (Option Blk)).Reachable (f.q x) :=
  queues_reachable f h x

/-! ### C63 -/

/-- C63: as `WorkQueue.at_most_once`. -/
theorem at_most_once (n : Nat) (as : List (Act Op)) (f : State) (h : List (Event Op Out))
    (e : (sys n).run (sys n).init as = some (f, h)) (i : Nat) :
    f.w.runs i + handed i h ≤ adds i h ∧
    (adds i h ≤ 1 → ∀ t, fetched i (f.w.loc t) = true →
      (∀ u, fetched i (f.w.loc u) = true → u = t) ∧ f.w.runs i = 0 ∧ handed i h = 0) := by
  obtain ⟨bs, s, g, _, e1, k, _⟩ := related_run (P := fun _ => True) as (related_init n _) (fun _ _ => trivial) e
  obtain ⟨h1, h2⟩ := WorkQueue.at_most_once n bs s h e1 i
  have hr := k.rel.fields.2.2.2.2.2.2
  have hf : ∀ u, fetched i (f.w.loc u) = true → fetched i (s.loc u) = true := by
    intro u hu
    have h3 := k.rel.at_ u
    have : queueOp (f.w.loc u) = none := by
      generalize f.w.loc u = l at hu
      cases l <;> first | rfl | cases hu
    rw [(h3.local this).2]; exact hu
  rw [hr] at h1 h2
  refine ⟨h1, fun ha t ht => ?_⟩
  obtain ⟨h3, h4, h5, h6⟩ := h2 ha t (hf t ht)
  exact ⟨fun u hu => h3 u (hf u hu), h5, h6⟩

/-- C63: as `WorkQueue.exactly_once`, when no call of a queue's member function is in progress. -/
theorem exactly_once (n : Nat) (hn : 0 < n) (as : List (Act Op)) (f : State) (h : List (Event Op Out))
    (e : (sys n).run (sys n).init as = some (f, h)) (hc : notClosed h) (i : Nat) (ha : adds i h = 1) (hh : handed i h = 0)
    (hq : ∀ x, (f.q x).push = [] ∧ (f.q x).pull = []) (hi : ∀ x t, (f.q x).loc t = .idle) (hcl : ∀ t, n ≤ t → f.w.loc t = .idle)
    (hw : ∀ t, t < n → busy (f.w.loc t) = false) : f.w.runs i = 1 ∧ f.w.fin i = true := by
  obtain ⟨bs, s, g, _, e1, k, _⟩ := related_run (P := fun _ => True) as (related_init n _) (fun _ _ => trivial) e
  obtain ⟨f1, f2, f3, f4, f5, f6, f7⟩ := k.rel.fields
  have hl : ∀ t, s.loc t = f.w.loc t := by
    intro t
    have h3 := k.rel.at_ t
    have hid : ∀ x, (g x).st t = .idle := fun x => idle_status (k.queues x) (hi x t)
    unfold At at h3
    split at h3
    · exact h3.2
    · rename_i x op _
      rcases h3.2 with ⟨_, h⟩ | ⟨_, h⟩ | ⟨o, h, _⟩
      · exact h
      · exact h
      · simp only [hid x] at h; cases h
  have hs : ∀ x, (s.que x).1 = [] := by
    intro x
    rw [k.rel.que x, (k.queues x).contents (hi x), (hq x).1, (hq x).2]; rfl
  have := WorkQueue.exactly_once n hn bs s h e1 hc i ha hh ⟨hs .high, hs .med, hs .low⟩
    (fun t ht => by rw [hl]; exact hcl t ht) (fun t ht => by rw [hl]; exact hw t ht)
  rw [f6, f7] at this
  exact this

/-! ### C64 -/

/-- C64: as `WorkQueue.alone_history`: one client, the workers being idle. -/
theorem alone_history (n : Nat) (hn : 0 < n) (t : Nat) (ht : n ≤ t) (as : List (Act Op)) (hb : ∀ a ∈ as, byThread t a)
    (f : State) (h : List (Event Op Out)) (e : (sys n).run (sys n).init as = some (f, h)) (hi : f.w.loc t = .idle)
    (es : List Ev) (hc : called h = es.map Ev.op) :
    returned h = (Queues.new.run es).2.map fun r => r.bind (·.2) := by
  obtain ⟨bs, s, g, hb', e1, k, _⟩ := related_run (P := fun u => u = t) as (related_init n _)
    (fun a ha => by have := hb a ha; cases a <;> exact this) e
  have hl : s.loc t = .idle := by
    have h3 := k.rel.at_ t
    rw [hi] at h3
    exact (h3.local rfl).2
  exact (WorkQueue.alone_history n hn t ht bs (fun a ha => by have := hb' a ha; cases a <;> exact this) s h e1 hl es hc).2

/-! ### C66 -/

/-- nobody is inside a queue when nobody can go on -/
theorem stuck_local {n : Nat} {f : State} {g : Que → G} {s : WorkQueue.State} (hr : (sys n).Reachable f) (k : Related n (fun _ => True) f g s)
    (hs : stuck n f) (t : Nat) : queueOp (f.w.loc t) = none := by
  cases hq : queueOp (f.w.loc t) with
  | none => rfl
  | some p =>
    exfalso
    obtain ⟨x, op⟩ := p
    have ns : ∀ {u : Nat} {p}, queueOp (f.w.loc u) = some p → f.w.loc u ≠ .wSleep := by
      intro u p h h'; rw [h'] at h; cases h
    by_cases hi : (f.q x).loc t = .idle
    · have := hs t 0 (ns hq)
      simp only [sys, State.step, hq, if_pos hi, SimpleQueue.sys, SimpleQueue.State.call, hi] at this
      cases this
    · obtain ⟨u, r, hu, hm⟩ := SimpleQueue.no_deadlock (f.q x) (queues_reachable f hr x) t hi
      have hst : (g x).st u ≠ .idle := fun h => hu (status_idle (k.queues x) h)
      have hat := k.rel.at_ u
      have hqu : ∃ op, queueOp (f.w.loc u) = some (x, op) := by
        unfold At at hat
        split at hat
        · exact absurd (hat.1 x) hst
        · rename_i y op' hy
          by_cases e : x = y
          · subst e; exact ⟨op', hy⟩
          · exact absurd (hat.1 x e) hst
      obtain ⟨op', hqu⟩ := hqu
      have := hs u 0 (ns hqu)
      simp only [sys, State.step, hqu, if_neg hu, hm, Option.map_some] at this
      cases this

theorem stuck_stuck {n : Nat} {f : State} {g : Que → G} {s : WorkQueue.State} (hr : (sys n).Reachable f) (k : Related n (fun _ => True) f g s)
    (hs : stuck n f) : WorkQueue.stuck n s ∧ s.loc = f.w.loc := by
  have hl := stuck_local hr k hs
  have he : ∀ t, s.loc t = f.w.loc t := fun t => ((k.rel.at_ t).local (hl t)).2
  refine ⟨fun t c hw => ?_, funext he⟩
  cases hm : (WorkQueue.sys n).move t c s with
  | none => rfl
  | some r =>
    exfalso
    -- the relation the other way round
    have r' : Rel n s (fun x => ⟨f.w.que x, fun _ => .idle⟩) f.w := by
      refine ⟨k.rel.rest.symm, fun _ => rfl, fun u => ?_⟩
      rw [he u]; exact At.new fun _ => rfl
    obtain ⟨w', h, _⟩ := r'.local (t := t) (c := c) (by rw [he t]; exact hl t) (w' := r.1) (o := r.2) hm
    have := hs t c (by rw [← he t]; exact hw)
    simp only [sys, State.step, hl t, h, Option.map_some] at this
    cases this

/-- C66, partial as `WorkQueue.close_terminates_partial`. -/
theorem close_terminates_partial (n : Nat) (as : List (Act Op)) (f : State) (h : List (Event Op Out))
    (e : (sys n).run (sys n).init as = some (f, h)) (hx : closedInTurn h) (hh : f.w.halt = true) :
    ∃ bound, ∀ bs f' h', onlyMoves bs → (sys n).run f bs = some (f', h') → bs.length ≤ bound ∧
      (stuck n f' → (∀ t, t < n → f'.w.loc t = .exited) ∧ ∀ t, n ≤ t → f'.w.loc t = .idle ∨ (n = 0 ∧ f'.w.loc t = .crash)) := by
  obtain ⟨cs, s, g, _, e1, k, _⟩ := related_run (P := fun _ => True) as (related_init n _) (fun _ _ => trivial) e
  have hhs : s.halt = true := by rw [k.rel.fields.2.2.1]; exact hh
  obtain ⟨bound, hbd⟩ := WorkQueue.close_terminates_partial n cs s h e1 hx hhs
  obtain ⟨ts, h1, h2⟩ := (inv_reachable (n := n) ⟨cs, h, e1⟩).finite
  refine ⟨21 * bound + (ts.map fun u => f.pot g u).sum, fun bs f' h' ho e' => ?_⟩
  obtain ⟨ds, s', g', _, e2, k', hm⟩ := related_run bs k (fun _ _ => trivial) e'
  obtain ⟨ho', hp⟩ := hm ho
  obtain ⟨hb1, hb2⟩ := hbd ds s' h' ho' e2
  refine ⟨?_, fun hst => ?_⟩
  · have hw := moves_busy (n := n) (ts := ts) bs (f := f) (fun u hu => by have := k.rel.at_ u; rw [h2 u hu] at this; exact this.idle) ho e'
    have h3 := length_le_sum bs ho hw
    have h4 := sum_le_length h1 ds
    have h5 : (ts.map fun u => moves u bs).sum ≤ 21 * (ts.map fun u => moves u ds).sum + (ts.map fun u => f.pot g u).sum := by
      clear h3 h4 h1 h2 hw
      induction ts with
      | nil => simp
      | cons v ts ih => simp only [List.map_cons, List.sum_cons]; have := hp v; omega
    omega
  · have hr : (sys n).Reachable f' := ⟨as ++ bs, h ++ h', Sys.run_append as e e'⟩
    obtain ⟨h3, h4⟩ := stuck_stuck hr k' hst
    rw [← h4]
    exact hb2 h3

/-- C66: as `WorkQueue.close_bounded`. -/
theorem close_bounded (n : Nat) (f : State) (hf : (sys n).Reachable f) (hh : f.w.halt = true) :
    ∃ bound, ∀ bs f' h', onlyMoves bs → (sys n).run f bs = some (f', h') → bs.length ≤ bound := by
  obtain ⟨as, h, e⟩ := hf
  obtain ⟨cs, s, g, _, e1, k, _⟩ := related_run (P := fun _ => True) as (related_init n _) (fun _ _ => trivial) e
  have hhs : s.halt = true := by rw [k.rel.fields.2.2.1]; exact hh
  obtain ⟨bound, hbd⟩ := WorkQueue.close_bounded n s ⟨cs, h, e1⟩ hhs
  obtain ⟨ts, h1, h2⟩ := (inv_reachable (n := n) ⟨cs, h, e1⟩).finite
  refine ⟨21 * bound + (ts.map fun u => f.pot g u).sum, fun bs f' h' ho e' => ?_⟩
  obtain ⟨ds, s', g', _, e2, k', hm⟩ := related_run bs k (fun _ _ => trivial) e'
  obtain ⟨ho', hp⟩ := hm ho
  have hb1 := hbd ds s' h' ho' e2
  have hw := moves_busy (n := n) (ts := ts) bs (f := f) (fun u hu => by have := k.rel.at_ u; rw [h2 u hu] at this; exact this.idle) ho e'
  have h3 := length_le_sum bs ho hw
  have h4 := sum_le_length h1 ds
  have h5 : (ts.map fun u => moves u bs).sum ≤ 21 * (ts.map fun u => moves u ds).sum + (ts.map fun u => f.pot g u).sum := by
    clear h3 h4 h1 h2 hw
    induction ts with
    | nil => simp
    | cons v ts ih => simp only [List.map_cons, List.sum_cons]; have := hp v; omega
  omega

/-- C66, partial as `WorkQueue.closed_exited_partial`. -/
theorem closed_exited_partial (n x : Nat) (as : List (Act Op)) (f : State) (h : List (Event Op Out))
    (e : (sys n).run (sys n).init as = some (f, h)) (hx : closedInTurn h) (op : Op) (hop : op.closes = true) (hm : .call x op ∈ h)
    (hr : f.w.loc x = .idle) : f.w.halt = true ∧ ∀ t, t < n → f.w.loc t = .exited := by
  obtain ⟨cs, s, g, _, e1, k, _⟩ := related_run (P := fun _ => True) as (related_init n _) (fun _ _ => trivial) e
  have hl : s.loc x = .idle := by
    have h3 := k.rel.at_ x
    rw [hr] at h3
    exact (h3.local rfl).2
  obtain ⟨h1, h2⟩ := WorkQueue.closed_exited_partial n x cs s h e1 hx op hop hm hl
  refine ⟨by rw [← k.rel.fields.2.2.1]; exact h1, fun t ht => ((k.rel.at_ t).same (.inr rfl)).2 (h2 t ht)⟩

/-- C73: as `WorkQueue.closed_exited`. -/
theorem closed_exited (n x : Nat) (as : List (Act Op)) (f : State) (h : List (Event Op Out))
    (e : (sys n).run (sys n).init as = some (f, h)) (hm : .call x .close ∈ h) (hr : f.w.loc x = .idle) :
    f.w.halt = true ∧ ∀ t, t < n → f.w.loc t = .exited := by
  obtain ⟨cs, s, g, _, e1, k, _⟩ := related_run (P := fun _ => True) as (related_init n _) (fun _ _ => trivial) e
  have hl : s.loc x = .idle := by
    have h3 := k.rel.at_ x
    rw [hr] at h3
    exact (h3.local rfl).2
  obtain ⟨h1, h2⟩ := WorkQueue.closed_exited n x cs s h e1 hm hl
  refine ⟨by rw [← k.rel.fields.2.2.1]; exact h1, fun t ht => ((k.rel.at_ t).same (.inr rfl)).2 (h2 t ht)⟩

/-- C73: as `WorkQueue.closed_silent`. -/
theorem closed_silent (n x : Nat) (hn : 0 < n) (as : List (Act Op)) (f : State) (h : List (Event Op Out))
    (e : (sys n).run (sys n).init as = some (f, h)) (hm : .call x .close ∈ h)
    (hr : f.w.loc x = .idle) (bs : List (Act Op)) (f' : State) (h' : List (Event Op Out)) (e' : (sys n).run f bs = some (f', h')) :
    f'.w.runs = f.w.runs := by
  obtain ⟨cs, s, g, _, e1, k, _⟩ := related_run (P := fun _ => True) as (related_init n _) (fun _ _ => trivial) e
  have hl : s.loc x = .idle := by
    have h3 := k.rel.at_ x
    rw [hr] at h3
    exact (h3.local rfl).2
  obtain ⟨ds, s', g', _, e2, k', _⟩ := related_run bs k (fun _ _ => trivial) e'
  have := WorkQueue.closed_silent n x hn cs s h e1 hm hl ds s' h' e2
  rw [k.rel.fields.2.2.2.2.2.2, k'.rel.fields.2.2.2.2.2.2] at this
  exact this

/-- C73, partial as `WorkQueue.closed_silent_partial`. -/
theorem closed_silent_partial (n x : Nat) (hn : 0 < n) (as : List (Act Op)) (f : State) (h : List (Event Op Out))
    (e : (sys n).run (sys n).init as = some (f, h)) (hx : closedInTurn h) (op : Op) (hop : op.closes = true) (hm : .call x op ∈ h)
    (hr : f.w.loc x = .idle) (bs : List (Act Op)) (f' : State) (h' : List (Event Op Out)) (e' : (sys n).run f bs = some (f', h')) :
    f'.w.runs = f.w.runs := by
  obtain ⟨cs, s, g, _, e1, k, _⟩ := related_run (P := fun _ => True) as (related_init n _) (fun _ _ => trivial) e
  have hl : s.loc x = .idle := by
    have h3 := k.rel.at_ x
    rw [hr] at h3
    exact (h3.local rfl).2
  obtain ⟨ds, s', g', _, e2, k', _⟩ := related_run bs k (fun _ _ => trivial) e'
  have := WorkQueue.closed_silent_partial n x hn cs s h e1 hx op hop hm hl ds s' h' e2
  rw [k.rel.fields.2.2.2.2.2.2, k'.rel.fields.2.2.2.2.2.2] at this
  exact this

/-! ### Concrete executions -/

set_option maxRecDepth 4000

/-- A block submitted with low priority to a queue with one worker while the worker looks at the queues; the worker executes it and
waits again. -/
example : ∃ as f h, (sys 1).run (sys 1).init as = some (f, h) ∧ notClosed h ∧ adds 7 h = 1 ∧ handed 7 h = 0 ∧
    (∀ x, (f.q x).push = [] ∧ (f.q x).pull = []) ∧ (∀ x t, (f.q x).loc t = .idle) ∧ (∀ t, 1 ≤ t → f.w.loc t = .idle) ∧
    (∀ t, t < 1 → busy (f.w.loc t) = false) ∧ f.w.runs 7 = 1 := by
  refine ⟨begin 1 (.add (some (.task 7)) .low) 12 ++ go 0 4 ++ go 1 9 ++ go 0 56, _, _, rfl, ?_, rfl, rfl, ?_, ?_, ?_, ?_, rfl⟩
  · intro t; simp
  · intro x; cases x <;> exact ⟨rfl, rfl⟩
  · intro x t
    match t with
    | 0 => cases x <;> rfl
    | 1 => cases x <;> rfl
    | t + 2 => cases x <;> rfl
  · intro t ht
    match t with
    | 0 => omega
    | 1 => rfl
    | t + 2 => rfl
  · intro t ht
    match t with
    | 0 => rfl
    | t + 1 => omega

/-- Client 1 closes the queue while the worker executes block 7: the hypotheses of `close_terminates_partial` after the flag is set,
those of `closed_exited_partial` and `closed_silent_partial` at the end. -/
example : ∃ f h f' h', (sys 1).run (sys 1).init (begin 1 (.add (some (.task 7)) .low) 21 ++ go 0 46 ++ begin 1 .close 10) = some (f, h) ∧
    f.w.halt = true ∧ (sys 1).run f (go 1 45 ++ go 0 31 ++ go 1 3) = some (f', h') ∧ closedInTurn (h ++ h') ∧
    .call 1 .close ∈ h ++ h' ∧ f'.w.loc 1 = .idle ∧ f'.w.loc 0 = .exited ∧ f'.w.runs 7 = 1 := by
  refine ⟨_, _, _, _, rfl, rfl, rfl, ?_, ?_, rfl, rfl, rfl⟩
  · simp [closedInTurn, inTurn, closers, Op.closes, upd]
  · simp

/-- Client 1 submits block 7 with low and block 8 with high priority and fetches both, the worker not having begun. -/
example : ∃ f h, (sys 1).run (sys 1).init (begin 1 (.add (some (.task 7)) .low) 21 ++ begin 1 (.add (some (.task 8)) .high) 21 ++
      begin 1 .get 14 ++ begin 1 .get 36) = some (f, h) ∧ f.w.loc 1 = .idle ∧
    called h = [.add (some (.task 7)) .low, .add (some (.task 8)) .high, .get, .get] ∧
    returned h = [some (.task 8), some (.task 7)] :=
  ⟨_, _, rfl, rfl, rfl, rfl⟩

end Verif.WorkQueue.Full
