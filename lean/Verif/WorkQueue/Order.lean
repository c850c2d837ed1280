import Verif.WorkQueue.Once

/-
Lemmas on the order of fetches.
-/
namespace Verif.WorkQueue
open Verif.Conc State

variable {n t c i : Nat} {s s' : State} {o : Option Out} {l : Loc} {h : List (Event Op Out)}

/-! ### FIFO -/

/-- the effect of a step on one of the queues -/
theorem step_que (hm : stepAt n s t c l = some (s', o)) (q : Que) :
    (l ≠ .cClear q ∧ (if takes q l then (s.que q).1.head?.toList else []) ++ (s'.que q).1 = (s.que q).1 ++ appends q l) ∨
    (l = .cClear q ∧ (s'.que q).1 = []) := by
  have back : ∀ {s1 : State} {r}, (s1.back t r).que q = s1.que q := by
    intro s1 r; cases r <;> cases q <;> rfl
  have one : ∀ s1 : State, (notifyOne n c s1).que q = s1.que q := by
    intro s1
    rcases notifyOne_eq n c s1 with h | ⟨k, _, hk, h⟩ <;> rw [h] <;> cases q <;> rfl
  have goto : ∀ (s1 : State) l, (s1.goto t l).que q = s1.que q := by intro s1 l; cases q <;> rfl
  have pop : ∀ q', (s.popped q').que q = if q = q' then ((s.que q').1.tail, false) else s.que q := by
    intro q'
    rw [popped_eq]
    split
    · next e => subst e; rw [que_setQue]
    · next e => rw [que_setQue_ne _ _ e]
  have clr : ∀ q', (s.clear q').que q = if q = q' then ([], false) else s.que q := by
    intro q'
    rw [clear_eq]
    split
    · next e => subst e; rw [que_setQue]
    · next e => rw [que_setQue_ne _ _ e]
  have psh : ∀ q' b, (s.push q' b).que q = if q = q' then ((s.que q').1 ++ [b], false) else s.que q := by
    intro q' b
    rw [push_eq]
    split
    · next e => subst e; rw [que_setQue]
    · next e => rw [que_setQue_ne _ _ e]
  have pshv : ∀ q' bs, ((s.pushVector q' bs).que q).1 = if q = q' then (s.que q').1 ++ bs else (s.que q).1 := by
    intro q' bs
    rw [pushVector_eq]
    split
    · next e => subst e; rw [que_setQue]
    · next e => rw [que_setQue_ne _ _ e]
  have htl : ∀ x : List (Option Blk), x.head?.toList ++ x.tail = x := by intro x; cases x <;> rfl
  unfold stepAt at hm
  split at hm
  all_goals try (split at hm)
  all_goals try (split at hm)
  all_goals try (split at hm)
  all_goals try (simp only [State.lock] at hm; split at hm)
  all_goals (first | (cases hm; done) | skip)
  all_goals obtain ⟨rfl, rfl⟩ := Prod.mk.inj (Option.some.inj hm)
  all_goals (try (refine .inl ⟨(by simp), ?_⟩; simp [back, one, goto, takes, appends]; done))
  all_goals (try (refine .inl ⟨(by simp), ?_⟩; simp only [got, executed, unlock, goto, takes, appends]; cases q <;> simp [que, notifyAll]; done))
  all_goals (try (refine .inl ⟨(by simp), ?_⟩; simp only [got, goto, pop, takes, appends]; cases q <;> simp [htl]; done))
  all_goals (try (simp only [goto, clr]; cases q <;> simp [takes, appends]; done))
  · rename_i b p r k
    refine .inl ⟨by simp, ?_⟩
    simp only [goto, psh, takes, appends]
    by_cases e : q = ofPrio p
    · subst e; simp
    · have : ¬ ofPrio p = q := fun h => e h.symm
      simp [e, this]
  · rename_i bs p
    refine .inl ⟨by simp, ?_⟩
    simp only [goto, pshv, takes, appends]
    by_cases e : q = ofPrio p
    · subst e; simp
    · have : ¬ ofPrio p = q := fun h => e h.symm
      simp [e, this]

/-- a queue with its traffic -/
theorem traffic_run (q : Que) (as : List (Act Op)) : ∀ {s s' : State} {h : List (Event Op Out)}, (sys n).run s as = some (s', h) →
    ∃ gone, (s.que q).1 ++ (traffic n q s as).1 = gone ++ (s'.que q).1 ∧ (traffic n q s as).2.Sublist gone ∧
      ((∀ t, closing (s.loc t) = false) → notClosed h → (traffic n q s as).2 = gone) := by
  induction as with
  | nil => intro s s' h e; cases e; exact ⟨[], by simp [traffic], by simp [traffic], fun _ _ => rfl⟩
  | cons a as ih =>
    intro s s' h e
    simp only [Sys.run, Option.bind_eq_some_iff, Option.map_eq_some_iff] at e
    obtain ⟨⟨s1, h1⟩, e1, ⟨s2, h2⟩, e2, e3⟩ := e
    cases e3
    obtain ⟨gone, g1, g2, g3⟩ := ih e2
    simp only [traffic, e1]
    cases a with
    | call t op =>
      simp only [Sys.exec, Option.map_eq_some_iff] at e1
      obtain ⟨s3, e1, e3⟩ := e1
      cases e3
      obtain ⟨hid, rfl⟩ := call_eq e1
      refine ⟨gone, ?_, g2, fun hc hn => g3 ?_ ?_⟩
      · rw [← g1]; cases q <;> rfl
      · intro u
        rw [loc_goto]
        by_cases e : u = t
        · subst e; rw [upd_same]
          have := hn u
          cases op with
          | close => exact absurd (by simp) this.1
          | destroy => exact absurd (by simp) this.2
          | addVector bs p => simp only [start]; split <;> rfl
          | _ => rfl
        · rw [upd_ne _ _ e]; exact hc u
      · exact fun t => ⟨fun h1 => (hn t).1 (by simp [h1]), fun h1 => (hn t).2 (by simp [h1])⟩
    | move t c =>
      simp only [Sys.exec, Option.map_eq_some_iff] at e1
      obtain ⟨⟨s3, o⟩, e1, e3⟩ := e1
      cases e3
      have hcl : (∀ t, closing (s.loc t) = false) → ∀ t, closing (s3.loc t) = false := by
        intro hc u
        by_cases e : u = t
        · subst e; exact step_closing e1 (hc u)
        · obtain ⟨a, l', h1, h2⟩ := step_loc e1
          rw [h1, upd_ne _ _ e]
          rcases h2.all u with h3 | ⟨h3, h4⟩
          · rw [h3]; exact hc u
          · rw [h4]; rfl
      rcases step_que e1 q with ⟨_, h3⟩ | ⟨h3, h4⟩
      · refine ⟨(if takes q (s.loc t) = true then (s.que q).1.head?.toList else []) ++ gone, ?_, ?_, ?_⟩
        · rw [List.append_assoc, ← g1, ← List.append_assoc, ← List.append_assoc, h3]
        · exact List.Sublist.append (List.Sublist.refl _) g2
        · intro hc hn
          rw [g3 (hcl hc) (fun t => ⟨fun h1 => (hn t).1 (by simp [h1]), fun h1 => (hn t).2 (by simp [h1])⟩)]
      · refine ⟨(s.que q).1 ++ gone, ?_, ?_, ?_⟩
        · dsimp only
          rw [List.append_assoc, ← g1, h4, h3]; simp [appends]
        · dsimp only
          rw [h3]
          simp only [takes, Bool.false_eq_true, if_false, List.nil_append]
          exact g2.trans (List.sublist_append_right _ _)
        · intro hc
          have := hc t; rw [h3] at this; cases this

/-! ### A call by itself -/

/-- thread `t` alone leads from `s` to `s'`, with the events `h` -/
def Alone (n t : Nat) (s s' : State) (h : List (Event Op Out)) : Prop :=
  ∃ k, (sys n).run s (List.replicate k (.move t 0)) = some (s', h)

theorem Alone.refl (s : State) : Alone n t s s [] := ⟨0, rfl⟩

theorem Alone.step {s1 : State} (hm : stepAt n s t 0 (s.loc t) = some (s1, o)) (k : Alone n t s1 s' h) :
    Alone n t s s' (retEvents t o ++ h) := by
  obtain ⟨k, hk⟩ := k
  refine ⟨k + 1, ?_⟩
  have : (sys n).move t 0 s = some (s1, o) := hm
  cases o <;> simp [List.replicate_succ, Sys.run, Sys.exec, this, hk, retEvents]

theorem Alone.trans {s1 : State} {h1 h2 : List (Event Op Out)} (a : Alone n t s s1 h1) (b : Alone n t s1 s' h2) :
    Alone n t s s' (h1 ++ h2) := by
  obtain ⟨k, hk⟩ := a
  induction k generalizing s h1 with
  | zero => cases hk; simpa using b
  | succ k ih =>
    simp only [List.replicate_succ, Sys.run, Option.bind_eq_some_iff, Option.map_eq_some_iff, Sys.exec] at hk
    obtain ⟨⟨s2, h3⟩, ⟨⟨s3, o⟩, e1, e3⟩, ⟨s4, h4⟩, e2, e4⟩ := hk
    cases e3; cases e4
    have := Alone.step e1 (ih e2)
    cases o <;> simpa [retEvents] using this

/-- a silent step to a known position -/
theorem Alone.next {s1 : State} {l : Loc} (hl : s.loc t = l) (hm : stepAt n s t 0 l = some (s1, none)) (k : Alone n t s1 s' h) :
    Alone n t s s' h := by
  subst hl; simpa [retEvents] using Alone.step hm k

/-- the states agree but for the queues and thread `t` -/
structure Frame (t : Nat) (s s' : State) : Prop where
  halt : s'.halt = s.halt
  owner : s'.owner = s.owner
  joined : s'.joined = s.joined
  fin : s'.fin = s.fin
  runs : s'.runs = s.runs
  loc : ∀ u, u ≠ t → s'.loc u = s.loc u

theorem Frame.refl (t : Nat) (s : State) : Frame t s s := ⟨rfl, rfl, rfl, rfl, rfl, fun _ _ => rfl⟩

theorem Frame.trans {s1 : State} (a : Frame t s s1) (b : Frame t s1 s') : Frame t s s' :=
  ⟨b.halt.trans a.halt, b.owner.trans a.owner, b.joined.trans a.joined, b.fin.trans a.fin, b.runs.trans a.runs,
   fun u hu => (b.loc u hu).trans (a.loc u hu)⟩

theorem Frame.goto (f : Frame t s s') (l : Loc) : Frame t s (s'.goto t l) :=
  ⟨f.halt, f.owner, f.joined, f.fin, f.runs, fun u hu => by rw [loc_goto, upd_ne _ _ hu]; exact f.loc u hu⟩

theorem Frame.setQue (f : Frame t s s') (q : Que) (x) : Frame t s (s'.setQue q x) := by
  cases q <;> exact ⟨f.halt, f.owner, f.joined, f.fin, f.runs, f.loc⟩

theorem Frame.counter (f : Frame t s s') (k : Int) : Frame t s { s' with counter := k } :=
  ⟨f.halt, f.owner, f.joined, f.fin, f.runs, f.loc⟩

theorem low_goto (s : State) (t l) : (s.goto t l).low = s.low := rfl
theorem que_goto (s : State) (t l) (q : Que) : (s.goto t l).que q = s.que q := by cases q <;> rfl

/-- the end of getWorkBlock by itself: the low priority queue -/
theorem low_alone (hl : s.loc t = .gLow) :
    Alone n t s (got n (s.popped .low) t (s.low.1.head?.bind id)) [] := by
  have : stepAt n s t 0 .gLow = some (got n (s.popped .low) t (s.low.1.head?.bind id), none) := by
    simp only [stepAt, front_eq, que]; cases s.low.1.head? <;> rfl
  exact .next hl this (.refl _)

/-- getWorkBlock by itself, from the medium priority queue on -/
theorem med_alone (hl : s.loc t = .gMed) : ∃ s1, Frame t s s1 ∧
    s1.queues = (match s.med.1 with
      | _ :: ms => { s.queues with med := ms, counter := wrap (s.counter + 1) }
      | [] => { s.queues with low := s.low.1.tail }) ∧
    Alone n t s (got n s1 t (match s.med.1 with | m :: _ => m | [] => s.low.1.head?.bind id)) [] := by
  cases hm : s.med.1 with
  | cons m ms =>
    have h1 : stepAt n s t 0 .gMed = some ((s.popped .med).goto t (.gInc m), none) := by simp [stepAt, front_eq, que, hm]
    refine ⟨_, ?_, ?_, .next hl h1 (.next (l := .gInc m) (by rw [loc_goto, upd_same]) (by rw [stepAt]) (.refl _))⟩
    · exact ((Frame.refl t s).setQue _ _ |>.goto _).counter _
    · simp [queues, popped_eq, goto, setQue, que, hm]
  | nil =>
    have h1 : stepAt n s t 0 .gMed = some ((s.popped .med).goto t .gLow, none) := by simp [stepAt, front_eq, que, hm]
    refine ⟨_, ?_, ?_, .next hl h1 (low_alone (by rw [loc_goto, upd_same]))⟩
    · exact ((Frame.refl t s).setQue _ _ |>.goto _).setQue _ _
    · simp [queues, popped_eq, goto, setQue, que, hm]

/-- getWorkBlock by itself -/
theorem fetch_alone (hl : s.loc t = .gHigh) : ∃ s1, Frame t s s1 ∧ s1.queues = s.queues.fetch.1 ∧
    Alone n t s (got n s1 t (s.queues.fetch.2.bind (·.2))) [] := by
  cases hh : s.high.1 with
  | cons b bs =>
    have h1 : stepAt n s t 0 .gHigh = some (got n (s.popped .high) t b, none) := by simp [stepAt, front_eq, que, hh]
    have hb : s.queues.fetch.2.bind (·.2) = b := by simp [Queues.fetch, queues, hh]
    refine ⟨s.popped .high, (Frame.refl t s).setQue _ _, ?_, ?_⟩
    · simp [Queues.fetch, queues, hh, que, setQue, popped_eq]
    · rw [hb]; exact .next hl h1 (.refl _)
  | nil =>
    -- to the comparison
    let s0 := ((s.popped .high).goto t .gCnt).goto t (.gRat s.counter)
    have f0 : Frame t s s0 := ((Frame.refl t s).setQue _ _ |>.goto _).goto _
    have q0 : s0.queues = s.queues := by simp [s0, queues, goto, popped_eq, setQue, que, hh]
    have a0 : ∀ {s'}, Alone n t s0 s' [] → Alone n t s s' [] := by
      intro s' k
      have h1 : stepAt n s t 0 .gHigh = some ((s.popped .high).goto t .gCnt, none) := by simp [stepAt, front_eq, que, hh]
      exact .next hl h1 (.next (l := .gCnt) (by rw [loc_goto, upd_same]) (by rw [stepAt]; rfl) k)
    have l0 : s0.loc t = .gRat s.counter := by simp [s0, loc_goto, upd_same]
    have hl0 : s0.low = s.low := rfl
    have hm0 : s0.med = s.med := rfl
    -- from the medium priority queue
    have fromMed : ∀ s2 : State, s2.loc t = .gMed → Frame t s s2 → s2.queues = s.queues →
        (s.low.1 ≠ [] → ¬ s.ratio ≤ s.counter) →
        Alone n t s s2 [] →
        ∃ s1, Frame t s s1 ∧ s1.queues = s.queues.fetch.1 ∧ Alone n t s (got n s1 t (s.queues.fetch.2.bind (·.2))) [] := by
      intro s2 l2 f2 q2 hne k
      obtain ⟨s1, f1, q1, a1⟩ := med_alone (n := n) l2
      have e1 : s2.med.1 = s.med.1 := congrArg Queues.med q2
      have e2 : s2.low.1 = s.low.1 := congrArg Queues.low q2
      have e3 : s2.counter = s.counter := congrArg Queues.counter q2
      refine ⟨s1, f2.trans f1, ?_, ?_⟩
      · rw [q1, q2, e1, e2, e3]
        by_cases hr : s.ratio ≤ s.counter <;> cases hm : s.med.1 <;> cases hlw : s.low.1 <;>
          simp [Queues.fetch, queues, hh, hm, hlw, hr] <;> exact absurd hr (hne (by simp [hlw]))
      · have : (match s2.med.1 with | m :: _ => m | [] => s2.low.1.head?.bind id) = s.queues.fetch.2.bind (·.2) := by
          rw [e1, e2]
          by_cases hr : s.ratio ≤ s.counter <;> cases hm : s.med.1 <;> cases hlw : s.low.1 <;>
            simp [Queues.fetch, queues, hh, hm, hlw, hr] <;> exact absurd hr (hne (by simp [hlw]))
        rw [this] at a1
        simpa using k.trans a1
    by_cases hc : s.counter ≥ s.ratio
    · have h2 : stepAt n s0 t 0 (.gRat s.counter) = some (s0.goto t .gLowE, none) := by
        have : s0.ratio = s.ratio := rfl
        simp [stepAt, this, hc]
      cases hlw : s.low.1 with
      | cons b bs =>
        have h3 : stepAt n (s0.goto t .gLowE) t 0 .gLowE = some ((s0.goto t .gLowE).goto t .gLowPop, none) := by
          simp [stepAt, isEmpty_eq, que, low_goto, hl0, hlw]
        have h4 : stepAt n ((s0.goto t .gLowE).goto t .gLowPop) t 0 .gLowPop =
            some ((((s0.goto t .gLowE).goto t .gLowPop).popped .low).goto t (.gReset b), none) := by
          simp [stepAt, front_eq, que, low_goto, hl0, hlw]
        have hb : s.queues.fetch.2.bind (·.2) = b := by cases hm : s.med.1 <;> simp [Queues.fetch, queues, hh, hlw, hc, hm]
        refine ⟨{ (((s0.goto t .gLowE).goto t .gLowPop).popped .low).goto t (.gReset b) with counter := 0 }, ?_, ?_, ?_⟩
        · exact (((f0.goto _).goto _).setQue _ _ |>.goto _).counter _
        · cases hm : s.med.1 <;>
            simp [Queues.fetch, queues, hh, hlw, hc, hm, goto, popped_eq, setQue, que, s0]
        · rw [hb]
          exact a0 (.next l0 h2 (.next (by rw [loc_goto, upd_same]) h3 (.next (by rw [loc_goto, upd_same]) h4
            (.next (l := .gReset b) (by rw [loc_goto, upd_same]) (by rw [stepAt]) (.refl _)))))
      | nil =>
        -- the queue may appear not to be empty
        by_cases hf : s.low.2 = true
        · have h3 : stepAt n (s0.goto t .gLowE) t 0 .gLowE = some ((s0.goto t .gLowE).goto t .gLowPop, none) := by
            simp [stepAt, isEmpty_eq, que, low_goto, hl0, hf]
          have h4 : stepAt n ((s0.goto t .gLowE).goto t .gLowPop) t 0 .gLowPop =
              some ((((s0.goto t .gLowE).goto t .gLowPop).popped .low).goto t .gMed, none) := by
            simp [stepAt, front_eq, que, low_goto, hl0, hlw]
          refine fromMed _ (by rw [loc_goto, upd_same]) (((f0.goto _).goto _).setQue _ _ |>.goto _) ?_
            (fun h => absurd hlw h)
            (a0 (.next l0 h2 (.next (by rw [loc_goto, upd_same]) h3 (.next (by rw [loc_goto, upd_same]) h4 (.refl _)))))
          rw [← q0]; simp [queues, goto, popped, setQue, que, hl0, hlw, SimpleQueue.actual]
        · have h3 : stepAt n (s0.goto t .gLowE) t 0 .gLowE = some ((s0.goto t .gLowE).goto t .gMed, none) := by
            simp [stepAt, isEmpty_eq, que, low_goto, hl0, hf, hlw]
          exact fromMed _ (by rw [loc_goto, upd_same]) ((f0.goto _).goto _) q0
            (fun h => absurd hlw h)
            (a0 (.next l0 h2 (.next (by rw [loc_goto, upd_same]) h3 (.refl _))))
    · have h2 : stepAt n s0 t 0 (.gRat s.counter) = some (s0.goto t .gMed, none) := by
        have : s0.ratio = s.ratio := rfl
        simp [stepAt, this, hc]
      exact fromMed _ (by rw [loc_goto, upd_same]) (f0.goto _) q0 (fun _ => hc)
        (a0 (.next l0 h2 (.refl _)))

end Verif.WorkQueue
