import Verif.WorkQueue.Order

/-
One client using the queue, the workers not being scheduled.
-/
namespace Verif.WorkQueue
open Verif.Conc State

variable {n t c i : Nat} {s s' : State} {o : Option Out} {l : Loc} {h : List (Event Op Out)}

/-- fetching from the medium priority queue on -/
def Queues.fetchMed (q : Queues) : Queues × Option Blk :=
  match q.med with
  | m :: ms => ({ q with med := ms, counter := wrap (q.counter + 1) }, m)
  | [] => ({ q with low := q.low.tail }, q.low.head?.bind id)

/-- fetching from the low priority queue in its turn -/
def Queues.fetchTurn (q : Queues) : Queues × Option Blk :=
  match q.low with
  | b :: bs => ({ q with low := bs, counter := 0 }, b)
  | [] => q.fetchMed

theorem fetch_eq (q : Queues) : (q.fetch.1, q.fetch.2.bind (·.2)) =
    (match q.high with
     | b :: bs => ({ q with high := bs }, b)
     | [] => if q.counter ≥ q.ratio then q.fetchTurn else q.fetchMed) := by
  obtain ⟨hi, me, lo, r, k⟩ := q
  cases hi <;> cases me <;> cases lo <;> by_cases h : k ≥ r <;> simp [Queues.fetch, Queues.fetchTurn, Queues.fetchMed, h]

/-- the queues after adding a block -/
def Queues.add (q : Queues) (p : Prio) (b : Option Blk) : Queues :=
  match ofPrio p with
  | .high => { q with high := q.high ++ [b] }
  | .med => { q with med := q.med ++ [b] }
  | .low => { q with low := q.low ++ [b] }

/-- the queues when the current call returns, and what getWorkBlock will return -/
def rest (s : State) : Loc → Queues × List (Option Blk)
  | .aCheck b p _ => (s.queues.add p b, [])
  | .aSize b p _ | .aPush b p _ _ => (s.queues.add p (some b), [])
  | .setR r => ({ s.queues with ratio := if r > 0 then r else 4 }, [])
  | .gHigh => (s.queues.fetch.1, [s.queues.fetch.2.bind (·.2)])
  | .gCnt =>
    if s.counter ≥ s.ratio then (s.queues.fetchTurn.1, [s.queues.fetchTurn.2]) else (s.queues.fetchMed.1, [s.queues.fetchMed.2])
  | .gRat k =>
    if k ≥ s.ratio then (s.queues.fetchTurn.1, [s.queues.fetchTurn.2]) else (s.queues.fetchMed.1, [s.queues.fetchMed.2])
  | .gLowE | .gLowPop => (s.queues.fetchTurn.1, [s.queues.fetchTurn.2])
  | .gMed => (s.queues.fetchMed.1, [s.queues.fetchMed.2])
  | .gLow => ({ s.queues with low := s.low.1.tail }, [s.low.1.head?.bind id])
  | .gReset b => ({ s.queues with counter := 0 }, [b])
  | .gInc b => ({ s.queues with counter := wrap (s.counter + 1) }, [b])
  | .ret (.blk b) => (s.queues, [b])
  | _ => (s.queues, [])

/-- the positions in the calls considered -/
def used : Loc → Bool
  | .aCheck (some (.task _)) _ .client | .aSize _ _ .client | .aPush _ _ .client _ | .aNotify .client _ | .setR _
  | .gHigh | .gCnt | .gRat _ | .gLowE | .gLowPop | .gMed | .gLow | .gReset _ | .gInc _ | .ret _ | .idle => true
  | _ => false

/-- what a returned value adds to `returned` -/
def outs : Option Out → List (Option Blk)
  | some (.blk b) => [b]
  | _ => []

theorem queues_low (s : State) : s.queues.low = s.low.1 := rfl
theorem queues_goto (s : State) (t l) : (s.goto t l).queues = s.queues := rfl

theorem step_rest (hn : 0 < n) (ht : n ≤ t) (hf : s.fin = fun _ => false) (hu : used l = true)
    (hm : stepAt n s t c l = some (s', o)) :
    s'.fin = (fun _ => false) ∧ used (s'.loc t) = true ∧ (rest s' (s'.loc t)).1 = (rest s l).1 ∧
    outs o ++ (rest s' (s'.loc t)).2 = (rest s l).2 := by
  have hlt : ¬ t < n := by omega
  have hfe := fetch_eq s.queues
  cases l <;> simp only [used, Bool.false_eq_true] at hu
  case aCheck b p r =>
    cases b with
    | none => cases hu
    | some b =>
      cases b with
      | dummy => cases hu
      | task i =>
        cases r <;> simp only [Bool.false_eq_true] at hu
        simp [stepAt, isFinished, hf, hn] at hm
        obtain ⟨rfl, rfl⟩ := hm
        simp [loc_goto, upd_same, rest, queues_goto, used, outs, hf, fin_goto]
  case aSize b p r =>
    cases r <;> simp only [Bool.false_eq_true] at hu
    simp [stepAt] at hm
    obtain ⟨rfl, rfl⟩ := hm
    simp [loc_goto, upd_same, rest, queues_goto, used, outs, hf, fin_goto]
  case aPush b p r k =>
    cases r <;> simp only [Bool.false_eq_true] at hu
    simp [stepAt] at hm
    obtain ⟨rfl, rfl⟩ := hm
    cases p <;>
      simp [loc_goto, upd_same, rest, queues_goto, used, outs, hf, goto, push_eq, ofPrio, setQue, queues, Queues.add, que]
  case aNotify r k =>
    cases r <;> simp only [Bool.false_eq_true] at hu
    simp only [stepAt, Option.some.injEq, Prod.mk.injEq] at hm
    obtain ⟨rfl, rfl⟩ := hm
    have : (((if wrap k ≤ n then notifyOne n c s else s) : State)).data = s.data := by
      split
      · exact notifyOne_data _ _ _
      · rfl
    simp only [State.data, Prod.mk.injEq] at this
    simp [back, loc_goto, upd_same, rest, queues_goto, used, outs, goto, queues, this, hf]
  all_goals simp only [stepAt] at hm
  case gHigh =>
    simp only [front_eq, que] at hm
    simp only [queues] at hfe
    cases hh : s.high.1 <;> simp only [hh, List.head?] at hm <;> obtain ⟨rfl, rfl⟩ := Prod.mk.inj (Option.some.inj hm) <;>
      simp only [hh] at hfe
    · have e1 := congrArg Prod.fst hfe; have e2 := congrArg Prod.snd hfe
      simp only at e1 e2
      simp only [loc_goto, upd_same, rest, used, outs, queues_goto]
      simp only [popped_eq, setQue, que, queues, hh, List.tail, goto]
      rw [e1, e2]
      refine ⟨hf, trivial, ?_, ?_⟩ <;> split <;> rfl
    · have e1 := congrArg Prod.fst hfe; have e2 := congrArg Prod.snd hfe
      simp only at e1 e2
      simp only [got, hlt, if_false, loc_goto, upd_same, rest, used, outs, queues_goto]
      simp only [popped_eq, setQue, que, queues, hh, List.tail, goto]
      rw [e1, e2]
      exact ⟨hf, trivial, rfl, rfl⟩
  case gLowE =>
    obtain ⟨rfl, rfl⟩ := Prod.mk.inj (Option.some.inj hm)
    have hE : s.isEmpty .low = true → s.low.1 = [] := by simp [isEmpty_eq, que]; exact fun h _ => h
    cases hc : s.isEmpty .low
    · simp [loc_goto, upd_same, rest, queues_goto, used, outs, hf, fin_goto]
    · simp [loc_goto, upd_same, rest, queues_goto, used, outs, hf, fin_goto, Queues.fetchTurn, queues_low, hE hc]
  case gLowPop =>
    simp only [front_eq, que] at hm
    cases hh : s.low.1 <;> simp only [hh, List.head?] at hm <;> obtain ⟨rfl, rfl⟩ := Prod.mk.inj (Option.some.inj hm) <;>
      simp [loc_goto, upd_same, rest, queues_goto, used, outs, hf, goto, queues, Queues.fetchTurn, hh, popped_eq, setQue, que]
  case gMed =>
    simp only [front_eq, que] at hm
    cases hh : s.med.1 <;> simp only [hh, List.head?] at hm <;> obtain ⟨rfl, rfl⟩ := Prod.mk.inj (Option.some.inj hm) <;>
      simp [loc_goto, upd_same, rest, queues_goto, used, outs, hf, goto, queues, Queues.fetchMed, hh, popped_eq, setQue, que]
  case gLow =>
    simp only [front_eq, que] at hm
    cases hh : s.low.1 <;> simp only [hh, List.head?] at hm <;> obtain ⟨rfl, rfl⟩ := Prod.mk.inj (Option.some.inj hm) <;>
      simp [got, hlt, loc_goto, upd_same, rest, queues_goto, used, outs, hf, goto, queues, hh, popped_eq, setQue, que]
  case gRat k =>
    obtain ⟨rfl, rfl⟩ := Prod.mk.inj (Option.some.inj hm)
    by_cases hk : k ≥ s.ratio <;> simp [loc_goto, upd_same, rest, queues_goto, used, outs, hf, fin_goto, hk]
  case idle => cases hm
  case ret o1 =>
    obtain ⟨rfl, rfl⟩ := Prod.mk.inj (Option.some.inj hm)
    cases o1 <;> simp [loc_goto, upd_same, rest, queues_goto, used, outs, hf, fin_goto]
  all_goals
    obtain ⟨rfl, rfl⟩ := Prod.mk.inj (Option.some.inj hm)
    simp [got, hlt, loc_goto, upd_same, rest, queues_goto, used, outs, hf, goto, queues]

theorem step_start (q : Queues) (e : Ev) (hf : s.queues = q) :
    rest s (start n e.op) = ((q.step e).1, (q.step e).2.map fun r => r.bind (·.2)) ∧ used (start n e.op) = true := by
  subst hf
  cases e with
  | add i p => cases p <;> exact ⟨rfl, rfl⟩
  | setRatio r => exact ⟨rfl, rfl⟩
  | fetch => exact ⟨rfl, rfl⟩

theorem called_append (h1 h2 : List (Event Op Out)) : called (h1 ++ h2) = called h1 ++ called h2 := by
  induction h1 with
  | nil => rfl
  | cons e h1 ih => cases e <;> simp [called, ih]

theorem returned_append (h1 h2 : List (Event Op Out)) : returned (h1 ++ h2) = returned h1 ++ returned h2 := by
  induction h1 with
  | nil => rfl
  | cons e h1 ih =>
    cases e with
    | call t op => simp [returned, ih]
    | ret t o => cases o <;> simp [returned, ih]

theorem alone_run (hn : 0 < n) (ht : n ≤ t) (as : List (Act Op)) : ∀ {s s' : State} {h : List (Event Op Out)},
    (∀ a ∈ as, byThread t a) → s.fin = (fun _ => false) → used (s.loc t) = true → (sys n).run s as = some (s', h) →
    ∀ es : List Ev, called h = es.map Ev.op →
      (rest s' (s'.loc t)).1 = ((rest s (s.loc t)).1.run es).1 ∧
      returned h ++ (rest s' (s'.loc t)).2 =
        (rest s (s.loc t)).2 ++ ((rest s (s.loc t)).1.run es).2.map fun r => r.bind (·.2) := by
  induction as with
  | nil =>
    intro s s' h hb hf hu e es he
    cases e
    cases es with
    | nil => simp [Queues.run, returned]
    | cons e es => cases he
  | cons a as ih =>
    intro s s' h hb hf hu e es he
    simp only [Sys.run, Option.bind_eq_some_iff, Option.map_eq_some_iff] at e
    obtain ⟨⟨s1, h1⟩, e1, ⟨s2, h2⟩, e2, e3⟩ := e
    cases e3
    have hb1 : ∀ a ∈ as, byThread t a := fun a ha => hb a (List.mem_cons_of_mem _ ha)
    have hb0 := hb a (List.mem_cons_self ..)
    cases a with
    | call u op =>
      cases (show u = t from hb0)
      simp only [Sys.exec, Option.map_eq_some_iff] at e1
      obtain ⟨s3, e1, e3⟩ := e1
      cases e3
      obtain ⟨hid, rfl⟩ := call_eq e1
      cases es with
      | nil => cases he
      | cons e es =>
        simp only [called, List.cons_append, List.nil_append, List.map_cons, List.cons.injEq] at he
        obtain ⟨rfl, he⟩ := he
        obtain ⟨h3, h4⟩ := step_start (n := n) (s := s.goto t (start n e.op)) s.queues e rfl
        have := ih hb1 (s := s.goto t (start n e.op)) hf (by rw [loc_goto, upd_same]; exact h4) e2 es he
        rw [loc_goto, upd_same, h3] at this
        rw [hid]
        simpa [rest, Queues.run, returned] using this
    | move u c =>
      cases (show u = t from hb0)
      simp only [Sys.exec, Option.map_eq_some_iff] at e1
      obtain ⟨⟨s3, o⟩, e1, e3⟩ := e1
      cases e3
      obtain ⟨f1, f2, f3, f4⟩ := step_rest hn ht hf hu e1
      have hc : called h2 = es.map Ev.op := by
        rw [← he]; cases o <;> simp [called]
      have := ih hb1 f1 f2 e2 es hc
      rw [f3] at this
      refine ⟨this.1, ?_⟩
      rw [← f4, List.append_assoc, ← this.2, returned_append, ← List.append_assoc]
      congr 2
      cases o with
      | none => rfl
      | some o => cases o <;> rfl

/-! ### Such executions exist -/

/-- a bound on the steps to the end of the call -/
def rk : Loc → Nat
  | .idle => 0
  | .ret _ => 1
  | .gReset _ | .gInc _ | .gLow | .setR _ | .aNotify _ _ => 2
  | .gMed | .aPush _ _ _ _ => 3
  | .gLowPop | .aSize _ _ _ => 4
  | .gLowE | .aCheck _ _ _ => 5
  | .gRat _ => 6
  | .gCnt => 7
  | _ => 8

theorem step_rk (hn : 0 < n) (ht : n ≤ t) (hf : s.fin = fun _ => false) (hu : used l = true) (hi : l ≠ .idle) :
    ∃ s' o, stepAt n s t 0 l = some (s', o) ∧ rk (s'.loc t) < rk l := by
  have hlt : ¬ t < n := by omega
  cases l <;> simp only [used, Bool.false_eq_true] at hu
  case idle => exact absurd rfl hi
  case aCheck b p r =>
    cases b with
    | none => cases hu
    | some b =>
      cases b with
      | dummy => cases hu
      | task i => exact ⟨_, _, by simp [stepAt, isFinished, hf, hn]; exact ⟨rfl, rfl⟩, by rw [loc_goto, upd_same]; simp [rk]⟩
  case aNotify r k =>
    cases r <;> simp only [Bool.false_eq_true] at hu
    exact ⟨_, _, rfl, by simp only [back]; rw [loc_goto, upd_same]; simp [rk]⟩
  case gHigh =>
    cases h : s.front .high <;>
      exact ⟨_, _, by simp only [stepAt, h]; rfl, by simp [got, hlt, loc_goto, upd_same, rk]⟩
  case gMed =>
    cases h : s.front .med <;>
      exact ⟨_, _, by simp only [stepAt, h]; rfl, by simp [got, hlt, loc_goto, upd_same, rk]⟩
  case gLow =>
    cases h : s.front .low <;>
      exact ⟨_, _, by simp only [stepAt, h]; rfl, by simp [got, hlt, loc_goto, upd_same, rk]⟩
  case gLowPop =>
    cases h : s.front .low <;>
      exact ⟨_, _, by simp only [stepAt, h]; rfl, by simp [got, hlt, loc_goto, upd_same, rk]⟩
  case gRat k => exact ⟨_, _, rfl, by rw [loc_goto, upd_same]; split <;> simp [rk]⟩
  case gLowE => exact ⟨_, _, rfl, by rw [loc_goto, upd_same]; split <;> simp [rk]⟩
  all_goals exact ⟨_, _, rfl, by simp [got, hlt, loc_goto, upd_same, rk]⟩

theorem alone_return (hn : 0 < n) (ht : n ≤ t) : ∀ (m : Nat) (s : State), rk (s.loc t) ≤ m → s.fin = (fun _ => false) →
    used (s.loc t) = true → ∃ s' h, Alone n t s s' h ∧ s'.loc t = .idle ∧ s'.fin = (fun _ => false) ∧ called h = [] := by
  intro m
  induction m with
  | zero =>
    intro s hr hf hu
    refine ⟨s, [], .refl _, ?_, hf, rfl⟩
    generalize s.loc t = l at hr
    cases l <;> simp [rk] at hr ⊢
  | succ m ih =>
    intro s hr hf hu
    by_cases hi : s.loc t = .idle
    · exact ⟨s, [], .refl _, hi, hf, rfl⟩
    · obtain ⟨s1, o, h1, h2⟩ := step_rk hn ht hf hu hi
      obtain ⟨f1, f2, _, _⟩ := step_rest hn ht hf hu h1
      obtain ⟨s', h, a, l', f', hc⟩ := ih s1 (by omega) f1 f2
      refine ⟨s', _, .step h1 a, l', f', ?_⟩
      rw [called_append, hc]
      cases o <;> rfl

theorem alone_exists (hn : 0 < n) (ht : n ≤ t) (es : List Ev) : ∀ s : State, s.loc t = .idle → s.fin = (fun _ => false) →
    ∃ as s' h, (∀ a ∈ as, byThread t a) ∧ (sys n).run s as = some (s', h) ∧ s'.loc t = .idle ∧ called h = es.map Ev.op := by
  induction es with
  | nil => intro s hi hf; exact ⟨[], s, [], by simp, rfl, hi, rfl⟩
  | cons e es ih =>
    intro s hi hf
    obtain ⟨_, hu⟩ := step_start (n := n) (s := s) s.queues e rfl
    obtain ⟨s1, h1, ⟨k, a1⟩, l1, f1, c1⟩ := alone_return hn ht _ (s.goto t (start n e.op)) (Nat.le_refl _) hf
      (by rw [loc_goto, upd_same]; exact hu)
    obtain ⟨as, s', h, hb, hr, hl, hc⟩ := ih s1 l1 f1
    refine ⟨.call t e.op :: (List.replicate k (.move t 0) ++ as), s', .call t e.op :: (h1 ++ h), ?_, ?_, hl, ?_⟩
    · intro a ha
      simp only [List.mem_cons, List.mem_append, List.mem_replicate] at ha
      rcases ha with rfl | ⟨_, rfl⟩ | ha
      · rfl
      · rfl
      · exact hb a ha
    · have hcall : (sys n).call t e.op s = some (s.goto t (start n e.op)) := by simp [sys, State.call, hi]
      simp [Sys.run, Sys.exec, hcall, Sys.run_append _ a1 hr]
    · simp [called, called_append, c1, hc]

end Verif.WorkQueue
