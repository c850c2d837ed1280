import Verif.Blocking.Move
import Verif.Blocking.Waits
import Verif.Conc.Check
import Verif.Conc.Without

/-
The properties C50-C55, C78, C103 and C109 of BlockingQueue: the model `sys false`, see Verif/Blocking/Model.lean, and the FIFO queue
`fifoSpec` of Verif/Blocking/Spec.lean.
-/
namespace Verif.BlockingQueue
open Verif.Conc Verif.Blocking

variable {α : Type}

/-- BlockingQueue -/
abbrev queue (α : Type) : Sys (State α) (Op α) (Out α) := sys false α

/-- thread `t` begins a call and takes `n` steps -/
def begin (t : Nat) (op : Op α) (n : Nat) : List (Act (Op α)) := .call t op :: List.replicate n (.move t 0)

/-- thread `t` takes `n` steps -/
def go (t n : Nat) : List (Act (Op α)) := List.replicate n (.move t 0)

/-! ### C50 linearizability -/

/-- C50: every history of push, emplace, try_pop, pop, timed pop, popOrCall, clear and reserve is that of a FIFO queue. -/
theorem linearizable (as : List (Act (Op α))) (s : State α) (h : List (Event (Op α) (Out α)))
    (e : (queue α).run (queue α).init as = some (s, h)) (hn : ∀ t op, .call t op ∈ h → op.observes = false) :
    Linearizable (fifoSpec α) h := by
  obtain ⟨tr, g, h1, h2, _⟩ := trace_plain K.init Quiet.init as e hn
  exact ⟨tr, _, to_fifo h1 (fun t i hm => no_prio_calls as e t i (h2 ▸ hm)), h2⟩

/-- C50: nothing is lost, duplicated, invented or reordered.  If clear is not called and no pop throws after having removed
an element, there is an order of the calls,
consistent with the history, in which the values inserted are the values taken out followed by values still to come; and
when no call is in progress but sleeping ones, these are the contents. -/
theorem conservation (as : List (Act (Op α))) (s : State α) (h : List (Event (Op α) (Out α)))
    (e : (queue α).run (queue α).init as = some (s, h)) (hn : ∀ t op, .call t op ∈ h → op.observes = false ∧ op ≠ .clear ∧ op.loses = false) :
    ∃ tr g, TSteps (fifoSpec α) (fifoSpec α).ghost tr g ∧ erase tr = h ∧ inserted tr = removed tr ++ g.q ∧
      (s.atRest → g.q = s.pull.reverse ++ s.push) := by
  obtain ⟨tr, g, h1, h2, h3⟩ := trace_plain K.init Quiet.init as e (fun t op hm => (hn t op hm).1)
  have h4 := to_fifo h1 (fun t i hm => no_prio_calls as e t i (h2 ▸ hm))
  refine ⟨tr, _, h4, h2, ?_, fun hr => by rw [h3 hr]; rfl⟩
  have := fifo_order tr (lin_called tr h4 (by intro t h; cases h) (fun t hm => (hn t _ (h2 ▸ hm)).2.1 rfl)) ?_ h4
  · simpa using this
  intro t op o hm
  cases hl : op.loses with
  | false => rfl
  | true =>
    refine absurd hm (lin_called tr h4 (by intro t h; cases h) (fun t hm => ?_) t o)
    rw [(hn t _ (h2 ▸ hm)).2.2] at hl; cases hl

/-- C50 with empty() and try_peek: also their results `true` and an element, respectively, are those of the FIFO queue.
Missing: size() and the other results, see `empty_violation`, `peek_violation` and `size_violation`. -/
theorem linearizable_observing_partial (as : List (Act (Op α))) (s : State α) (h : List (Event (Op α) (Out α)))
    (e : (queue α).run (queue α).init as = some (s, h)) (hn : ∀ t, .call t .size ∉ h) (h1 : ∀ t, .ret t (.bool false) ∉ h)
    (h2 : ∀ t, .ret t (.peek none) ∉ h) : Linearizable (fifoSpec α) h := by
  obtain ⟨tr, g, h1, h2, _⟩ := trace_all K.init as e hn (fun h => by cases h) h1 h2
  exact ⟨tr, _, to_fifo h1 (fun t i hm => no_prio_calls as e t i (h2 ▸ hm)), h2⟩

set_option maxRecDepth 4000 in
/-- A history with a waiting pop, two producers and an empty try_pop. -/
example : ∃ as s, (queue Nat).run (queue Nat).init as = some (s, [.call 0 .pop, .call 1 (.ins (.push 7)),
    .call 2 (.ins (.emplace 8)), .ret 2 .unit, .ret 1 .unit, .ret 0 (.val (some 7)), .call 1 .tryPop, .ret 1 (.val (some 8)),
    .call 1 .tryPop, .ret 1 (.val none)]) := by
  refine ⟨begin 0 .pop 11 ++ begin 1 (.ins (.push 7)) 4 ++ begin 2 (.ins (.emplace 8)) 7 ++ go 1 7 ++ go 0 7 ++ begin 1 .tryPop 17 ++
    begin 1 .tryPop 9, _, rfl⟩

/-! ### C51 wake-ups -/

/-- C51 if all calls that may wait are made by one thread `p` (any number of other threads push, try_pop, clear and
observe): whenever `p` waits and the queue holds an element, some thread is on its way to notify, that is it has found
queueEmptyFlag set and has not yet called notify_all.  Missing: several waiting threads, see `wakeup_violation`, and
insertions that throw, see `throw_wakeup_violation`. -/
theorem no_lost_wakeup_partial (as : List (Act (Op α))) (s : State α) (h : List (Event (Op α) (Out α))) (p : Nat)
    (e : (queue α).run (queue α).init as = some (s, h))
    (ho : ∀ t op, .call t op ∈ h → t = p ∨ op.waits = false)
    (hx : ∀ t v, .call t (.ins (.thrown v)) ∉ h)
    (hp : p ∈ s.waiting) (hne : s.pull ≠ [] ∨ s.push ≠ []) : ∃ u, notifies (s.loc u) = true := by
  have k := wakes_run (p := p) as e (fun t op hm => ⟨(ho t op hm).elim .inl (fun h => .inr ⟨h, fun h => by cases h⟩),
    fun v => ⟨fun he => hx t v (he ▸ hm), fun he => no_prio_calls as e t _ (he ▸ hm)⟩⟩)
  rcases k.asleep hp with h | h
  · obtain ⟨h1, h2, _⟩ := k.inv.flag.empty h
    rcases hne with h | h
    · exact absurd h2 h
    · exact absurd h1 h
  · exact h

/-- C51, the same seen from outside: when every call but sleeping ones has returned and the consumer `p` sleeps, the queue
is empty. -/
theorem no_lost_wakeup_atRest_partial (as : List (Act (Op α))) (s : State α) (h : List (Event (Op α) (Out α))) (p : Nat)
    (e : (queue α).run (queue α).init as = some (s, h))
    (ho : ∀ t op, .call t op ∈ h → t = p ∨ op.waits = false)
    (hx : ∀ t v, .call t (.ins (.thrown v)) ∉ h)
    (hp : p ∈ s.waiting) (hr : s.atRest) : s.pull = [] ∧ s.push = [] := by
  have nn : ¬ ∃ u, notifies (s.loc u) = true := by
    rintro ⟨u, hu⟩
    rcases hr u with h | ⟨k, h⟩ <;> rw [h] at hu <;> cases hu
  constructor
  · exact Classical.byContradiction fun hc => nn (no_lost_wakeup_partial as s h p e ho hx hp (.inl hc))
  · exact Classical.byContradiction fun hc => nn (no_lost_wakeup_partial as s h p e ho hx hp (.inr hc))

/-- C51: a thread on its way to notify does so after at most seven of its own steps, and then nobody is left waiting. -/
theorem notification_arrives (s s' : State α) (t c : Nat) (o : Option (Out α)) (h : (queue α).move t c s = some (s', o))
    (hn : notifies (s.loc t) = true) :
    notifyRank (s.loc t) ≤ 7 ∧
    ((notifies (s'.loc t) = true ∧ notifyRank (s'.loc t) < notifyRank (s.loc t)) ∨ s'.waiting = []) := by
  refine ⟨?_, notify_progress (b := false) h hn⟩
  cases hl : s.loc t <;> simp [notifyRank]

/-- C51 fails with two consumers: both have found nothing; a push notifies before they wait; the first takes the element
without setting queueEmptyFlag, the second waits; the next push does not notify.  All calls have returned but that of the
second consumer, which sleeps although the queue holds 8. -/
theorem wakeup_violation : ∃ as s, (queue Nat).run (queue Nat).init as = some (s, [.call 1 .pop, .call 2 .pop, .call 3 (.ins (.push 7)),
      .ret 3 .unit, .ret 1 (.val (some 7)), .call 3 (.ins (.push 8)), .ret 3 .unit]) ∧
    s.atRest ∧ 2 ∈ s.waiting ∧ s.pull.reverse ++ s.push = [8] := by
  refine ⟨begin 1 .pop 8 ++ begin 2 .pop 8 ++ begin 3 (.ins (.push 7)) 11 ++ go 1 6 ++ go 2 3 ++ begin 3 (.ins (.push 8)) 7, _, rfl,
    ?_, by decide, rfl⟩
  intro t
  match t with
  | 0 => exact .inl rfl
  | 1 => exact .inl rfl
  | 2 => exact .inr ⟨.pop .ok, rfl⟩
  | 3 => exact .inl rfl
  | n + 4 => exact .inl rfl

/-- A waiting consumer, an element in the queue, and the producer about to notify. -/
example : ∃ as s h, (queue Nat).run (queue Nat).init as = some (s, h) ∧ h.length = 2 ∧ 1 ∈ s.waiting ∧ s.pull = [7] ∧
    notifies (s.loc 3) = true := by
  exact ⟨begin 1 .pop 11 ++ begin 3 (.ins (.push 7)) 8, _, _, rfl, rfl, by decide, rfl, rfl⟩

/-! ### C52 size and empty, C53 try_peek -/

/-- C52, C53 for calls made one at a time (each call returns before the next begins), no insertion throwing: all results, those of size(),
empty() and try_peek included, are those of the FIFO queue. -/
theorem sequential (as : List (Act (Op α))) (s : State α × Bool) (h : List (Event (Op α) (Out α)))
    (e : (queue α).oneAtATime.run (queue α).oneAtATime.init as = some (s, h))
    (hx : ∀ t v, .call t (.ins (.thrown v)) ∉ h) : Linearizable (fifoSpec α) h := by
  have e0 := Sys.oneAtATime_run as e
  have hp : ∀ t i, .call t (.prio i) ∉ h := no_prio_calls as e0
  obtain ⟨tr, h2, k⟩ := (seqSim false ([], [])).run_from as KSeq.init 
    (fun t op hm => ⟨fun i he => hp t i (he ▸ Sys.run_calls as e0 t op hm), fun v he => hx t v (he ▸ Sys.run_calls as e0 t op hm)⟩)
    (fun _ _ _ => trivial) e
  obtain ⟨g, h1, _⟩ := k.rel
  have h2 : erase tr = h := by simpa [erase] using h2
  exact ⟨tr, _, to_fifo h1 (fun t i hm => hp t i (h2 ▸ hm)), h2⟩

/-- C52, C53 for calls made one at a time, no insertion throwing, the object being at hand: in the state reached, what size(), empty() and
try_peek answer is determined by the contents. -/
theorem sequential_state (as : List (Act (Op α))) (s : State α) (h : List (Event (Op α) (Out α)))
    (e : (queue α).oneAtATime.run (queue α).oneAtATime.init as = some ((s, false), h))
    (hx : ∀ t v, .call t (.ins (.thrown v)) ∉ h) :
    s.flag = (s.pull.reverse ++ s.push).isEmpty ∧ s.pull.getLast? = (s.pull.reverse ++ s.push).head? := by
  have e0 := Sys.oneAtATime_run as e
  have hp : ∀ t i, .call t (.prio i) ∉ h := no_prio_calls as e0
  obtain ⟨tr, h2, k⟩ := (seqSim false ([], [])).run_from as KSeq.init 
    (fun t op hm => ⟨fun i he => hp t i (he ▸ Sys.run_calls as e0 t op hm), fun v he => hx t v (he ▸ Sys.run_calls as e0 t op hm)⟩)
    (fun _ _ _ => trivial) e
  obtain ⟨u, h3, h4, h5⟩ := k.one
  rw [h4 rfl] at h5
  have h6 : s.pull = [] → s.flag = true := h5
  have h7 := k.flag.empty
  simp only at h7
  cases hl : s.pull with
  | nil =>
    have := h6 hl
    obtain ⟨h8, _⟩ := h7 this
    simp [this, h8]
  | cons x xs =>
    have : s.flag = false := by
      cases hf : s.flag with
      | false => rfl
      | true => have := (h7 hf).2.1; rw [hl] at this; cases this
    simp [this, List.getLast?_cons]

/-- A history of one call at a time with all the observers. -/
example : ∃ as s, (queue Nat).oneAtATime.run (queue Nat).oneAtATime.init as = some (s, [.call 0 (.ins (.push 7)), .ret 0 .unit,
    .call 1 (.ins (.push 8)), .ret 1 .unit, .call 0 .size, .ret 0 (.num 2), .call 0 .peek, .ret 0 (.peek (some 7)),
    .call 0 .empty, .ret 0 (.bool false)]) :=
  ⟨begin 0 (.ins (.push 7)) 11 ++ begin 1 (.ins (.push 8)) 7 ++ begin 0 .size 7 ++ begin 0 .peek 5 ++ begin 0 .empty 2, _, rfl⟩

/-- C52 with a single producer `p` and any number of other threads: size(), too, is that of the FIFO queue, and so are
empty()==true and try_peek of an element.  Missing: the other results, see `empty_violation`, and several producers, see
`size_violation`. -/
theorem size_partial (as : List (Act (Op α))) (s : State α) (h : List (Event (Op α) (Out α))) (p : Nat)
    (e : (queue α).run (queue α).init as = some (s, h)) (ho : ∀ t i, .call t (.ins i) ∈ h → t = p)
    (h1 : ∀ t, .ret t (.bool false) ∉ h) (h2 : ∀ t, .ret t (.peek none) ∉ h) : Linearizable (fifoSpec α) h := by
  obtain ⟨tr, h3, k⟩ := (singleSim p ([], [])).run_from as (KOne.init p)
    (fun t op hm => by rintro ⟨i, rfl⟩; exact ho t i (Sys.run_calls as e t _ hm))
    (fun t o hm => ⟨fun e' => h1 t (e' ▸ hm), fun e' => h2 t (e' ▸ hm)⟩) e
  obtain ⟨g, h4, _⟩ := k.rel
  have h3 : erase tr = h := by simpa [erase] using h3
  exact ⟨tr, _, to_fifo h4 (fun t i hm => no_prio_calls as e t i (h3 ▸ hm)), h3⟩

/-- size() during a push. -/
example : ∃ as s, (queue Nat).run (queue Nat).init as = some (s, [.call 0 (.ins (.push 7)), .call 1 .size, .ret 1 (.num 0),
    .call 1 .empty, .ret 0 .unit, .call 2 .size, .ret 2 (.num 1)]) :=
  ⟨begin 0 (.ins (.push 7)) 4 ++ begin 1 .size 7 ++ begin 1 .empty 0 ++ go 0 7 ++ begin 2 .size 7, _, rfl⟩

/-- C52 fails for size() with two producers: the first has found queueEmptyFlag set but not yet inserted 7; the second
inserts 8, and size() is 1; afterwards the first element is 7. -/
theorem size_violation : ∃ as s h, (queue Nat).run (queue Nat).init as = some (s, h) ∧ ¬ Linearizable (fifoSpec Nat) h := by
  refine ⟨begin 1 (.ins (.push 7)) 4 ++ begin 2 (.ins (.push 8)) 7 ++ begin 2 .size 7 ++ go 1 7 ++ begin 2 .tryPop 13, _,
    [.call 1 (.ins (.push 7)), .call 2 (.ins (.push 8)), .ret 2 .unit, .call 2 .size, .ret 2 (.num 1), .ret 1 .unit,
     .call 2 .tryPop, .ret 2 (.val (some 7))], rfl, ?_⟩
  exact not_linearizable (ts := [1, 2]) rfl (by decide)

/-- C52 fails for empty() during a push: it says false, and then try_pop finds nothing. -/
theorem empty_violation : ∃ as s h, (queue Nat).run (queue Nat).init as = some (s, h) ∧ ¬ Linearizable (fifoSpec Nat) h ∧
    ∀ t, .call t .size ∉ h := by
  refine ⟨begin 1 (.ins (.push 7)) 4 ++ begin 2 .empty 2 ++ begin 2 .tryPop 9, _,
    [.call 1 (.ins (.push 7)), .call 2 .empty, .ret 2 (.bool false), .call 2 .tryPop, .ret 2 (.val none)], rfl, ?_, by simp⟩
  exact not_linearizable (ts := [1, 2]) rfl (by decide)

/-- C52 fails for empty() lastingly: after a popOrCall whose function pushes an element (thread 1), which popOrCall then
returns, the queue is empty and no call is in progress, but empty() says false. -/
theorem empty_violation_atRest : ∃ as s, (queue Nat).run (queue Nat).init as = some (s,
    [.call 0 .popOrCall, .call 1 (.ins (.push 7)), .ret 1 .unit, .ret 0 (.val (some 7)), .call 0 .empty, .ret 0 (.bool false)]) ∧
    s.idle ∧ s.pull = [] ∧ s.push = [] := by
  refine ⟨begin 0 .popOrCall 8 ++ begin 1 (.ins (.push 7)) 11 ++ go 0 7 ++ begin 0 .empty 2, _, rfl, ?_, rfl, rfl⟩
  intro t
  match t with
  | 0 => rfl
  | 1 => rfl
  | n + 2 => rfl

/-- C53 fails for try_peek after such a popOrCall: push(8), and try_peek finds nothing, though try_pop would return 8. -/
theorem peek_violation : ∃ as s h, (queue Nat).run (queue Nat).init as = some (s, h) ∧ ¬ Linearizable (fifoSpec Nat) h ∧
    ∀ t, .call t .size ∉ h ∧ .call t .empty ∉ h := by
  refine ⟨begin 0 .popOrCall 8 ++ begin 1 (.ins (.push 7)) 11 ++ go 0 7 ++ begin 0 (.ins (.push 8)) 7 ++ begin 0 .peek 4, _,
    [.call 0 .popOrCall, .call 1 (.ins (.push 7)), .ret 1 .unit, .ret 0 (.val (some 7)), .call 0 (.ins (.push 8)), .ret 0 .unit,
     .call 0 .peek, .ret 0 (.peek none)], rfl, ?_, by simp⟩
  exact not_linearizable (ts := [0, 1]) rfl (by decide)

/-! ### C54 deadlock and races -/

/-- C54: no call reaches undefined behaviour (back() or pop_back() of an empty vector), on any object: new, used, moved to
or moved from. -/
theorem no_crash (s : State α) (hs : Obtained false s) (t : Nat) : s.loc t ≠ .crash :=
  Blocking.no_crash (sound_obtained hs).locks (sound_obtained hs).facts t

/-- C54: whenever a call is unfinished and not waiting for an element, some such call can take its next step. -/
theorem no_deadlock (s : State α) (hs : Obtained false s) (t : Nat) (ht : s.loc t ≠ .idle) (ha : t ∉ s.waiting) :
    ∃ u r, s.loc u ≠ .idle ∧ u ∉ s.waiting ∧ (queue α).move u 0 s = some r :=
  Blocking.no_deadlock (sound_obtained hs).locks (sound_obtained hs).sleeps (no_crash s hs) t ht ha

/-- C54: between its beginning or the end of a wait and its end or next wait a call takes at most 30 steps of its own: each
step lowers a bounded rank, which no step of another thread changes. -/
theorem own_steps_bounded : ∃ rank : Loc α → Nat, (∀ l, rank l ≤ 30) ∧ rank .idle = 0 ∧
    (∀ s t c s' o, Obtained false s → (queue α).move t c s = some (s', o) → (∀ k, s.loc t ≠ .wSleep k) →
      rank (s'.loc t) < rank (s.loc t)) ∧
    (∀ s t c s' o, (queue α).move t c s = some (s', o) → ∀ u, u ≠ t → s'.loc u = s.loc u) := by
  refine ⟨rank, ?_, rfl, ?_, ?_⟩
  · intro l
    cases l with
    | oCheck ck k r => cases ck <;> cases r <;> simp [rank]
    | wTest k w => cases w <;> simp [rank]
    | wPrio k w => cases w <;> simp [rank]
    | _ => simp [rank]
  · intro s t c s' o hs h h1
    rcases stepAt_closer (b := false) h h1 with h2 | ⟨_, h2⟩
    · exact h2
    · rw [((sound_obtained hs).noPrio rfl).1] at h2; cases h2
  · intro s t c s' o h u hu
    rw [stepAt_loc (b := false) h, upd_ne _ _ hu]

/-- C54: at most one thread is at a position with an access to pushElements, and it holds m_pushLock; likewise for
pullElements and m_pullLock. -/
theorem race_free (s : State α) (hs : Obtained false s) (t u : Nat) :
    (usesPush (s.loc t) = true → s.pushOwner = some t) ∧ (usesPull (s.loc t) = true → s.pullOwner = some t) ∧
    (usesPush (s.loc t) = true → usesPush (s.loc u) = true → t = u) ∧
    (usesPull (s.loc t) = true → usesPull (s.loc u) = true → t = u) := by
  have k := (sound_obtained hs).locks
  have hp : ∀ t, usesPush (s.loc t) = true → s.pushOwner = some t := fun t h => (k.push t).1 (usesPush_holds h)
  have hq : ∀ t, usesPull (s.loc t) = true → s.pullOwner = some t := fun t h => (k.pull t).1 (usesPull_holds h)
  refine ⟨hp t, hq t, ?_, ?_⟩
  · intro h1 h2; have := (hp t h1).symm.trans (hp u h2); exact Option.some.inj this
  · intro h1 h2; have := (hq t h1).symm.trans (hq u h2); exact Option.some.inj this

/-- C54: the positions listed in `usesPush` and `usesPull` are all: at any other position a thread's step neither depends
on nor changes the vector. -/
theorem other_steps_independent (s : State α) (t c : Nat) :
    (usesPush (s.loc t) = false → ∀ p, (queue α).move t c { s with push := p } =
      ((queue α).move t c s).map fun r => ({ r.1 with push := p }, r.2)) ∧
    (usesPull (s.loc t) = false → ∀ p, (queue α).move t c { s with pull := p } =
      ((queue α).move t c s).map fun r => ({ r.1 with pull := p }, r.2)) :=
  ⟨fun h p => push_frame h p, fun h p => pull_frame h p⟩

/-- A state with both vectors in use, a third thread being blocked. -/
example : ∃ s : State Nat, Obtained false s ∧ usesPush (s.loc 0) = true ∧ usesPull (s.loc 1) = true ∧ s.loc 2 ≠ .idle ∧
    (queue Nat).move 2 0 s = none :=
  ⟨_, .use (as := begin 0 (.ins (.push 7)) 1 ++ begin 1 .tryPop 1 ++ begin 2 .clear 0) .new rfl, rfl, rfl, (by intro h; cases h), rfl⟩

/-! ### C55 moves -/

/-- C55, the target of a move construction or assignment from any object without calls in progress: it holds the elements
of the source and behaves from then on as a FIFO queue with these contents.  Missing: empty(), size() and try_peek, see
`move_target_sequential_partial` and `move_violation`. -/
theorem move_target_partial (s : State α) (hs : Obtained false s) (hi : s.idle) (as : List (Act (Op α))) (s' : State α)
    (h : List (Event (Op α) (Out α))) (e : (queue α).run s.moveFrom.1 as = some (s', h))
    (hn : ∀ t op, .call t op ∈ h → op.observes = false) : Linearizable ((fifoSpec α).from (s.pull.reverse ++ s.push)) h := by
  have k : K false false ([], s.pull.reverse ++ s.push) s.moveFrom.1 [] := by
    have := K.idle (sound_obtained (.target hs hi)) (fun _ => rfl)
    simpa [State.contents, State.moveFrom, ((sound_obtained hs).noPrio rfl).1] using this
  obtain ⟨tr, g, h1, h2, _⟩ := trace_plain k (Quiet.idle fun _ => rfl) as e hn
  exact ⟨tr, _, TSteps.from _ (to_fifo h1 (fun t i hm => no_prio_calls as e t i (h2 ▸ hm))), h2⟩

/-- C55, the source: from then on it is an empty FIFO queue. -/
theorem move_source (s : State α) (hs : Obtained false s) (hi : s.idle) (as : List (Act (Op α))) (s' : State α)
    (h : List (Event (Op α) (Out α))) (e : (queue α).run s.moveFrom.2 as = some (s', h))
    (hn : ∀ t op, .call t op ∈ h → op.observes = false) : Linearizable (fifoSpec α) h := by
  have k : K false false ([], []) s.moveFrom.2 [] := K.idle (sound_obtained (.source hs hi)) hi
  obtain ⟨tr, g, h1, h2, _⟩ := trace_plain k (Quiet.idle hi) as e hn
  exact ⟨tr, _, to_fifo h1 (fun t i hm => no_prio_calls as e t i (h2 ▸ hm)), h2⟩

/-- C55 if calls are made one at a time, and no insertion throws: the target is a FIFO queue with the contents of the source, size(), empty() and
try_peek included. -/
theorem move_target_sequential_partial (as : List (Act (Op α))) (s : State α) (h : List (Event (Op α) (Out α)))
    (e : (queue α).oneAtATime.run (queue α).oneAtATime.init as = some ((s, false), h)) (as' : List (Act (Op α)))
    (s' : State α × Bool) (h' : List (Event (Op α) (Out α)))
    (e' : (queue α).oneAtATime.run (s.moveFrom.1, false) as' = some (s', h'))
    (hx : ∀ t v, .call t (.ins (.thrown v)) ∉ h) (hx' : ∀ t v, .call t (.ins (.thrown v)) ∉ h') :
    Linearizable ((fifoSpec α).from (s.pull.reverse ++ s.push)) h' := by
  obtain ⟨h1, h2⟩ := sequential_state as s h e hx
  have e0 := Sys.oneAtATime_run as e
  have hp0 : s.prio = [] := ((sound_obtained (.use .new e0)).noPrio rfl).1
  have e1 := Sys.oneAtATime_run as' e'
  have hp : ∀ t i, .call t (.prio i) ∉ h' := no_prio_calls as' e1
  have hpush : s.pull = [] → s.push = [] := by
    intro hl
    rw [hl] at h2
    simpa using h2.symm
  have k : KSeq false ([], s.pull.reverse ++ s.push) (s.moveFrom.1, false) [] := by
    refine ⟨⟨⟨s.moveFrom.1.contents, fun _ => .idle⟩, ?_, idle_rel (fun _ => rfl) rfl rfl (fun _ => hp0) rfl (fun _ => rfl)⟩,
      ⟨?_, fun t h => (by cases h)⟩, hp0, fun _ h => (by cases h), 0, fun _ _ => rfl, fun _ => rfl, ?_⟩
    · simp [TSteps, State.contents, State.moveFrom, hp0]
    · intro hf
      simp only [State.moveFrom, hp0, Bool.and_eq_true, List.isEmpty_iff] at hf ⊢
      exact ⟨hpush hf.1, hf.1, .inl trivial⟩
    · intro hl
      simp only [State.moveFrom, hp0] at hl ⊢
      simp [hl]
  obtain ⟨tr, h3, k'⟩ := (seqSim false _).run_from as' k 
    (fun t op hm => ⟨fun i he => hp t i (he ▸ Sys.run_calls as' e1 t op hm), fun v he => hx' t v (he ▸ Sys.run_calls as' e1 t op hm)⟩)
    (fun _ _ _ => trivial) e'
  obtain ⟨g, h4, _⟩ := k'.rel
  have h3 : erase tr = h' := by simpa [erase] using h3
  exact ⟨tr, _, TSteps.from _ (to_fifo h4 (fun t i hm => hp t i (h3 ▸ hm))), h3⟩

/-- C55 fails for empty(): after popOrCall (its function pushing 7, which is returned) and push(8), a queue constructed by
move holds 8, but its empty() says true. -/
theorem move_violation : ∃ as s h, (queue Nat).run (queue Nat).init as = some (s, h) ∧ s.idle ∧
    s.moveFrom.1.pull.reverse ++ s.moveFrom.1.push = [8] ∧
    ∃ s', (queue Nat).run s.moveFrom.1 (begin 0 .empty 2 ++ begin 0 .tryPop 17) =
      some (s', [.call 0 .empty, .ret 0 (.bool true), .call 0 .tryPop, .ret 0 (.val (some 8))]) := by
  refine ⟨begin 0 .popOrCall 8 ++ begin 1 (.ins (.push 7)) 11 ++ go 0 7 ++ begin 0 (.ins (.push 8)) 7, _, _, rfl, ?_, rfl, _, rfl⟩
  intro t
  match t with
  | 0 => rfl
  | 1 => rfl
  | n + 2 => rfl

/-- C55 fails for the source: after push(7) and a move its empty() says false. -/
theorem move_source_violation : ∃ as s h, (queue Nat).run (queue Nat).init as = some (s, h) ∧ s.idle ∧
    ∃ s', (queue Nat).run s.moveFrom.2 (begin 0 .empty 2) = some (s', [.call 0 .empty, .ret 0 (.bool false)]) := by
  refine ⟨begin 0 (.ins (.push 7)) 11, _, _, rfl, ?_, _, rfl⟩
  intro t
  match t with
  | 0 => rfl
  | n + 1 => rfl

/-- A source with elements in both vectors. -/
example : ∃ s : State Nat, Obtained false s ∧ s.idle ∧ s.pull = [7] ∧ s.push = [8] ∧
    ∃ s', (queue Nat).run s.moveFrom.1 (begin 0 .tryPop 13) = some (s', [.call 0 .tryPop, .ret 0 (.val (some 7))]) := by
  refine ⟨_, .use (as := begin 0 (.ins (.push 7)) 11 ++ begin 1 (.ins (.push 8)) 7) .new rfl, ?_, rfl, rfl, _, rfl⟩
  intro t
  match t with
  | 0 => rfl
  | 1 => rfl
  | n + 2 => rfl

/-! ### C78 exceptions -/

/-- is the result an exception? -/
def Out.isThrow : Out α → Bool
  | .threw => true
  | _ => false

theorem fifo_throw {q q' : List α} {op : Op α} {o : Out α} (hl : op.loses = false) (hs : fifo q op = some (q', o))
    (ho : Out.isThrow o = true) : q' = q := by
  cases op with
  | ins i => cases i <;> cases hs <;> first | rfl | cases ho
  | tryPopX l | popX l | timedPopX l | popOrCallX l =>
    cases hl
    cases q <;> cases hs <;> first | rfl | cases ho
  | pop | popOrCall | popOrCallF | peekX => cases q <;> cases hs <;> first | rfl | cases ho
  | _ => cases hs <;> first | rfl | cases ho

/-- C78, C103: whatever calls throw, the history of push, emplace, try_pop, pop, timed pop, popOrCall, clear and reserve
without the calls that threw is the history of a FIFO queue on which they were never made.  Missing: size(), empty() and
try_peek, see `throw_empty_violation` and `throw_peek_violation`, and pops that throw having removed an element, see
`pop_throw_violation`. -/
theorem throw_no_effect_partial (as : List (Act (Op α))) (s : State α) (h : List (Event (Op α) (Out α)))
    (e : (queue α).run (queue α).init as = some (s, h))
    (hn : ∀ t op, .call t op ∈ h → op.observes = false ∧ op.loses = false) :
    Linearizable (fifoSpec α) (without Out.isThrow h) := by
  refine (linearizable as s h e (fun t op hm => (hn t op hm).1)).withoutOf (fun op => !op.loses) ?_
    (fun t op hm => by simp [(hn t op hm).2])
  intro q op q' o hl hs ho
  exact fifo_throw (by simpa using hl) hs ho

/-- C78: in the FIFO queue of `fifoSpec` an insertion throws if and only if its element cannot be constructed. -/
theorem throw_result (q q' : List α) (i : Ins α) (o : Out α) (hs : fifo q (.ins i) = some (q', o)) :
    o = .threw ↔ ∃ v, i = .thrown v := by
  cases i <;> cases hs <;> simp

/-- C78: also after exceptions no lock stays held: when no call is in progress but sleeping ones, both locks are free. -/
theorem throw_releases_locks (s : State α) (hs : Obtained false s) (hr : s.atRest) : s.pullOwner = none ∧ s.pushOwner = none :=
  atRest_locks hr (sound_obtained hs).locks

/-- C78 fails for empty(): push throws on a new queue, all calls have returned, the queue is empty, and empty() says false. -/
theorem throw_empty_violation : ∃ as s h, (queue Nat).oneAtATime.run (queue Nat).oneAtATime.init as = some (s, h) ∧
    h = [.call 0 (.ins (.thrown 7)), .ret 0 .threw, .call 0 .empty, .ret 0 (.bool false)] ∧
    s.2 = false ∧ s.1.contents = ([], []) ∧ ¬ Linearizable (fifoSpec Nat) h := by
  refine ⟨begin 0 (.ins (.thrown 7)) 10 ++ begin 0 .empty 2, _, _, rfl, rfl, rfl, rfl, ?_⟩
  exact not_linearizable (ts := [0]) rfl (by decide)

/-- C78 fails for try_peek: push throws on a new queue, push(8) succeeds, and try_peek finds nothing. -/
theorem throw_peek_violation : ∃ as s h, (queue Nat).oneAtATime.run (queue Nat).oneAtATime.init as = some (s, h) ∧
    h = [.call 0 (.ins (.thrown 7)), .ret 0 .threw, .call 0 (.ins (.push 8)), .ret 0 .unit, .call 0 .peek, .ret 0 (.peek none)] ∧
    s.2 = false ∧ s.1.contents = ([], [8]) ∧ ¬ Linearizable (fifoSpec Nat) h := by
  refine ⟨begin 0 (.ins (.thrown 7)) 10 ++ begin 0 (.ins (.push 8)) 7 ++ begin 0 .peek 4, _, _, rfl, rfl, rfl, rfl, ?_⟩
  exact not_linearizable (ts := [0]) rfl (by decide)

/-- C78 and C51 fail with one consumer and one producer: the consumer waits in pop(); a push throws, having cleared
queueEmptyFlag, and notifies nobody; the next push, finding the flag cleared, does not notify either.  All calls of the
producer have returned, and the consumer sleeps although the queue holds 8. -/
theorem throw_wakeup_violation : ∃ as s, (queue Nat).run (queue Nat).init as = some (s, [.call 1 .pop,
      .call 2 (.ins (.thrown 7)), .ret 2 .threw, .call 2 (.ins (.push 8)), .ret 2 .unit]) ∧
    s.atRest ∧ 1 ∈ s.waiting ∧ s.pull.reverse ++ s.push = [8] := by
  refine ⟨begin 1 .pop 11 ++ begin 2 (.ins (.thrown 7)) 10 ++ begin 2 (.ins (.push 8)) 7, _, rfl, ?_, by decide, rfl⟩
  intro t
  match t with
  | 0 => exact .inl rfl
  | 1 => exact .inr ⟨.pop .ok, rfl⟩
  | 2 => exact .inl rfl
  | n + 3 => exact .inl rfl

set_option maxRecDepth 8000 in
/-- An execution in which insertions throw in three places: into pullElements of an empty queue, into pushElements of a
queue that is not empty, and into pushElements when pushElements is not empty. -/
example : ∃ s, (queue Nat).run (queue Nat).init
    (begin 0 (.ins (.thrown 6)) 10 ++ begin 0 .tryPop 9 ++ begin 0 (.ins (.push 7)) 11 ++ begin 0 (.ins (.thrown 6)) 6 ++
      begin 0 (.ins (.push 8)) 7 ++ begin 0 (.ins (.thrown 6)) 5 ++ begin 0 .tryPop 13 ++ begin 0 .tryPop 12) = some (s,
    [.call 0 (.ins (.thrown 6)), .ret 0 .threw, .call 0 .tryPop, .ret 0 (.val none), .call 0 (.ins (.push 7)), .ret 0 .unit,
     .call 0 (.ins (.thrown 6)), .ret 0 .threw, .call 0 (.ins (.push 8)), .ret 0 .unit, .call 0 (.ins (.thrown 6)), .ret 0 .threw,
     .call 0 .tryPop, .ret 0 (.val (some 7)), .call 0 .tryPop, .ret 0 (.val (some 8))]) ∧ s.idle := by
  refine ⟨_, rfl, ?_⟩
  intro t
  match t with
  | 0 => rfl
  | n + 1 => rfl

/-! ### C103 exceptions in pops and try_peek -/

/-- C103 with try_peek: whatever calls throw, the history without the calls that threw is that of a FIFO queue on which they
were never made, also the results `true` of empty() and an element of try_peek.  Missing: size(), the other results of
empty() and try_peek, see `empty_violation` and `peek_violation`, and pops that throw having removed an element, see
`pop_throw_violation`. -/
theorem pop_throw_no_effect_partial (as : List (Act (Op α))) (s : State α) (h : List (Event (Op α) (Out α)))
    (e : (queue α).run (queue α).init as = some (s, h)) (hn : ∀ t op, .call t op ∈ h → op ≠ .size ∧ op.loses = false)
    (h1 : ∀ t, .ret t (.bool false) ∉ h) (h2 : ∀ t, .ret t (.peek none) ∉ h) :
    Linearizable (fifoSpec α) (without Out.isThrow h) := by
  refine (linearizable_observing_partial as s h e (fun t hm => (hn t _ hm).1 rfl) h1 h2).withoutOf (fun op => !op.loses) ?_
    (fun t op hm => by simp [(hn t op hm).2])
  intro q op q' o hl hs ho
  exact fifo_throw (by simpa using hl) hs ho

/-- C103: in the FIFO queue of `fifoSpec` a try_pop, pop or try_peek whose element cannot be moved or copied throws if there
is an element, popOrCall with a function that throws throws if there is none, and no other pop or try_peek throws. -/
theorem pop_throw_result (q q' : List α) (op : Op α) (o : Out α) (hs : fifo q op = some (q', o)) (hi : ∀ i, op ≠ .ins i) :
    o = .threw ↔ (q ≠ [] ∧ ∃ l, op = .tryPopX l ∨ op = .popX l ∨ op = .timedPopX l ∨ op = .popOrCallX l) ∨
      (q ≠ [] ∧ op = .peekX) ∨ (q = [] ∧ op = .popOrCallF) := by
  cases op with
  | ins i => exact absurd rfl (hi i)
  | tryPopX l | popX l | timedPopX l | popOrCallX l => cases q <;> cases hs <;> simp
  | pop | popOrCall | popOrCallF | peekX => cases q <;> cases hs <;> simp
  | _ => cases hs <;> simp

/-- C103: whatever throws, wherever: nothing is duplicated, invented or reordered.  There is an order of the calls,
consistent with the history, in which the values taken out, followed by those left, were inserted in this order; if clear
is not called, only as many are missing as pops threw having removed an element. -/
theorem throw_conservation (as : List (Act (Op α))) (s : State α) (h : List (Event (Op α) (Out α)))
    (e : (queue α).run (queue α).init as = some (s, h)) (hn : ∀ t op, .call t op ∈ h → op.observes = false) :
    ∃ tr g, TSteps (fifoSpec α) (fifoSpec α).ghost tr g ∧ erase tr = h ∧ (removed tr ++ g.q).Sublist (inserted tr) ∧
      ((∀ t, .call t .clear ∉ h) → (inserted tr).length = (removed tr).length + g.q.length + losses tr) ∧
      (s.atRest → g.q = s.pull.reverse ++ s.push) := by
  obtain ⟨tr, g, h1, h2, h3⟩ := trace_plain K.init Quiet.init as e hn
  have h4 := to_fifo h1 (fun t i hm => no_prio_calls as e t i (h2 ▸ hm))
  refine ⟨tr, _, h4, h2, ?_, fun hc => ?_, fun hr => by rw [h3 hr]; rfl⟩
  · simpa using fifo_sub tr h4
  · simpa using fifo_count tr (lin_called tr h4 (by intro t h; cases h) (fun t hm => hc t (h2 ▸ hm))) h4

/-- C103 fails: push(7); pop() throws when it moves the element, already removed, into its result; then the queue is empty:
the element is lost. -/
theorem pop_throw_violation : ∃ as s h, (queue Nat).oneAtATime.run (queue Nat).oneAtATime.init as = some (s, h) ∧
    h = [.call 0 (.ins (.push 7)), .ret 0 .unit, .call 0 (.popX true), .ret 0 .threw, .call 0 .tryPop, .ret 0 (.val none)] ∧
    s.2 = false ∧ s.1.contents = ([], []) ∧ ¬ Linearizable (fifoSpec Nat) (without Out.isThrow h) := by
  refine ⟨begin 0 (.ins (.push 7)) 11 ++ begin 0 (.popX true) 12 ++ begin 0 .tryPop 9, _, _, rfl, rfl, rfl, rfl, ?_⟩
  exact not_linearizable (ts := [0]) rfl (by decide)

set_option maxRecDepth 8000 in
/-- An execution in which pop throws before and after waiting, the function of popOrCall throws, and try_peek throws. -/
example : ∃ s, (queue Nat).run (queue Nat).init
    (begin 1 (.popX false) 11 ++ begin 0 (.ins (.push 7)) 11 ++ go 1 6 ++ begin 1 (.timedPopX false) 6 ++ begin 1 .peekX 5 ++
      begin 1 .popOrCallF 12 ++ begin 1 .popOrCallF 10) = some (s,
    [.call 1 (.popX false), .call 0 (.ins (.push 7)), .ret 0 .unit, .ret 1 .threw, .call 1 (.timedPopX false), .ret 1 .threw,
     .call 1 .peekX, .ret 1 .threw, .call 1 .popOrCallF, .ret 1 (.val (some 7)), .call 1 .popOrCallF, .ret 1 .threw]) ∧ s.idle := by
  refine ⟨_, rfl, ?_⟩
  intro t
  match t with
  | 0 => rfl
  | 1 => rfl
  | n + 2 => rfl

/-! ### C109 waiting -/

/-- C109: in every execution, each call of each thread that has ended has waited, and has called the function passed to
popOrCall, as `waiting` says: pop(timeout) returns nothing only after a wait that ended with a timeout, popOrCall calls
the function before each wait, try_pop and the others do not wait. -/
theorem waits (as : List (Act (Op α))) (s : State α) (h : List (Event (Op α) (Out α))) (t : Nat)
    (e : (queue α).run (queue α).init as = some (s, h)) (a d m : List (Mark α)) (op : Op α) (o : Out α)
    (hw : watch false t (queue α).init as = a ++ .call op :: (m ++ .ret o :: d)) (hm : ∀ x ∈ m, x.inner = true) : waiting op o m :=
  waits_main e a op m o d hw hm

/-- C109, pop(timeout): what `waiting` says about it.  If it returns nothing, its last wait has ended with a timeout and the
ones before without. -/
theorem timeout_elapsed (as : List (Act (Op α))) (s : State α) (h : List (Event (Op α) (Out α))) (t : Nat)
    (e : (queue α).run (queue α).init as = some (s, h)) (a d m : List (Mark α))
    (hw : watch false t (queue α).init as = a ++ .call .timedPop :: (m ++ .ret (.val none) :: d)) (hm : ∀ x ∈ m, x.inner = true) :
    ∃ n, m = (List.replicate n [.waits, .woken]).flatten ++ [.waits, .timeout] := by
  rcases waits as s h t e a d m _ _ hw hm with h | ⟨m', ⟨n, rfl⟩, rfl⟩
  · exact absurd rfl h.2
  · exact ⟨n, rfl⟩

/-- C109: while the function passed to popOrCall runs, the calling thread holds neither lock, so that the function can use
the queue. -/
theorem function_unlocked (s : State α) (hs : Obtained false s) (t : Nat) (f : Fate) (h : s.loc t = .wCall f) :
    s.pullOwner ≠ some t ∧ s.pushOwner ≠ some t := by
  have k := (sound_obtained hs).locks
  refine ⟨fun h' => ?_, fun h' => ?_⟩
  · have := (k.pull t).2 h'; rw [h] at this; cases this
  · have := (k.push t).2 h'; rw [h] at this; cases this

/-- C109: if the function passed to popOrCall, or anybody else, has put something into the queue while the function ran,
popOrCall takes the first element without waiting; all calls that may wait being made by the thread `p`.  Missing: several
waiting threads and insertions that throw, see `function_fills_violation`. -/
theorem function_fills_partial (as : List (Act (Op α))) (s : State α) (h : List (Event (Op α) (Out α))) (p : Nat)
    (e : (queue α).run (queue α).init as = some (s, h))
    (ho : ∀ t op, .call t op ∈ h → t = p ∨ op.waits = false)
    (hx : ∀ t v, .call t (.ins (.thrown v)) ∉ h)
    (hp : s.loc p = .wCall .ok) (hi : ∀ t, t ≠ p → s.loc t = .idle) (x : α) (q : List α)
    (hq : s.pull.reverse ++ s.push = x :: q) :
    ∃ s', (queue α).run s (go p 7) = some (s', [.ret p (.val (some x))]) ∧ s'.pull.reverse ++ s'.push = q ∧ s'.idle := by
  have k := wakes_run (p := p) as e (fun t op hm => ⟨(ho t op hm).elim .inl (fun h => .inr ⟨h, fun h => by cases h⟩),
    fun v => ⟨fun he => hx t v (he ▸ hm), fun he => no_prio_calls as e t _ (he ▸ hm)⟩⟩)
  have np := (k.inv.noPrio rfl).1
  have no : ∀ (P : Loc α → Bool), P .idle = false → P (.wCall .ok) = false → ¬ ∃ u, P (s.loc u) = true := by
    rintro P h1 h2 ⟨u, hu⟩
    by_cases hu' : u = p
    · subst hu'; rw [hp, h2] at hu; cases hu
    · rw [hi u hu', h1] at hu; cases hu
  have hown : s.pullOwner = none := by
    cases hown : s.pullOwner with
    | none => rfl
    | some u => exact absurd ⟨u, (k.inv.locks.pull u).2 hown⟩ (no holdsPull rfl rfl)
  have hpull : s.pull ≠ [] := by
    rcases k.drowsy (by rw [hp]; rfl) with (h | h) | h | h | h
    · obtain ⟨h1, h2, _⟩ := k.inv.flag.empty h
      rw [h1, h2] at hq; cases hq
    · exact absurd h (no notifies rfl rfl)
    · exact h
    · exact absurd np h
    · exact absurd h (no fixing rfl rfl)
  have hrev : s.pull = s.pull.dropLast ++ [x] := by
    rcases s.pull.eq_nil_or_concat with h | ⟨l, y, h⟩
    · exact absurd h hpull
    · rw [h] at hq ⊢
      simp at hq
      simp [hq.1]
  have hlast : s.pull.getLast? = some x := by rw [hrev]; simp
  refine ⟨?_, ?_, ?_, ?_⟩
  · exact { s with pull := s.pull.dropLast, loc := upd s.loc p .idle }
  · simp [go, Sys.run, Sys.exec, sys, State.stepAt, hp, State.goto, State.lockPull, State.unlockPull, hown, upd_same, hpull, hlast,
      State.moveOut, Kind.fate, Kind.result, upd_upd]
  · rw [hrev] at hq
    simp at hq
    exact hq
  · intro t
    by_cases ht : t = p
    · subst ht; exact upd_same _ _ _
    · exact (upd_ne _ _ ht).trans (hi t ht)

/-- C109 fails for popOrCall with two consumers: both are in popOrCall and have found nothing; the function of thread 1
(here: thread 3) pushes 7, thread 2 takes it without setting queueEmptyFlag, the function pushes 8.  Then thread 1 waits although
the queue holds 8, and no other call is in progress. -/
theorem function_fills_violation : ∃ as s s', (queue Nat).run (queue Nat).init as = some (s, [.call 1 .popOrCall, .call 2 .popOrCall,
      .call 3 (.ins (.push 7)), .ret 3 .unit, .ret 2 (.val (some 7)), .call 3 (.ins (.push 8)), .ret 3 .unit]) ∧
    s.loc 1 = .wCall .ok ∧ (∀ t, t ≠ 1 → s.loc t = .idle) ∧ s.pull.reverse ++ s.push = [8] ∧
    (queue Nat).run s (go 1 4) = some (s', []) ∧ 1 ∈ s'.waiting := by
  refine ⟨begin 1 .popOrCall 8 ++ begin 2 .popOrCall 8 ++ begin 3 (.ins (.push 7)) 11 ++ go 2 7 ++ begin 3 (.ins (.push 8)) 7, _, _, rfl,
    rfl, ?_, rfl, rfl, by decide⟩
  intro t ht
  match t, ht with
  | 0, _ => rfl
  | 2, _ => rfl
  | 3, _ => rfl
  | n + 4, _ => rfl

set_option maxRecDepth 8000 in
/-- pop(timeout) waits, is woken spuriously, waits again until the timeout and returns nothing; popOrCall calls its function,
waits, and takes what is pushed. -/
example : ∃ as s h, (queue Nat).run (queue Nat).init as = some (s, h) ∧
    watch false 1 (queue Nat).init as = [.call .timedPop, .waits, .woken, .waits, .timeout, .ret (.val none), .call .popOrCall, .fn, .waits,
      .woken, .ret (.val (some 7)), .call .tryPop, .ret (.val none)] := by
  exact ⟨begin 1 .timedPop (8 + 3 + 1 + 3 + 8 + 3) ++ [.move 1 1] ++ go 1 (3 + 8 + 1) ++ begin 1 .popOrCall (8 + 4) ++
    begin 0 (.ins (.push 7)) 11 ++ go 1 7 ++ begin 1 .tryPop (8 + 1), _, _, rfl, rfl⟩

/-- the state of `function_fills_partial`: the function has pushed 7 and 8 -/
example : ∃ as s h, (queue Nat).run (queue Nat).init as = some (s, h) ∧ h = [.call 1 .popOrCall, .call 3 (.ins (.push 7)), .ret 3 .unit,
      .call 3 (.ins (.push 8)), .ret 3 .unit] ∧ s.loc 1 = .wCall .ok ∧ (∀ t, t ≠ 1 → s.loc t = .idle) ∧ s.pull.reverse ++ s.push = [7, 8] := by
  refine ⟨begin 1 .popOrCall 8 ++ begin 3 (.ins (.push 7)) 11 ++ begin 3 (.ins (.push 8)) 7, _, _, rfl, rfl, rfl, ?_, rfl⟩
  intro t ht
  match t, ht with
  | 0, _ => rfl
  | 2, _ => rfl
  | 3, _ => rfl
  | n + 4, _ => rfl

end Verif.BlockingQueue
