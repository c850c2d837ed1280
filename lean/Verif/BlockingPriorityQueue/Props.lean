import Verif.Blocking.Move
import Verif.Blocking.Waits
import Verif.Conc.Check
import Verif.Conc.Without

/-
The properties C56-C59, C79, C104 and C110 of BlockingPriorityQueue: the model `sys true`, see Verif/Blocking/Model.lean, and the two level
queue `twoSpec` of Verif/Blocking/Spec.lean.
-/
namespace Verif.BlockingPriorityQueue
open Verif.Conc Verif.Blocking

variable {α : Type}

/-- BlockingPriorityQueue -/
abbrev queue (α : Type) : Sys (State α) (Op α) (Out α) := sys true α

/-- thread `t` begins a call and takes `n` steps -/
def begin (t : Nat) (op : Op α) (n : Nat) : List (Act (Op α)) := .call t op :: List.replicate n (.move t 0)

/-- thread `t` takes `n` steps -/
def go (t n : Nat) : List (Act (Op α)) := List.replicate n (.move t 0)

/-- BlockingPriorityQueue has no size() -/
theorem no_size (as : List (Act (Op α))) : ∀ {s s' : State α} {h : List (Event (Op α) (Out α))},
    (queue α).run s as = some (s', h) → ∀ t, .call t .size ∉ h := by
  induction as with
  | nil => intro s s' h e t hm; cases e; cases hm
  | cons a as ih =>
    intro s s' h e t hm
    simp only [Sys.run, Option.bind_eq_some_iff, Option.map_eq_some_iff] at e
    obtain ⟨⟨s1, h1⟩, e1, ⟨s2, h2⟩, e2, e3⟩ := e
    cases e3
    rcases List.mem_append.1 hm with hm | hm
    · cases a with
      | call u op =>
        simp only [Sys.exec, Option.map_eq_some_iff] at e1
        obtain ⟨s3, e1, e3⟩ := e1
        cases e3
        simp only [List.mem_singleton, Event.call.injEq] at hm
        obtain ⟨rfl, rfl⟩ := hm
        simp only [sys, State.call, State.start] at e1
        split at e1 <;> simp at e1
      | move u d =>
        simp only [Sys.exec, Option.map_eq_some_iff] at e1
        obtain ⟨⟨s3, o'⟩, e1, e3⟩ := e1
        cases e3
        cases o' <;> simp at hm
    · exact ih e2 t hm

/-! ### C56 linearizability -/

/-- C56: every history of push, emplace, pushPriority, emplacePriority, try_pop, pop, timed pop, popOrCall, clear and
reserve is that of a two level FIFO queue. -/
theorem linearizable (as : List (Act (Op α))) (s : State α) (h : List (Event (Op α) (Out α)))
    (e : (queue α).run (queue α).init as = some (s, h)) (hn : ∀ t op, .call t op ∈ h → op.observes = false) :
    Linearizable (twoSpec α) h := by
  obtain ⟨tr, g, h1, h2, _⟩ := trace_plain K.init Quiet.init as e hn
  exact ⟨tr, g, h1, h2⟩

/-- C56: nothing is lost, duplicated or invented.  If clear is not called and no pop throws after having removed an element,
there is an order of the calls, consistent with
the history, in which the values inserted are, up to their order, the values taken out and values still to come; when no
call is in progress but sleeping ones, these are the contents. -/
theorem conservation (as : List (Act (Op α))) (s : State α) (h : List (Event (Op α) (Out α)))
    (e : (queue α).run (queue α).init as = some (s, h)) (hn : ∀ t op, .call t op ∈ h → op.observes = false ∧ op ≠ .clear ∧ op.loses = false) :
    ∃ tr g, TSteps (twoSpec α) (twoSpec α).ghost tr g ∧ erase tr = h ∧
      (inserted tr).Perm (removed tr ++ (g.q.1 ++ g.q.2)) ∧ (s.atRest → g.q = (s.prio, s.pull.reverse ++ s.push)) := by
  obtain ⟨tr, g, h1, h2, h3⟩ := trace_plain K.init Quiet.init as e (fun t op hm => (hn t op hm).1)
  refine ⟨tr, g, h1, h2, ?_, h3⟩
  have := two_conserved tr (lin_called tr h1 (by intro t h; cases h) (fun t hm => (hn t _ (h2 ▸ hm)).2.1 rfl)) ?_ h1
  · simpa using this
  intro t op o hm
  cases hl : op.loses with
  | false => rfl
  | true =>
    refine absurd hm (lin_called tr h1 (by intro t h; cases h) (fun t hm => ?_) t o)
    rw [(hn t _ (h2 ▸ hm)).2.2] at hl; cases hl

/-- C56 with empty() and try_peek: also their results `true` and an element, respectively, are those of the two level
queue.  Missing: the other results, see `empty_violation` and `peek_violation`. -/
theorem linearizable_observing_partial (as : List (Act (Op α))) (s : State α) (h : List (Event (Op α) (Out α)))
    (e : (queue α).run (queue α).init as = some (s, h)) (h1 : ∀ t, .ret t (.bool false) ∉ h)
    (h2 : ∀ t, .ret t (.peek none) ∉ h) : Linearizable (twoSpec α) h := by
  obtain ⟨tr, g, h1, h2, _⟩ := trace_all K.init as e (no_size as e) (fun h => by cases h) h1 h2
  exact ⟨tr, g, h1, h2⟩

set_option maxRecDepth 4000 in
/-- A history with a waiting pop, a priority element that overtakes, and an empty try_pop. -/
example : ∃ as s, (queue Nat).run (queue Nat).init as = some (s, [.call 0 .pop, .call 1 (.ins (.push 7)),
    .call 2 (.prio (.emplace 8)), .ret 2 .unit, .ret 1 .unit, .ret 0 (.val (some 8)), .call 1 .tryPop, .ret 1 (.val (some 7)),
    .call 1 .tryPop, .ret 1 (.val none)]) :=
  ⟨begin 0 .pop 13 ++ begin 1 (.ins (.push 7)) 4 ++ begin 2 (.prio (.emplace 8)) 6 ++ go 1 7 ++ go 0 7 ++ begin 1 .tryPop 13 ++
    begin 1 .tryPop 10, _, rfl⟩

/-! ### C57 wake-ups -/

/-- C57 if all calls that take elements out are made by one thread `p` (any number of other threads push and clear):
whenever `p` waits and the queue holds an element, some thread is on its way to notify: it has found queueEmptyFlag set
and has not yet called notify_all, or it is about to find it set (P168).  Missing: several threads taking elements out,
see `wakeup_violation`, and insertions that throw, see `throw_wakeup_violation`. -/
theorem no_lost_wakeup_partial (as : List (Act (Op α))) (s : State α) (h : List (Event (Op α) (Out α))) (p : Nat)
    (e : (queue α).run (queue α).init as = some (s, h))
    (ho : ∀ t op, .call t op ∈ h → t = p ∨ (op.waits = false ∧ op.tries = false))
    (hx : ∀ t v, .call t (.ins (.thrown v)) ∉ h ∧ .call t (.prio (.thrown v)) ∉ h)
    (hp : p ∈ s.waiting) (hne : s.prio ≠ [] ∨ s.pull ≠ [] ∨ s.push ≠ []) :
    ∃ u, notifies (s.loc u) = true ∨ ((∃ i, s.loc u = .gCas i) ∧ s.flag = true) := by
  have k := wakes_run (p := p) as e (fun t op hm => ⟨(ho t op hm).elim .inl (fun h => .inr ⟨h.1, fun _ => h.2⟩),
    fun v => ⟨fun he => (hx t v).1 (he ▸ hm), fun he => (hx t v).2 (he ▸ hm)⟩⟩)
  rcases k.asleep hp with h | ⟨u, h⟩
  · obtain ⟨h1, h2, h3⟩ := k.inv.flag.empty h
    rcases hne with h' | h' | h'
    · rcases h3 with h3 | ⟨i, h3, _⟩
      · exact absurd h3 h'
      · cases ho : s.pullOwner with
        | none => simp [State.puller, ho] at h3
        | some u => exact ⟨u, .inr ⟨⟨i, by simpa [State.puller, ho] using h3⟩, h⟩⟩
    · exact absurd h2 h'
    · exact absurd h1 h'
  · exact ⟨u, .inl h⟩

/-- C57, the same seen from outside: when every call but sleeping ones has returned and the consumer `p` sleeps, the queue
is empty. -/
theorem no_lost_wakeup_atRest_partial (as : List (Act (Op α))) (s : State α) (h : List (Event (Op α) (Out α))) (p : Nat)
    (e : (queue α).run (queue α).init as = some (s, h))
    (ho : ∀ t op, .call t op ∈ h → t = p ∨ (op.waits = false ∧ op.tries = false))
    (hx : ∀ t v, .call t (.ins (.thrown v)) ∉ h ∧ .call t (.prio (.thrown v)) ∉ h)
    (hp : p ∈ s.waiting) (hr : s.atRest) : s.prio = [] ∧ s.pull = [] ∧ s.push = [] := by
  have nn : ¬ ∃ u, notifies (s.loc u) = true ∨ ((∃ i, s.loc u = .gCas i) ∧ s.flag = true) := by
    rintro ⟨u, hu⟩
    rcases hr u with h | ⟨k, h⟩ <;> rw [h] at hu <;> simp [notifies] at hu
  have := no_lost_wakeup_partial as s h p e ho hx hp
  refine ⟨?_, ?_, ?_⟩ <;> refine Classical.byContradiction fun hc => nn (this ?_) <;> simp [hc]

/-- C57: a thread on its way to notify does so after at most seven of its own steps, and then nobody is left waiting; a
thread at P168 that finds queueEmptyFlag set is on its way to notify. -/
theorem notification_arrives (s s' : State α) (t c : Nat) (o : Option (Out α)) (h : (queue α).move t c s = some (s', o)) :
    (notifies (s.loc t) = true → notifyRank (s.loc t) ≤ 7 ∧
      ((notifies (s'.loc t) = true ∧ notifyRank (s'.loc t) < notifyRank (s.loc t)) ∨ s'.waiting = [])) ∧
    ((∃ i, s.loc t = .gCas i) → s.flag = true → notifies (s'.loc t) = true) := by
  refine ⟨fun hn => ⟨?_, notify_progress (b := true) h hn⟩, ?_⟩
  · cases hl : s.loc t <;> simp [notifyRank]
  · rintro ⟨i, hl⟩ hf
    simp only [sys, hl, State.stepAt, hf] at h
    cases h
    simp only [if_true, State.goto, upd_same]; rfl

/-- C57 fails if another thread uses try_pop: the consumer has found nothing; pushPriority notifies before it waits; try_pop
takes the element without setting queueEmptyFlag; the consumer waits; the next push does not notify.  All calls have
returned but that of the consumer, which sleeps although the queue holds 8. -/
theorem wakeup_violation : ∃ as s, (queue Nat).run (queue Nat).init as = some (s, [.call 1 .pop, .call 3 (.prio (.push 7)),
      .ret 3 .unit, .call 2 .tryPop, .ret 2 (.val (some 7)), .call 3 (.ins (.push 8)), .ret 3 .unit]) ∧
    s.atRest ∧ 1 ∈ s.waiting ∧ (s.prio, s.pull.reverse ++ s.push) = ([], [8]) := by
  refine ⟨begin 1 .pop 9 ++ begin 3 (.prio (.push 7)) 7 ++ begin 2 .tryPop 6 ++ go 1 4 ++ begin 3 (.ins (.push 8)) 7, _, rfl,
    ?_, by decide, rfl⟩
  intro t
  match t with
  | 0 => exact .inl rfl
  | 1 => exact .inr ⟨.pop .ok, rfl⟩
  | 2 => exact .inl rfl
  | 3 => exact .inl rfl
  | n + 4 => exact .inl rfl

/-- A waiting consumer, a priority element in the queue, and the producer about to notify. -/
example : ∃ as s h, (queue Nat).run (queue Nat).init as = some (s, h) ∧ h.length = 2 ∧ 1 ∈ s.waiting ∧ s.prio = [7] ∧
    notifies (s.loc 3) = true :=
  ⟨begin 1 .pop 13 ++ begin 3 (.prio (.push 7)) 4, _, _, rfl, rfl, by decide, rfl, rfl⟩

/-! ### C58 empty and try_peek -/

/-- C58 for calls made one at a time (each call returns before the next begins) other than pushPriority and
emplacePriority, no insertion throwing: all results, those of empty() and try_peek included, are those of the queue.
Missing: the priority channel, see `empty_violation` and `peek_violation`, and insertions that throw, see
`throw_empty_violation`. -/
theorem sequential_partial (as : List (Act (Op α))) (s : State α × Bool) (h : List (Event (Op α) (Out α)))
    (e : (queue α).oneAtATime.run (queue α).oneAtATime.init as = some (s, h)) (hp : ∀ t i, .call t (.prio i) ∉ h)
    (hx : ∀ t v, .call t (.ins (.thrown v)) ∉ h) : Linearizable (twoSpec α) h := by
  have e0 := Sys.oneAtATime_run as e
  obtain ⟨tr, h2, k⟩ := (seqSim true ([], [])).run_from as KSeq.init 
    (fun t op hm => ⟨fun i he => hp t i (he ▸ Sys.run_calls as e0 t op hm), fun v he => hx t v (he ▸ Sys.run_calls as e0 t op hm)⟩)
    (fun _ _ _ => trivial) e
  obtain ⟨g, h1, _⟩ := k.rel
  exact ⟨tr, g, h1, by simpa [erase] using h2⟩

/-- A history of one call at a time with the observers. -/
example : ∃ as s, (queue Nat).oneAtATime.run (queue Nat).oneAtATime.init as = some (s, [.call 0 (.ins (.push 7)), .ret 0 .unit,
    .call 1 (.ins (.push 8)), .ret 1 .unit, .call 0 .peek, .ret 0 (.peek (some 7)), .call 0 .empty, .ret 0 (.bool false)]) :=
  ⟨begin 0 (.ins (.push 7)) 11 ++ begin 1 (.ins (.push 8)) 7 ++ begin 0 .peek 6 ++ begin 0 .empty 2, _, rfl⟩

/-- C58 fails for empty(): pushPriority(7), try_pop, and empty() says false. -/
theorem empty_violation : ∃ as s h, (queue Nat).oneAtATime.run (queue Nat).oneAtATime.init as = some (s, h) ∧
    ¬ Linearizable (twoSpec Nat) h ∧ s.2 = false ∧ s.1.contents = ([], []) := by
  refine ⟨begin 0 (.prio (.push 7)) 7 ++ begin 0 .tryPop 6 ++ begin 0 .empty 2, _,
    [.call 0 (.prio (.push 7)), .ret 0 .unit, .call 0 .tryPop, .ret 0 (.val (some 7)), .call 0 .empty, .ret 0 (.bool false)],
    rfl, ?_, rfl, rfl⟩
  exact not_linearizable (ts := [0]) rfl (by decide)

/-- C58 fails for try_peek: pushPriority(7), push(8), try_pop, and try_peek finds nothing, though try_pop then returns 8. -/
theorem peek_violation : ∃ as s h, (queue Nat).oneAtATime.run (queue Nat).oneAtATime.init as = some (s, h) ∧
    ¬ Linearizable (twoSpec Nat) h ∧ ∀ t, .call t .empty ∉ h := by
  refine ⟨begin 0 (.prio (.push 7)) 7 ++ begin 0 (.ins (.push 8)) 7 ++ begin 0 .tryPop 6 ++ begin 0 .peek 5, _,
    [.call 0 (.prio (.push 7)), .ret 0 .unit, .call 0 (.ins (.push 8)), .ret 0 .unit, .call 0 .tryPop, .ret 0 (.val (some 7)),
     .call 0 .peek, .ret 0 (.peek none)],
    rfl, ?_, by simp⟩
  exact not_linearizable (ts := [0]) rfl (by decide)

/-! ### C59 deadlock and races -/

/-- C59: no call reaches undefined behaviour (front(), back(), pop() or pop_back() of an empty container), on any object:
new, used, moved to or moved from. -/
theorem no_crash (s : State α) (hs : Obtained true s) (t : Nat) : s.loc t ≠ .crash :=
  Blocking.no_crash (sound_obtained hs).locks (sound_obtained hs).facts t

/-- C59: whenever a call is unfinished and not waiting for an element, some such call can take its next step. -/
theorem no_deadlock (s : State α) (hs : Obtained true s) (t : Nat) (ht : s.loc t ≠ .idle) (ha : t ∉ s.waiting) :
    ∃ u r, s.loc u ≠ .idle ∧ u ∉ s.waiting ∧ (queue α).move u 0 s = some r :=
  Blocking.no_deadlock (sound_obtained hs).locks (sound_obtained hs).sleeps (no_crash s hs) t ht ha

/-- C59: every step of a call that is not waiting lowers a rank of at most 30, or, in clear (P57-59), takes an element out
of the priority queue, which is locked; no step of another thread changes the rank. -/
theorem own_steps_bounded : ∃ rank : Loc α → Nat, (∀ l, rank l ≤ 30) ∧ rank .idle = 0 ∧
    (∀ s t c s' o, (queue α).move t c s = some (s', o) → (∀ k, s.loc t ≠ .wSleep k) →
      rank (s'.loc t) < rank (s.loc t) ∨ (rank (s'.loc t) = rank (s.loc t) ∧ s'.prio.length < s.prio.length)) ∧
    (∀ s t c s' o, (queue α).move t c s = some (s', o) → ∀ u, u ≠ t → s'.loc u = s.loc u) := by
  refine ⟨rank, ?_, rfl, ?_, ?_⟩
  · intro l
    cases l with
    | oCheck ck k r => cases ck <;> cases r <;> simp [rank]
    | wTest k w => cases w <;> simp [rank]
    | wPrio k w => cases w <;> simp [rank]
    | _ => simp [rank]
  · intro s t c s' o h h1
    exact stepAt_closer (b := true) h h1
  · intro s t c s' o h u hu
    rw [stepAt_loc (b := true) h, upd_ne _ _ hu]

/-- C59: at most one thread is at a position with an access to pushElements, and it holds m_pushLock; likewise for
pullElements and for the priority queue with m_pullLock. -/
theorem race_free (s : State α) (hs : Obtained true s) (t u : Nat) :
    (usesPush (s.loc t) = true → s.pushOwner = some t) ∧ (usesPull (s.loc t) = true → s.pullOwner = some t) ∧
    (usesPrio (s.loc t) = true → s.pullOwner = some t) ∧
    (usesPush (s.loc t) = true → usesPush (s.loc u) = true → t = u) ∧
    (usesPull (s.loc t) = true → usesPull (s.loc u) = true → t = u) ∧
    (usesPrio (s.loc t) = true → usesPrio (s.loc u) = true → t = u) := by
  have k := (sound_obtained hs).locks
  have hp : ∀ t, usesPush (s.loc t) = true → s.pushOwner = some t := fun t h => (k.push t).1 (usesPush_holds h)
  have hq : ∀ t, usesPull (s.loc t) = true → s.pullOwner = some t := fun t h => (k.pull t).1 (usesPull_holds h)
  have hr : ∀ t, usesPrio (s.loc t) = true → s.pullOwner = some t := fun t h => (k.pull t).1 (usesPrio_holds h)
  refine ⟨hp t, hq t, hr t, ?_, ?_, ?_⟩
  · intro h1 h2; have := (hp t h1).symm.trans (hp u h2); exact Option.some.inj this
  · intro h1 h2; have := (hq t h1).symm.trans (hq u h2); exact Option.some.inj this
  · intro h1 h2; have := (hr t h1).symm.trans (hr u h2); exact Option.some.inj this

/-- C59: the positions listed in `usesPush`, `usesPull` and `usesPrio` are all: at any other position a thread's step
neither depends on nor changes the container. -/
theorem other_steps_independent (s : State α) (t c : Nat) :
    (usesPush (s.loc t) = false → ∀ p, (queue α).move t c { s with push := p } =
      ((queue α).move t c s).map fun r => ({ r.1 with push := p }, r.2)) ∧
    (usesPull (s.loc t) = false → ∀ p, (queue α).move t c { s with pull := p } =
      ((queue α).move t c s).map fun r => ({ r.1 with pull := p }, r.2)) ∧
    (usesPrio (s.loc t) = false → ∀ p, (queue α).move t c { s with prio := p } =
      ((queue α).move t c s).map fun r => ({ r.1 with prio := p }, r.2)) :=
  ⟨fun h p => push_frame h p, fun h p => pull_frame h p, fun h p => prio_frame h p⟩

/-- A state with a vector and the priority queue in use, a third thread being blocked. -/
example : ∃ s : State Nat, Obtained true s ∧ usesPush (s.loc 0) = true ∧ usesPrio (s.loc 1) = true ∧ s.loc 2 ≠ .idle ∧
    (queue Nat).move 2 0 s = none :=
  ⟨_, .use (as := begin 0 (.ins (.push 7)) 1 ++ begin 1 .tryPop 1 ++ begin 2 .clear 0) .new rfl, rfl, rfl, (by intro h; cases h), rfl⟩

/-! ### moves -/

/-- The target of a move construction or assignment from any object without calls in progress: it holds the elements of the
source and behaves from then on as a two level queue with these contents.  Missing: empty() and try_peek, see
`move_violation`. -/
theorem move_target_partial (s : State α) (hs : Obtained true s) (hi : s.idle) (as : List (Act (Op α))) (s' : State α)
    (h : List (Event (Op α) (Out α))) (e : (queue α).run s.moveFrom.1 as = some (s', h))
    (hn : ∀ t op, .call t op ∈ h → op.observes = false) : Linearizable ((twoSpec α).from (s.prio, s.pull.reverse ++ s.push)) h := by
  have k : K false true (s.prio, s.pull.reverse ++ s.push) s.moveFrom.1 [] :=
    K.idle (sound_obtained (.target hs hi)) (fun _ => rfl)
  obtain ⟨tr, g, h1, h2, _⟩ := trace_plain k (Quiet.idle fun _ => rfl) as e hn
  exact ⟨tr, g, TSteps.from _ h1, h2⟩

/-- The source: from then on it is an empty two level queue. -/
theorem move_source (s : State α) (hs : Obtained true s) (hi : s.idle) (as : List (Act (Op α))) (s' : State α)
    (h : List (Event (Op α) (Out α))) (e : (queue α).run s.moveFrom.2 as = some (s', h))
    (hn : ∀ t op, .call t op ∈ h → op.observes = false) : Linearizable (twoSpec α) h := by
  have k : K false true ([], []) s.moveFrom.2 [] := K.idle (sound_obtained (.source hs hi)) hi
  obtain ⟨tr, g, h1, h2, _⟩ := trace_plain k (Quiet.idle hi) as e hn
  exact ⟨tr, g, h1, h2⟩

/-- Moves fail for empty(): after pushPriority(7), push(8) and try_pop, a queue constructed by move holds 8, but its
empty() says true. -/
theorem move_violation : ∃ as s h, (queue Nat).oneAtATime.run (queue Nat).oneAtATime.init as = some ((s, false), h) ∧
    s.moveFrom.1.contents = ([], [8]) ∧
    ∃ s', (queue Nat).run s.moveFrom.1 (begin 0 .empty 2 ++ begin 0 .tryPop 18) =
      some (s', [.call 0 .empty, .ret 0 (.bool true), .call 0 .tryPop, .ret 0 (.val (some 8))]) :=
  ⟨begin 0 (.prio (.push 7)) 7 ++ begin 0 (.ins (.push 8)) 7 ++ begin 0 .tryPop 6, _, _, rfl, rfl, _, rfl⟩

/-- A source with elements in all three containers. -/
example : ∃ s : State Nat, Obtained true s ∧ s.idle ∧ s.prio = [9] ∧ s.pull = [7] ∧ s.push = [8] ∧
    ∃ s', (queue Nat).run s.moveFrom.1 (begin 0 .tryPop 6) = some (s', [.call 0 .tryPop, .ret 0 (.val (some 9))]) := by
  refine ⟨_, .use (as := begin 0 (.ins (.push 7)) 11 ++ begin 1 (.ins (.push 8)) 7 ++ begin 0 (.prio (.push 9)) 6) .new rfl, ?_,
    rfl, rfl, rfl, _, rfl⟩
  intro t
  match t with
  | 0 => rfl
  | 1 => rfl
  | n + 2 => rfl

/-! ### C79 exceptions -/

/-- is the result an exception? -/
def Out.isThrow : Out α → Bool
  | .threw => true
  | _ => false

theorem two_throw {q q' : List α × List α} {op : Op α} {o : Out α} (hl : op.loses = false) (hs : two q op = some (q', o))
    (ho : Out.isThrow o = true) : q' = q := by
  obtain ⟨p, q⟩ := q
  cases op with
  | ins i => cases i <;> cases hs <;> first | rfl | cases ho
  | prio i => cases i <;> cases hs <;> first | rfl | cases ho
  | tryPopX l | popX l | timedPopX l | popOrCallX l =>
    cases hl
    cases p <;> cases q <;> cases hs <;> first | rfl | cases ho
  | tryPop | timedPop | pop | popOrCall | popOrCallF | peekX => cases p <;> cases q <;> cases hs <;> first | rfl | cases ho
  | _ => cases hs <;> first | rfl | cases ho

/-- C79, C104: whatever calls throw, the history of push, emplace, pushPriority, emplacePriority, try_pop, pop, timed pop,
popOrCall, clear and reserve without the calls that threw is the history of a two level queue on which they were never
made.  Missing: empty() and try_peek, see `throw_empty_violation` and `throw_peek_violation`, and pops that throw having
removed an element, see `pop_throw_violation`. -/
theorem throw_no_effect_partial (as : List (Act (Op α))) (s : State α) (h : List (Event (Op α) (Out α)))
    (e : (queue α).run (queue α).init as = some (s, h))
    (hn : ∀ t op, .call t op ∈ h → op.observes = false ∧ op.loses = false) :
    Linearizable (twoSpec α) (without Out.isThrow h) := by
  refine (linearizable as s h e (fun t op hm => (hn t op hm).1)).withoutOf (fun op => !op.loses) ?_
    (fun t op hm => by simp [(hn t op hm).2])
  intro q op q' o hl hs ho
  exact two_throw (by simpa using hl) hs ho

/-- C79: in the queue of `twoSpec` an insertion throws if and only if its element cannot be constructed. -/
theorem throw_result (q q' : List α × List α) (i : Ins α) (o : Out α)
    (hs : two q (.ins i) = some (q', o) ∨ two q (.prio i) = some (q', o)) : o = .threw ↔ ∃ v, i = .thrown v := by
  cases i <;> rcases hs with hs | hs <;> cases hs <;> simp

/-- C79: also after exceptions no lock stays held: when no call is in progress but sleeping ones, both locks are free. -/
theorem throw_releases_locks (s : State α) (hs : Obtained true s) (hr : s.atRest) : s.pullOwner = none ∧ s.pushOwner = none :=
  atRest_locks hr (sound_obtained hs).locks

/-- C79 fails for empty(): pushPriority throws on a new queue, all calls have returned, the queue is empty, and empty() says
false. -/
theorem throw_empty_violation : ∃ as s h, (queue Nat).oneAtATime.run (queue Nat).oneAtATime.init as = some (s, h) ∧
    h = [.call 0 (.prio (.thrown 7)), .ret 0 .threw, .call 0 .empty, .ret 0 (.bool false)] ∧
    s.2 = false ∧ s.1.contents = ([], []) ∧ ¬ Linearizable (twoSpec Nat) h := by
  refine ⟨begin 0 (.prio (.thrown 7)) 6 ++ begin 0 .empty 2, _, _, rfl, rfl, rfl, rfl, ?_⟩
  exact not_linearizable (ts := [0]) rfl (by decide)

/-- C79 fails for try_peek: push throws on a new queue, push(8) succeeds, and try_peek finds nothing. -/
theorem throw_peek_violation : ∃ as s h, (queue Nat).oneAtATime.run (queue Nat).oneAtATime.init as = some (s, h) ∧
    h = [.call 0 (.ins (.thrown 7)), .ret 0 .threw, .call 0 (.ins (.push 8)), .ret 0 .unit, .call 0 .peek, .ret 0 (.peek none)] ∧
    s.2 = false ∧ s.1.contents = ([], [8]) ∧ ¬ Linearizable (twoSpec Nat) h := by
  refine ⟨begin 0 (.ins (.thrown 7)) 10 ++ begin 0 (.ins (.push 8)) 7 ++ begin 0 .peek 5, _, _, rfl, rfl, rfl, rfl, ?_⟩
  exact not_linearizable (ts := [0]) rfl (by decide)

/-- C79 and C57 fail with one consumer and one producer: the consumer waits in pop(); a pushPriority throws, having cleared
queueEmptyFlag, and notifies nobody; the next pushPriority, finding the flag cleared, does not notify either.  All calls of
the producer have returned, and the consumer sleeps although the queue holds 8. -/
theorem throw_wakeup_violation : ∃ as s, (queue Nat).run (queue Nat).init as = some (s, [.call 1 .pop,
      .call 2 (.prio (.thrown 7)), .ret 2 .threw, .call 2 (.prio (.push 8)), .ret 2 .unit]) ∧
    s.atRest ∧ 1 ∈ s.waiting ∧ s.contents = ([8], []) := by
  refine ⟨begin 1 .pop 13 ++ begin 2 (.prio (.thrown 7)) 6 ++ begin 2 (.prio (.push 8)) 6, _, rfl, ?_, by decide, rfl⟩
  intro t
  match t with
  | 0 => exact .inl rfl
  | 1 => exact .inr ⟨.pop .ok, rfl⟩
  | 2 => exact .inl rfl
  | n + 3 => exact .inl rfl

set_option maxRecDepth 8000 in
/-- An execution in which insertions throw in four places. -/
example : ∃ s, (queue Nat).run (queue Nat).init
    (begin 0 (.prio (.thrown 6)) 6 ++ begin 0 .tryPop 10 ++ begin 0 (.ins (.push 7)) 11 ++ begin 0 (.ins (.thrown 6)) 6 ++
      begin 0 (.ins (.push 8)) 7 ++ begin 0 (.ins (.thrown 6)) 5 ++ begin 0 (.prio (.push 9)) 6 ++ begin 0 (.prio (.thrown 6)) 5 ++
      begin 0 .tryPop 6 ++ begin 0 .tryPop 14 ++ begin 0 .tryPop 13) = some (s,
    [.call 0 (.prio (.thrown 6)), .ret 0 .threw, .call 0 .tryPop, .ret 0 (.val none), .call 0 (.ins (.push 7)), .ret 0 .unit,
     .call 0 (.ins (.thrown 6)), .ret 0 .threw, .call 0 (.ins (.push 8)), .ret 0 .unit, .call 0 (.ins (.thrown 6)), .ret 0 .threw,
     .call 0 (.prio (.push 9)), .ret 0 .unit, .call 0 (.prio (.thrown 6)), .ret 0 .threw,
     .call 0 .tryPop, .ret 0 (.val (some 9)), .call 0 .tryPop, .ret 0 (.val (some 7)), .call 0 .tryPop, .ret 0 (.val (some 8))]) ∧
    s.idle := by
  refine ⟨_, rfl, ?_⟩
  intro t
  match t with
  | 0 => rfl
  | n + 1 => rfl

/-! ### C104 exceptions in pops and try_peek -/

/-- C104 with try_peek: whatever calls throw, the history without the calls that threw is that of a two level queue on which
they were never made, also the results `true` of empty() and an element of try_peek.  Missing: the other results of empty()
and try_peek, see `empty_violation` and `peek_violation`, and pops that throw having removed an element, see
`pop_throw_violation`. -/
theorem pop_throw_no_effect_partial (as : List (Act (Op α))) (s : State α) (h : List (Event (Op α) (Out α)))
    (e : (queue α).run (queue α).init as = some (s, h)) (hn : ∀ t op, .call t op ∈ h → op.loses = false)
    (h1 : ∀ t, .ret t (.bool false) ∉ h) (h2 : ∀ t, .ret t (.peek none) ∉ h) :
    Linearizable (twoSpec α) (without Out.isThrow h) := by
  refine (linearizable_observing_partial as s h e h1 h2).withoutOf (fun op => !op.loses) ?_
    (fun t op hm => by simp [hn t op hm])
  intro q op q' o hl hs ho
  exact two_throw (by simpa using hl) hs ho

/-- C104: in the queue of `twoSpec` a try_pop, pop or try_peek whose element cannot be moved or copied throws if there is an
element, popOrCall with a function that throws throws if there is none, and no other pop or try_peek throws. -/
theorem pop_throw_result (q q' : List α × List α) (op : Op α) (o : Out α) (hs : two q op = some (q', o))
    (hi : ∀ i, op ≠ .ins i ∧ op ≠ .prio i) :
    o = .threw ↔ (q ≠ ([], []) ∧ ∃ l, op = .tryPopX l ∨ op = .popX l ∨ op = .timedPopX l ∨ op = .popOrCallX l) ∨
      (q ≠ ([], []) ∧ op = .peekX) ∨ (q = ([], []) ∧ op = .popOrCallF) := by
  obtain ⟨p, q⟩ := q
  cases op with
  | ins i => exact absurd rfl (hi i).1
  | prio i => exact absurd rfl (hi i).2
  | tryPopX l | popX l | timedPopX l | popOrCallX l => cases p <;> cases q <;> cases hs <;> simp
  | tryPop | timedPop | pop | popOrCall | popOrCallF | peekX => cases p <;> cases q <;> cases hs <;> simp
  | _ => cases hs <;> simp

/-- C104: whatever throws, wherever: nothing is duplicated or invented.  There is an order of the calls, consistent with the
history, in which the values inserted are, up to their order, those taken out, those left and some that are lost; if clear
is not called, as many are lost as pops threw having removed an element. -/
theorem throw_conservation (as : List (Act (Op α))) (s : State α) (h : List (Event (Op α) (Out α)))
    (e : (queue α).run (queue α).init as = some (s, h)) (hn : ∀ t op, .call t op ∈ h → op.observes = false) :
    ∃ tr g lost, TSteps (twoSpec α) (twoSpec α).ghost tr g ∧ erase tr = h ∧
      (inserted tr).Perm (lost ++ (removed tr ++ (g.q.1 ++ g.q.2))) ∧
      ((∀ t, .call t .clear ∉ h) → lost.length = losses tr) ∧
      (s.atRest → g.q = (s.prio, s.pull.reverse ++ s.push)) := by
  obtain ⟨tr, g, h1, h2, h3⟩ := trace_plain K.init Quiet.init as e hn
  obtain ⟨lost, h4⟩ := two_sub tr h1
  refine ⟨tr, g, lost, h1, h2, by simpa using h4, fun hc => ?_, h3⟩
  have h5 := two_count tr (lin_called tr h1 (by intro t h; cases h) (fun t hm => hc t (h2 ▸ hm))) h1
  have h6 := h4.length_eq
  simp only [List.length_append] at h5 h6
  simp at h5 h6
  omega

/-- C104 fails: pushPriority(7); pop() throws when it moves the element, already removed, into its result; then the queue is
empty: the element is lost. -/
theorem pop_throw_violation : ∃ as s h, (queue Nat).oneAtATime.run (queue Nat).oneAtATime.init as = some (s, h) ∧
    h = [.call 0 (.prio (.push 7)), .ret 0 .unit, .call 0 (.popX true), .ret 0 .threw, .call 0 .tryPop, .ret 0 (.val none)] ∧
    s.2 = false ∧ s.1.contents = ([], []) ∧ ¬ Linearizable (twoSpec Nat) (without Out.isThrow h) := by
  refine ⟨begin 0 (.prio (.push 7)) 7 ++ begin 0 (.popX true) 6 ++ begin 0 .tryPop 10, _, _, rfl, rfl, rfl, rfl, ?_⟩
  exact not_linearizable (ts := [0]) rfl (by decide)

set_option maxRecDepth 8000 in
/-- An execution in which pop throws before and after waiting, the function of popOrCall throws, and try_peek throws. -/
example : ∃ s, (queue Nat).run (queue Nat).init
    (begin 1 (.popX false) 13 ++ begin 0 (.prio (.push 7)) 7 ++ go 1 6 ++ begin 1 (.timedPopX false) 5 ++ begin 1 .peekX 5 ++
      begin 1 .popOrCallF 6 ++ begin 1 .popOrCallF 11) = some (s,
    [.call 1 (.popX false), .call 0 (.prio (.push 7)), .ret 0 .unit, .ret 1 .threw, .call 1 (.timedPopX false), .ret 1 .threw,
     .call 1 .peekX, .ret 1 .threw, .call 1 .popOrCallF, .ret 1 (.val (some 7)), .call 1 .popOrCallF, .ret 1 .threw]) ∧ s.idle := by
  refine ⟨_, rfl, ?_⟩
  intro t
  match t with
  | 0 => rfl
  | 1 => rfl
  | n + 2 => rfl

/-! ### C110 waiting -/

/-- C110: in every execution, each call of each thread that has ended has waited, and has called the function passed to
popOrCall, as `waiting` says: pop(timeout) returns nothing only after a wait that ended with a timeout, popOrCall calls
the function before each wait, try_pop and the others do not wait. -/
theorem waits (as : List (Act (Op α))) (s : State α) (h : List (Event (Op α) (Out α))) (t : Nat)
    (e : (queue α).run (queue α).init as = some (s, h)) (a d m : List (Mark α)) (op : Op α) (o : Out α)
    (hw : watch true t (queue α).init as = a ++ .call op :: (m ++ .ret o :: d)) (hm : ∀ x ∈ m, x.inner = true) : waiting op o m :=
  waits_main e a op m o d hw hm

/-- C110, pop(timeout): what `waiting` says about it.  If it returns nothing, its last wait has ended with a timeout and the
ones before without. -/
theorem timeout_elapsed (as : List (Act (Op α))) (s : State α) (h : List (Event (Op α) (Out α))) (t : Nat)
    (e : (queue α).run (queue α).init as = some (s, h)) (a d m : List (Mark α))
    (hw : watch true t (queue α).init as = a ++ .call .timedPop :: (m ++ .ret (.val none) :: d)) (hm : ∀ x ∈ m, x.inner = true) :
    ∃ n, m = (List.replicate n [.waits, .woken]).flatten ++ [.waits, .timeout] := by
  rcases waits as s h t e a d m _ _ hw hm with h | ⟨m', ⟨n, rfl⟩, rfl⟩
  · exact absurd rfl h.2
  · exact ⟨n, rfl⟩

/-- C110: while the function passed to popOrCall runs, the calling thread holds neither lock, so that the function can use
the queue. -/
theorem function_unlocked (s : State α) (hs : Obtained true s) (t : Nat) (f : Fate) (h : s.loc t = .wCall f) :
    s.pullOwner ≠ some t ∧ s.pushOwner ≠ some t := by
  have k := (sound_obtained hs).locks
  refine ⟨fun h' => ?_, fun h' => ?_⟩
  · have := (k.pull t).2 h'; rw [h] at this; cases this
  · have := (k.push t).2 h'; rw [h] at this; cases this

/-- C110: if the function passed to popOrCall, or anybody else, has put something into the queue while the function ran,
popOrCall takes the first element without waiting; all pops being made by the thread `p`.  Missing: several popping threads
and insertions that throw, see `function_fills_violation`. -/
theorem function_fills_partial (as : List (Act (Op α))) (s : State α) (h : List (Event (Op α) (Out α))) (p : Nat)
    (e : (queue α).run (queue α).init as = some (s, h))
    (ho : ∀ t op, .call t op ∈ h → t = p ∨ (op.waits = false ∧ op.tries = false))
    (hx : ∀ t v, .call t (.ins (.thrown v)) ∉ h ∧ .call t (.prio (.thrown v)) ∉ h)
    (hp : s.loc p = .wCall .ok) (hi : ∀ t, t ≠ p → s.loc t = .idle) (x : α) (q : List α × List α)
    (hq : next? (s.prio, s.pull.reverse ++ s.push) = some (x, q)) :
    ∃ n s', n ≤ 8 ∧ (queue α).run s (go p n) = some (s', [.ret p (.val (some x))]) ∧ (s'.prio, s'.pull.reverse ++ s'.push) = q ∧
      s'.idle := by
  have k := wakes_run (p := p) as e (fun t op hm => ⟨(ho t op hm).elim .inl (fun h => .inr ⟨h.1, fun _ => h.2⟩),
    fun v => ⟨fun he => (hx t v).1 (he ▸ hm), fun he => (hx t v).2 (he ▸ hm)⟩⟩)
  have no : ∀ (P : Loc α → Bool), P .idle = false → P (.wCall .ok) = false → ¬ ∃ u, P (s.loc u) = true := by
    rintro P h1 h2 ⟨u, hu⟩
    by_cases hu' : u = p
    · subst hu'; rw [hp, h2] at hu; cases hu
    · rw [hi u hu', h1] at hu; cases hu
  have hown : s.pullOwner = none := by
    cases hown : s.pullOwner with
    | none => rfl
    | some u => exact absurd ⟨u, (k.inv.locks.pull u).2 hown⟩ (no holdsPull rfl rfl)
  have hidle : ∀ (s' : State α), s'.loc = upd s.loc p .idle → s'.idle := by
    intro s' hs' t
    rw [hs']
    by_cases ht : t = p
    · subst ht; exact upd_same _ _ _
    · exact (upd_ne _ _ ht).trans (hi t ht)
  have hne : s.pull ≠ [] ∨ s.prio ≠ [] := by
    rcases k.drowsy (by rw [hp]; rfl) with (h | h) | h | h | h
    · have h1 := k.inv.flag.contents h
      simp only [State.split, State.puller, hown, Option.map_none, Blocking.split] at h1
      simp only [Prod.mk.injEq, List.reverse_eq_nil_iff] at h1
      rw [h1.1, h1.2.1, h1.2.2] at hq; cases hq
    · exact absurd h (no notifies rfl rfl)
    · exact .inl h
    · exact .inr h
    · exact absurd h (no fixing rfl rfl)
  cases hprio : s.prio with
  | cons y l =>
    rw [hprio] at hq
    simp only [next?, Option.some.injEq, Prod.mk.injEq] at hq
    obtain ⟨rfl, rfl⟩ := hq
    refine ⟨7, { s with prio := l, loc := upd s.loc p .idle }, by omega, ?_, rfl, hidle _ rfl⟩
    simp [go, Sys.run, Sys.exec, sys, State.stepAt, hp, State.goto, State.lockPull, State.unlockPull, hown, upd_same, hprio,
      State.moveOut, Kind.fate, Kind.result, upd_upd]
  | nil =>
    have hpull : s.pull ≠ [] := by rcases hne with h | h; exact h; exact absurd hprio h
    obtain ⟨l, y, hl⟩ := (s.pull.eq_nil_or_concat).resolve_left hpull
    rw [hprio, hl] at hq
    simp [next?] at hq
    obtain ⟨rfl, rfl⟩ := hq
    refine ⟨8, { s with pull := l, loc := upd s.loc p .idle }, by omega, ?_, by simp [hprio], hidle _ rfl⟩
    simp [go, Sys.run, Sys.exec, sys, State.stepAt, hp, State.goto, State.lockPull, State.unlockPull, hown, upd_same, hprio, hl,
      State.moveOut, Kind.fate, Kind.result, upd_upd]

/-- C110 fails for popOrCall with two consumers: both are in popOrCall and have found nothing; the function of thread 1
(here: thread 3) pushes 7, thread 2 takes it without setting queueEmptyFlag, the function pushes 8.  Then thread 1 waits although
the queue holds 8, and no other call is in progress. -/
theorem function_fills_violation : ∃ as s s', (queue Nat).run (queue Nat).init as = some (s, [.call 1 .popOrCall, .call 2 .popOrCall,
      .call 3 (.ins (.push 7)), .ret 3 .unit, .ret 2 (.val (some 7)), .call 3 (.ins (.push 8)), .ret 3 .unit]) ∧
    s.loc 1 = .wCall .ok ∧ (∀ t, t ≠ 1 → s.loc t = .idle) ∧ s.pull.reverse ++ s.push = [8] ∧
    (queue Nat).run s (go 1 5) = some (s', []) ∧ 1 ∈ s'.waiting := by
  refine ⟨begin 1 .popOrCall 9 ++ begin 2 .popOrCall 9 ++ begin 3 (.ins (.push 7)) 11 ++ go 2 8 ++ begin 3 (.ins (.push 8)) 7, _, _, rfl,
    rfl, ?_, rfl, rfl, by decide⟩
  intro t ht
  match t, ht with
  | 0, _ => rfl
  | 2, _ => rfl
  | 3, _ => rfl
  | n + 4, _ => rfl

set_option maxRecDepth 8000 in
/-- pop(timeout) waits, is woken spuriously, waits again until the timeout and returns nothing; popOrCall calls its function,
waits, and takes what is pushed. -/
example : ∃ as s h, (queue Nat).run (queue Nat).init as = some (s, h) ∧
    watch true 1 (queue Nat).init as = [.call .timedPop, .waits, .woken, .waits, .timeout, .ret (.val none), .call .popOrCall, .fn, .waits,
      .woken, .ret (.val (some 7)), .call .tryPop, .ret (.val none)] := by
  exact ⟨begin 1 .timedPop (9 + 4 + 1 + 4 + 9 + 4) ++ [.move 1 1] ++ go 1 (4 + 9 + 1) ++ begin 1 .popOrCall (9 + 5) ++
    begin 0 (.ins (.push 7)) 11 ++ go 1 8 ++ begin 1 .tryPop (9 + 1), _, _, rfl, rfl⟩

/-- the state of `function_fills_partial`: the function has pushed 7 and 8 -/
example : ∃ as s h, (queue Nat).run (queue Nat).init as = some (s, h) ∧ h = [.call 1 .popOrCall, .call 3 (.ins (.push 7)), .ret 3 .unit,
      .call 3 (.ins (.push 8)), .ret 3 .unit] ∧ s.loc 1 = .wCall .ok ∧ (∀ t, t ≠ 1 → s.loc t = .idle) ∧ s.pull.reverse ++ s.push = [7, 8] := by
  refine ⟨begin 1 .popOrCall 9 ++ begin 3 (.ins (.push 7)) 11 ++ begin 3 (.ins (.push 8)) 7, _, _, rfl, rfl, rfl, ?_, rfl⟩
  intro t ht
  match t, ht with
  | 0, _ => rfl
  | 2, _ => rfl
  | 3, _ => rfl
  | n + 4, _ => rfl

end Verif.BlockingPriorityQueue
