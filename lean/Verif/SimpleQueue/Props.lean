import Verif.SimpleQueue.Sim
import Verif.Conc.Without
import Verif.Conc.Check

/-
The properties C45-C49 and C77 of SimpleQueue.
-/
namespace Verif.SimpleQueue
open Verif.Conc

variable {α : Type}

/-! ### C45 linearizability -/

/-- C45, for all calls with all arguments, any number of threads and every interleaving: the queue behaves as the FIFO
queue `actual`, whose only deviation is what empty() says after pushVector of an empty vector on an empty queue. -/
theorem linearizable_actual (as : List (Act (Op α))) (s : State α) (h : List (Event (Op α) (Out α)))
    (e : (sys α).run (sys α).init as = some (s, h)) : Linearizable (actualSpec α) h :=
  simulation.linearizable as s h (fun _ _ => trivial) e

/-- C45 for histories in which pushVector is not called with an empty vector: the FIFO queue.  Missing: pushVector of an
empty vector together with empty(), see `linearizable_violation`. -/
theorem linearizable_partial (as : List (Act (Op α))) (s : State α) (h : List (Event (Op α) (Out α)))
    (e : (sys α).run (sys α).init as = some (s, h)) (hv : ∀ t, .call t (.ins (.pushVector [])) ∉ h) :
    Linearizable (spec α) h := by
  refine (linearizable_actual as s h e).map (fun q => q.1) (fun q => q.2 = false)
    (fun op => op ≠ .ins (.pushVector [])) ?_ rfl rfl (fun t op hm he => hv t (he ▸ hm))
  rintro ⟨q, z⟩ op q' o rfl hop hs
  simp only [actualSpec, Option.some.injEq] at hs
  obtain ⟨rfl, rfl⟩ := Prod.mk.inj hs.symm
  cases op with
  | ins i =>
    cases i with
    | pushVector vs => cases vs with
      | nil => exact absurd rfl hop
      | cons v vs => exact ⟨by simp [actual, Ins.vals], rfl⟩
    | thrown => exact ⟨rfl, rfl⟩
    | _ => exact ⟨by simp [actual, Ins.vals], rfl⟩
  | popX => cases q <;> exact ⟨rfl, rfl⟩
  | _ => exact ⟨rfl, by simp [spec, fifo]⟩

/-- C45 for histories without empty(): the FIFO queue, pushVector of an empty vector included. -/
theorem linearizable_noEmpty_partial (as : List (Act (Op α))) (s : State α) (h : List (Event (Op α) (Out α)))
    (e : (sys α).run (sys α).init as = some (s, h)) (hv : ∀ t, .call t .empty ∉ h) : Linearizable (spec α) h := by
  refine (linearizable_actual as s h e).map (fun q => q.1) (fun _ => True)
    (fun op => op ≠ .empty) ?_ trivial rfl (fun t op hm he => hv t (he ▸ hm))
  rintro ⟨q, z⟩ op q' o _ hop hs
  simp only [actualSpec, Option.some.injEq] at hs
  obtain ⟨rfl, rfl⟩ := Prod.mk.inj hs.symm
  refine ⟨trivial, ?_⟩
  cases op with
  | empty => exact absurd rfl hop
  | ins i => cases i <;> rfl
  | popX => cases q <;> rfl
  | _ => rfl

/-- a thread runs its call to the end: `n` steps -/
def alone (t : Nat) (op : Op α) (n : Nat) : List (Act (Op α)) := .call t op :: List.replicate n (.move t 0)

/-- C45 fails for the full interface: after pushVector({}) on a new queue, empty() returns false. -/
theorem linearizable_violation : ∃ as s h, (sys Nat).run (sys Nat).init as = some (s, h) ∧ ¬ Linearizable (spec Nat) h := by
  refine ⟨alone 0 (.ins (.pushVector [])) 9 ++ alone 0 .empty 2, _,
    [.call 0 (.ins (.pushVector [])), .ret 0 .unit, .call 0 .empty, .ret 0 (.bool false)], rfl, ?_⟩
  exact not_linearizable (ts := [0]) rfl (by decide)

/-- The hypotheses are satisfiable: two threads, one preempted between its two locks, the other one popping. -/
example : ∃ as s h, (sys Nat).run (sys Nat).init as = some (s, h) ∧ h.length = 6 ∧
    (∀ t, .call t (.ins (.pushVector [])) ∉ h) := by
  refine ⟨alone 0 (.ins (.push 7)) 9 ++ alone 1 (.ins (.pushVector [8, 9])) 3 ++ alone 0 .pop 12 ++ List.replicate 6 (.move 1 0), _,
    [.call 0 (.ins (.push 7)), .ret 0 .unit, .call 1 (.ins (.pushVector [8, 9])), .call 0 .pop, .ret 0 (.val (some 7)), .ret 1 .unit],
    rfl, rfl, ?_⟩
  intro t; simp

/-! ### C46 no deadlock -/

/-- C46: no call reaches undefined behaviour (back() or pop_back() of an empty vector). -/
theorem no_crash (s : State α) (hs : (sys α).Reachable s) (t : Nat) : s.loc t ≠ .crash := by
  intro hc
  obtain ⟨g, r⟩ := related_reachable s hs
  have := r.data
  rw [r.locks.puller_eq hc rfl] at this
  exact this

/-- C46: whenever a call is unfinished, some thread inside a call can take its next step. -/
theorem no_deadlock (s : State α) (hs : (sys α).Reachable s) (t : Nat) (ht : s.loc t ≠ .idle) :
    ∃ u r, s.loc u ≠ .idle ∧ (sys α).move u 0 s = some r := by
  have k := locks_reachable s hs
  have nc := no_crash s hs
  have fin : ∀ u, s.loc u ≠ .idle → Ready s (s.loc u) → ∃ u r, s.loc u ≠ .idle ∧ (sys α).move u 0 s = some r := by
    intro u hu hr
    obtain ⟨r, h⟩ := Option.isSome_iff_exists.1 (enabled u hr hu (nc u))
    exact ⟨u, r, hu, h⟩
  cases hp : s.pushOwner with
  | some u =>
    have h := (k.push u).2 hp
    exact fin u (by intro h'; rw [h'] at h; cases h) (.inl h)
  | none =>
    cases hq : s.pullOwner with
    | some u =>
      have h := (k.pull u).2 hq
      exact fin u (by intro h'; rw [h'] at h; cases h) (.inr ⟨hp, .inl h⟩)
    | none => exact fin t ht (.inr ⟨hp, .inr hq⟩)

/-- C46: every call ends after at most 25 steps of its own thread: each of its steps lowers a bounded rank, which no step
of another thread changes.  So a thread can wait only for a lock, and whoever holds one also gives it back. -/
theorem own_steps_bounded : ∃ rank : Loc α → Nat, (∀ op, rank (State.start op) ≤ 25) ∧
    (∀ s t c s' o, (sys α).move t c s = some (s', o) → rank (s'.loc t) < rank (s.loc t) ∧
      ∀ u, u ≠ t → s'.loc u = s.loc u) ∧
    (∀ s t op s', (sys α).call t op s = some s' → ∀ u, u ≠ t → s'.loc u = s.loc u) := by
  refine ⟨rank, ?_, ?_, ?_⟩
  · intro op; cases op <;> simp [State.start, rank]
  · intro s t c s' o h
    obtain ⟨l', h1, h2⟩ := step_rank (l := s.loc t) h
    rw [h1]
    exact ⟨by rw [upd_same]; exact h2, fun u hu => upd_ne _ _ hu⟩
  · intro s t op s' h u hu
    simp only [sys, State.call] at h
    split at h
    · cases h; exact upd_ne _ _ hu
    · cases h

/-- A reachable state with two threads inside calls, one waiting for a lock. -/
example : ∃ s, (sys Nat).Reachable s ∧ s.loc 0 ≠ .idle ∧ s.loc 1 ≠ .idle ∧ (sys Nat).move 1 0 s = none := by
  refine ⟨_, ⟨alone 0 (.ins (.push 7)) 5 ++ alone 1 .pop 0, _, rfl⟩, ?_, ?_, ?_⟩
  · intro h; cases h
  · intro h; cases h
  · rfl

/-! ### C47 lock discipline -/

/-- C47: at most one thread is at a position with an access to pushElements, and it holds m_pushLock; likewise for
pullElements. -/
theorem race_free (s : State α) (hs : (sys α).Reachable s) (t u : Nat) :
    (usesPush (s.loc t) = true → s.pushOwner = some t) ∧ (usesPull (s.loc t) = true → s.pullOwner = some t) ∧
    (usesPush (s.loc t) = true → usesPush (s.loc u) = true → t = u) ∧
    (usesPull (s.loc t) = true → usesPull (s.loc u) = true → t = u) := by
  have k := locks_reachable s hs
  have hp : ∀ t, usesPush (s.loc t) = true → s.pushOwner = some t := fun t h => (k.push t).1 (usesPush_holds h)
  have hq : ∀ t, usesPull (s.loc t) = true → s.pullOwner = some t := fun t h => (k.pull t).1 (usesPull_holds h)
  refine ⟨hp t, hq t, ?_, ?_⟩
  · intro h1 h2; have := (hp t h1).symm.trans (hp u h2); exact Option.some.inj this
  · intro h1 h2; have := (hq t h1).symm.trans (hq u h2); exact Option.some.inj this

/-- C47: the positions listed in `usesPush` and `usesPull` are all: at any other position a thread's step neither depends
on nor changes the vector. -/
theorem other_steps_independent (s : State α) (t : Nat) :
    (usesPush (s.loc t) = false → ∀ p, (sys α).move t 0 { s with push := p } =
      ((sys α).move t 0 s).map fun r => ({ r.1 with push := p }, r.2)) ∧
    (usesPull (s.loc t) = false → ∀ p, (sys α).move t 0 { s with pull := p } =
      ((sys α).move t 0 s).map fun r => ({ r.1 with pull := p }, r.2)) :=
  ⟨fun h p => push_frame h p, fun h p => pull_frame h p⟩

/-- A reachable state in which each vector is being used by a thread. -/
example : ∃ s, (sys Nat).Reachable s ∧ usesPush (s.loc 0) = true ∧ usesPull (s.loc 1) = true := by
  refine ⟨_, ⟨alone 0 (.ins (.push 7)) 1 ++ alone 1 .pop 1, _, rfl⟩, rfl, rfl⟩

/-! ### C48 conservation -/

/-- C48: when no call is in progress, there is an order of the calls, consistent with the history, in which the values
inserted are the values that have left the queue (`gone`) followed by the contents; the values popped are among those
that have left, in order and each at most once, and are all of them if neither clear nor move assignment to the queue was called. -/
theorem conservation (as : List (Act (Op α))) (s : State α) (h : List (Event (Op α) (Out α)))
    (e : (sys α).run (sys α).init as = some (s, h)) (hq : ∀ t, s.loc t = .idle) :
    ∃ tr g gone, TSteps (actualSpec α) (actualSpec α).ghost tr g ∧ erase tr = h ∧
      inserted tr = gone ++ (s.pull.reverse ++ s.push) ∧ (popped tr).Sublist gone ∧
      ((∀ t op, drops op = true → .call t op ∉ h) → popped tr = gone) := by
  obtain ⟨tr, g, h1, rfl, r⟩ := simulation.run_from as simulation.init (fun _ _ => trivial) e
  have hc : g.q.1 = s.pull.reverse ++ s.push := r.contents hq
  obtain ⟨gone, h3, h4, h5⟩ := trace_conserves tr h1
  refine ⟨tr, g, gone, h1, rfl, ?_, h4, h5 (by intro t _ _ h; cases h)⟩
  rw [← hc]; exact h3

/-- C48 at any moment, calls in progress included: what was popped was inserted before, in this order, each value at most
once. -/
theorem conservation_inFlight (as : List (Act (Op α))) (s : State α) (h : List (Event (Op α) (Out α)))
    (e : (sys α).run (sys α).init as = some (s, h)) :
    ∃ tr g, TSteps (actualSpec α) (actualSpec α).ghost tr g ∧ erase tr = h ∧ (popped tr).Sublist (inserted tr) := by
  obtain ⟨tr, g, h1, h2, r⟩ := simulation.run_from as simulation.init (fun _ _ => trivial) e
  obtain ⟨gone, h3, h4, _⟩ := trace_conserves tr h1
  refine ⟨tr, g, h1, h2, ?_⟩
  have h3 : inserted tr = gone ++ g.q.1 := h3
  rw [h3]; exact h4.trans (List.sublist_append_left _ _)

/-- A quiescent state with contents, after a pop. -/
example : ∃ as s h, (sys Nat).run (sys Nat).init as = some (s, h) ∧ (∀ t, s.loc t = .idle) ∧
    s.pull.reverse ++ s.push = [8, 9] := by
  refine ⟨alone 0 (.ins (.push 7)) 9 ++ alone 1 (.ins (.pushVector [8, 9])) 10 ++ alone 0 .pop 13, _, _, rfl, ?_, rfl⟩
  intro t
  match t with
  | 0 => rfl
  | 1 => rfl
  | n + 2 => rfl

/-! ### C49 moves -/

/-- C49: a queue constructed or assigned by moving from a queue without calls in progress behaves from then on as a FIFO
queue holding the contents of the source, in order; empty() says whether there are any. -/
theorem move_target (s : State α) (hs : (sys α).Reachable s) (hq : ∀ t, s.loc t = .idle) (as : List (Act (Op α)))
    (s' : State α) (h : List (Event (Op α) (Out α))) (e : (sys α).run s.moveFrom.1 as = some (s', h)) :
    Linearizable ((actualSpec α).from (s.pull.reverse ++ s.push, false)) h := by
  obtain ⟨g, r⟩ := related_reachable s hs
  exact simulation.linearizable_from as (r.moveTarget hq) (fun _ _ => trivial) e

/-- C49, the source: from then on it behaves as an empty queue, except that empty() answers what it answered before the
move until the next pop, clear or insertion.  Missing: empty()==true, see `move_violation`. -/
theorem move_source_partial (s : State α) (hq : ∀ t, s.loc t = .idle) (hs : (sys α).Reachable s) (as : List (Act (Op α)))
    (s' : State α) (h : List (Event (Op α) (Out α))) (e : (sys α).run s.moveFrom.2 as = some (s', h)) :
    Linearizable ((actualSpec α).from ([], !s.flag)) h := by
  obtain ⟨g, r⟩ := related_reachable s hs
  exact simulation.linearizable_from as (r.moveSource hq) (fun _ _ => trivial) e

/-- C49 fails for the source: after push(7) and a move, empty() of the source returns false. -/
theorem move_violation : ∃ as s h, (sys Nat).run (sys Nat).init as = some (s, h) ∧ (∀ t, s.loc t = .idle) ∧
    ∃ s', (sys Nat).run s.moveFrom.2 (alone 0 .empty 2) = some (s', [.call 0 .empty, .ret 0 (.bool false)]) := by
  refine ⟨alone 0 (.ins (.push 7)) 9, _, _, rfl, ?_, _, rfl⟩
  intro t
  match t with
  | 0 => rfl
  | n + 1 => rfl

/-! ### C77 exceptions -/

/-- is the result an exception? -/
def Out.isThrow : Out α → Bool
  | .threw => true
  | _ => false

/-- C77: in every execution, whatever calls throw, the history without the calls that threw is the history of a queue on
which they were never made: they had no effect. -/
theorem throw_no_effect (as : List (Act (Op α))) (s : State α) (h : List (Event (Op α) (Out α)))
    (e : (sys α).run (sys α).init as = some (s, h)) : Linearizable (actualSpec α) (without Out.isThrow h) := by
  refine (linearizable_actual as s h e).without ?_
  intro q op q' o hs ho
  simp only [actualSpec, Option.some.injEq] at hs
  obtain ⟨rfl, rfl⟩ := Prod.mk.inj hs.symm
  cases op with
  | ins i => cases i <;> first | rfl | cases ho
  | popX =>
    simp only [actual] at ho ⊢
    split at ho
    · cases ho
    · rename_i h; rw [if_neg h]
  | _ => first | rfl | cases ho

/-- C77: an insertion throws whenever its elements cannot be constructed, a pop or peek of an element that cannot be
moved or copied throws if and only if the queue is not empty; and only these throw. -/
theorem throw_result (q : List α × Bool) (op : Op α) : ((actual q op).2 = .threw ↔
    op = .ins .thrown ∨ ((op = .popX ∨ op = .peekX) ∧ q.1 ≠ [])) := by
  obtain ⟨q, z⟩ := q
  cases op with
  | ins i => cases i <;> simp [actual]
  | popX => cases q <;> simp [actual]
  | peekX => cases q <;> simp [actual, fifo]
  | _ => simp [actual, fifo]

/-- C77: also after exceptions no lock stays held: when no call is in progress both locks are free. -/
theorem throw_releases_locks (s : State α) (hs : (sys α).Reachable s) (hq : ∀ t, s.loc t = .idle) :
    s.pullOwner = none ∧ s.pushOwner = none := by
  obtain ⟨g, r⟩ := related_reachable s hs
  exact ⟨(r.quiet hq).1, (r.quiet hq).2.1⟩

/-- An execution in which both kinds of push and a pop throw: an empty queue, 7 is pushed after a push that threw, then a
second push throws in the other branch, and a pop; the queue then holds 7. -/
example : ∃ s, (sys Nat).run (sys Nat).init
    (alone 0 (.ins .thrown) 8 ++ alone 0 (.ins (.push 7)) 9 ++ alone 0 (.ins .thrown) 10 ++ alone 0 .popX 6 ++
      alone 0 .pop 12) = some (s, [.call 0 (.ins .thrown), .ret 0 .threw, .call 0 (.ins (.push 7)), .ret 0 .unit,
      .call 0 (.ins .thrown), .ret 0 .threw, .call 0 .popX, .ret 0 .threw, .call 0 .pop, .ret 0 (.val (some 7))]) ∧
    ∀ t, s.loc t = .idle := by
  refine ⟨_, rfl, ?_⟩
  intro t
  match t with
  | 0 => rfl
  | n + 1 => rfl

end Verif.SimpleQueue
