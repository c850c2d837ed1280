import Verif.WorkQueue.Inner.Lemmas
import Verif.WorkQueue.Halt

/-
Part of C143: a work block that closes its own queue does not keep the lock when the exception ends it.
-/
namespace Verif.WorkQueue.Inner
open Verif.Conc WorkQueue.State

variable {n t c : Nat} {closes : Nat → Bool} {s s' : State} {o : Option Res}

/-- where thread `u` is; a call of closeWorkerQueue that is over is nowhere -/
def at' (n : Nat) (q : WorkQueue.State) (inside : Nat → Bool) (u : Nat) : Loc :=
  if n ≤ u ∧ u < 2 * n ∧ inside (u - n) = false then .idle else q.loc u

/-- the lock is held by the thread that is at a place where it is held -/
def Holds (n : Nat) (s : State) : Prop := Owns holds s.q.owner (at' n s.q s.inside)

theorem owns_congr {own : Option Nat} {a b : Nat → Loc} (k : Owns holds own a) (h : ∀ u, holds (b u) = holds (a u)) : Owns holds own b :=
  fun u => by rw [h u]; exact k u

theorem holds_stepAt {q' : WorkQueue.State} {oo : Option Out} {u : Nat} (k : Holds n s) (hu : at' n s.q s.inside u = s.q.loc u)
    (hv : ∀ q : WorkQueue.State, at' n q s.inside u = q.loc u) (h : stepAt n s.q u c (s.q.loc u) = some (q', oo)) :
    Holds n { s with q := q' } := by
  obtain ⟨a, l', e1, w⟩ := step_loc h
  have el : q'.loc u = l' := by rw [e1, upd_same]
  obtain ⟨o1, o2⟩ := step_owner h (by rw [← hu]; exact (k u).1)
  rw [el] at o1 o2
  have k' := Owns.step k hu o1 o2
  refine owns_congr k' fun v => ?_
  show holds (at' n q' s.inside v) = _
  by_cases e : v = u
  · subst e; rw [hv, el, upd_same]
  · rw [upd_ne _ _ e]
    unfold at'
    split
    · rfl
    · rw [e1, upd_ne _ _ e]
      rcases w.all v with h1 | ⟨h1, h2⟩
      · rw [h1]
      · rw [h1, h2]; rfl

theorem at_out {q : WorkQueue.State} {i : Nat → Bool} (h : t < n ∨ 2 * n ≤ t) : at' n q i t = q.loc t := by
  unfold at'; rw [if_neg]; omega

theorem at_in {q : WorkQueue.State} {i : Nat → Bool} (h : i t = true) : at' n q i (n + t) = q.loc (n + t) := by
  unfold at'
  rw [if_neg]
  rintro ⟨_, _, h1⟩
  rw [Nat.add_sub_cancel_left, h] at h1; cases h1

theorem holds_plain (k : Holds n s) (ht : t < n ∨ 2 * n ≤ t) (h : s.plain n t c = some (s', o)) : Holds n s' := by
  unfold State.plain at h
  rw [Option.map_eq_some_iff] at h
  obtain ⟨⟨q', oo⟩, h1, h2⟩ := h
  cases h2
  exact holds_stepAt k (at_out ht) (fun _ => at_out ht) h1

theorem holds_close (k : Holds n s) (hi : s.inside t = true) (h : s.closeStep n t c = some (s', o)) : Holds n s' := by
  unfold State.closeStep at h
  rw [Option.map_eq_some_iff] at h
  obtain ⟨⟨q', oo⟩, h1, h2⟩ := h
  cases h2
  exact holds_stepAt k (at_in hi) (fun _ => at_in hi) h1

theorem holds_finish {i : Nat} {bs : List (Option Blk)} {r : Res} {own : Option Nat} (k : Holds n s) (ht : t < n) (hi : s.inside t = true) (hw : holds (s.q.loc t) = false)
    (hown : own = if holds (s.q.loc (n + t)) then none else s.q.owner)
    (h : State.finish { s with q := { s.q with owner := own } } t i bs r = some (s', o)) : Holds n s' := by
  unfold State.finish at h
  obtain ⟨rfl, rfl⟩ := Prod.mk.inj (Option.some.inj h)
  have k1 := Owns.step (t := n + t) (own' := own) (l' := .idle) k (at_in hi) (by rw [hown]; simp [holds]) (by simp [holds])
  refine owns_congr k1 fun u => ?_
  show holds (if n ≤ u ∧ u < 2 * n ∧ upd s.inside t false (u - n) = false then .idle else (upd s.q.loc t (.eDone i bs)) u) = _
  by_cases e : u = n + t
  · subst e
    rw [upd_same, if_pos]
    refine ⟨by omega, by omega, ?_⟩
    rw [Nat.add_sub_cancel_left, upd_same]
  · rw [upd_ne _ _ e]
    by_cases e2 : u = t
    · subst e2
      rw [if_neg (by omega), upd_same, at_out (.inl ht), hw]; rfl
    · rw [upd_ne _ _ e2]
      unfold at'
      by_cases e3 : n ≤ u ∧ u < 2 * n
      · rw [upd_ne _ _ (by omega : u - n ≠ t)]
      · rw [if_neg (fun h => e3 ⟨h.1, h.2.1⟩), if_neg (fun h => e3 ⟨h.1, h.2.1⟩)]

theorem holds_step (k : Holds n s) (h : s.step n closes t c = some (s', o)) : Holds n s' := by
  unfold State.step at h
  split at h
  · rename_i ht
    split at h
    · rename_i i bs hl
      split at h
      · unfold State.inner at h
        split at h
        · rename_i hi
          split at h
          · rename_i oo hr
            exact holds_finish (own := s.q.owner) k ht hi (by rw [hl]; rfl) (by rw [hr]; rfl) h
          · rename_i j b hr
            split at h
            · cases b with
              | true => exact holds_finish (own := none) k ht hi (by rw [hl]; rfl) (by rw [hr]; rfl) h
              | false => exact holds_finish (own := s.q.owner) k ht hi (by rw [hl]; rfl) (by rw [hr]; rfl) h
            · exact holds_close k hi h
          · exact holds_close k hi h
        · rename_i hi
          obtain ⟨rfl, rfl⟩ := Prod.mk.inj (Option.some.inj h)
          refine owns_congr k fun u => ?_
          show holds (if n ≤ u ∧ u < 2 * n ∧ upd s.inside t true (u - n) = false then .idle else (upd s.q.loc (n + t) .cLock) u) = _
          by_cases e : u = n + t
          · subst e
            rw [Nat.add_sub_cancel_left, upd_same, upd_same]
            unfold at'
            rw [Nat.add_sub_cancel_left, if_neg (by simp), if_pos ⟨by omega, by omega, by simpa using hi⟩]
            rfl
          · rw [upd_ne _ _ e]
            unfold at'
            by_cases e3 : n ≤ u ∧ u < 2 * n
            · rw [upd_ne _ _ (by omega : u - n ≠ t)]
            · rw [if_neg (fun h => e3 ⟨h.1, h.2.1⟩), if_neg (fun h => e3 ⟨h.1, h.2.1⟩)]
      · exact holds_plain k (.inl ht) h
    · exact holds_plain k (.inl ht) h
  · split at h
    · cases h
    · exact holds_plain k (.inr (by omega)) h

theorem holds_call {op : Op} (k : Holds n s) (h : (sys n closes).call t op s = some s') : Holds n s' := by
  simp only [sys] at h
  split at h
  · cases h
  · rename_i ht
    rw [Option.map_eq_some_iff] at h
    obtain ⟨q', h1, rfl⟩ := h
    unfold WorkQueue.State.call at h1
    split at h1
    · rename_i hl
      cases h1
      refine owns_congr k fun u => ?_
      show holds (if _ then _ else (upd s.q.loc t (start n op)) u) = holds (if _ then _ else _)
      split
      · rfl
      · by_cases e : u = t
        · subst e
          rw [upd_same, hl]
          cases op <;> simp only [start] <;> (try split) <;> rfl
        · rw [upd_ne _ _ e]
    · cases h1

theorem holds_reachable (hs : (sys n closes).Reachable s) : Holds n s := by
  obtain ⟨as, h, e⟩ := hs
  refine Sys.run_invariant (M := sys n closes) (I := Holds n) (allowed := fun _ _ => True)
    (fun k _ hc => holds_call k hc) (fun k hm => holds_step k hm) as ?_ (fun _ _ _ => trivial) e
  intro u
  show holds (at' n (WorkQueue.State.init n) (fun _ => false) u) = true ↔ none = some u
  have : holds (at' n (WorkQueue.State.init n) (fun _ => false) u) = false := by
    unfold at'
    split
    · rfl
    · simp only [WorkQueue.State.init]; split <;> rfl
  simp [this]

/-- C143: a work block that closes its own queue does not keep the lock: at any moment the lock is held, if at all, by a call that is
still being made, whichever of the calls before have ended with an exception. -/
theorem lock_given_up (hs : (sys n closes).Reachable s) (ht : t < n) (hi : s.inside t = false) : s.q.owner ≠ some (n + t) := by
  intro h
  have := (holds_reachable hs (n + t)).2 h
  unfold at' at this
  rw [if_pos ⟨by omega, by omega, by rw [Nat.add_sub_cancel_left]; exact hi⟩] at this
  cases this

/-- the hypotheses of `lock_given_up` are met after a call that had the lock when it threw: worker 1 closes the queue first and waits for
worker 0, whose block then closes it too -/
example : ∃ as s h, (sys 2 (fun i => i == 5 || i == 6)).run (sys 2 (fun i => i == 5 || i == 6)).init as = some (s, h ++ [.ret 0 .threw]) ∧
    s.inside 0 = false ∧ s.inside 1 = true ∧ s.q.halt = true ∧ s.q.owner = none ∧ s.q.loc 2 = .cJoin 0 true ∧ s.q.loc 3 = .cJoin 0 false :=
  ⟨begin 4 (.add (some (.task 5)) .high) 5 ++ begin 4 (.add (some (.task 6)) .high) 5 ++ go 0 4 ++ go 1 4 ++ go 1 21 ++ go 0 4,
    _, [_, _, _, _], rfl, rfl, rfl, rfl, rfl, rfl, rfl⟩

end Verif.WorkQueue.Inner
