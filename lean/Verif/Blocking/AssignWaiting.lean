import Verif.Blocking.Move

/-
C168: move assignment to a BlockingQueue or BlockingPriorityQueue while threads wait in pop (Q77-86, P84-95).

`b = false`: BlockingQueue, `b = true`: BlockingPriorityQueue.
-/
namespace Verif.Blocking
open Verif.Conc

variable {α : Type} {b : Bool}

/-- Q77-86, P84-95, from an object `a` without calls in progress: `none` if the locks are not free.  Simplification: the call
is one step, taken while both locks are free. -/
def State.assignFrom (s a : State α) : Option (State α) :=
  if s.pullOwner = none ∧ s.pushOwner = none then
    some { s with push := a.push, pull := a.pull, prio := a.prio, flag := a.pull.isEmpty && a.prio.isEmpty }
  else none

/-- the calls that insert an element -/
def Op.inserts : Op α → Bool
  | .ins _ | .prio _ => true
  | _ => false

/-- an action of a thread other than `t`: it begins an insertion or takes a step -/
def insertsOnly (t : Nat) : Act (Op α) → Prop
  | .call u op => u ≠ t ∧ op.inserts = true
  | .move u _ => u ≠ t

/-- the positions of an insertion into a queue whose flag is false -/
def unflagged : Loc α → Bool
  | .idle | .pLock _ | .pTest _ | .pCas _ | .pAppend _ | .pCas2 | .pAppend0 _ | .pUnPush | .xUnPush | .xUnPull false | .fCas _ | .gLock _
  | .gPush _ | .gCas _ | .fUn | .ret _ => true
  | _ => false

/-- the state after the assignment and any insertions -/
structure Stuck (t : Nat) (w : List Nat) (l : Loc α) (s : State α) : Prop where
  flag : s.flag = false
  waiting : s.waiting = w
  loc : s.loc t = l
  others : ∀ u, u ≠ t → unflagged (s.loc u) = true

theorem Stuck.goto {t u : Nat} {w : List Nat} {l l' : Loc α} {s s' : State α} (k : Stuck t w l s) (hu : u ≠ t)
    (h1 : s'.flag = false) (h2 : s'.waiting = s.waiting) (h3 : s'.loc = upd s.loc u l') (h4 : unflagged l' = true) : Stuck t w l s' := by
  refine ⟨h1, h2.trans k.waiting, ?_, ?_⟩
  · rw [h3, upd_ne _ _ (Ne.symm hu)]; exact k.loc
  · intro v hv
    rw [h3]
    by_cases e : v = u
    · subst e; rw [upd_same]; exact h4
    · rw [upd_ne _ _ e]; exact k.others v hv

theorem lock_push_frame {s s' : State α} {t : Nat} {l : Loc α} (h : s.lockPush t l = some s') :
    s'.flag = s.flag ∧ s'.waiting = s.waiting ∧ s'.loc = upd s.loc t l := by
  simp only [State.lockPush] at h
  split at h <;> cases h
  exact ⟨rfl, rfl, rfl⟩

theorem lock_pull_frame {s s' : State α} {t : Nat} {l : Loc α} (h : s.lockPull t l = some s') :
    s'.flag = s.flag ∧ s'.waiting = s.waiting ∧ s'.loc = upd s.loc t l := by
  simp only [State.lockPull] at h
  split at h <;> cases h
  exact ⟨rfl, rfl, rfl⟩

theorem Stuck.move {t u c : Nat} {w : List Nat} {l : Loc α} {s s' : State α} {o : Option (Out α)} (k : Stuck t w l s) (hu : u ≠ t)
    (h : s.stepAt b u c (s.loc u) = some (s', o)) : Stuck t w l s' := by
  have hp := k.others u hu
  have hf := k.flag
  generalize s.loc u = p at hp h
  cases p with
  | pLock i | gLock i =>
    simp only [State.stepAt, Option.map_eq_some_iff] at h
    obtain ⟨s1, h, e⟩ := h; cases e
    first
    | (obtain ⟨h1, h2, h3⟩ := lock_push_frame h; exact k.goto hu (h1.trans hf) h2 h3 rfl)
    | (obtain ⟨h1, h2, h3⟩ := lock_pull_frame h; exact k.goto hu (h1.trans hf) h2 h3 rfl)
  | pTest i =>
    cases h
    exact k.goto hu hf rfl rfl (by split <;> rfl)
  | pCas i | pCas2 | fCas i | gCas i =>
    simp only [State.stepAt, hf] at h
    cases h
    exact k.goto hu hf rfl rfl rfl
  | pAppend i | pAppend0 i | gPush i =>
    simp only [State.stepAt] at h
    split at h <;> cases h
    · exact k.goto hu hf rfl rfl rfl
    · exact k.goto hu hf rfl rfl rfl
  | xUnPull q =>
    cases q
    · cases h; exact k.goto hu hf rfl rfl rfl
    · cases hp
  | pUnPush | xUnPush | fUn | ret r => cases h; exact k.goto hu hf rfl rfl rfl
  | idle => cases h
  | _ => cases hp

theorem Stuck.run {t : Nat} {w : List Nat} {l : Loc α} (as : List (Act (Op α))) : ∀ {s s' : State α} {h : List (Event (Op α) (Out α))},
    Stuck t w l s → (∀ a ∈ as, insertsOnly t a) → (sys b α).run s as = some (s', h) → Stuck t w l s' := by
  induction as with
  | nil => intro s s' h k _ e; cases e; exact k
  | cons a as ih =>
    intro s s' h k ha e
    simp only [Sys.run, Option.bind_eq_some_iff, Option.map_eq_some_iff] at e
    obtain ⟨⟨s1, e1⟩, h1, ⟨s2, h'⟩, h2, e⟩ := e
    cases e
    have ha0 := ha a (by simp)
    refine ih ?_ (fun x hx => ha x (by simp [hx])) h2
    cases a with
    | call u op =>
      simp only [Sys.exec, sys, State.call, Option.map_eq_some_iff] at h1
      obtain ⟨s3, h1, e⟩ := h1
      cases e
      split at h1
      · simp only [Option.map_eq_some_iff] at h1
        obtain ⟨p, h1, rfl⟩ := h1
        refine k.goto ha0.1 k.flag rfl rfl ?_
        cases op <;> first | (cases ha0.2; done) | skip
        · cases h1; rfl
        · cases b <;> cases h1; rfl
      · cases h1
    | move u c =>
      simp only [Sys.exec, sys, Option.map_eq_some_iff] at h1
      obtain ⟨⟨s3, o⟩, h1, e⟩ := h1
      cases e
      exact k.move ha0 h1

/-- C168 does not hold: a thread that waits in pop while a queue that has elements to be pulled is assigned is not notified,
neither by the assignment nor by any number of insertions made afterwards by any number of threads: without a spurious
wakeup it goes on waiting as long as the other threads only insert. -/
theorem assign_waiter_violation (s s1 a : State α) (t : Nat) (ht : t ∈ s.waiting) (hi : ∀ u, u ≠ t → s.loc u = .idle)
    (hne : a.pull ≠ [] ∨ a.prio ≠ []) (e : s.assignFrom a = some s1) (as : List (Act (Op α))) (ha : ∀ x ∈ as, insertsOnly t x)
    (s2 : State α) (h : List (Event (Op α) (Out α))) (e2 : (sys b α).run s1 as = some (s2, h)) :
    t ∈ s2.waiting ∧ s2.loc t = s.loc t := by
  simp only [State.assignFrom] at e
  split at e
  · simp only [Option.some.injEq] at e
    have k : Stuck t s.waiting (s.loc t) s1 := by
      subst e
      refine ⟨?_, rfl, rfl, fun u hu => by show unflagged (s.loc u) = true; rw [hi u hu]; rfl⟩
      rcases hne with hne | hne <;> simp [hne]
    have k2 := k.run as ha e2
    exact ⟨k2.waiting ▸ ht, k2.loc⟩
  · cases e

/-- C168, what holds: a waiting thread that wakes up after the assignment, by itself or at the end of its time, takes the first
element that the other queue had, if no other thread is faster.  Missing: the assignment wakes it up, see
`assign_waiter_violation`. -/
theorem assign_wakes_partial (s s1 a : State α) (t c : Nat) (k : Kind) (hk : k.fate = .ok) (hl : s.loc t = .wSleep k)
    (e : s.assignFrom a = some s1) (x : α) (rest : List α) (hx : (if b then a.prio else []) ++ a.pull.reverse = x :: rest) :
    ∃ n s2, (sys b α).run s1 (List.replicate n (.move t c)) = some (s2, [.ret t (.val (some x))]) ∧ s2.loc t = .idle ∧
      (if b then s2.prio else []) ++ s2.pull.reverse = rest ∧ s2.push = a.push := by
  simp only [State.assignFrom] at e
  split at e
  · rename_i ho
    cases e
    have pulled : ∀ {l : List α} {y : α} {r : List α}, l.reverse = y :: r → l = r.reverse ++ [y] := by
      intro l y r h
      have := congrArg List.reverse h
      simpa using this
    cases b with
    | false =>
      have hp := pulled (l := a.pull) (by simpa using hx)
      refine ⟨7, ?_⟩
      simp [upd_same, List.replicate, Sys.run, Sys.exec, sys, hl, State.stepAt, State.goto, State.lockPull, State.unlockPull, ho.1, hp,
        State.moveOut, hk, Kind.result]
    | true =>
      cases hq : a.prio with
      | nil =>
        have hp := pulled (l := a.pull) (by simpa [hq] using hx)
        refine ⟨8, ?_⟩
        simp [upd_same, List.replicate, Sys.run, Sys.exec, sys, hl, State.stepAt, State.goto, State.lockPull, State.unlockPull, ho.1, hp, hq,
          State.moveOut, hk, Kind.result]
      | cons y r =>
        obtain ⟨rfl, hr⟩ : y = x ∧ r ++ a.pull.reverse = rest := by simpa [hq] using hx
        refine ⟨7, ?_⟩
        simp [upd_same, List.replicate, Sys.run, Sys.exec, sys, hl, State.stepAt, State.goto, State.lockPull, State.unlockPull, ho.1, hr, hq,
          State.moveOut, hk, Kind.result]
  · cases e

/-- A thread waits in pop, a queue holding 7 is assigned, and another thread completes two insertions. -/
example : ∃ s a s1 s2 : State Nat, Obtained false s ∧ Obtained false a ∧ a.idle ∧ s.loc 0 = .wSleep (.pop .ok) ∧ 0 ∈ s.waiting ∧
    (∀ u, u ≠ 0 → s.loc u = .idle) ∧ s.assignFrom a = some s1 ∧ a.pull = [7] ∧
    (sys false Nat).run s1 (.call 1 (.ins (.push 8)) :: List.replicate 7 (.move 1 0) ++
      .call 1 (.ins (.push 9)) :: List.replicate 5 (.move 1 0)) =
      some (s2, [.call 1 (.ins (.push 8)), .ret 1 .unit, .call 1 (.ins (.push 9)), .ret 1 .unit]) ∧ s2.waiting = [0] := by
  refine ⟨_, _, _, _, .use (as := .call 0 .pop :: List.replicate 11 (.move 0 0)) .new rfl,
    .use (as := .call 0 (.ins (.push 7)) :: List.replicate 11 (.move 0 0)) .new rfl, ?_, rfl, ?_, ?_, rfl, rfl, rfl, rfl⟩
  · intro t; match t with
    | 0 => rfl
    | n + 1 => rfl
  · exact List.mem_singleton.2 rfl
  · intro t ht; match t with
    | 0 => exact absurd rfl ht
    | n + 1 => rfl

end Verif.Blocking
