import Verif.Blocking.Eventually
import Verif.Blocking.Waits
import Verif.BlockingQueue.Props

/-
The properties C122 and C123 of BlockingQueue (`b` is false) and BlockingPriorityQueue (`b` is true): which calls return in infinite
executions that are fair to the threads that are not waiting for a notification (`FairTo waits`, see Verif/Conc/Progress.lean: every
such thread that can take a step again and again does so).  Nothing is assumed about the scheduling of threads that are waiting: they
need not be woken spuriously.
-/
namespace Verif.Blocking
open Verif.Conc State
open Verif.BlockingQueue («begin» go)

variable {α : Type} {s s' : State α} {t c : Nat} {b : Bool}

theorem step_sleeps {l : Loc α} {o : Option (Out α)} {k : Kind} (h : s.stepAt b t c l = some (s', o)) (hl : s'.loc t = .wSleep k) : ∃ k, l = .wEnter k := by
  have pL : ∀ (l' : Loc α), (s.lockPull t l').map (·, (none : Option (Out α))) = some (s', o) → l' ≠ .wSleep k → False := by
    intro l' hx hn
    simp only [Option.map_eq_some_iff] at hx
    obtain ⟨s1, e1, e2⟩ := hx; cases e2
    obtain ⟨_, rfl⟩ := lockPull_some e1; simp only [upd_same] at hl; exact hn hl
  have pU : ∀ (l' : Loc α), (s.lockPush t l').map (·, (none : Option (Out α))) = some (s', o) → l' ≠ .wSleep k → False := by
    intro l' hx hn
    simp only [Option.map_eq_some_iff] at hx
    obtain ⟨s1, e1, e2⟩ := hx; cases e2
    obtain ⟨_, rfl⟩ := lockPush_some e1; simp only [upd_same] at hl; exact hn hl
  cases l with
  | wEnter k' => exact ⟨k', rfl⟩
  | oCheck ck k r =>
    exfalso
    cases ck with
    | lock => exact pU _ h nofun
    | _ => cases h; simp only [State.goto, State.unlockPush, upd_same] at hl; cases r <;> (try split at hl) <;> simp [afterCheck] at hl
  | oUnPull k r =>
    exfalso
    cases h; simp only [State.goto, State.unlockPull, upd_same] at hl
    cases r with
    | some x => cases hl
    | none => rcases k with f | f | ⟨f, d⟩ | f <;> (try cases d) <;> simp [afterTry] at hl
  | oPFront k => cases h; simp only [State.goto, upd_same] at hl; exact absurd hl (moveOut_ind (P := (· ≠ .wSleep _)) (next := .oPPop k) _ _ nofun nofun (fun _ => nofun))
  | oBack k => cases h; simp only [State.goto, upd_same] at hl; exact absurd hl (moveOut_ind (P := (· ≠ .wSleep _)) (next := .oPop k) _ _ nofun nofun (fun _ => nofun))
  | wPFront k => cases h; simp only [State.goto, upd_same] at hl; exact absurd hl (moveOut_ind (P := (· ≠ .wSleep _)) (next := .wPPop k) _ _ nofun nofun (fun _ => nofun))
  | wBack k => cases h; simp only [State.goto, upd_same] at hl; exact absurd hl (moveOut_ind (P := (· ≠ .wSleep _)) (next := .wPop k) _ _ nofun nofun (fun _ => nofun))
  | oLock k | wLock k | wRelock k d | kLock d => cases b <;> exact (pL _ h nofun).elim
  | kPFront d | kBack d => cases h; simp only [State.goto, upd_same] at hl; cases d <;> split at hl <;> cases hl
  | wTest k d => cases h; simp only [State.goto, upd_same] at hl; cases d <;> split at hl <;> cases hl
  | cPush => cases h; simp only [State.goto, upd_same] at hl; cases b <;> cases hl
  | _ =>
    first
    | exact (pU _ h nofun).elim
    | exact (pL _ h nofun).elim
    | (cases h; done)
    | (cases h; simp only [State.goto, State.unlockPush, State.unlockPull, upd_same] at hl; cases hl; done)
    | (cases h; simp only [State.goto, State.unlockPush, State.unlockPull, upd_same] at hl; split at hl <;> cases hl)
    | (simp only [State.stepAt] at h; split at h <;> cases h <;> simp only [State.goto, upd_same] at hl <;> cases hl)

theorem watch_one (E : Infinite (sys b α)) (i t : Nat) : watch b t (E.st i) [E.act i] = seen t (E.st i) (resultOf b (E.st i) (E.act i)) (E.act i) := by
  simp [watch, E.step i]

/-! ### C122 -/

/-- C122: push, emplace, pushPriority, emplacePriority, try_pop, try_peek, empty, size, clear and reserve return. -/
theorem plain_calls_return (E : Infinite (sys b α)) (hf : E.FairTo waits) (i t : Nat) (op : Op α) (hw : op.waits = false) (h : E.act i = .call t op) :
    ∃ j, i < j ∧ ∃ o, E.out j = [.ret t o] :=
  plain_returns hf h hw

/-- C122: pop, pop(timeout) and popOrCall return or begin to wait. -/
theorem pop_returns_or_waits (E : Infinite (sys b α)) (hf : E.FairTo waits) (i t : Nat) (op : Op α) (h : E.act i = .call t op) :
    ∃ j, i < j ∧ ((∃ o, E.out j = [.ret t o]) ∨ .waits ∈ watch b t (E.st j) [E.act j]) := by
  obtain ⟨j, hj, h1 | h1⟩ := returns_or_waits hf h
  · exact ⟨j, hj, .inl h1⟩
  obtain ⟨m, h2, ⟨k, h3⟩, h4⟩ := Infinite.least (P := fun j => ∃ k, (E.st j).loc t = .wSleep k) ⟨j, hj, h1⟩
  obtain ⟨_, e1⟩ := (guards b α).begun h
  obtain ⟨l, hst, _, hs, _⟩ := call_locks e1
  have hne : m ≠ i + 1 := by
    rintro rfl
    rw [hs] at h3
    simp only [State.goto, upd_same] at h3
    rcases start_cases hst with ⟨i, rfl, rfl⟩ | ⟨i, rfl, rfl, _⟩ | ⟨k', rfl, rfl⟩ | ⟨x, rfl, rfl⟩ | ⟨rfl, rfl, _⟩ | ⟨rfl, rfl⟩ |
      ⟨rfl, rfl⟩ | ⟨rfl, rfl⟩ <;> cases h3
  obtain ⟨n, rfl⟩ : ∃ n, m = n + 1 := ⟨m - 1, by omega⟩
  refine ⟨n, by omega, .inr ?_⟩
  have hn := h4 n (by omega) (by omega)
  rw [watch_one]
  have hx := E.step n
  cases ha : E.act n with
  | call u op' =>
    exfalso
    rw [ha] at hx
    simp only [Sys.exec, Option.map_eq_some_iff] at hx
    obtain ⟨s3, e1, e3⟩ := hx
    obtain ⟨h5, h6⟩ := Prod.mk.inj e3
    obtain ⟨l', hst', _, hs', _⟩ := call_locks e1
    rw [← h5, hs'] at h3
    by_cases e : t = u
    · subst e
      simp only [State.goto, upd_same] at h3
      rcases start_cases hst' with ⟨i, rfl, rfl⟩ | ⟨i, rfl, rfl, _⟩ | ⟨k', rfl, rfl⟩ | ⟨x, rfl, rfl⟩ | ⟨rfl, rfl, _⟩ | ⟨rfl, rfl⟩ |
        ⟨rfl, rfl⟩ | ⟨rfl, rfl⟩ <;> cases h3
    · simp only [State.goto, upd_ne _ _ e] at h3
      exact hn ⟨k, h3⟩
  | move u c =>
    rw [ha] at hx
    simp only [Sys.exec, Option.map_eq_some_iff] at hx
    obtain ⟨⟨s3, r⟩, e1, e3⟩ := hx
    obtain ⟨h5, h6⟩ := Prod.mk.inj e3
    by_cases e : t = u
    · subst e
      obtain ⟨k', hk⟩ := step_sleeps e1 (by rw [show s3 = _ from h5]; exact h3)
      simp [seen, hk, stepMark]
    · rw [← h5] at h3
      have h3 : s3.loc t = .wSleep k := h3
      rw [stepAt_loc e1, upd_ne _ _ e] at h3
      exact absurd ⟨k, h3⟩ hn

/-- C122: once a wait of pop(timeout) has ended with the timeout, the call returns. -/
theorem pop_returns_after_timeout (E : Infinite (sys b α)) (hf : E.FairTo waits) (i t : Nat) (h : .timeout ∈ watch b t (E.st i) [E.act i]) :
    ∃ j, i < j ∧ ∃ o, E.out j = [.ret t o] := by
  rw [watch_one] at h
  cases ha : E.act i with
  | call u op =>
    rw [ha] at h
    simp only [seen] at h
    split at h <;> simp at h
  | move u c =>
    rw [ha] at h
    simp only [seen] at h
    split at h
    · rename_i e
      subst e
      rw [List.mem_append] at h
      rcases h with h | h
      · cases hl : (E.st i).loc u <;> rw [hl] at h <;> simp only [stepMark, List.not_mem_nil, List.mem_singleton, reduceCtorEq] at h
        rename_i k
        rcases k with f | f | ⟨f, d⟩ | f <;> simp only [wakeMark, reduceCtorEq] at h
        have hc : c % 2 = 1 := by
          by_cases hc : c % 2 = 1
          · exact hc
          · simp [hc] at h
        exact timeout_returns hf hl ha hc
      · cases hr : resultOf b (E.st i) (.move u c) <;> rw [hr] at h <;> simp at h
    · cases h

/-! ### C123 -/

/-- C123: Only thread `p` removes elements, and no insertion throws.  A call of `p`, for instance pop, returns if the queue is not empty at
some time after it has begun. -/
theorem single_consumer_returns (E : Infinite (sys b α)) (hf : E.FairTo waits) (p : Nat)
    (ho : ∀ i t op, E.act i = .call t op → (t = p ∨ (op.waits = false ∧ op.tries = false ∧ op ≠ .clear)) ∧
      ∀ v, op ≠ .ins (.thrown v) ∧ op ≠ .prio (.thrown v))
    (i j : Nat) (op : Op α) (h : E.act i = .call p op) (hij : i < j) (hne : (E.st j).contents ≠ ([], [])) :
    ∃ k, i < k ∧ ∃ o, E.out k = [.ret p o] := by
  cases hw : op.waits with
  | false => exact plain_returns hf h hw
  | true => exact consumer_returns hf ho (by rintro rfl; cases hw) h hij hne

/-- C123: in particular it returns if an insertion is called after it has begun: no wakeup is lost. -/
theorem single_consumer_returns_after_insertion (E : Infinite (sys b α)) (hf : E.FairTo waits) (p : Nat)
    (ho : ∀ i t op, E.act i = .call t op → (t = p ∨ (op.waits = false ∧ op.tries = false ∧ op ≠ .clear)) ∧
      ∀ v, op ≠ .ins (.thrown v) ∧ op ≠ .prio (.thrown v))
    (i j u : Nat) (op : Op α) (h : E.act i = .call p op) (hij : i < j) (x : Ins α) (hins : E.act j = .call u (.ins x) ∨ E.act j = .call u (.prio x)) :
    ∃ k, i < k ∧ ∃ o, E.out k = [.ret p o] := by
  have : ∃ n, j < n ∧ (E.st n).contents ≠ ([], []) := by
    rcases hins with hins | hins
    · exact insertion_inserts hf (.inl ⟨x, rfl⟩) (ho _ _ _ hins).2 hins
    · exact insertion_inserts hf (.inr ⟨x, rfl⟩) (ho _ _ _ hins).2 hins
  obtain ⟨n, h1, h2⟩ := this
  exact single_consumer_returns E hf p ho i n op h (by omega) h2

/-- C123, other threads may call try_pop of BlockingQueue, and clear: a pop of the only thread that waits returns, or the queue is empty
again and again. -/
theorem waiting_pop_returns_or_empty (E : Infinite (sys b α)) (hf : E.FairTo waits) (p : Nat)
    (ho : ∀ i t op, E.act i = .call t op → (t = p ∨ (op.waits = false ∧ (b = true → op.tries = false))) ∧
      ∀ v, op ≠ .ins (.thrown v) ∧ op ≠ .prio (.thrown v))
    (i : Nat) (op : Op α) (h : E.act i = .call p op) :
    (∃ k, i < k ∧ ∃ o, E.out k = [.ret p o]) ∨ ∀ n, ∃ j, n ≤ j ∧ (E.st j).contents = ([], []) := by
  apply Classical.byContradiction
  intro hn
  obtain ⟨h1, h2⟩ := not_or.1 hn
  obtain ⟨n, h2⟩ := Classical.not_forall.1 h2
  have h2 : ∀ j, n ≤ j → (E.st j).contents ≠ ([], []) := fun j hj he => h2 ⟨j, hj, he⟩
  obtain ⟨hid, _⟩ := (guards b α).begun h
  have hid := goes_on (j := max (i + 1) n) (fun k hk o e => h1 ⟨k, by omega, o, e⟩) hid (by omega)
  obtain ⟨k, h3, h4⟩ := consumer_finds hf ho (fun j hj => h2 j (by omega)) hid
  exact h1 ⟨k, by omega, h4⟩

/-! ### Examples -/

/-- Every finite execution is the beginning of an infinite one that is fair (to all threads), with no further calls but empty(). -/
theorem extends_fair (as : List (Act (Op α))) {s : State α} {h : List (Event (Op α) (Out α))} (e : (sys b α).run (sys b α).init as = some (s, h)) :
    ∃ E : Infinite (sys b α), E.Fair ∧ E.sched 0 as.length = as ∧ E.st as.length = s ∧
      ∀ i t op, E.act i = .call t op → .call t op ∈ as ∨ op = .empty :=
  (guards b α).extends_fair (op := .empty) (fun s t h => by
    have h : s.loc t = .idle := h
    simp [sys, State.call, State.start, h]) as e

/-- `plain_calls_return`, `pop_returns_or_waits`: thread 0 is in push and has woken thread 1, which waits in pop, thread 2 has begun to clear the queue -/
example : ∃ E : Infinite (sys false Nat), E.FairTo waits ∧ E.act 0 = .call 1 .pop ∧ E.act 12 = .call 0 (.ins (.push 7)) ∧ E.act 22 = .call 2 .clear ∧
    (E.st 12).waiting = [1] ∧ (E.st 23).waiting = [] ∧ (E.st 23).pullOwner = some 0 := by
  obtain ⟨E, h1, h2, _⟩ := extends_fair (b := false) («begin» 1 .pop 11 ++ «begin» 0 (.ins (.push 7)) 9 ++ «begin» 2 .clear 0) rfl
  obtain ⟨ha, hs⟩ := Infinite.follows h2
  exact ⟨E, h1.to _, ha 0 _ rfl, ha 12 _ rfl, ha 22 _ rfl, by rw [hs 12 _ _ (by decide) rfl]; rfl, by rw [hs 23 _ _ (by decide) rfl]; rfl,
    by rw [hs 23 _ _ (by decide) rfl]; rfl⟩

/-- `pop_returns_after_timeout`: thread 1 is in pop(timeout) -/
example : ∃ E : Infinite (sys true Nat), E.FairTo waits ∧ E.act 0 = .call 1 .timedPop ∧ .timeout ∈ watch true 1 (E.st 14) [E.act 14] := by
  obtain ⟨E, h1, h2, _⟩ := extends_fair (b := true) («begin» 1 .timedPop 13 ++ [.move 1 1]) rfl
  obtain ⟨ha, hs⟩ := Infinite.follows h2
  exact ⟨E, h1.to _, ha 0 _ rfl, by
    have h14 := ha 14 _ rfl
    have hl : (E.st 14).loc 1 = .wSleep (.timed .ok false) := by rw [hs 14 _ _ (by decide) rfl]; rfl
    rw [watch_one, h14]
    simp [seen, hl, stepMark, wakeMark]⟩

/-- `single_consumer_returns`, `single_consumer_returns_after_insertion`, `waiting_pop_returns_or_empty`: thread 1 waits in pop, thread 0 calls
pushPriority -/
example : ∃ E : Infinite (sys true Nat), E.FairTo waits ∧ (∀ i t op, E.act i = .call t op → (t = 1 ∨ (op.waits = false ∧ op.tries = false ∧ op ≠ .clear)) ∧
      ∀ v, op ≠ .ins (.thrown v) ∧ op ≠ .prio (.thrown v)) ∧ E.act 0 = .call 1 .pop ∧ (E.st 14).waiting = [1] ∧ E.act 14 = .call 0 (.prio (.push 7)) ∧
    (E.st 19).contents = ([7], []) := by
  obtain ⟨E, h1, h2, _, h3⟩ := extends_fair (b := true) («begin» 1 .pop 13 ++ «begin» 0 (.prio (.push 7)) 4) rfl
  obtain ⟨ha, hs⟩ := Infinite.follows h2
  refine ⟨E, h1.to _, fun i t op h => ?_, ha 0 _ rfl, by rw [hs 14 _ _ (by decide) rfl]; rfl, ha 14 _ rfl, by rw [hs 19 _ _ (by decide) rfl]; rfl⟩
  rcases h3 i t op h with h | rfl
  · simp [«begin», List.replicate] at h
    rcases h with ⟨rfl, rfl⟩ | ⟨rfl, rfl⟩
    · exact ⟨.inl rfl, fun v => ⟨nofun, nofun⟩⟩
    · exact ⟨.inr ⟨rfl, rfl, nofun⟩, fun v => ⟨nofun, nofun⟩⟩
  · exact ⟨.inr ⟨rfl, rfl, nofun⟩, fun v => ⟨nofun, nofun⟩⟩

end Verif.Blocking
