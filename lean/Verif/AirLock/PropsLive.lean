import Verif.AirLock.Live
import Verif.Conc.Cycle

/-
The property C124 of AirLock: which calls return in infinite executions that are fair to the threads that are not asleep in load
(`FairTo asleep`, see Verif/Conc/Progress.lean: every such thread that can take a step again and again does so).  Nothing is assumed
about sleeping threads: they need not be woken spuriously.
-/
namespace Verif.AirLock
open Verif.Conc State

variable {α : Type}

/-! ### C124 -/

/-- C124: try_load, try_unload and isLoaded return. -/
theorem plain_calls_return (E : Infinite (sys α)) (hf : E.FairTo asleep) (i t : Nat) (op : Op α) (hw : ∀ v, op ≠ .load v) (hx : op ≠ .loadX)
    (h : E.act i = .call t op) : ∃ j, i < j ∧ ∃ o, E.out j = [.ret t o] :=
  plain_returns hf (by cases op <;> first | rfl | exact absurd rfl (hw _) | exact absurd rfl hx) h

/-- C124: load returns or begins to wait. -/
theorem load_returns_or_waits (E : Infinite (sys α)) (hf : E.FairTo asleep) (i t : Nat) (op : Op α) (h : E.act i = .call t op) :
    ∃ j, i < j ∧ ((∃ o, E.out j = [.ret t o]) ∨ asleep (E.st j) t) :=
  load_returns_or_sleeps hf h

/-- C124: after a call of try_unload the airlock is empty at some time. -/
theorem unload_empties (E : Infinite (sys α)) (hf : E.FairTo asleep) (i t : Nat) (h : E.act i = .call t .tryUnload) :
    ∃ j, i < j ∧ (E.st j).loaded = false :=
  emptied hf h

/-- C124: When try_unload is called again and again and no load throws, every load returns, or the airlock is filled again and again
by other calls. -/
theorem load_returns_or_overtaken_partial (E : Infinite (sys α)) (hf : E.FairTo asleep) (hc : ∀ i t, E.act i ≠ .call t .loadX)
    (hu : ∀ n, ∃ k u, n ≤ k ∧ E.act k = .call u .tryUnload) (i t : Nat) (v : α) (h : E.act i = .call t (.load v)) :
    (∃ j, i < j ∧ ∃ o, E.out j = [.ret t o]) ∨ ∀ n, ∃ j, n ≤ j ∧ (E.st j).loaded = false ∧ (E.st (j + 1)).loaded = true :=
  returns_or_filled hf (fun i t op ha => by cases op <;> first | rfl | exact absurd ha (hc i t)) hu h

/-- C124: When try_unload is called again and again, no load throws, and from some time on load and try_load are not called any more,
every load returns. -/
theorem load_returns_partial (E : Infinite (sys α)) (hf : E.FairTo asleep) (hc : ∀ i t, E.act i ≠ .call t .loadX)
    (hu : ∀ n, ∃ k u, n ≤ k ∧ E.act k = .call u .tryUnload) (m : Nat)
    (hl : ∀ i t v, m ≤ i → E.act i ≠ .call t (.load v) ∧ E.act i ≠ .call t (.tryLoad v) ∧ E.act i ≠ .call t .tryLoadX)
    (i t : Nat) (v : α) (h : E.act i = .call t (.load v)) : ∃ j, i < j ∧ ∃ o, E.out j = [.ret t o] := by
  rcases load_returns_or_overtaken_partial E hf hc hu i t v h with h1 | h1
  · exact h1
  · obtain ⟨n, hn⟩ := fills_end (E := E) (n := m) (fun i u op hi ha => by
      have := hl i u v hi
      cases op with
      | load w => exact absurd ha (hl i u w hi).1
      | tryLoad w => exact absurd ha (hl i u w hi).2.1
      | tryLoadX => exact absurd ha this.2.2
      | loadX => exact absurd ha (hc i u)
      | _ => rfl)
    obtain ⟨j, h2, h3, h4⟩ := h1 n
    rw [hn j h2 h3] at h4; cases h4

/-! ### Examples -/

/-- Every finite execution is the beginning of an infinite one that is fair (to all threads), with no further calls but `op`. -/
theorem extends_fair (op : Op α) (hop : op.tears = false) (as : List (Act (Op α))) {s : State α} {h : List (Event (Op α) (Out α))}
    (e : (sys α).run (sys α).init as = some (s, h)) :
    ∃ E : Infinite (sys α), E.Fair ∧ E.sched 0 as.length = as ∧ E.st as.length = s ∧
      ∀ i t op', E.act i = .call t op' → .call t op' ∈ as ∨ op' = op :=
  (guards α).extends_fair (op := op) (fun s t h => by
    have h : s.loc t = .idle := h
    simp [sys, State.call, h, hop]) as e

/-- `plain_calls_return`, `load_returns_or_waits`, `unload_empties`: thread 1 sleeps in load, thread 0 is in try_unload, thread 2 in try_load -/
example : ∃ E : Infinite (sys Nat), E.FairTo asleep ∧ E.act 8 = .call 1 (.load 8) ∧ E.act 13 = .call 0 .tryUnload ∧ E.act 16 = .call 2 (.tryLoad 9) ∧
    asleep (E.st 13) 1 := by
  obtain ⟨E, h1, h2, _⟩ := extends_fair .isLoaded rfl (begin 0 (.tryLoad 7) 7 ++ begin 1 (.load 8) 4 ++ begin 0 .tryUnload 2 ++ begin 2 (.tryLoad 9) 0) rfl
  obtain ⟨ha, hs⟩ := Infinite.follows h2
  exact ⟨E, h1.to _, ha 8 _ rfl, ha 13 _ rfl, ha 16 _ rfl, by rw [hs 13 _ _ (by decide) rfl]; exact List.mem_singleton.2 rfl⟩

/-! ### A load that never returns -/

/-- thread 0 has loaded 7, thread 1 sleeps in load -/
def starveStart : List (Act (Op Nat)) := begin 0 (.load 7) 6 ++ begin 1 (.load 8) 4

/-- thread 2 unloads 7 and wakes thread 1, thread 0 loads 7 again, thread 1 gets the lock, finds the airlock loaded and waits again -/
def starveLoop : List (Act (Op Nat)) := begin 2 .tryUnload 8 ++ begin 0 (.load 7) 6 ++ List.replicate 4 (.move 1 0)

/-- the state at the beginning of each round -/
def starveState : State Nat := ⟨true, some 7, none, [1], fun t => if t = 1 then .lSleep (some 8) else .idle⟩

theorem starve_start : (sys Nat).run (sys Nat).init starveStart = some (starveState, [.call 0 (.load 7), .ret 0 .unit, .call 1 (.load 8)]) := by
  have : (sys Nat).run (sys Nat).init starveStart = some (_, [.call 0 (.load 7), .ret 0 .unit, .call 1 (.load 8)]) := rfl
  rw [this]
  refine congrArg some (Prod.ext ?_ rfl)
  refine State.mk.injEq .. |>.mpr ⟨rfl, rfl, rfl, rfl, ?_⟩
  funext t
  by_cases h1 : t = 1
  · subst h1; rfl
  · by_cases h0 : t = 0
    · subst h0; rfl
    · simp [State.goto, State.unlock, sys, State.init, upd, h0, h1, starveState]

theorem starve_loop : (sys Nat).run starveState starveLoop =
    some (starveState, [.call 2 .tryUnload, .ret 2 (.val (some 7)), .call 0 (.load 7), .ret 0 .unit]) := by
  have : (sys Nat).run starveState starveLoop = some (_, [.call 2 .tryUnload, .ret 2 (.val (some 7)), .call 0 (.load 7), .ret 0 .unit]) := rfl
  rw [this]
  refine congrArg some (Prod.ext ?_ rfl)
  refine State.mk.injEq .. |>.mpr ⟨rfl, rfl, rfl, rfl, ?_⟩
  funext t
  by_cases h1 : t = 1
  · subst h1; rfl
  · by_cases h0 : t = 0
    · subst h0; rfl
    · by_cases h2 : t = 2
      · subst h2; rfl
      · simp [State.goto, State.unlock, upd, h0, h1, h2, starveState]

/-- C124 does not hold of all loads: in this fair execution try_unload is called again and again and unloads a value each time, no call
throws, and the load of thread 1 never returns, since each time thread 0 comes first. -/
theorem load_starves_violation : ∃ E : Infinite (sys Nat), E.Fair ∧ (∀ i t, E.act i ≠ .call t .loadX) ∧ E.act 7 = .call 1 (.load 8) ∧
    (∀ n, ∃ k, n ≤ k ∧ E.act k = .call 2 .tryUnload) ∧ ∀ j o, .ret 1 o ∉ E.out j := by
  obtain ⟨E, ha, _, ho⟩ := Infinite.cycle starve_start starve_loop (by decide)
  have idle : ∀ i t, 3 ≤ t → (E.st i).loc t = .idle := by
    intro i t ht
    refine E.always (P := fun s => s.loc t = .idle) rfl (fun i h => ?_) i
    have hne : ∀ u, (∃ op, E.act i = .call u op) ∨ (∃ c, E.act i = .move u c) → t ≠ u := by
      rintro u hu rfl
      have := Infinite.among ha i
      rcases hu with ⟨op, hu⟩ | ⟨c, hu⟩ <;> rw [hu] at this <;> simp [starveStart, starveLoop, begin, List.mem_replicate] at this <;> omega
    rcases act_cases E i with ⟨u, op, e0, e1, e2⟩ | ⟨u, c, o, e0, e1, _⟩
    · rw [e2]; simp only [State.goto, upd_ne _ _ (hne u (.inl ⟨op, e0⟩))]; exact h
    · rw [stepAt_loc e1, upd_ne _ _ (hne u (.inr ⟨c, e0⟩))]; exact h
  refine ⟨E, ?_, ?_, ?_, fun n => Infinite.recurs ha (by simp [starveLoop, begin]) n, fun j o hj => ?_⟩
  · intro t hcan i
    by_cases ht : 3 ≤ t
    · exfalso
      obtain ⟨j, _, c, hj⟩ := hcan 0
      have hj : ((E.st j).stepAt t c ((E.st j).loc t)).isSome = true := hj
      rw [idle j t ht] at hj; cases hj
    · have : (.move t 0 : Act (Op Nat)) ∈ starveLoop := by
        have : t = 0 ∨ t = 1 ∨ t = 2 := by omega
        rcases this with rfl | rfl | rfl <;> simp [starveLoop, begin]
      obtain ⟨j, h1, h2⟩ := Infinite.recurs ha this i
      exact ⟨j, h1, 0, h2⟩
  · intro i t h
    have := Infinite.among ha i
    rw [h] at this
    simp [starveStart, starveLoop, begin, List.mem_replicate] at this
  · have := ha 7
    exact Option.some.inj (this.trans rfl)
  · rcases ho j _ hj with h | h <;> simp at h

/-- `load_returns_or_overtaken_partial`: the same execution meets its hypotheses -/
example : ∃ E : Infinite (sys Nat), E.FairTo asleep ∧ (∀ i t, E.act i ≠ .call t .loadX) ∧ E.act 7 = .call 1 (.load 8) ∧
    ∀ n, ∃ k u, n ≤ k ∧ E.act k = .call u .tryUnload := by
  obtain ⟨E, h1, h2, h3, h4, _⟩ := load_starves_violation
  exact ⟨E, h1.to _, h2, h3, fun n => by obtain ⟨k, h⟩ := h4 n; exact ⟨k, 2, h⟩⟩

/-- thread 1 waits in load until thread 2 unloads, then both values have been unloaded -/
def calmStart : List (Act (Op Nat)) :=
  begin 0 (.load 7) 6 ++ begin 1 (.load 8) 4 ++ begin 2 .tryUnload 8 ++ List.replicate 7 (.move 1 0) ++ begin 2 .tryUnload 8

/-- thread 2 goes on calling try_unload -/
def calmLoop : List (Act (Op Nat)) := begin 2 .tryUnload 2

theorem calm_start : ∃ h, (sys Nat).run (sys Nat).init calmStart = some (State.init, h) := by
  have : (sys Nat).run (sys Nat).init calmStart = some (_, _) := rfl
  refine ⟨_, this.trans (congrArg some (Prod.ext ?_ rfl))⟩
  refine State.mk.injEq .. |>.mpr ⟨rfl, rfl, rfl, rfl, ?_⟩
  funext t
  by_cases h1 : t = 1
  · subst h1; rfl
  · by_cases h0 : t = 0
    · subst h0; rfl
    · by_cases h2 : t = 2
      · subst h2; rfl
      · simp [State.goto, State.unlock, sys, State.init, upd, h0, h1, h2]

theorem calm_loop : ∃ h, (sys Nat).run State.init calmLoop = some (State.init, h) := by
  have : (sys Nat).run State.init calmLoop = some (_, _) := rfl
  refine ⟨_, this.trans (congrArg some (Prod.ext ?_ rfl))⟩
  refine State.mk.injEq .. |>.mpr ⟨rfl, rfl, rfl, rfl, ?_⟩
  funext t
  by_cases h2 : t = 2
  · subst h2; rfl
  · simp [State.goto, State.init, upd, h2]

/-- `load_returns_partial`: two loads and endless calls of try_unload -/
example : ∃ E : Infinite (sys Nat), E.FairTo asleep ∧ (∀ i t, E.act i ≠ .call t .loadX) ∧ E.act 7 = .call 1 (.load 8) ∧
    (∀ n, ∃ k u, n ≤ k ∧ E.act k = .call u .tryUnload) ∧
    ∀ i t v, 12 ≤ i → E.act i ≠ .call t (.load v) ∧ E.act i ≠ .call t (.tryLoad v) ∧ E.act i ≠ .call t .tryLoadX := by
  obtain ⟨h, e1⟩ := calm_start
  obtain ⟨h', e2⟩ := calm_loop
  obtain ⟨E, ha, hst, _⟩ := Infinite.cycle e1 e2 (by decide)
  have len : calmStart.length = 37 := rfl
  have late : ∀ i, 12 ≤ i → ∀ t op, E.act i = .call t op → op = .tryUnload := by
    intro i hi t op e
    have := ha i
    rw [e] at this
    simp only [again] at this
    split at this
    · rename_i hlt
      rw [len] at hlt
      have : calmStart[i]? = (calmStart.drop 12)[i - 12]? := by rw [List.getElem?_drop]; congr 1; omega
      have hm : .call t op ∈ calmStart.drop 12 := List.mem_of_getElem? (by rw [← this]; symm; assumption)
      simp [calmStart, begin, List.replicate] at hm
      exact hm.2
    · have hm := List.mem_of_getElem? this.symm
      simp [calmLoop, begin] at hm
      exact hm.2
  have idle : ∀ i t, t ≠ 2 → 37 ≤ i → (E.st i).loc t = .idle := by
    intro i t ht hi
    obtain ⟨d, rfl⟩ := Nat.exists_eq_add_of_le hi
    clear hi
    induction d with
    | zero =>
      have := hst 0
      rw [len, Nat.zero_mul] at this
      rw [this]; rfl
    | succ d ih =>
      have hx : E.act (37 + d) ∈ calmLoop := by
        have := ha (37 + d)
        simp only [again, len] at this
        rw [if_neg (by omega)] at this
        exact List.mem_of_getElem? this.symm
      rcases act_cases E (37 + d) with ⟨u, op, e0, e1, e2⟩ | ⟨u, c, o, e0, e1, _⟩
      · rw [e0] at hx
        simp [calmLoop, begin] at hx
        rw [show 37 + (d + 1) = 37 + d + 1 from rfl, e2]; simp only [State.goto]; rw [upd_ne _ _ (by omega)]; exact ih
      · rw [e0] at hx
        simp [calmLoop, begin] at hx
        rw [show 37 + (d + 1) = 37 + d + 1 from rfl, stepAt_loc e1, upd_ne _ _ (by omega)]; exact ih
  refine ⟨E, ?_, ?_, ?_, fun n => ?_, fun i t v hi => ?_⟩
  · intro t hcan i
    by_cases ht : t = 2
    · subst ht
      obtain ⟨j, h1, h2⟩ := Infinite.recurs ha (show (.move 2 0 : Act (Op Nat)) ∈ calmLoop by simp [calmLoop, begin]) i
      exact ⟨j, h1, 0, h2⟩
    · exfalso
      obtain ⟨j, hj, ⟨c, hc⟩, _⟩ := hcan 37
      have hc : ((E.st j).stepAt t c ((E.st j).loc t)).isSome = true := hc
      rw [idle j t ht hj] at hc; cases hc
  · intro i t h
    have := Infinite.among ha i
    rw [h] at this
    simp [calmStart, calmLoop, begin, List.mem_replicate] at this
  · exact Option.some.inj ((ha 7).trans rfl)
  · obtain ⟨k, h1, h2⟩ := Infinite.recurs ha (show (.call 2 .tryUnload : Act (Op Nat)) ∈ calmLoop by simp [calmLoop, begin]) n
    exact ⟨k, 2, h1, h2⟩
  · refine ⟨fun h => ?_, fun h => ?_, fun h => ?_⟩ <;> cases late i hi t _ h

end Verif.AirLock
