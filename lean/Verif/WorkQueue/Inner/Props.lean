import Verif.WorkQueue.Inner.Lemmas

/-
The property C143: closing a WorkQueue from inside a work block.
-/
namespace Verif.WorkQueue.Inner
open Verif.Conc WorkQueue.State

variable {n t c : Nat} {closes : Nat → Bool} {s s' : State} {o : Option Res}

/-! ### The call never returns -/

/-- positions of a call of closeWorkerQueue before it is over -/
def under (l : Loc) : Prop := l = .cLock ∨ l = .cTest ∨ l = .cHalt ∨ inClose l = true ∨ ∃ k, l = .cJoin k true

theorem under_step {q q' : WorkQueue.State} {oo : Option Out} {l : Loc} (hl : under l) (hn : ∀ b, l ≠ .cJoin n b)
    (hm : stepAt n q t c l = some (q', oo)) :
    under (q'.loc t) ∧ ∀ k b, q'.loc t = .cJoin k b → k = 0 ∨ ∃ k', k = k' + 1 ∧ l = .cJoin k' b := by
  have go : ∀ {s1 : WorkQueue.State} {l'}, (s1.goto t l').loc t = l' := by intro s1 l'; rw [loc_goto, upd_same]
  refine ⟨?_, fun k b e => ?_⟩
  · rcases hl with rfl | rfl | rfl | hl | ⟨k, rfl⟩
    · simp only [stepAt, State.lock] at hm
      split at hm
      · obtain ⟨rfl, rfl⟩ := Prod.mk.inj (Option.some.inj hm)
        rw [go]; exact .inr (.inl rfl)
      · cases hm
    · simp only [stepAt] at hm
      obtain ⟨rfl, rfl⟩ := Prod.mk.inj (Option.some.inj hm)
      rw [go]
      split
      · exact .inr (.inr (.inr (.inr ⟨0, rfl⟩)))
      · exact .inr (.inr (.inl rfl))
    · obtain ⟨rfl, rfl⟩ := Prod.mk.inj (Option.some.inj hm)
      rw [go]; exact .inr (.inr (.inr (.inl rfl)))
    · rcases (step_close hm (closing_of_inClose hl)).1 hl with h1 | h1
      · exact .inr (.inr (.inr (.inl h1)))
      · exact absurd h1 (hn _)
    · simp only [stepAt] at hm
      split at hm
      · rename_i hk; subst hk; exact absurd rfl (hn true)
      · split at hm
        · obtain ⟨rfl, rfl⟩ := Prod.mk.inj (Option.some.inj hm)
          rw [go]; exact .inr (.inr (.inr (.inr ⟨_, rfl⟩)))
        · split at hm
          · obtain ⟨rfl, rfl⟩ := Prod.mk.inj (Option.some.inj hm)
            rw [go]; exact .inr (.inr (.inr (.inr ⟨_, rfl⟩)))
          · cases hm
  · have hcl : closing l = true := by
      rcases hl with rfl | rfl | rfl | hl | ⟨k, rfl⟩
      · rfl
      · rfl
      · rfl
      · exact closing_of_inClose hl
      · rfl
    rcases (step_close hm hcl).2.1 k b e with h | ⟨k', h1, h2, _⟩
    · exact .inl h
    · exact .inr ⟨k', h1, h2⟩

/-- what is always true, whoever closes the queue -/
structure Always (n : Nat) (closes : Nat → Bool) (s : State) (h : List (Event Op Res)) : Prop where
  place : ∀ t, place n t (s.q.loc t)
  joined : ∀ k, s.q.joined k = true → s.q.loc k = .exited
  calls : ∀ t, t < n → s.inside t = true → (∃ i bs, s.q.loc t = .eRun i bs ∧ closes i = true) ∧ under (s.q.loc (n + t)) ∧
    ∀ k b, s.q.loc (n + t) = .cJoin k b → k ≤ t
  threw : ∀ t r, t < n → .ret t r ∈ h → r = .threw

theorem joined_step {q q' : WorkQueue.State} {oo : Option Out} (hm : stepAt n q t c (q.loc t) = some (q', oo))
    (k : ∀ k, q.joined k = true → q.loc k = .exited) : ∀ k, q'.joined k = true → q'.loc k = .exited := by
  intro j hj
  have old : ∀ j, q.loc j = .exited → q'.loc j = .exited := by
    intro j hl
    rw [other_loc hm (by rintro rfl; rw [hl] at hm; cases hm) (by rw [hl]; simp), hl]
  rcases step_joined hm with h1 | ⟨m, b, e1, e2, _⟩
  · rw [h1] at hj; exact old j (k j hj)
  · rw [e2] at hj
    by_cases e : j = m
    · subst e
      cases hjo : q.joined j with
      | true => exact old j (k j hjo)
      | false =>
        rw [e1] at hm
        simp only [stepAt, hjo] at hm
        split at hm
        · obtain ⟨rfl, rfl⟩ := Prod.mk.inj (Option.some.inj hm)
          have e2 : q.joined = upd q.joined j true := e2
          have := congrFun e2 j
          rw [upd_same, hjo] at this; cases this
        · simp only [Bool.false_eq_true, if_false] at hm
          split at hm
          · rename_i he
            obtain ⟨rfl, rfl⟩ := Prod.mk.inj (Option.some.inj hm)
            rw [loc_goto, upd_ne _ _ (by rintro rfl; rw [e1] at he; cases he)]
            exact he
          · cases hm
    · rw [upd_ne _ _ e] at hj; exact old j (k j hj)

theorem place_step {q q' : WorkQueue.State} {oo : Option Out} (hm : stepAt n q t c (q.loc t) = some (q', oo))
    (k : ∀ u, place n u (q.loc u)) : ∀ u, place n u (q'.loc u) := by
  intro u
  by_cases e : u = t
  · subst e; exact step_place hm (k u)
  · obtain ⟨a, l', e1, w⟩ := step_loc hm
    rw [e1, upd_ne _ _ e]
    rcases w.all u with h1 | ⟨h1, h2⟩
    · rw [h1]; exact k u
    · have := k u
      rw [h1] at this
      rw [h2]; exact this

theorem always_plain {h : List (Event Op Res)} {q' : WorkQueue.State} {oo : Option Out} (k : Always n closes s h)
    (ht : t < n ∨ 2 * n ≤ t) (hi : t < n → s.inside t = false) (hm : stepAt n s.q t c (s.q.loc t) = some (q', oo)) :
    Always n closes { s with q := q' } (h ++ retEvents t (oo.map .ret)) := by
  have hp := place_step hm k.place
  refine ⟨hp, joined_step hm k.joined, ?_, ?_⟩
  · intro u hu hin
    obtain ⟨⟨i, bs, h1, h2⟩, h3, h4⟩ := k.calls u hu hin
    have hut : u ≠ t := by rintro rfl; rw [hi hu] at hin; cases hin
    have hw : s.q.loc (n + u) ≠ .wSleep := by
      intro e
      rw [e] at h3
      rcases h3 with h | h | h | h | ⟨_, h⟩ <;> cases h
    have hl : q'.loc (n + u) = s.q.loc (n + u) := other_loc hm (by omega) hw
    refine ⟨⟨i, bs, ?_, h2⟩, ?_⟩
    · show q'.loc u = _
      rw [other_loc hm hut (by rw [h1]; simp), h1]
    · show under (q'.loc (n + u)) ∧ ∀ k b, q'.loc (n + u) = .cJoin k b → k ≤ u
      rw [hl]; exact ⟨h3, h4⟩
  · intro u r hu hm'
    rcases List.mem_append.1 hm' with hm' | hm'
    · exact k.threw u r hu hm'
    · cases oo with
      | none => simp [retEvents] at hm'
      | some v =>
        simp only [Option.map_some, retEvents, List.mem_singleton, Event.ret.injEq] at hm'
        obtain ⟨rfl, rfl⟩ := hm'
        have h1 := (step_ret hm).1 v rfl
        have h2 := hp u
        rw [h1] at h2
        have h2 : n ≤ u := h2
        omega

theorem always_run (as : List (Act Op)) {h : List (Event Op Res)} (e : (sys n closes).run (sys n closes).init as = some (s, h)) :
    Always n closes s h := by
  have key := Sys.run_history (M := sys n closes) (I := Always n closes) ?_ ?_ as (h0 := []) ?_ e
  · simpa using key
  · intro s t op s' h k hcall
    simp only [sys] at hcall
    split at hcall
    · cases hcall
    rename_i ht
    simp only [Option.map_eq_some_iff] at hcall
    obtain ⟨q', hcall, rfl⟩ := hcall
    obtain ⟨hid, rfl⟩ := call_eq hcall
    have hl : ∀ u, u < 2 * n → (s.q.goto t (start n op)).loc u = s.q.loc u := by
      intro u hu
      rw [loc_goto, upd_ne _ _ (by omega)]
    refine ⟨fun u => ?_, fun j hj => ?_, fun u hu hin => ?_, fun u r hu hm => ?_⟩
    · show WorkQueue.place n u (upd s.q.loc t _ u)
      by_cases e : u = t
      · subst e; rw [upd_same]; exact place_start n u op (by omega)
      · rw [upd_ne _ _ e]; exact k.place u
    · have hx := k.joined j hj
      show (s.q.goto t _).loc j = .exited
      rw [loc_goto, upd_ne _ _ (by rintro rfl; rw [hid] at hx; cases hx)]
      exact hx
    · show (∃ i bs, (s.q.goto t _).loc u = .eRun i bs ∧ closes i = true) ∧ under ((s.q.goto t _).loc (n + u)) ∧
        ∀ k b, (s.q.goto t _).loc (n + u) = .cJoin k b → k ≤ u
      rw [hl u (by omega), hl (n + u) (by omega)]
      exact k.calls u hu hin
    · rcases List.mem_append.1 hm with hm | hm
      · exact k.threw u r hu hm
      · simp at hm
  · intro s t c s' o h k hm
    have hm : s.step n closes t c = some (s', o) := hm
    have hplain : (t < n ∨ 2 * n ≤ t) → (t < n → s.inside t = false) → s.plain n t c = some (s', o) → Always n closes s' (h ++ retEvents t o) := by
      intro ht hi h3
      simp only [State.plain, Option.map_eq_some_iff] at h3
      obtain ⟨⟨q', oo⟩, h3, h4⟩ := h3
      obtain ⟨rfl, rfl⟩ := Prod.mk.inj h4
      exact always_plain k ht hi h3
    unfold State.step at hm
    split at hm
    · rename_i htn
      have hout : (∀ i bs, s.q.loc t = .eRun i bs → closes i = false) → s.inside t = false := by
        intro hno
        cases hin : s.inside t with
        | false => rfl
        | true =>
          obtain ⟨⟨i, bs, h1, h2⟩, _⟩ := k.calls t htn hin
          rw [hno i bs h1] at h2; cases h2
      split at hm
      · rename_i i bs hl
        split at hm
        · rename_i hci
          simp only [State.inner] at hm
          split at hm
          · rename_i hin
            obtain ⟨_, hun, hle⟩ := k.calls t htn hin
            have hjt : s.q.joined t = false := by
              cases hj : s.q.joined t with
              | false => rfl
              | true => have := k.joined t hj; rw [hl] at this; cases this
            have hcl : s.closeStep n t c = some (s', o) → (∀ b, s.q.loc (n + t) ≠ .cJoin t b) → Always n closes s' (h ++ retEvents t o) := by
              intro h3 hne
              simp only [State.closeStep, Option.map_eq_some_iff] at h3
              obtain ⟨⟨q', oo⟩, h3, h4⟩ := h3
              obtain ⟨rfl, rfl⟩ := Prod.mk.inj h4
              have hst := under_step hun (fun b e => by have := hle _ _ e; omega) h3
              refine ⟨place_step h3 k.place, joined_step h3 k.joined, fun u hu hin' => ?_, fun u r hu hm' => ?_⟩
              · obtain ⟨⟨j, bs', h1, h2⟩, h5, h6⟩ := k.calls u hu hin'
                refine ⟨⟨j, bs', ?_, h2⟩, ?_⟩
                · show q'.loc u = _
                  rw [other_loc h3 (by omega) (by rw [h1]; simp), h1]
                · show under (q'.loc (n + u)) ∧ ∀ k b, q'.loc (n + u) = .cJoin k b → k ≤ u
                  by_cases eu : u = t
                  · subst eu
                    refine ⟨hst.1, fun m b e => ?_⟩
                    rcases hst.2 m b e with h7 | ⟨m', h7, h8⟩
                    · omega
                    · have h9 := hle _ _ h8
                      have : m' ≠ u := by rintro rfl; exact hne _ h8
                      omega
                  · have hw : s.q.loc (n + u) ≠ .wSleep := by
                      intro e
                      rw [e] at h5
                      rcases h5 with h | h | h | h | ⟨_, h⟩ <;> cases h
                    rw [other_loc h3 (by omega) hw]; exact ⟨h5, h6⟩
              · simp only [retEvents, List.append_nil] at hm'
                exact k.threw u r hu hm'
            have hfin : ∀ (q1 : WorkQueue.State), q1.loc = s.q.loc → q1.joined = s.q.joined → State.finish { s with q := q1 } t i bs .threw = some (s', o) →
                Always n closes s' (h ++ retEvents t o) := by
              intro q1 hq1 hq2 h3
              simp only [State.finish] at h3
              obtain ⟨rfl, rfl⟩ := Prod.mk.inj (Option.some.inj h3)
              refine ⟨fun u => ?_, fun j hj => ?_, fun u hu hin' => ?_, fun u r hu hm' => ?_⟩
              · show WorkQueue.place n u (upd q1.loc t _ u)
                by_cases e : u = t
                · subst e
                  have := k.place u
                  rw [hl] at this
                  rw [upd_same]; exact this
                · rw [upd_ne _ _ e, hq1]; exact k.place u
              · replace hj : q1.joined j = true := hj
                rw [hq2] at hj
                show upd q1.loc t _ j = .exited
                rw [upd_ne _ _ (by rintro rfl; rw [hjt] at hj; cases hj), hq1]
                exact k.joined j hj
              · have hin' : upd s.inside t false u = true := hin'
                have eu : u ≠ t := by rintro rfl; rw [upd_same] at hin'; cases hin'
                rw [upd_ne _ _ eu] at hin'
                show (∃ i' bs', upd q1.loc t _ u = .eRun i' bs' ∧ closes i' = true) ∧ under (upd q1.loc t _ (n + u)) ∧
                  ∀ k b, upd q1.loc t _ (n + u) = .cJoin k b → k ≤ u
                rw [upd_ne _ _ eu, upd_ne _ _ (by omega), hq1]
                exact k.calls u hu hin'
              · rcases List.mem_append.1 hm' with hm' | hm'
                · exact k.threw u r hu hm'
                · simp [retEvents] at hm'; exact hm'.2
            split at hm
            · rename_i oo hl'
              rw [hl'] at hun
              rcases hun with h | h | h | h | ⟨_, h⟩ <;> cases h
            · rename_i m l hl'
              split at hm
              · cases l with
                | true => exact hfin { s.q with owner := none } rfl rfl (by simpa using hm)
                | false => exact hfin s.q rfl rfl (by simpa using hm)
              · rename_i hj
                refine hcl hm fun b e => ?_
                rw [hl'] at e
                cases e
                exact hj ⟨rfl, hjt⟩
            · rename_i hl'
              exact hcl hm fun b e => hl' _ _ e
          · rename_i hin
            obtain ⟨rfl, rfl⟩ := Prod.mk.inj (Option.some.inj hm)
            refine ⟨fun u => ?_, fun j hj => ?_, fun u hu hin' => ?_, fun u r hu hm' => ?_⟩
            · show WorkQueue.place n u (upd s.q.loc (n + t) _ u)
              by_cases e : u = n + t
              · subst e; rw [upd_same]; show n ≤ n + t; omega
              · rw [upd_ne _ _ e]; exact k.place u
            · have hx := k.joined j hj
              show upd s.q.loc (n + t) _ j = .exited
              have hjn : j < n := by
                have := k.place j
                rw [hx] at this; exact this
              rw [upd_ne _ _ (by omega)]; exact hx
            · have hin' : upd s.inside t true u = true := hin'
              show (∃ i' bs', upd s.q.loc (n + t) _ u = .eRun i' bs' ∧ closes i' = true) ∧ under (upd s.q.loc (n + t) _ (n + u)) ∧
                  ∀ k b, upd s.q.loc (n + t) _ (n + u) = .cJoin k b → k ≤ u
              rw [upd_ne _ _ (show u ≠ n + t by omega)]
              by_cases eu : u = t
              · subst eu
                rw [upd_same]
                exact ⟨⟨i, bs, hl, hci⟩, .inl rfl, fun _ _ e => (by cases e)⟩
              · rw [upd_ne _ _ eu] at hin'
                rw [upd_ne _ _ (by omega)]
                exact k.calls u hu hin'
            · simp only [retEvents, List.append_nil] at hm'
              exact k.threw u r hu hm'
        · rename_i hci
          refine hplain (.inl htn) (fun _ => hout fun j bs' e => ?_) hm
          rw [hl] at e
          cases e; simpa using hci
      · rename_i hl
        exact hplain (.inl htn) (fun _ => hout fun j bs' e => absurd e (hl _ _)) hm
    · rename_i htn
      split at hm
      · cases hm
      · exact hplain (.inr (by omega)) (fun h => absurd h htn) hm
  · refine ⟨place_init n, fun k hk => (by cases hk), fun _ _ h => (by cases h), fun _ _ _ h => (by cases h)⟩

/-- C143: a call of closeWorkerQueue that the function of a work block makes never returns normally: whatever ends it is an exception.
For any number of workers, clients and blocks that close the queue, and every interleaving. -/
theorem never_returns (n : Nat) (closes : Nat → Bool) (as : List (Act Op)) (s : State) (h : List (Event Op Res))
    (e : (sys n closes).run (sys n closes).init as = some (s, h)) (t : Nat) (ht : t < n) (r : Res) (hr : .ret t r ∈ h) : r = .threw :=
  (always_run as e).threw t r ht hr

/-- C143, partial: the full statement says that the call returns, that all workers exit, and that the queue can be destroyed.  Here one
block closes the queue; it is submitted once, and no client closes the queue.  Then without further calls all threads
together make a bounded number of steps, and when nobody can go on all workers have exited, all calls of clients have returned and nobody holds the lock; but the call by
the block, run by some worker `w`, has thrown, exactly the workers before `w` have been joined, and destroying the queue ends the
program. -/
theorem inner_close_partial (n : Nat) (hn : 0 < n) (closes : Nat → Bool) (i : Nat) (hc : ∀ j, closes j = true → j = i)
    (as : List (Act Op)) (s : State) (h : List (Event Op Res)) (e : (sys n closes).run (sys n closes).init as = some (s, h))
    (ha : submitted i h ≤ 1) (hx : notByClients h) (hh : s.q.halt = true) :
    ∃ w bound, w < n ∧ ∀ bs s' h', onlyMoves bs → (sys n closes).run s bs = some (s', h') → bs.length ≤ bound ∧
      (stuck n closes s' → (∀ t, t < n → s'.q.loc t = .exited) ∧ (∀ t, 2 * n ≤ t → s'.q.loc t = .idle) ∧
        .ret w .threw ∈ h ++ h' ∧ (∀ j, s'.q.joined j = true ↔ j < w) ∧ s'.q.owner = none ∧ destroyTerminates n s') := by
  obtain ⟨h0, b, k⟩ := phases hc as e ha hx
  rcases k with k | ⟨w, k⟩
  · rw [before_halt hn k b] at hh; cases hh
  have kc := k.closer b
  obtain ⟨ts, h1, h2⟩ := kc.inv.finite
  refine ⟨w, measure (30 * ts.length + 61) n ts s.q, k.lt, fun bs s' h' ho e' => ?_⟩
  obtain ⟨bs', h2', g1, g2, g3, g4, g5⟩ := follow hc bs k b ha ho e'
  refine ⟨g1 ▸ bounded_run _ bs' hh kc.inv h1 h2 (Nat.le_refl _) g2 g3, fun hst => ?_⟩
  have hh' : s'.q.halt = true := halt_run bs' hh g3
  have hs0 : submitted i (h ++ h') ≤ 1 := by
    have : submitted i h' = 0 := by
      have hno : ∀ t op, Event.call t op ∉ h' := fun t op hm => ho t op (Sys.run_mem_call bs e' hm)
      clear e' g4 g5
      induction h' with
      | nil => rfl
      | cons a h' ih =>
        cases a with
        | call t op => exact absurd (by simp) (hno t op)
        | ret t o => exact ih fun t op hm => hno t op (by simp [hm])
    rw [submitted_append]; omega
  obtain ⟨q1, q2, q3, q4, q5⟩ := begun_stuck hc g4 g5 hs0 hh' hst
  refine ⟨q1, q2, q3, q4, q5, hh', w, k.lt, ?_⟩
  cases hj : s'.q.joined w with
  | false => rfl
  | true => exact absurd ((q4 w).1 hj) (Nat.lt_irrefl _)

/-- C143: after that, and after any closing calls that have thrown, a client who closes the queue again while nobody else uses it
joins all workers; then the queue can be destroyed.  The hypotheses are what `inner_close_partial` says of the state at rest, and that nobody
holds the lock. -/
theorem close_again (n x : Nat) (closes : Nat → Bool) (s : State) (hh : s.q.halt = true) (ho : s.q.owner = none)
    (he : ∀ t, t < n → s.q.loc t = .exited) (hx : 2 * n ≤ x) (hl : s.q.loc x = .idle) :
    ∃ s', (sys n closes).run s (begin x .close (n + 5)) = some (s', [.call x .close, .ret x (.ret .unit)]) ∧
      (∀ k, k < n → s'.q.joined k = true) ∧ ¬ destroyTerminates n s' := by
  let s0 : State := { s with q := s.q.goto x .cLock }
  let s1 : State := { s with q := ({ s.q with owner := some x }.goto x .cLock).goto x .cTest }
  let s2 : State := { s with q := s1.q.goto x (.cJoin 0 true) }
  have e0 : (sys n closes).run s [.call x .close] = some (s0, [.call x .close]) := by
    have : (sys n closes).call x .close s = some s0 := by
      simp only [sys, if_neg (show ¬ x < 2 * n by omega), State.call, hl, start, Option.map_some, s0]
    simp [Sys.run, Sys.exec, this]
  have l0 : s0.q.loc x = .cLock := upd_same _ _ _
  have e1 : (sys n closes).run s0 [.move x 0] = some (s1, []) := by
    have : stepAt n s0.q x 0 (s0.q.loc x) = some (s1.q, none) := by
      rw [l0]
      show State.lock s0.q x .cTest = _
      have : s0.q.owner = none := ho
      simp only [State.lock, this]
      rfl
    simpa [retEvents, s0, s1] using plain_run (closes := closes) (s := s0) hx this
  have l1 : s1.q.loc x = .cTest := upd_same _ _ _
  have e2 : (sys n closes).run s1 [.move x 0] = some (s2, []) := by
    have : stepAt n s1.q x 0 (s1.q.loc x) = some (s2.q, none) := by
      rw [l1]
      show some (s1.q.goto x (if s1.q.halt then .cJoin 0 true else .cHalt), none) = _
      have : s1.q.halt = true := hh
      rw [this]; rfl
    simpa [retEvents, s1, s2] using plain_run (closes := closes) (s := s1) hx this
  have l2 : s2.q.loc x = .cJoin 0 true := upd_same _ _ _
  have he2 : ∀ t, t < n → s2.q.loc t = .exited := by
    intro t ht
    have hne : t ≠ x := by omega
    show upd (upd (upd s.q.loc x _) x _) x _ t = _
    rw [upd_ne _ _ hne, upd_ne _ _ hne, upd_ne _ _ hne]; exact he t ht
  obtain ⟨s3, e3, l3, _, j3⟩ := join_loop (closes := closes) hx n 0 s2 (by omega) l2 he2 (fun j hj => by omega)
  let s4 : State := { s3 with q := s3.q.goto x .cOut }
  let s5 : State := { s3 with q := unlock s4.q x (.ret .unit) }
  let s6 : State := { s3 with q := s5.q.goto x .idle }
  have e4 : (sys n closes).run s3 [.move x 0] = some (s4, []) := by
    have : stepAt n s3.q x 0 (s3.q.loc x) = some (s4.q, none) := by
      rw [l3]; simp only [stepAt, if_true, s4]
    simpa [retEvents, s4] using plain_run (closes := closes) (s := s3) hx this
  have l4 : s4.q.loc x = .cOut := upd_same _ _ _
  have e5 : (sys n closes).run s4 [.move x 0] = some (s5, []) := by
    have : stepAt n s4.q x 0 (s4.q.loc x) = some (s5.q, none) := by rw [l4]; rfl
    simpa [retEvents, s4, s5] using plain_run (closes := closes) (s := s4) hx this
  have l5 : s5.q.loc x = .ret .unit := upd_same _ _ _
  have e6 : (sys n closes).run s5 [.move x 0] = some (s6, [.ret x (.ret .unit)]) := by
    have : stepAt n s5.q x 0 (s5.q.loc x) = some (s6.q, some .unit) := by rw [l5]; rfl
    simpa [retEvents, s5, s6] using plain_run (closes := closes) (s := s5) hx this
  refine ⟨s6, ?_, j3, ?_⟩
  · have := Sys.run_append _ e0 (Sys.run_append _ e1 (Sys.run_append _ e2 (Sys.run_append _ e3 (Sys.run_append _ e4 (Sys.run_append _ e5 e6)))))
    simp only [List.nil_append, List.append_nil] at this
    have hg : begin x .close (n + 5) = [Act.call x Op.close] ++ ([.move x 0] ++ ([.move x 0] ++ (go x n ++ ([.move x 0] ++ ([.move x 0] ++ [.move x 0]))))) := by
      have h1 : go x n ++ ([Act.move x 0] ++ ([.move x 0] ++ [.move x 0])) = go x (n + 3) := by
        simp only [go]
        rw [show [Act.move x 0] ++ ([.move x 0] ++ [.move x 0]) = List.replicate 3 (Act.move (Op := Op) x 0) from rfl, List.replicate_append_replicate]
      simp only [h1]
      rfl
    rw [hg]; exact this
  · rintro ⟨_, k, hk, hj⟩
    have := j3 k hk
    have hj : s3.q.joined k = false := hj
    rw [this] at hj; cases hj

/-! ### Concrete executions -/

/-- one worker; client 2 adds block 5, which closes the queue, and the worker runs it -/
def alone : List (Act Op) := begin 2 (.add (some (.task 5)) .high) 5 ++ go 0 20

/-- the history of the executions below -/
def added : List (Event Op Res) := [.call 2 (.add (some (.task 5)) .high), .ret 2 (.ret .unit)]

/-- the hypotheses of `inner_close_partial` are met -/
example : ∃ s, (sys 1 (· == 5)).run (sys 1 (· == 5)).init alone = some (s, added) ∧ submitted 5 added = 1 ∧ notByClients added ∧
    s.q.halt = true ∧ s.inside 0 = true := by
  refine ⟨_, rfl, rfl, ?_, rfl, rfl⟩
  intro t op hm
  simp [added] at hm
  rw [hm.2]; rfl

/-- C143 is violated with one worker and one block that closes the queue: the call throws, and when everything has come to rest
destroying the queue ends the program. -/
theorem inner_close_violation : ∃ as s, (sys 1 (· == 5)).run (sys 1 (· == 5)).init as = some (s, added ++ [.ret 0 .threw]) ∧
    s.q.loc 0 = .exited ∧ (∀ t, 2 ≤ t → s.q.loc t = .idle) ∧ destroyTerminates 1 s := by
  have : ∃ as s, (sys 1 (· == 5)).run (sys 1 (· == 5)).init as = some (s, added ++ [.ret 0 .threw]) ∧
      s.q.loc 0 = .exited ∧ s.q.loc 2 = .idle ∧ (∀ t, s.q.loc (t + 3) = .idle) ∧ destroyTerminates 1 s :=
    ⟨begin 2 (.add (some (.task 5)) .high) 5 ++ go 0 31, _, rfl, rfl, rfl, fun _ => rfl, rfl, 0, by omega, rfl⟩
  obtain ⟨as, s, e, h0, h2, h3, hd⟩ := this
  refine ⟨as, s, e, h0, fun t ht => ?_, hd⟩
  match t, ht with
  | 2, _ => exact h2
  | t + 3, _ => exact h3 t

/-- the history of two blocks being added -/
def addedTwo : List (Event Op Res) := [.call 4 (.add (some (.task 5)) .high), .ret 4 (.ret .unit), .call 4 (.add (some (.task 6)) .high),
  .ret 4 (.ret .unit)]

/-- C143 fails worse if two blocks close the queue: worker 1 waits for worker 0 while holding the lock that worker 0, whose own call has
thrown, needs in order to exit.  Nobody can go on. -/
theorem two_blocks_violation : ∃ as s, (sys 2 fun i => i == 5 || i == 6).run (sys 2 fun i => i == 5 || i == 6).init as =
      some (s, addedTwo ++ [.ret 0 .threw]) ∧
    stuck 2 (fun i => i == 5 || i == 6) s ∧ s.q.loc 0 ≠ .exited ∧ s.q.loc 1 ≠ .exited ∧ ∀ t, s.q.loc t ≠ .wSleep := by
  have : ∃ as s, (sys 2 fun i => i == 5 || i == 6).run (sys 2 fun i => i == 5 || i == 6).init as = some (s, addedTwo ++ [.ret 0 .threw]) ∧
      s.q.loc 0 = .wLock ∧ s.q.loc 1 = .eRun 6 [] ∧ s.q.loc 2 = .cJoin 0 false ∧ s.q.loc 3 = .cJoin 0 true ∧ s.q.loc 4 = .idle ∧
      (∀ t, s.q.loc (t + 5) = .idle) ∧ s.q.owner = some 3 ∧ s.inside 1 = true ∧ s.q.joined 0 = false :=
    ⟨begin 4 (.add (some (.task 5)) .high) 5 ++ begin 4 (.add (some (.task 6)) .high) 5 ++ go 0 4 ++ go 1 4 ++ go 0 22 ++ go 1 3 ++ go 0 10,
      _, rfl, rfl, rfl, rfl, rfl, rfl, fun _ => rfl, rfl, rfl, rfl⟩
  obtain ⟨as, s, e, h0, h1, h2, h3, h4, h5, ho, hi, hj⟩ := this
  refine ⟨as, s, e, fun t c _ => ?_, by simp [h0], by simp [h1], fun t => ?_⟩
  · show s.step 2 _ t c = none
    match t with
    | 0 => simp [State.step, h0, State.plain, stepAt, State.lock, ho]
    | 1 => simp [State.step, h1, State.inner, hi, h3, State.closeStep, stepAt, hj, h0]
    | 2 => simp [State.step]
    | 3 => simp [State.step]
    | 4 => simp [State.step, State.plain, h4, stepAt]
    | t + 5 =>
      have h6 : ¬ t + 5 < 2 := by omega
      have h7 : ¬ t + 5 < 2 * 2 := by omega
      simp only [State.step, if_neg h6, if_neg h7, State.plain, h5 t, stepAt, Option.map_none]
  · match t with
    | 0 => simp [h0]
    | 1 => simp [h1]
    | 2 => simp [h2]
    | 3 => simp [h3]
    | 4 => simp [h4]
    | t + 5 => simp [h5]

/-- the hypotheses of `close_again` are met, after the execution of `inner_close_violation`, by client 2 -/
example : ∃ as s h, (sys 1 (· == 5)).run (sys 1 (· == 5)).init as = some (s, h) ∧ s.q.halt = true ∧ s.q.owner = none ∧ s.q.loc 0 = .exited ∧
    s.q.loc 2 = .idle ∧ s.q.joined 0 = false :=
  ⟨begin 2 (.add (some (.task 5)) .high) 5 ++ go 0 31, _, _, rfl, rfl, rfl, rfl, rfl, rfl⟩

end Verif.WorkQueue.Inner
