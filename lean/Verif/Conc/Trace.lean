import Verif.Conc.Sim

/-
Linearizability by a relation between states and traces.  Unlike a simulation this lets a step place the moment of a
call earlier in the trace, as long as what the observer sees stays the same.
-/
namespace Verif.Conc
variable {S Q Op Out : Type}

/-- Every step extends the trace; `allowed t op`: thread `t` may call `op`; `ok o`: `o` may be returned. -/
structure TraceSim (M : Sys S Op Out) (allowed : Nat → Op → Prop) (ok : Out → Prop) (K : S → List (TEvent Op Out) → Prop) : Prop where
  call : ∀ {s tr t op s'}, K s tr → allowed t op → M.call t op s = some s' → K s' (tr ++ [.call t op])
  move : ∀ {s tr t c s' o}, K s tr → (∀ v, o = some v → ok v) → M.move t c s = some (s', o) →
    ∃ tr', erase tr' = erase tr ++ retEvents t o ∧ K s' tr'

theorem TraceSim.run_from {M : Sys S Op Out} {allowed : Nat → Op → Prop} {ok : Out → Prop} {K : S → List (TEvent Op Out) → Prop}
    (sim : TraceSim M allowed ok K) (as : List (Act Op)) : ∀ {s tr s' h}, K s tr → (∀ t op, .call t op ∈ as → allowed t op) →
    (∀ t o, .ret t o ∈ h → ok o) → M.run s as = some (s', h) → ∃ tr', erase tr' = erase tr ++ h ∧ K s' tr' := by
  induction as with
  | nil => intro s tr s' h r _ _ e; cases e; exact ⟨tr, by simp, r⟩
  | cons a as ih =>
    intro s tr s' h r hc ho e
    simp only [Sys.run, Option.bind_eq_some_iff, Option.map_eq_some_iff] at e
    obtain ⟨⟨s1, h1⟩, e1, ⟨s2, h2⟩, e2, e3⟩ := e
    cases e3
    cases a with
    | call t op =>
      simp only [Sys.exec, Option.map_eq_some_iff] at e1
      obtain ⟨s3, e1, e3⟩ := e1
      cases e3
      have r1 := sim.call r (hc t op (by simp)) e1
      obtain ⟨tr', t1, r2⟩ := ih r1 (fun t op h => hc t op (by simp [h])) (fun t o h => ho t o (List.mem_append_right _ h)) e2
      exact ⟨tr', by rw [t1, erase_append]; simp [erase], r2⟩
    | move t c =>
      simp only [Sys.exec, Option.map_eq_some_iff] at e1
      obtain ⟨⟨s3, o⟩, e1, e3⟩ := e1
      cases e3
      obtain ⟨tr1, t1, r1⟩ := sim.move r (fun v hv => ho t v (List.mem_append_left _ (by subst hv; simp))) e1
      obtain ⟨tr', t2, r2⟩ := ih r1 (fun t op h => hc t op (by simp [h])) (fun t o h => ho t o (List.mem_append_right _ h)) e2
      refine ⟨tr', ?_, r2⟩
      rw [t2, t1]
      cases o <;> simp [retEvents]

theorem TSteps.append_iff {sp : Spec Q Op Out} {b : List (TEvent Op Out)} {g2 : Ghost Q Op Out} :
    ∀ {a : List (TEvent Op Out)} {g : Ghost Q Op Out}, TSteps sp g (a ++ b) g2 ↔ ∃ g1, TSteps sp g a g1 ∧ TSteps sp g1 b g2 := by
  intro a
  induction a with
  | nil => intro g; constructor
           · intro h; exact ⟨g, rfl, h⟩
           · rintro ⟨g1, rfl, h⟩; exact h
  | cons e a ih =>
    intro g
    constructor
    · rintro ⟨g1, h, h'⟩
      obtain ⟨g3, h3, h4⟩ := ih.1 h'
      exact ⟨g3, ⟨g1, h, h3⟩, h4⟩
    · rintro ⟨g3, ⟨g1, h, h3⟩, h4⟩
      exact ⟨g1, h, ih.2 ⟨g3, h3, h4⟩⟩

/-- the specification's initial state does not matter for steps -/
theorem TSteps.from {sp : Spec Q Op Out} (q : Q) {tr : List (TEvent Op Out)} {g g' : Ghost Q Op Out} (h : TSteps sp g tr g') :
    TSteps (sp.from q) g tr g' :=
  TSteps.map (sp := sp) (sp' := sp.from q) id (fun _ => True) (fun _ => True) (fun _ _ h => ⟨trivial, h⟩) tr
    trivial (fun _ _ _ => trivial) (fun _ _ _ => trivial) h

/-- one schedule after another -/
theorem Sys.run_append {M : Sys S Op Out} (as : List (Act Op)) : ∀ {s s1 s2 : S} {h1 h2 : List (Event Op Out)} {bs : List (Act Op)},
    M.run s as = some (s1, h1) → M.run s1 bs = some (s2, h2) → M.run s (as ++ bs) = some (s2, h1 ++ h2) := by
  induction as with
  | nil => intro s s1 s2 h1 h2 bs e1 e2; cases e1; exact e2
  | cons a as ih =>
    intro s s1 s2 h1 h2 bs e1 e2
    simp only [Sys.run, Option.bind_eq_some_iff, Option.map_eq_some_iff] at e1
    obtain ⟨⟨s3, h3⟩, e3, ⟨s4, h4⟩, e4, e5⟩ := e1
    cases e5
    simp [Sys.run, e3, ih e4 e2]

/-- the history records the calls of the schedule -/
theorem Sys.run_calls {M : Sys S Op Out} (as : List (Act Op)) : ∀ {s s' : S} {h : List (Event Op Out)}, M.run s as = some (s', h) →
    ∀ t op, .call t op ∈ as → .call t op ∈ h := by
  induction as with
  | nil => intro s s' h _ t op hm; cases hm
  | cons a as ih =>
    intro s s' h e t op hm
    simp only [Sys.run, Option.bind_eq_some_iff, Option.map_eq_some_iff] at e
    obtain ⟨⟨s1, h1⟩, e1, ⟨s2, h2⟩, e2, e3⟩ := e
    cases e3
    rcases List.mem_cons.1 hm with rfl | hm
    · simp only [Sys.exec, Option.map_eq_some_iff] at e1
      obtain ⟨s3, _, e3⟩ := e1
      cases e3; simp
    · exact List.mem_append_right _ (ih e2 t op hm)

/-- and no others -/
theorem Sys.run_mem_call {M : Sys S Op Out} (as : List (Act Op)) : ∀ {s s' : S} {h : List (Event Op Out)} {t : Nat} {op : Op},
    M.run s as = some (s', h) → .call t op ∈ h → .call t op ∈ as := by
  induction as with
  | nil => intro s s' h t op e hm; cases e; cases hm
  | cons a as ih =>
    intro s s' h t op e hm
    simp only [Sys.run, Option.bind_eq_some_iff, Option.map_eq_some_iff] at e
    obtain ⟨⟨s1, h1⟩, e1, ⟨s2, h2⟩, e2, e3⟩ := e
    cases e3
    rcases List.mem_append.1 hm with hm | hm
    · cases a with
      | call t op =>
        simp only [Sys.exec, Option.map_eq_some_iff] at e1
        obtain ⟨s3, _, e3⟩ := e1
        cases e3
        simp at hm; simp [hm]
      | move t c =>
        simp only [Sys.exec, Option.map_eq_some_iff] at e1
        obtain ⟨⟨s3, o⟩, _, e3⟩ := e1
        cases e3
        cases o <;> simp at hm
    · exact List.mem_cons_of_mem _ (ih e2 hm)

/-- Invariants of executions with certain calls only. -/
theorem Sys.run_invariant {M : Sys S Op Out} (I : S → Prop) (allowed : Nat → Op → Prop)
    (hc : ∀ {s t op s'}, I s → allowed t op → M.call t op s = some s' → I s')
    (hm : ∀ {s t c s' o}, I s → M.move t c s = some (s', o) → I s') (as : List (Act Op)) :
    ∀ {s s' : S} {h : List (Event Op Out)}, I s → (∀ t op, .call t op ∈ as → allowed t op) → M.run s as = some (s', h) → I s' := by
  induction as with
  | nil => intro s s' h i _ e; cases e; exact i
  | cons a as ih =>
    intro s s' h i ha e
    simp only [Sys.run, Option.bind_eq_some_iff, Option.map_eq_some_iff] at e
    obtain ⟨⟨s1, h1⟩, e1, ⟨s2, h2⟩, e2, e3⟩ := e
    cases e3
    refine ih ?_ (fun t op h => ha t op (by simp [h])) e2
    cases a with
    | call t op =>
      simp only [Sys.exec, Option.map_eq_some_iff] at e1
      obtain ⟨s3, e1, e3⟩ := e1
      cases e3; exact hc i (ha t op (by simp)) e1
    | move t c =>
      simp only [Sys.exec, Option.map_eq_some_iff] at e1
      obtain ⟨⟨s3, o⟩, e1, e3⟩ := e1
      cases e3; exact hm i e1

/-- Invariants of executions together with their histories. -/
theorem Sys.run_history {M : Sys S Op Out} (I : S → List (Event Op Out) → Prop)
    (hc : ∀ {s t op s' h}, I s h → M.call t op s = some s' → I s' (h ++ [.call t op]))
    (hm : ∀ {s t c s' o h}, I s h → M.move t c s = some (s', o) → I s' (h ++ retEvents t o)) (as : List (Act Op)) :
    ∀ {s s' : S} {h0 h : List (Event Op Out)}, I s h0 → M.run s as = some (s', h) → I s' (h0 ++ h) := by
  induction as with
  | nil => intro s s' h0 h i e; cases e; simpa using i
  | cons a as ih =>
    intro s s' h0 h i e
    simp only [Sys.run, Option.bind_eq_some_iff, Option.map_eq_some_iff] at e
    obtain ⟨⟨s1, h1⟩, e1, ⟨s2, h2⟩, e2, e3⟩ := e
    cases e3
    rw [← List.append_assoc]
    refine ih ?_ e2
    cases a with
    | call t op =>
      simp only [Sys.exec, Option.map_eq_some_iff] at e1
      obtain ⟨s3, e1, e3⟩ := e1
      cases e3; exact hc i e1
    | move t c =>
      simp only [Sys.exec, Option.map_eq_some_iff] at e1
      obtain ⟨⟨s3, o⟩, e1, e3⟩ := e1
      cases e3
      have := hm i e1
      cases o <;> exact this

/-- only calls made take effect -/
theorem lin_called {sp : Spec Q Op Out} (tr : List (TEvent Op Out)) :
    ∀ {g g' : Ghost Q Op Out} {op : Op}, TSteps sp g tr g' → (∀ t, g.st t ≠ .pending op) →
    (∀ t, .call t op ∉ erase tr) → ∀ t o, .lin t op o ∉ tr := by
  induction tr with
  | nil => intro g g' op _ _ _ t o hm; cases hm
  | cons e tr ih =>
    intro g g' op ⟨g1, h1, h2⟩ hst hc t o hm
    cases h1 with
    | @call q st u op' hid =>
      simp only [erase, List.mem_cons, not_or] at hc
      simp only [List.mem_cons, reduceCtorEq, false_or] at hm
      refine ih h2 ?_ (fun t => (hc t).2) t o hm
      intro v
      by_cases e : v = u
      · subst e; simp only [upd_same]; intro h; cases h; exact (hc v).1 rfl
      · simp only [upd_ne _ _ e]; exact hst v
    | @ret q st u o' hid =>
      simp only [erase, List.mem_cons, not_or] at hc
      simp only [List.mem_cons, reduceCtorEq, false_or] at hm
      refine ih h2 ?_ (fun t => (hc t).2) t o hm
      intro v
      by_cases e : v = u
      · subst e; simp [upd_same]
      · simp only [upd_ne _ _ e]; exact hst v
    | @lin q st u op' q' o' hid hs =>
      simp only [erase] at hc
      rcases List.mem_cons.1 hm with hm | hm
      · cases hm; exact hst t hid
      · refine ih h2 ?_ hc t o hm
        intro v
        by_cases e : v = u
        · subst e; simp [upd_same]
        · simp only [upd_ne _ _ e]; exact hst v

/-- an execution with one call at a time is an execution -/
theorem Sys.oneAtATime_run {M : Sys S Op Out} (as : List (Act Op)) : ∀ {s s' : S × Bool} {h : List (Event Op Out)},
    M.oneAtATime.run s as = some (s', h) → M.run s.1 as = some (s'.1, h) := by
  induction as with
  | nil => intro s s' h e; cases e; rfl
  | cons a as ih =>
    intro s s' h e
    simp only [Sys.run, Option.bind_eq_some_iff, Option.map_eq_some_iff] at e ⊢
    obtain ⟨⟨s1, h1⟩, e1, ⟨s2, h2⟩, e2, e3⟩ := e
    cases e3
    refine ⟨(s1.1, h1), ?_, (s2.1, h2), ih e2, rfl⟩
    cases a with
    | call t op =>
      simp only [Sys.exec, Sys.oneAtATime, Option.map_eq_some_iff] at e1 ⊢
      obtain ⟨s3, e1, e3⟩ := e1
      split at e1
      · cases e1
      · simp only [Option.map_eq_some_iff] at e1
        obtain ⟨s4, e1, rfl⟩ := e1
        cases e3
        exact ⟨_, e1, rfl⟩
    | move t c =>
      simp only [Sys.exec, Sys.oneAtATime, Option.map_eq_some_iff] at e1 ⊢
      obtain ⟨s3, ⟨s4, e1, rfl⟩, e3⟩ := e1
      cases e3
      exact ⟨_, e1, rfl⟩

end Verif.Conc
