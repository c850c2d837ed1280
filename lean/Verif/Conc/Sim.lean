import Verif.Conc.Linearizable

/-
Lemmas on executions: linearizability by simulation, reachable states by invariants.
-/
namespace Verif.Conc
variable {S Q Op Out : Type}

theorem upd_same {α : Type} (f : Nat → α) (t : Nat) (x : α) : upd f t x t = x := if_pos rfl
theorem upd_ne {α : Type} (f : Nat → α) {t u : Nat} (x : α) (h : u ≠ t) : upd f t x u = f u := if_neg h

theorem erase_append (a b : List (TEvent Op Out)) : erase (a ++ b) = erase a ++ erase b := by
  induction a with
  | nil => rfl
  | cons e a ih => cases e <;> simp [erase, ih]

theorem TSteps.append {sp : Spec Q Op Out} {b : List (TEvent Op Out)} {g1 g2 : Ghost Q Op Out} (h2 : TSteps sp g1 b g2) :
    ∀ {a : List (TEvent Op Out)} {g : Ghost Q Op Out}, TSteps sp g a g1 → TSteps sp g (a ++ b) g2 := by
  intro a
  induction a with
  | nil => intro g h; cases h; exact h2
  | cons e a ih => intro g ⟨g', h, h'⟩; exact ⟨g', h, ih h'⟩

/-- the events of a step's result -/
def retEvents (t : Nat) : Option Out → List (Event Op Out)
  | some o => [.ret t o]
  | none => []

/-- A relation between the system and the specification that every step preserves, with the events the step shows. -/
structure Simulation (M : Sys S Op Out) (sp : Spec Q Op Out) (allowed : Op → Prop) (R : S → Ghost Q Op Out → Prop) : Prop where
  init : R M.init sp.ghost
  call : ∀ {s g t op s'}, R s g → allowed op → M.call t op s = some s' →
    g.st t = .idle ∧ R s' ⟨g.q, upd g.st t (.pending op)⟩
  move : ∀ {s g t c s' o}, R s g → M.move t c s = some (s', o) →
    ∃ tr g', TSteps sp g tr g' ∧ erase tr = retEvents t o ∧ R s' g'

theorem Simulation.run_from {M : Sys S Op Out} {sp : Spec Q Op Out} {allowed : Op → Prop} {R : S → Ghost Q Op Out → Prop}
    (sim : Simulation M sp allowed R) (as : List (Act Op)) : ∀ {s g s' h}, R s g → (∀ op ∈ calls as, allowed op) →
    M.run s as = some (s', h) → ∃ tr g', TSteps sp g tr g' ∧ erase tr = h ∧ R s' g' := by
  induction as with
  | nil => intro s g s' h r _ e; cases e; exact ⟨[], g, rfl, rfl, r⟩
  | cons a as ih =>
    intro s g s' h r hc e
    simp only [Sys.run, Option.bind_eq_some_iff, Option.map_eq_some_iff] at e
    obtain ⟨⟨s1, h1⟩, e1, ⟨s2, h2⟩, e2, e3⟩ := e
    cases e3
    cases a with
    | call t op =>
      simp only [Sys.exec, Option.map_eq_some_iff] at e1
      obtain ⟨s3, e1, e3⟩ := e1
      cases e3
      obtain ⟨hid, r1⟩ := sim.call r (hc op (by simp [calls])) e1
      obtain ⟨tr, g', t1, t2, r2⟩ := ih r1 (fun op h => hc op (by simp [calls, h])) e2
      exact ⟨.call t op :: tr, g', ⟨_, TStep.call hid, t1⟩, by simp [erase, t2], r2⟩
    | move t c =>
      simp only [Sys.exec, Option.map_eq_some_iff] at e1
      obtain ⟨⟨s3, o⟩, e1, e3⟩ := e1
      cases e3
      obtain ⟨tr1, g1, t1, t2, r1⟩ := sim.move r e1
      obtain ⟨tr, g', t3, t4, r2⟩ := ih r1 (fun op h => hc op (by simpa [calls] using h)) e2
      refine ⟨tr1 ++ tr, g', TSteps.append t3 t1, ?_, r2⟩
      rw [erase_append, t2, t4]
      cases o <;> rfl

theorem Simulation.linearizable {M : Sys S Op Out} {sp : Spec Q Op Out} {allowed : Op → Prop} {R : S → Ghost Q Op Out → Prop}
    (sim : Simulation M sp allowed R) (as : List (Act Op)) (s : S) (h : List (Event Op Out))
    (hc : ∀ op ∈ calls as, allowed op) (e : M.run M.init as = some (s, h)) : Linearizable sp h := by
  obtain ⟨tr, g, h1, h2, _⟩ := sim.run_from as sim.init hc e
  exact ⟨tr, g, h1, h2⟩

/-- Invariants. -/
theorem Sys.invariant {M : Sys S Op Out} (I : S → Prop) (h0 : I M.init)
    (hc : ∀ {s t op s'}, I s → M.call t op s = some s' → I s')
    (hm : ∀ {s t c s' o}, I s → M.move t c s = some (s', o) → I s') : ∀ s, M.Reachable s → I s := by
  have : ∀ as s s' h, I s → M.run s as = some (s', h) → I s' := by
    intro as
    induction as with
    | nil => intro s s' h i e; cases e; exact i
    | cons a as ih =>
      intro s s' h i e
      simp only [Sys.run, Option.bind_eq_some_iff, Option.map_eq_some_iff] at e
      obtain ⟨⟨s1, h1⟩, e1, ⟨s2, h2⟩, e2, e3⟩ := e
      cases e3
      refine ih s1 s2 h2 ?_ e2
      cases a with
      | call t op =>
        simp only [Sys.exec, Option.map_eq_some_iff] at e1
        obtain ⟨s3, e1, e3⟩ := e1
        cases e3; exact hc i e1
      | move t c =>
        simp only [Sys.exec, Option.map_eq_some_iff] at e1
        obtain ⟨⟨s3, o⟩, e1, e3⟩ := e1
        cases e3; exact hm i e1
  rintro s ⟨as, h, e⟩
  exact this as _ _ _ h0 e

/-! ### Changing the specification -/

/-- the same specification, started in another state -/
def Spec.from (sp : Spec Q Op Out) (q : Q) : Spec Q Op Out := { sp with init := q }

/-- A run of one specification is a run of another if the states correspond, as long as only certain operations are
called. -/
theorem TSteps.map {Q' : Type} {sp : Spec Q Op Out} {sp' : Spec Q' Op Out} (f : Q → Q') (I : Q → Prop) (ok : Op → Prop)
    (hstep : ∀ {q op q' o}, I q → ok op → sp.step q op = some (q', o) → I q' ∧ sp'.step (f q) op = some (f q', o))
    (tr : List (TEvent Op Out)) : ∀ {g g' : Ghost Q Op Out}, I g.q → (∀ t op, g.st t = .pending op → ok op) →
    (∀ t op, .call t op ∈ erase tr → ok op) → TSteps sp g tr g' → TSteps sp' ⟨f g.q, g.st⟩ tr ⟨f g'.q, g'.st⟩ := by
  induction tr with
  | nil => intro g g' _ _ _ h; cases h; rfl
  | cons e tr ih =>
    intro g g' hi hp hc ⟨g1, h1, h2⟩
    cases h1 with
    | @call q st t op hid =>
      refine ⟨_, TStep.call hid, ih (g := ⟨q, upd st t (.pending op)⟩) hi ?_ (fun t op h => hc t op (by simp [erase, h])) h2⟩
      intro u op' hu
      simp only at hu
      by_cases h : u = t
      · subst h; rw [upd_same] at hu; cases hu; exact hc u _ (by simp [erase])
      · rw [upd_ne _ _ h] at hu; exact hp u op' hu
    | @lin q st t op q' o hid hs =>
      obtain ⟨h3, h4⟩ := hstep hi (hp t op hid) hs
      refine ⟨_, TStep.lin hid h4, ih (g := ⟨q', upd st t (.done o)⟩) h3 ?_ (fun t op h => hc t op (by simpa [erase] using h)) h2⟩
      intro u op' hu
      simp only at hu
      by_cases h : u = t
      · subst h; rw [upd_same] at hu; cases hu
      · rw [upd_ne _ _ h] at hu; exact hp u op' hu
    | @ret q st t o hid =>
      refine ⟨_, TStep.ret hid, ih (g := ⟨q, upd st t .idle⟩) hi ?_ (fun t op h => hc t op (by simp [erase, h])) h2⟩
      intro u op' hu
      simp only at hu
      by_cases h : u = t
      · subst h; rw [upd_same] at hu; cases hu
      · rw [upd_ne _ _ h] at hu; exact hp u op' hu

theorem Linearizable.map {Q' : Type} {sp : Spec Q Op Out} {sp' : Spec Q' Op Out} (f : Q → Q') (I : Q → Prop)
    (ok : Op → Prop)
    (hstep : ∀ {q op q' o}, I q → ok op → sp.step q op = some (q', o) → I q' ∧ sp'.step (f q) op = some (f q', o))
    (h0 : I sp.init) (hf : f sp.init = sp'.init) {h : List (Event Op Out)} (hok : ∀ t op, .call t op ∈ h → ok op)
    (hl : Linearizable sp h) : Linearizable sp' h := by
  obtain ⟨tr, g, h1, rfl⟩ := hl
  have := TSteps.map f I ok hstep tr (g := sp.ghost) h0 (by intro t op h; cases h) hok h1
  refine ⟨tr, ⟨f g.q, g.st⟩, ?_, rfl⟩
  simp only [Spec.ghost] at this ⊢
  rw [← hf]; exact this

/-- Runs from a state related to the specification's state `q`, with no call in progress. -/
theorem Simulation.linearizable_from {M : Sys S Op Out} {sp : Spec Q Op Out} {allowed : Op → Prop}
    {R : S → Ghost Q Op Out → Prop} (sim : Simulation M sp allowed R) (as : List (Act Op)) {s0 s : S} {q : Q}
    {h : List (Event Op Out)} (r : R s0 ⟨q, fun _ => .idle⟩) (hc : ∀ op ∈ calls as, allowed op)
    (e : M.run s0 as = some (s, h)) : Linearizable (sp.from q) h := by
  obtain ⟨tr, g, h1, h2, _⟩ := sim.run_from as r hc e
  have := TSteps.map (sp := sp) (sp' := sp.from q) id (fun _ => True) (fun _ => True) (fun _ _ h => ⟨trivial, h⟩) tr
    (g := ⟨q, fun _ => .idle⟩) trivial (fun _ _ _ => trivial) (fun _ _ _ => trivial) h1
  exact ⟨tr, _, this, h2⟩

end Verif.Conc
