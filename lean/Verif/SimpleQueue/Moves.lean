import Verif.SimpleQueue.Props

/-
C160: a SimpleQueue followed through any number of moves from object to object, `std::swap` included.
-/
namespace Verif.SimpleQueue
open Verif.Conc

variable {α : Type}

/-- no call is in progress -/
def State.quiet (s : State α) : Prop := ∀ t, s.loc t = .idle

/-- The life of a queue: `Life b s h` says that an object in state `s` holds a queue on which the calls in `h` have been
made, on this object and on those from which it was moved here (SimpleQueue.hpp:62-78), by any number of threads.  If
`b = true`, the objects that a queue was moved from can be used again, as new empty queues. -/
inductive Life (b : Bool) : State α → List (Event (Op α) (Out α)) → Prop
  | new : Life b (sys α).init []
  | use {s s' as h h'} : Life b s h → (sys α).run s as = some (s', h') → Life b s' (h ++ h')
  | moved {s h} : Life b s h → s.quiet → Life b s.moveFrom.1 h
  | reused {s h} : Life b s h → s.quiet → b = true → Life b s.moveFrom.2 []

theorem trace_inv {Q Op Out : Type} {sp : Spec Q Op Out} (I : Q → Prop) (ok : Op → Prop)
    (hstep : ∀ {q op q' o}, I q → ok op → sp.step q op = some (q', o) → I q')
    (tr : List (TEvent Op Out)) : ∀ {g g' : Ghost Q Op Out}, I g.q → (∀ t op, g.st t = .pending op → ok op) →
    (∀ t op, .call t op ∈ erase tr → ok op) → TSteps sp g tr g' → I g'.q ∧ ∀ t op, g'.st t = .pending op → ok op := by
  induction tr with
  | nil => intro g g' hi hp _ h; cases h; exact ⟨hi, hp⟩
  | cons e tr ih =>
    intro g g' hi hp hc ⟨g1, h1, h2⟩
    cases h1 with
    | @call q st t op hid =>
      refine ih (g := ⟨q, upd st t (.pending op)⟩) hi ?_ (fun t op h => hc t op (by simp [erase, h])) h2
      intro u op' hu
      simp only at hu
      by_cases h : u = t
      · subst h; rw [upd_same] at hu; cases hu; exact hc u _ (by simp [erase])
      · rw [upd_ne _ _ h] at hu; exact hp u _ hu
    | @lin q st t op q' o hid hs =>
      refine ih (g := ⟨q', upd st t (.done o)⟩) (hstep hi (hp t op hid) hs) ?_ (fun t op h => hc t op (by simpa [erase] using h)) h2
      intro u op' hu
      simp only at hu
      by_cases h : u = t
      · subst h; rw [upd_same] at hu; cases hu
      · rw [upd_ne _ _ h] at hu; exact hp u op' hu
    | @ret q st t o hid =>
      refine ih (g := ⟨q, upd st t .idle⟩) hi ?_ (fun t op h => hc t op (by simp [erase, h])) h2
      intro u op' hu
      simp only at hu
      by_cases h : u = t
      · subst h; rw [upd_same] at hu; cases hu
      · rw [upd_ne _ _ h] at hu; exact hp u op' hu

/-- `actual` is the FIFO queue unless an empty vector is pushed -/
theorem actual_step {q : List α × Bool} {op : Op α} {q' : List α × Bool} {o : Out α} (hq : q.2 = false)
    (hop : op ≠ .ins (.pushVector [])) (hs : (actualSpec α).step q op = some (q', o)) :
    q'.2 = false ∧ (spec α).step q.1 op = some (q'.1, o) := by
  obtain ⟨q, z⟩ := q
  cases hq
  simp only [actualSpec, Option.some.injEq] at hs
  obtain ⟨rfl, rfl⟩ := Prod.mk.inj hs.symm
  cases op with
  | ins i =>
    cases i with
    | pushVector vs => cases vs with
      | nil => exact absurd rfl hop
      | cons v vs => exact ⟨by simp [actual, Ins.vals], rfl⟩
    | thrown => exact ⟨rfl, rfl⟩
    | _ => exact ⟨by simp [actual, Ins.vals], rfl⟩
  | popX => cases q <;> exact ⟨rfl, rfl⟩
  | _ => exact ⟨rfl, by simp [spec, fifo]⟩

/-- `actual` is the FIFO queue except for empty() -/
theorem actual_step_noEmpty {q : List α × Bool} {op : Op α} {q' : List α × Bool} {o : Out α}
    (hop : op ≠ .empty) (hs : (actualSpec α).step q op = some (q', o)) : (spec α).step q.1 op = some (q'.1, o) := by
  obtain ⟨q, z⟩ := q
  simp only [actualSpec, Option.some.injEq] at hs
  obtain ⟨rfl, rfl⟩ := Prod.mk.inj hs.symm
  cases op with
  | empty => exact absurd rfl hop
  | ins i => cases i <;> rfl
  | popX => cases q <;> rfl
  | _ => rfl

theorem R.idle {s : State α} {g : Ghost (List α × Bool) (Op α) (Out α)} (r : R s g) (hq : s.quiet) : g.st = fun _ => .idle := by
  funext t
  rw [r.status t, hq t]; rfl

theorem life_trace {s : State α} {h : List (Event (Op α) (Out α))} (l : Life false s h)
    (hv : ∀ t, .call t (.ins (.pushVector [])) ∉ h) :
    ∃ tr g, TSteps (spec α) (spec α).ghost tr ⟨g.q.1, g.st⟩ ∧ erase tr = h ∧ R s g ∧ g.q.2 = false ∧
      ∀ t op, g.st t = .pending op → op ≠ .ins (.pushVector []) := by
  induction l with
  | new => exact ⟨[], (actualSpec α).ghost, rfl, rfl, simulation.init, rfl, fun _ _ h => by cases h⟩
  | @use s s' as h h' _ e ih =>
    obtain ⟨tr, g, h1, h2, r, hf, hp⟩ := ih fun t hm => hv t (List.mem_append_left _ hm)
    obtain ⟨tr', g', h3, h4, r'⟩ := simulation.run_from as r (fun _ _ => trivial) e
    have hc : ∀ t op, Event.call t op ∈ erase tr' → op ≠ .ins (.pushVector []) := by
      rintro t op hm rfl
      exact hv t (List.mem_append_right _ (h4 ▸ hm))
    obtain ⟨i1, i2⟩ := trace_inv (fun q : List α × Bool => q.2 = false) (fun op => op ≠ .ins (.pushVector []))
      (fun hq hop hs => (actual_step hq hop hs).1) tr' hf hp hc h3
    have h5 := TSteps.map (sp' := spec α) (fun q : List α × Bool => q.1) (fun q => q.2 = false)
      (fun op => op ≠ .ins (.pushVector [])) (fun hq hop hs => actual_step hq hop hs) tr' hf hp hc h3
    exact ⟨tr ++ tr', g', h5.append h1, by rw [erase_append, h2, h4], r', i1, i2⟩
  | @moved s h _ hq ih =>
    obtain ⟨tr, g, h1, h2, r, hf, _⟩ := ih hv
    refine ⟨tr, _, ?_, h2, r.moveTarget hq, rfl, fun _ _ h => by cases h⟩
    rw [r.contents hq, r.idle hq] at h1
    exact h1
  | reused _ _ hb => cases hb

theorem life_related {b : Bool} {s : State α} {h : List (Event (Op α) (Out α))} (l : Life b s h) : ∃ g, R s g := by
  induction l with
  | new => exact ⟨_, simulation.init⟩
  | use _ e ih =>
    obtain ⟨g, r⟩ := ih
    obtain ⟨_, g', _, _, r'⟩ := simulation.run_from _ r (fun _ _ => trivial) e
    exact ⟨g', r'⟩
  | moved _ hq ih => obtain ⟨g, r⟩ := ih; exact ⟨_, r.moveTarget hq⟩
  | reused _ hq _ ih => obtain ⟨g, r⟩ := ih; exact ⟨_, r.moveSource hq⟩

theorem life_trace_noEmpty {b : Bool} {s : State α} {h : List (Event (Op α) (Out α))} (l : Life b s h)
    (hv : ∀ t, .call t .empty ∉ h) :
    ∃ tr g, TSteps (spec α) (spec α).ghost tr ⟨g.q.1, g.st⟩ ∧ erase tr = h ∧ R s g ∧
      ∀ t op, g.st t = .pending op → op ≠ .empty := by
  induction l with
  | new => exact ⟨[], (actualSpec α).ghost, rfl, rfl, simulation.init, fun _ _ h => by cases h⟩
  | @use s s' as h h' _ e ih =>
    obtain ⟨tr, g, h1, h2, r, hp⟩ := ih fun t hm => hv t (List.mem_append_left _ hm)
    obtain ⟨tr', g', h3, h4, r'⟩ := simulation.run_from as r (fun _ _ => trivial) e
    have hc : ∀ t op, Event.call t op ∈ erase tr' → op ≠ .empty := by
      rintro t op hm rfl
      exact hv t (List.mem_append_right _ (h4 ▸ hm))
    obtain ⟨_, i2⟩ := trace_inv (fun _ : List α × Bool => True) (fun op => op ≠ .empty)
      (fun _ _ _ => trivial) tr' trivial hp hc h3
    have h5 := TSteps.map (sp' := spec α) (fun q : List α × Bool => q.1) (fun _ => True)
      (fun op => op ≠ .empty) (fun _ hop hs => ⟨trivial, actual_step_noEmpty hop hs⟩) tr' trivial hp hc h3
    exact ⟨tr ++ tr', g', h5.append h1, by rw [erase_append, h2, h4], r', i2⟩
  | @moved s h _ hq ih =>
    obtain ⟨tr, g, h1, h2, r, _⟩ := ih hv
    refine ⟨tr, _, ?_, h2, r.moveTarget hq, fun _ _ h => by cases h⟩
    rw [r.contents hq, r.idle hq] at h1
    exact h1
  | @reused s h l hq _ _ =>
    obtain ⟨g, r⟩ := life_related l
    exact ⟨[], ⟨([], !s.flag), fun _ => .idle⟩, rfl, rfl, r.moveSource hq, fun _ _ h => by cases h⟩

/-! ## C160 -/

/-- C160.  A queue behaves as one FIFO queue throughout its life, whatever objects it is moved to, for any number of
threads in each object: the history of all calls on it is linearizable.  Missing: pushVector of an empty vector (see
`linearizable_violation`, C45) and objects used again after they were moved from (see `move_violation`, C49). -/
theorem life_partial (s : State α) (h : List (Event (Op α) (Out α))) (l : Life false s h)
    (hv : ∀ t, .call t (.ins (.pushVector [])) ∉ h) : Linearizable (spec α) h := by
  obtain ⟨tr, g, h1, h2, _⟩ := life_trace l hv
  exact ⟨tr, _, h1, h2⟩

/-- C160 for histories without empty(): the same, pushVector of an empty vector and objects that are used again after they
were moved from (each then begins the life of a new, empty queue) included. -/
theorem life_noEmpty_partial (b : Bool) (s : State α) (h : List (Event (Op α) (Out α))) (l : Life b s h)
    (hv : ∀ t, .call t .empty ∉ h) : Linearizable (spec α) h := by
  obtain ⟨tr, g, h1, h2, _⟩ := life_trace_noEmpty l hv
  exact ⟨tr, _, h1, h2⟩

/-- `std::swap(a, b)` of two different objects, `T t(std::move(a)); a = std::move(b); b = std::move(t);`: the new states of
`a` and `b` (SimpleQueue.hpp:62-78; the vectors that an assignment replaces are empty). -/
def stdSwap (a b : State α) : State α × State α := (b.moveFrom.1, a.moveFrom.1.moveFrom.1)

/-- C160, `std::swap(a, b)` while no call is in progress: what is done with `a` afterwards continues the history of `b`, and
what is done with `b` continues that of `a`. -/
theorem std_swap_partial (a b : State α) (ha hb : List (Event (Op α) (Out α))) (la : Life false a ha) (lb : Life false b hb)
    (qa : a.quiet) (qb : b.quiet) (as bs : List (Act (Op α))) (a' b' : State α) (ha' hb' : List (Event (Op α) (Out α)))
    (ea : (sys α).run (stdSwap a b).1 as = some (a', ha')) (eb : (sys α).run (stdSwap a b).2 bs = some (b', hb'))
    (hva : ∀ t, .call t (.ins (.pushVector [])) ∉ hb ++ ha') (hvb : ∀ t, .call t (.ins (.pushVector [])) ∉ ha ++ hb') :
    Linearizable (spec α) (hb ++ ha') ∧ Linearizable (spec α) (ha ++ hb') :=
  ⟨life_partial a' _ ((lb.moved qb).use ea) hva, life_partial b' _ (((la.moved qa).moved fun _ => rfl).use eb) hvb⟩

/-- Queues with elements are exchanged: one holds 7, the other 8 and 9 (9 still on the side where elements are added). -/
example : ∃ (a b : State Nat) (ha hb : List (Event (Op Nat) (Out Nat))), Life false a ha ∧ Life false b hb ∧ a.quiet ∧ b.quiet ∧
    ∃ a' b', (sys Nat).run (stdSwap a b).1 (alone 0 .pop 13) = some (a', [.call 0 .pop, .ret 0 (.val (some 8))]) ∧
      (sys Nat).run (stdSwap a b).2 (alone 3 .empty 2) = some (b', [.call 3 .empty, .ret 3 (.bool false)]) := by
  refine ⟨_, _, _, _, Life.use (as := alone 0 (.ins (.push 7)) 9) .new rfl,
    Life.use (as := alone 0 (.ins (.push 8)) 9 ++ alone 0 (.ins (.push 9)) 10) .new rfl, ?_, ?_, _, _, rfl, rfl⟩
  · intro t; match t with
    | 0 => rfl
    | n + 1 => rfl
  · intro t; match t with
    | 0 => rfl
    | n + 1 => rfl

end Verif.SimpleQueue
