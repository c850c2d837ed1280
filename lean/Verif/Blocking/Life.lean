import Verif.Blocking.Move

/-
C161: a blocking queue followed through any number of moves from object to object, `std::swap` included.
-/
namespace Verif.Blocking
open Verif.Conc

variable {α : Type} {b : Bool}

/-- The life of a queue: `Life b s h` says that an object in state `s` without calls in progress holds a queue on which the
calls in `h` have been made, by any number of threads, on the objects from which it was moved here (Q69-85, P75-93; `b`:
BlockingPriorityQueue).  The objects that a queue was moved from can be used again, as new empty queues. -/
inductive Life (b : Bool) : State α → List (Event (Op α) (Out α)) → Prop
  | new : Life b State.init []
  | moved {s s' as h h'} : Life b s h → (sys b α).run s as = some (s', h') → s'.idle → Life b s'.moveFrom.1 (h ++ h')
  | reused {s s' as h h'} : Life b s h → (sys b α).run s as = some (s', h') → s'.idle → Life b s'.moveFrom.2 []

theorem Life.obtained {s : State α} {h} (l : Life b s h) : Obtained b s ∧ s.idle := by
  induction l with
  | new => exact ⟨.new, fun _ => rfl⟩
  | moved _ e hi ih => exact ⟨.target (.use ih.1 e) hi, fun _ => rfl⟩
  | reused _ e hi ih => exact ⟨.source (.use ih.1 e) hi, hi⟩

/-- `trace_plain` with the relation at the end -/
theorem trace_plain_rel {f : Bool} {q0 : List α × List α} {s0 s : State α} (k : K f b q0 s0 []) (hq : Quiet s0) (as : List (Act (Op α)))
    {h : List (Event (Op α) (Out α))} (e : (sys b α).run s0 as = some (s, h))
    (hn : ∀ t op, .call t op ∈ h → op.observes = false) :
    ∃ tr g, TSteps (twoSpec α) ⟨q0, fun _ => .idle⟩ tr g ∧ erase tr = h ∧ R true b s g := by
  have ok := run_ok as hq (fun t op hm => by
    have := hn t op (Sys.run_calls as e t op hm)
    refine ⟨?_, ?_, ?_⟩ <;> (intro e'; subst e'; cases this)) e
  obtain ⟨tr, htr, k'⟩ := (traceSim f b q0).run_from as k
    (fun t op hm => ⟨fun e' => (by have := hn t _ (e' ▸ Sys.run_calls as e t op hm); cases this),
      fun _ e' => (by have := hn t _ (e' ▸ Sys.run_calls as e t op hm); cases this)⟩)
    (fun t o hm => ⟨fun e' => (ok t _ (e' ▸ hm)).1 rfl, fun e' => (ok t _ (e' ▸ hm)).2 rfl⟩) e
  obtain ⟨g, hg, r⟩ := k'.valid
  exact ⟨tr, g, hg, by simpa [erase] using htr, r⟩

theorem Life.run_trace {s s' : State α} {h h' : List (Event (Op α) (Out α))} {as : List (Act (Op α))}
    (l : Life b s h) (e : (sys b α).run s as = some (s', h')) (hn : ∀ t op, .call t op ∈ h' → op.observes = false)
    {tr : List (TEvent (Op α) (Out α))} (h1 : TSteps (twoSpec α) (twoSpec α).ghost tr ⟨s.contents, fun _ => .idle⟩)
    (h2 : erase tr = h) :
    ∃ tr' g, TSteps (twoSpec α) (twoSpec α).ghost tr' g ∧ erase tr' = h ++ h' ∧
      (s'.idle → g = ⟨s'.contents, fun _ => .idle⟩) := by
  obtain ⟨ho, hi⟩ := l.obtained
  obtain ⟨tr', g, h3, h4, r⟩ := trace_plain_rel (K.idle (sound_obtained ho) hi) (Quiet.idle hi) as e hn
  refine ⟨tr ++ tr', g, h3.append h1, by rw [erase_append, h2, h4], fun hi' => ?_⟩
  obtain ⟨q, st⟩ := g
  have hq : q = s'.contents := by
    have := r.queue
    rw [atRest_split r.locks fun t => .inl (hi' t)] at this
    exact this
  have hst : st = fun _ => .idle := by
    funext t
    have := r.status t
    rw [hi' t] at this
    exact this
  rw [hq, hst]

theorem Life.trace {s : State α} {h : List (Event (Op α) (Out α))} (l : Life b s h)
    (hn : ∀ t op, .call t op ∈ h → op.observes = false) :
    ∃ tr, TSteps (twoSpec α) (twoSpec α).ghost tr ⟨s.contents, fun _ => .idle⟩ ∧ erase tr = h := by
  induction l with
  | new => exact ⟨[], rfl, rfl⟩
  | @moved s s' as h h' l e hi ih =>
    obtain ⟨tr, h1, h2⟩ := ih fun t op hm => hn t op (List.mem_append_left _ hm)
    obtain ⟨tr', g, h3, h4, h5⟩ := l.run_trace e (fun t op hm => hn t op (List.mem_append_right _ hm)) h1 h2
    rw [h5 hi] at h3
    exact ⟨tr', h3, h4⟩
  | reused _ _ _ _ => exact ⟨[], rfl, rfl⟩

/-- what the two classes have in common -/
theorem Life.linearizable {s s' : State α} {h h' : List (Event (Op α) (Out α))} {as : List (Act (Op α))}
    (l : Life b s h) (e : (sys b α).run s as = some (s', h')) (hn : ∀ t op, .call t op ∈ h ++ h' → op.observes = false) :
    ∃ tr g, TSteps (twoSpec α) (twoSpec α).ghost tr g ∧ erase tr = h ++ h' := by
  obtain ⟨tr, h1, h2⟩ := l.trace fun t op hm => hn t op (List.mem_append_left _ hm)
  obtain ⟨tr', g, h3, h4, _⟩ := l.run_trace e (fun t op hm => hn t op (List.mem_append_right _ hm)) h1 h2
  exact ⟨tr', g, h3, h4⟩

/-- `std::swap(a, b)` of two different objects, `T t(std::move(a)); a = std::move(b); b = std::move(t);`: the new states of
`a` and `b` (the containers that an assignment replaces are empty). -/
def stdSwap (x y : State α) : State α × State α := (y.moveFrom.1, x.moveFrom.1.moveFrom.1)

end Verif.Blocking
