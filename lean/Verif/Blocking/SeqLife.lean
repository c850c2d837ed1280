import Verif.Blocking.Life
import Verif.Blocking.Seq

/-
C161, C162 for calls made one at a time: all calls, size(), empty() and try_peek included.
-/
namespace Verif.Blocking
open Verif.Conc

variable {α : Type} {b : Bool}

/-- As `Life`, for a queue whose calls are made one at a time (by any threads): `SeqLife b (s, busy) h` says that an object
in state `s` holds a queue on which the calls in `h` have been made, on this object and on those from which it was moved
here (Q69-85, P75-93); `busy`: a call is in progress. -/
inductive SeqLife (b : Bool) : State α × Bool → List (Event (Op α) (Out α)) → Prop
  | new : SeqLife b (State.init, false) []
  | use {s s' as h h'} : SeqLife b s h → (sys b α).oneAtATime.run s as = some (s', h') → SeqLife b s' (h ++ h')
  | moved {s h} : SeqLife b (s, false) h → SeqLife b (s.moveFrom.1, false) h

theorem KSeq.quiet {q0 : List α × List α} {s : State α} {tr} (k : KSeq b q0 (s, false) tr) : s.idle := by
  obtain ⟨t0, h1, h2, _⟩ := k.one
  intro u
  by_cases e : u = t0
  · subst e; exact h2 rfl
  · exact h1 u e

theorem KSeq.moved {q0 : List α × List α} {s : State α} {tr} (k : KSeq b q0 (s, false) tr) :
    KSeq b q0 (s.moveFrom.1, false) tr := by
  have hi := k.quiet
  obtain ⟨g, hg, r⟩ := k.rel
  obtain ⟨q, st⟩ := g
  have hq : q = s.contents := by
    have := r.queue
    rw [atRest_split r.locks fun t => .inl (hi t)] at this
    exact this
  have hst : st = fun _ => .idle := by
    funext t
    have := r.status t
    rw [hi t] at this
    exact this
  subst hq hst
  have hp : s.prio = [] := k.prio
  have tidy : s.pull = [] → s.flag = true := by
    obtain ⟨t0, _, _, h3⟩ := k.one
    rw [show s.loc t0 = .idle from hi t0] at h3
    exact h3
  have hpush : s.pull = [] → s.push = [] := fun hl => (k.flag.empty (tidy hl)).1
  refine ⟨⟨⟨s.moveFrom.1.contents, fun _ => .idle⟩, hg, idle_rel (fun _ => rfl) rfl rfl (fun _ => hp) rfl (fun _ => rfl)⟩,
    ⟨?_, fun t h => (by cases h)⟩, hp, fun _ h => (by cases h), 0, fun _ _ => rfl, fun _ => rfl, ?_⟩
  · intro hf
    simp only [State.moveFrom, hp, Bool.and_eq_true, List.isEmpty_iff] at hf ⊢
    exact ⟨hpush hf.1, hf.1, .inl trivial⟩
  · intro hl
    simp only [State.moveFrom, hp] at hl ⊢
    simp [hl]

theorem SeqLife.trace {s : State α × Bool} {h : List (Event (Op α) (Out α))} (l : SeqLife b s h)
    (hp : ∀ t i, .call t (.prio i) ∉ h) (hx : ∀ t v, .call t (.ins (.thrown v)) ∉ h) :
    ∃ tr, erase tr = h ∧ KSeq b ([], []) s tr := by
  induction l with
  | new => exact ⟨[], rfl, KSeq.init⟩
  | @use s s' as h h' _ e ih =>
    obtain ⟨tr, h1, k⟩ := ih (fun t i hm => hp t i (List.mem_append_left _ hm)) (fun t i hm => hx t i (List.mem_append_left _ hm))
    have e1 := Sys.run_calls as e
    obtain ⟨tr', h2, k'⟩ := (seqSim b _).run_from as k
      (fun t op hm => ⟨fun i he => hp t i (List.mem_append_right _ (he ▸ e1 t op hm)),
        fun v he => hx t v (List.mem_append_right _ (he ▸ e1 t op hm))⟩)
      (fun _ _ _ => trivial) e
    exact ⟨tr', by rw [h2, h1], k'⟩
  | moved _ ih =>
    obtain ⟨tr, h1, k⟩ := ih hp hx
    exact ⟨tr, h1, k.moved⟩

end Verif.Blocking
