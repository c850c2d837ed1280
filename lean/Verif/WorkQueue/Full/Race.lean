import Verif.WorkQueue.Race
import Verif.WorkQueue.Full.Props

/-
The properties C105 and C106 of WorkQueue together with the code of its queues.
-/
namespace Verif.WorkQueue.Full
open Verif.Conc

variable {n : Nat}

theorem access_local {w : WorkQueue.State} {l : Loc} {d : Datum × Bool} (h : accesses n w l = some d) : queueOp l = none := by
  cases l <;> first | rfl | cases h

theorem access_same {w s : WorkQueue.State} (hj : s.joined = w.joined) (l : Loc) : accesses n s l = accesses n w l := by
  unfold accesses; rw [hj]

/-- C105: as `WorkQueue.only_polls_race`. -/
theorem only_polls_race (n : Nat) (as : List (Act Op)) (f : State) (h : List (Event Op Out))
    (e : (sys n).run (sys n).init as = some (f, h)) (i : Nat) (ha : adds i h ≤ 1) :
    ¬ race n f.w (.function i) ∧
    (∀ t u b, t ≠ u → accesses n f.w (f.w.loc t) = some (.flag i, true) → accesses n f.w (f.w.loc u) = some (.flag i, b) →
      (∃ bs, f.w.loc t = .eDone i bs) ∧ f.w.loc u = .pFin i) := by
  obtain ⟨bs, s, g, _, e1, k, _⟩ := related_run (P := fun _ => True) as (related_init n _) (fun _ _ => trivial) e
  have hj := k.rel.fields.2.2.2.2.1
  have loc : ∀ {t d}, accesses n f.w (f.w.loc t) = some d → s.loc t = f.w.loc t :=
    fun h => ((k.rel.at_ _).local (access_local h)).2
  have key : ∀ {t d}, accesses n f.w (f.w.loc t) = some d → accesses n s (s.loc t) = some d :=
    fun h => by rw [loc h, access_same hj]; exact h
  obtain ⟨h1, h2⟩ := WorkQueue.only_polls_race n bs s h e1 i ha
  refine ⟨fun ⟨t, u, b, hn, ht, hu⟩ => h1 ⟨t, u, b, hn, key ht, key hu⟩, fun t u b hn ht hu => ?_⟩
  have := h2 t u b hn (key ht) (key hu)
  rw [loc ht, loc hu] at this
  exact this

/-- C105: as `WorkQueue.race_free_partial`; moreover there is no data race on the vectors in the three queues. -/
theorem race_free_partial (n : Nat) (as : List (Act Op)) (f : State) (h : List (Event Op Out))
    (e : (sys n).run (sys n).init as = some (f, h)) :
    (∀ i, adds i h ≤ 1 → ¬ race n f.w (.function i)) ∧
    (∀ i, adds i h ≤ 1 → notPolled i h → ¬ race n f.w (.flag i)) ∧
    (closedInTurn h → ∀ k, ¬ race n f.w (.thread k)) ∧
    (∀ q t u, SimpleQueue.usesPush ((f.q q).loc t) = true → SimpleQueue.usesPush ((f.q q).loc u) = true → t = u) ∧
    (∀ q t u, SimpleQueue.usesPull ((f.q q).loc t) = true → SimpleQueue.usesPull ((f.q q).loc u) = true → t = u) := by
  obtain ⟨bs, s, g, _, e1, k, _⟩ := related_run (P := fun _ => True) as (related_init n _) (fun _ _ => trivial) e
  have hj := k.rel.fields.2.2.2.2.1
  have key : ∀ {t d}, accesses n f.w (f.w.loc t) = some d → accesses n s (s.loc t) = some d :=
    fun h => by rw [((k.rel.at_ _).local (access_local h)).2, access_same hj]; exact h
  have rk : ∀ {d}, race n f.w d → race n s d := fun ⟨t, u, b, hn, ht, hu⟩ => ⟨t, u, b, hn, key ht, key hu⟩
  obtain ⟨h1, h2, h3⟩ := WorkQueue.race_free_partial n bs s h e1
  have hr : (sys n).Reachable f := ⟨as, h, e⟩
  refine ⟨fun i ha r => h1 i ha (rk r), fun i ha hp r => h2 i ha hp (rk r), fun hx j r => h3 hx j (rk r), ?_, ?_⟩
  · exact fun q t u => (SimpleQueue.race_free (f.q q) (queues_ok n f hr q) t u).2.2.1
  · exact fun q t u => (SimpleQueue.race_free (f.q q) (queues_ok n f hr q) t u).2.2.2

/-- A worker is about to run block 7 while another uses a vector in the queue of medium priority. -/
example : ∃ as f h, (sys 2).run (sys 2).init as = some (f, h) ∧ adds 7 h = 1 ∧ closedBy 5 h ∧
    accesses 2 f.w (f.w.loc 0) = some (.function 7, true) ∧ SimpleQueue.usesPush ((f.q .med).loc 5) = true := by
  refine ⟨begin 5 (.add (some (.task 7)) .high) 21 ++ go 0 18 ++ begin 5 (.add (some (.task 8)) .medium) 11, _, _, rfl, rfl, ?_, rfl, rfl⟩
  intro t op hm ho
  simp at hm
  rcases hm with ⟨rfl, rfl⟩ | ⟨rfl, rfl⟩ <;> cases ho

/-- C106: as `WorkQueue.finished_answer_partial`. -/
theorem finished_answer_partial (n : Nat) (as : List (Act Op)) (f : State) (h : List (Event Op Out))
    (e : (sys n).run (sys n).init as = some (f, h)) (t i : Nat) (ht : f.w.loc t = .pFin i) :
    ∃ b f', (∀ c, (sys n).move t c f = some (f', none)) ∧ f'.w.loc t = .ret (.bool b) ∧
      (b = true → 1 ≤ f.w.runs i) ∧ (b = false → f.w.runs i = 0 ∨ ∃ u bs, f.w.loc u = .eDone i bs) := by
  obtain ⟨bs, s, g, _, e1, k, _⟩ := related_run (P := fun _ => True) as (related_init n _) (fun _ _ => trivial) e
  obtain ⟨f1, f2, f3, f4, f5, f6, f7⟩ := k.rel.fields
  have ran := (known_run bs e1).ran
  have hq : queueOp (f.w.loc t) = none := by rw [ht]; rfl
  refine ⟨f.w.fin i, { f with w := f.w.goto t (.ret (.bool (f.w.fin i))) }, fun c => ?_, ?_, ?_, ?_⟩
  · simp only [sys, State.step, hq, Option.map_some]
    rw [ht]; rfl
  · simp [WorkQueue.State.goto, upd_same]
  · rw [← f6, ← f7]; exact ran.fin i
  · intro hb
    rcases Nat.eq_zero_or_pos (f.w.runs i) with h0 | h0
    · exact .inl h0
    · rw [← f7] at h0
      rcases ran.late i h0 with h1 | ⟨u, bs, h1⟩
      · rw [f6, hb] at h1; cases h1
      · refine .inr ⟨u, bs, ?_⟩
        have h3 := k.rel.at_ u
        unfold At at h3
        split at h3
        · rw [← h3.2]; exact h1
        · rename_i x op hx
          rcases h3.2 with ⟨_, h4⟩ | ⟨_, h4⟩ | ⟨o, _, h4⟩
          · rw [← h4, h1] at hx; cases hx
          · rw [← h4, h1] at hx; cases hx
          · rw [h1] at h4
            unfold next gotLoc at h4
            split at h4 <;> (try split at h4) <;> cases h4

end Verif.WorkQueue.Full
