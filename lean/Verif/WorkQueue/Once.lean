import Verif.WorkQueue.Count

/-
Every submitted block is somewhere.
-/
namespace Verif.WorkQueue
open Verif.Conc State

variable {n t c i : Nat} {s s' : State} {o : Option Out} {l : Loc} {h : List (Event Op Out)}

/-- a block submitted at most once is not lost -/
def Lower (s : State) (h : List (Event Op Out)) : Prop :=
  ∀ i, adds i h ≤ 1 → ∃ ts : List Nat, ts.Nodup ∧ adds i h ≤ total s h i ts

/-- everything known without close -/
structure Open (n : Nat) (s : State) (h : List (Event Op Out)) : Prop where
  none : ∀ t, closing (s.loc t) = false
  lower : Lower s h

theorem notClosed_left {h h' : List (Event Op Out)} (hn : notClosed (h ++ h')) : notClosed h :=
  fun t => ⟨fun h1 => (hn t).1 (List.mem_append_left _ h1), fun h1 => (hn t).2 (List.mem_append_left _ h1)⟩

theorem open_call {op : Op} (k : Open n s h) (hc : s.call n t op = some s') (hn : notClosed (h ++ [.call t op])) :
    Open n s' (h ++ [.call t op]) := by
  constructor
  · intro u
    obtain ⟨hid, rfl⟩ := call_eq hc
    rw [loc_goto]
    by_cases e : u = t
    · subst e; rw [upd_same]
      have := hn u
      cases op with
      | close => exact absurd (by simp) this.1
      | destroy => exact absurd (by simp) this.2
      | addVector bs p => simp only [start]; split <;> rfl
      | _ => rfl
    · rw [upd_ne _ _ e]; exact k.none u
  · intro i hi
    have h0 : adds i h ≤ 1 := by rw [adds_call] at hi; omega
    obtain ⟨ts, h1, h2⟩ := k.lower i h0
    have hid := (call_eq hc).1
    by_cases e : t ∈ ts
    · refine ⟨ts, h1, ?_⟩
      rw [total_call hc i ts h1, adds_call, if_pos e]; omega
    · refine ⟨t :: ts, List.nodup_cons.2 ⟨e, h1⟩, ?_⟩
      rw [total_call hc i _ (List.nodup_cons.2 ⟨e, h1⟩), adds_call]
      have : total s h i (t :: ts) = total s h i ts := by
        simp only [total, List.map_cons, List.sum_cons, hid, carries]; omega
      rw [this]; simp; omega

theorem open_move (h0 : 0 < n) (k : Open n s h) (r : Ran s) (pl : ∀ t, place n t (s.loc t))
    (hm : stepAt n s t c (s.loc t) = some (s', o)) : Open n s' (h ++ retEvents t o) := by
  constructor
  · intro u
    by_cases e : u = t
    · subst e; exact step_closing hm (k.none u)
    · obtain ⟨a, l', h1, h2⟩ := step_loc hm
      rw [h1, upd_ne _ _ e]
      rcases h2.all u with h3 | ⟨h3, h4⟩
      · rw [h3]; exact k.none u
      · rw [h4]; rfl
  · intro i hi
    rw [adds_append, adds_ret] at hi
    obtain ⟨ts, h1, h2⟩ := k.lower i hi
    rw [adds_append, adds_ret]
    cases hf : s.fin i with
    | true =>
      refine ⟨ts, h1, ?_⟩
      have := r.fin i hf
      have := (step_fin hm i).2.1
      simp only [total]
      omega
    | false =>
      have hge := step_ge i hm hf (fun q hq => by have := k.none t; rw [hq] at this; cases this)
        (fun bs hb => by have := pl t; rw [hb] at this; simp only [place] at this; omega) (pl t)
      by_cases e : t ∈ ts
      · refine ⟨ts, h1, ?_⟩
        have h3 := step_sum hm rfl i ts h1
        rw [if_pos e] at h3
        simp only [total, handed_append, handed_ret] at h2 ⊢
        omega
      · refine ⟨t :: ts, List.nodup_cons.2 ⟨e, h1⟩, ?_⟩
        have h3 := step_sum hm rfl i (t :: ts) (List.nodup_cons.2 ⟨e, h1⟩)
        rw [if_pos (by simp)] at h3
        simp only [List.map_cons, List.sum_cons] at h3
        simp only [total, handed_append, handed_ret, List.map_cons, List.sum_cons] at h2 ⊢
        omega

/-- what is known of every execution -/
structure Known (n : Nat) (s : State) (h : List (Event Op Out)) : Prop where
  place : ∀ t, place n t (s.loc t)
  ran : Ran s
  upper : Upper s h
  lower : 0 < n → notClosed h → Open n s h

theorem known_init (n : Nat) : Known n (State.init n) [] := by
  refine ⟨place_init n, ran_init n, upper_init n, fun _ _ => ⟨?_, ?_⟩⟩
  · intro t; simp only [State.init]; split <;> rfl
  · intro i _; exact ⟨[], List.nodup_nil, Nat.zero_le _⟩

theorem known_run (as : List (Act Op)) (e : (sys n).run (State.init n) as = some (s, h)) : Known n s h := by
  have := Sys.run_history (M := sys n) (I := Known n) ?_ ?_ as (h0 := []) (known_init n) e
  · exact this
  · intro s t op s' h k hc
    refine ⟨?_, ran_call k.ran hc, upper_call k.upper hc, fun h0 hn => open_call (k.lower h0 (notClosed_left hn)) hc hn⟩
    intro u
    obtain ⟨hid, rfl⟩ := call_eq hc
    rw [loc_goto]
    by_cases e : u = t
    · subst e; rw [upd_same]
      have := k.place u; rw [hid] at this
      exact place_start n u op this
    · rw [upd_ne _ _ e]; exact k.place u
  · intro s t c s' o h k hm
    refine ⟨?_, ran_move k.ran hm, upper_move k.upper hm rfl, fun h0 hn => open_move h0 (k.lower h0 (notClosed_left hn)) k.ran k.place hm⟩
    intro u
    by_cases e : u = t
    · subst e; exact step_place hm (k.place u)
    · obtain ⟨a, l', h1, h2⟩ := step_loc hm
      rw [h1, upd_ne _ _ e]
      rcases h2.all u with h3 | ⟨h3, h4⟩
      · rw [h3]; exact k.place u
      · rw [h4]; have := k.place u; rw [h3] at this; exact this

/-! ### No workers -/

/-- block `i` is being submitted to a queue without workers -/
def mid (i : Nat) : Loc → Prop
  | .aCheck b _ r => b = some (.task i) ∧ r = .client
  | .vExec bs => some (.task i) ∈ bs
  | .eTest j bs | .eRun j bs | .eDone j bs => j = i ∨ some (.task i) ∈ bs
  | .crash => True
  | _ => False

theorem step_mid (hm : stepAt 0 s t c l = some (s', o)) (hl : mid i l) (hf : s.fin i = false) :
    mid i (s'.loc t) ∨ s'.fin i = true := by
  unfold stepAt at hm
  split at hm
  all_goals try (simp only [mid] at hl; done)
  · cases hl.1
  · obtain ⟨e, rfl⟩ := hl
    cases e
    simp [State.isFinished, hf] at hm
    obtain ⟨rfl, rfl⟩ := hm
    exact .inl (by simp [loc_goto, upd_same, mid])
  · cases hl
  · obtain ⟨rfl, rfl⟩ := Prod.mk.inj (Option.some.inj hm)
    exact .inl (by simp [loc_goto, upd_same, mid])
  · obtain ⟨rfl, rfl⟩ := Prod.mk.inj (Option.some.inj hm)
    simp only [mid, List.mem_cons, Option.some.injEq, reduceCtorEq, false_or] at hl
    exact .inl (by simpa [loc_goto, upd_same, mid] using hl)
  · obtain ⟨rfl, rfl⟩ := Prod.mk.inj (Option.some.inj hm)
    simp only [mid, List.mem_cons, Option.some.injEq, Blk.task.injEq] at hl
    refine .inl ?_
    simp only [loc_goto, upd_same, mid]
    rcases hl with h | h
    · exact .inl h.symm
    · exact .inr h
  · split at hm
    · next e =>
      obtain ⟨rfl, rfl⟩ := Prod.mk.inj (Option.some.inj hm)
      simp only [mid] at hl
      rcases hl with rfl | hl
      · rw [hf] at e; cases e
      · exact .inl (by simpa [executed, loc_goto, upd_same, mid] using hl)
    · obtain ⟨rfl, rfl⟩ := Prod.mk.inj (Option.some.inj hm)
      exact .inl (by simpa [loc_goto, upd_same, mid] using hl)
  · obtain ⟨rfl, rfl⟩ := Prod.mk.inj (Option.some.inj hm)
    exact .inl (by simpa [loc_goto, upd_same, mid] using hl)
  · obtain ⟨rfl, rfl⟩ := Prod.mk.inj (Option.some.inj hm)
    simp only [mid] at hl
    rcases hl with rfl | hl
    · exact .inr (by simp [executed, fin_goto, upd])
    · exact .inl (by simpa [executed, loc_goto, upd_same, mid] using hl)
  · cases hm

/-- without workers, a submitted block is being submitted or is finished -/
def Direct (s : State) (h : List (Event Op Out)) : Prop :=
  ∀ t op i, .call t op ∈ h → 0 < op.adds i → s.fin i = true ∨ mid i (s.loc t)

theorem direct_run (as : List (Act Op)) (e : (sys 0).run (State.init 0) as = some (s, h)) : Direct s h := by
  refine Sys.run_history (M := sys 0) (I := Direct) ?_ ?_ as (h0 := []) (fun _ _ _ hm => by cases hm) e
  · intro s t op s' h k hc u op' i hm ha
    obtain ⟨hid, rfl⟩ := call_eq hc
    have step : s.fin i = true ∨ mid i (s.loc u) → (s.goto t (start 0 op)).fin i = true ∨ mid i ((s.goto t (start 0 op)).loc u) := by
      rintro (h1 | h1)
      · exact .inl h1
      · by_cases e : u = t
        · subst e; rw [hid] at h1; cases h1
        · rw [loc_goto, upd_ne _ _ e]; exact .inr h1
    rcases List.mem_append.1 hm with hm | hm
    · exact step (k u op' i hm ha)
    · simp only [List.mem_singleton] at hm
      cases hm
      rw [loc_goto, upd_same]
      refine .inr ?_
      cases op with
      | add b p =>
        simp only [Op.adds] at ha
        split at ha
        · next e => exact ⟨e, rfl⟩
        · omega
      | addVector bs p =>
        simp only [Op.adds] at ha
        exact List.count_pos_iff.1 ha
      | _ => simp [Op.adds] at ha
  · intro s t c s' o h k hm u op i hmem ha
    have hmem : .call u op ∈ h := by
      rcases List.mem_append.1 hmem with h1 | h1
      · exact h1
      · cases o <;> simp [retEvents] at h1
    rcases k u op i hmem ha with h1 | h1
    · exact .inl ((step_fin hm i).1 h1)
    · cases hf : s.fin i with
      | true => exact .inl ((step_fin hm i).1 hf)
      | false =>
        by_cases e : u = t
        · subst e; exact (step_mid hm h1 hf).symm
        · obtain ⟨a, l', h2, h3⟩ := step_loc hm
          rw [h2, upd_ne _ _ e]
          rcases h3.all u with h4 | ⟨h4, h5⟩
          · rw [h4]; exact .inr h1
          · rw [h4] at h1; cases h1

end Verif.WorkQueue
