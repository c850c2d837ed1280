import Verif.WorkQueue.Share
import Verif.WorkQueue.Order

/-
How long a block waits: lemmas.
-/
namespace Verif.WorkQueue
open Verif.Conc State

variable {n t u c : Nat} {s s' : State} {o : Option Out} {l : Loc}

/-! ### A worker that takes steps takes blocks -/

/-- a bound for the steps of a worker until it takes a block, if queue `q` is not empty -/
def toGo (q : Que) : Loc → Nat
  | .gHigh => 7
  | .gCnt => if q = .high then 28 else 6
  | .gRat _ => if q = .high then 27 else 5
  | .gLowE => if q = .high then 26 else 4
  | .gLowPop => if q = .high then 25 else 3
  | .gMed => if q = .high then 24 else 2
  | .gLow => if q = .low then 1 else 23
  | .gReset _ | .gInc _ => 22
  | .wChk _ => 21
  | .eTest _ _ => 20
  | .eRun _ _ => 19
  | .eDone _ _ => 18
  | .wE .high => 17
  | .wE .med => 16
  | .wE .low => 15
  | .wLock => 14
  | .wHalt => 13
  | .wEnter => 12
  | .wSleep => 11
  | .wRelock => 10
  | .wHalt2 => 9
  | .wUnlock => 8
  | .wOut => 2
  | .exited => 1
  | _ => 0

theorem toGo_le (q : Que) (l : Loc) : toGo q l ≤ 28 := by
  cases l with
  | wE x => cases x <;> simp [toGo]
  | _ => simp only [toGo]; (try split) <;> omega

/-- the blocks a step takes that count for queue `q`: for high priority only those of high priority -/
def gains (q : Que) (s : State) (l : Loc) : Nat :=
  takesN .high s l + if q = .high then 0 else takesN .med s l + takesN .low s l

theorem step_toGo (q : Que) (h : stepAt n s t c l = some (s', o)) (ht : t < n) (hp : place n t l) (hh : s.halt = false)
    (hq : (s.que q).1 ≠ []) : toGo q (s'.loc t) + 1 ≤ toGo q l + 22 * gains q s l := by
  have gl : ∀ {s1 : State} {b}, toGo q ((got n s1 t b).loc t) = 21 := by
    intro s1 b
    simp only [got, loc_goto, upd_same, ht, if_true, toGo]
  have ex : ∀ {s1 : State} {bs}, toGo q ((executed n s1 t bs).loc t) = 17 := by
    intro s1 bs
    simp only [executed, loc_goto, upd_same, ht, if_true, toGo]
  cases l with
  | gHigh =>
    simp only [stepAt] at h
    split at h <;> obtain ⟨rfl, rfl⟩ := Prod.mk.inj (Option.some.inj h) <;> rename_i hf <;> rw [front_eq] at hf
    · rw [gl]; simp [toGo, gains, takesN, takes, hf] <;> omega
    · rw [loc_goto, upd_same]
      cases q with
      | high => rw [List.head?_eq_none_iff] at hf; exact absurd hf hq
      | _ => simp [toGo] <;> omega
  | gCnt =>
    obtain ⟨rfl, rfl⟩ := Prod.mk.inj (Option.some.inj h)
    rw [loc_goto, upd_same]; cases q <;> simp [toGo] <;> omega
  | gRat k =>
    obtain ⟨rfl, rfl⟩ := Prod.mk.inj (Option.some.inj h)
    rw [loc_goto, upd_same]
    split <;> cases q <;> simp [toGo] <;> omega
  | gLowE =>
    obtain ⟨rfl, rfl⟩ := Prod.mk.inj (Option.some.inj h)
    rw [loc_goto, upd_same]
    split <;> cases q <;> simp [toGo] <;> omega
  | gLowPop =>
    simp only [stepAt] at h
    split at h <;> obtain ⟨rfl, rfl⟩ := Prod.mk.inj (Option.some.inj h) <;> rename_i hf <;> rw [front_eq] at hf <;> rw [loc_goto, upd_same]
    · cases q <;> simp [toGo, gains, takesN, takes, hf] <;> omega
    · cases q <;> simp [toGo] <;> omega
  | gReset b =>
    obtain ⟨rfl, rfl⟩ := Prod.mk.inj (Option.some.inj h)
    rw [gl]; simp [toGo] <;> omega
  | gMed =>
    simp only [stepAt] at h
    split at h <;> obtain ⟨rfl, rfl⟩ := Prod.mk.inj (Option.some.inj h) <;> rename_i hf <;> rw [front_eq] at hf <;> rw [loc_goto, upd_same]
    · cases q <;> simp [toGo, gains, takesN, takes, hf] <;> omega
    · cases q with
      | med => rw [List.head?_eq_none_iff] at hf; exact absurd hf hq
      | _ => simp [toGo] <;> omega
  | gInc b =>
    obtain ⟨rfl, rfl⟩ := Prod.mk.inj (Option.some.inj h)
    rw [gl]; simp [toGo] <;> omega
  | gLow =>
    simp only [stepAt] at h
    split at h <;> obtain ⟨rfl, rfl⟩ := Prod.mk.inj (Option.some.inj h) <;> rename_i hf <;> rw [front_eq] at hf <;> rw [gl]
    · cases q <;> simp [toGo, gains, takesN, takes, hf] <;> omega
    · cases q with
      | low => rw [List.head?_eq_none_iff] at hf; exact absurd hf hq
      | _ => simp [toGo] <;> omega
  | wE x =>
    cases x <;> (obtain ⟨rfl, rfl⟩ := Prod.mk.inj (Option.some.inj h)) <;> rw [loc_goto, upd_same] <;> split <;> simp [toGo] <;> omega
  | wLock =>
    simp only [stepAt, State.lock] at h
    split at h <;> cases h
    rw [loc_goto, upd_same]; simp [toGo] <;> omega
  | wRelock =>
    simp only [stepAt, State.lock] at h
    split at h <;> cases h
    rw [loc_goto, upd_same]; simp [toGo] <;> omega
  | wHalt =>
    obtain ⟨rfl, rfl⟩ := Prod.mk.inj (Option.some.inj h)
    rw [loc_goto, upd_same, hh]; simp [toGo] <;> omega
  | wHalt2 =>
    obtain ⟨rfl, rfl⟩ := Prod.mk.inj (Option.some.inj h)
    rw [loc_goto, upd_same, hh]; simp [toGo] <;> omega
  | wEnter =>
    obtain ⟨rfl, rfl⟩ := Prod.mk.inj (Option.some.inj h)
    simp only [unlock]; rw [loc_goto, upd_same]; simp [toGo] <;> omega
  | wSleep =>
    obtain ⟨rfl, rfl⟩ := Prod.mk.inj (Option.some.inj h)
    rw [loc_goto, upd_same]; simp [toGo] <;> omega
  | wUnlock =>
    obtain ⟨rfl, rfl⟩ := Prod.mk.inj (Option.some.inj h)
    simp only [unlock]; rw [loc_goto, upd_same]; simp [toGo] <;> omega
  | wOut =>
    obtain ⟨rfl, rfl⟩ := Prod.mk.inj (Option.some.inj h)
    simp only [unlock]; rw [loc_goto, upd_same]; simp [toGo] <;> omega
  | wChk b =>
    rcases b with _ | _ | i <;> (obtain ⟨rfl, rfl⟩ := Prod.mk.inj (Option.some.inj h)) <;> rw [loc_goto, upd_same]
    · simp [toGo] <;> omega
    · simp [toGo] <;> omega
    · split <;> simp [toGo] <;> omega
  | eTest i bs =>
    simp only [stepAt] at h
    split at h <;> obtain ⟨rfl, rfl⟩ := Prod.mk.inj (Option.some.inj h)
    · rw [ex]; simp [toGo] <;> omega
    · rw [loc_goto, upd_same]; simp [toGo] <;> omega
  | eRun i bs =>
    obtain ⟨rfl, rfl⟩ := Prod.mk.inj (Option.some.inj h)
    rw [loc_goto, upd_same]; simp [toGo] <;> omega
  | eDone i bs =>
    obtain ⟨rfl, rfl⟩ := Prod.mk.inj (Option.some.inj h)
    rw [ex]; simp [toGo] <;> omega
  | exited => cases h
  | idle => cases h
  | crash => cases h
  | _ => simp only [place] at hp; omega

/-- the blocks taken that count for queue `q` -/
def gained (n : Nat) (q : Que) (s : State) (as : List (Act Op)) : Nat :=
  taken n .high s as + if q = .high then 0 else taken n .med s as + taken n .low s as

theorem gained_move {as : List (Act Op)} {h1 : List (Event Op Out)} (q : Que) (e : (sys n).exec s (.move t c) = some (s', h1)) :
    gained n q s (.move t c :: as) = gains q s (s.loc t) + gained n q s' as := by
  simp only [gained, taken_move _ e, gains]
  split <;> omega

theorem gained_call {op : Op} {as : List (Act Op)} {h1 : List (Event Op Out)} (q : Que) (e : (sys n).exec s (.call t op) = some (s', h1)) :
    gained n q s (.call t op :: as) = gained n q s' as := by
  simp only [gained, taken_call _ e]

theorem step_places (hm : stepAt n s t c (s.loc t) = some (s', o)) (hp : ∀ u, place n u (s.loc u)) : ∀ u, place n u (s'.loc u) := by
  intro u
  by_cases e : u = t
  · subst e; exact step_place hm (hp u)
  · obtain ⟨a, l', e5, w⟩ := step_loc hm
    have := hp u
    rw [e5, upd_ne _ _ e]
    rcases w.all u with h | ⟨h1, h2⟩
    · rw [h]; exact this
    · rw [h2]; rw [h1] at this; exact this

theorem call_places {op : Op} (hid : s.loc t = .idle) (hp : ∀ u, place n u (s.loc u)) : ∀ u, place n u ((s.goto t (start n op)).loc u) := by
  intro u
  have hnt : n ≤ t := by have := hp t; rw [hid] at this; exact this
  rw [loc_goto]
  by_cases e : u = t
  · subst e; rw [upd_same]; exact place_start n u op hnt
  · rw [upd_ne _ _ e]; exact hp u

theorem work_run (q : Que) (ht : t < n) (as : List (Act Op)) : ∀ {s s' : State} {h : List (Event Op Out)}, (sys n).run s as = some (s', h) →
    (∀ u, place n u (s.loc u)) → always n (fun s => (s.que q).1 ≠ [] ∧ s.halt = false) s as →
    movesOf t as ≤ toGo q (s.loc t) + 22 * gained n q s as := by
  induction as with
  | nil => intros; exact Nat.zero_le _
  | cons a as ih =>
    intro s s' h e hp hal
    simp only [Sys.run, Option.bind_eq_some_iff, Option.map_eq_some_iff] at e
    obtain ⟨⟨s1, h1⟩, e1, ⟨s2, h2⟩, e2, e3⟩ := e
    cases e3
    obtain ⟨⟨hq, hh⟩, hal⟩ := hal
    rw [e1] at hal
    cases a with
    | call v op =>
      rw [gained_call _ e1]
      simp only [Sys.exec, Option.map_eq_some_iff] at e1
      obtain ⟨s3, e1, e3⟩ := e1
      obtain ⟨rfl, rfl⟩ := Prod.mk.inj e3
      simp only at e2 hal ⊢
      obtain ⟨hid, rfl⟩ := call_eq e1
      have hne : t ≠ v := by
        rintro rfl
        have := hp t; rw [hid] at this
        simp only [place] at this; omega
      have := ih (s := s.goto v (start n op)) e2 (call_places hid hp) hal
      rw [loc_goto, upd_ne _ _ hne] at this
      exact this
    | move v c =>
      rw [gained_move _ e1]
      simp only [Sys.exec, Option.map_eq_some_iff] at e1
      obtain ⟨⟨s3, r⟩, e1, e3⟩ := e1
      obtain ⟨rfl, rfl⟩ := Prod.mk.inj e3
      simp only at e2 hal ⊢
      have hm : stepAt n s v c (s.loc v) = some (s3, r) := e1
      have := ih (s := s3) e2 (step_places hm hp) hal
      simp only [movesOf]
      by_cases e : v = t
      · subst e
        have h3 := step_toGo q hm ht (hp v) hh hq
        simp only [if_true]; omega
      · have h3 : toGo q (s3.loc t) ≤ toGo q (s.loc t) := by
          obtain ⟨a, l', e5, w⟩ := step_loc hm
          rw [e5, upd_ne _ _ (Ne.symm e)]
          rcases w.all t with h | ⟨h1, h2⟩
          · rw [h]; exact Nat.le_refl _
          · rw [h1, h2]; simp [toGo]
        rw [if_neg e]; omega

/-! ### A block keeps its place until it is taken -/

/-- nobody is closing the queue -/
def quiet (s : State) : Prop := (∀ t, closing (s.loc t) = false) ∧ s.halt = false

theorem step_quiet (hm : stepAt n s t c (s.loc t) = some (s', o)) (hq : quiet s) : quiet s' := by
  refine ⟨fun u => ?_, ?_⟩
  · by_cases e : u = t
    · subst e; exact step_closing hm (hq.1 u)
    · obtain ⟨a, l', h1, h2⟩ := step_loc hm
      rw [h1, upd_ne _ _ e]
      rcases h2.all u with h3 | ⟨h3, h4⟩
      · rw [h3]; exact hq.1 u
      · rw [h4]; rfl
  · rcases (step_halt hm).1 with h | ⟨h, _⟩
    · rw [h, hq.2]
    · have := hq.1 t; rw [h] at this; cases this

theorem call_quiet {op : Op} (hid : s.loc t = .idle) (hc : op.closes = false) (hq : quiet s) : quiet (s.goto t (start n op)) := by
  refine ⟨fun u => ?_, hq.2⟩
  rw [loc_goto]
  by_cases e : u = t
  · subst e; rw [upd_same]
    cases op with
    | close => cases hc
    | destroy => cases hc
    | addVector bs p => simp only [start]; split <;> rfl
    | _ => rfl
  · rw [upd_ne _ _ e]; exact hq.1 u

theorem notClosed_cons {e : Event Op Out} {h : List (Event Op Out)} (hn : notClosed (e :: h)) : notClosed h :=
  fun t => ⟨fun h1 => (hn t).1 (by simp [h1]), fun h1 => (hn t).2 (by simp [h1])⟩

theorem notClosed_append {h1 h2 : List (Event Op Out)} (hn : notClosed (h1 ++ h2)) : notClosed h1 ∧ notClosed h2 :=
  ⟨fun t => ⟨fun h1 => (hn t).1 (by simp [h1]), fun h1 => (hn t).2 (by simp [h1])⟩,
   fun t => ⟨fun h1 => (hn t).1 (by simp [h1]), fun h1 => (hn t).2 (by simp [h1])⟩⟩

theorem closes_of {op : Op} {h : List (Event Op Out)} (hn : notClosed (.call t op :: h)) : op.closes = false := by
  cases op with
  | close => exact absurd (by simp) (hn t).1
  | destroy => exact absurd (by simp) (hn t).2
  | _ => rfl

theorem quiet_run (as : List (Act Op)) : ∀ {s s' : State} {h : List (Event Op Out)}, (sys n).run s as = some (s', h) → quiet s →
    notClosed h → quiet s' := by
  induction as with
  | nil => intro s s' h e hq _; cases e; exact hq
  | cons a as ih =>
    intro s s' h e hq hn
    simp only [Sys.run, Option.bind_eq_some_iff, Option.map_eq_some_iff] at e
    obtain ⟨⟨s1, h1⟩, e1, ⟨s2, h2⟩, e2, e3⟩ := e
    cases e3
    cases a with
    | call v op =>
      simp only [Sys.exec, Option.map_eq_some_iff] at e1
      obtain ⟨s3, e1, e3⟩ := e1
      obtain ⟨rfl, rfl⟩ := Prod.mk.inj e3
      obtain ⟨hid, rfl⟩ := call_eq e1
      exact ih e2 (call_quiet hid (closes_of hn) hq) (notClosed_cons hn)
    | move v c =>
      simp only [Sys.exec, Option.map_eq_some_iff] at e1
      obtain ⟨⟨s3, r⟩, e1, e3⟩ := e1
      obtain ⟨rfl, rfl⟩ := Prod.mk.inj e3
      exact ih e2 (step_quiet e1 hq) (notClosed_append hn).2

theorem stay_run (q : Que) (b : Option Blk) (as : List (Act Op)) : ∀ {s s' : State} {h : List (Event Op Out)} (p : Nat),
    (sys n).run s as = some (s', h) → quiet s → notClosed h → (s.que q).1[p]? = some b →
    (traffic n q s as).2[p]? = some b ∨
    (always n (fun s => (s.que q).1 ≠ [] ∧ s.halt = false) s as ∧ taken n q s as ≤ p) := by
  induction as with
  | nil =>
    intro s s' h p e hq hn hb
    refine .inr ⟨⟨?_, hq.2⟩, Nat.zero_le _⟩
    intro h0; rw [h0] at hb; cases hb
  | cons a as ih =>
    intro s s' h p e hq hn hb
    have hne : (s.que q).1 ≠ [] := by intro h0; rw [h0] at hb; cases hb
    simp only [Sys.run, Option.bind_eq_some_iff, Option.map_eq_some_iff] at e
    obtain ⟨⟨s1, h1⟩, e1, ⟨s2, h2⟩, e2, e3⟩ := e
    cases e3
    have e0 := e1
    cases a with
    | call v op =>
      rw [taken_call _ e1]
      simp only [traffic, always, e0]
      simp only [Sys.exec, Option.map_eq_some_iff] at e1
      obtain ⟨s3, e1, e3⟩ := e1
      obtain ⟨rfl, rfl⟩ := Prod.mk.inj e3
      obtain ⟨hid, rfl⟩ := call_eq e1
      have hg : ((s.goto v (start n op)).que q) = s.que q := by cases q <;> rfl
      rcases ih p e2 (call_quiet hid (closes_of hn) hq) (notClosed_cons hn) (by rw [hg]; exact hb) with h | h
      · exact .inl h
      · exact .inr ⟨⟨⟨hne, hq.2⟩, h.1⟩, h.2⟩
    | move v c =>
      rw [taken_move _ e1]
      simp only [traffic, always, e0]
      simp only [Sys.exec, Option.map_eq_some_iff] at e1
      obtain ⟨⟨s3, r⟩, e1, e3⟩ := e1
      obtain ⟨rfl, rfl⟩ := Prod.mk.inj e3
      have hm : stepAt n s v c (s.loc v) = some (s3, r) := e1
      have hs : (if takes q (s.loc v) then (s.que q).1.head?.toList else []) ++ (s3.que q).1 = (s.que q).1 ++ appends q (s.loc v) := by
        rcases step_que hm q with h | h
        · exact h.2
        · have := hq.1 v; rw [h.1] at this; cases this
      have hp : ((s.que q).1 ++ appends q (s.loc v))[p]? = some b := by
        rw [List.getElem?_append_left]
        · exact hb
        · rw [List.getElem?_eq_some_iff] at hb; exact hb.1
      rw [← hs] at hp
      simp only [takesN]
      generalize (if takes q (s.loc v) then (s.que q).1.head?.toList else []) = x at hp hs ⊢
      by_cases hx : p < x.length
      · rw [List.getElem?_append_left hx] at hp
        exact .inl (by rw [List.getElem?_append_left hx]; exact hp)
      · rw [List.getElem?_append_right (by omega)] at hp
        rcases ih (p - x.length) e2 (step_quiet hm hq) (notClosed_append hn).2 hp with h | h
        · exact .inl (by rw [List.getElem?_append_right (by omega)]; exact h)
        · refine .inr ⟨⟨⟨hne, hq.2⟩, h.1⟩, ?_⟩
          have := h.2
          simp only at this
          omega

theorem always_mono {P Q : State → Prop} (h : ∀ s, P s → Q s) : ∀ (as : List (Act Op)) (s : State), always n P s as → always n Q s as
  | [], s, e => h s e
  | a :: as, s, e => by
    refine ⟨h s e.1, ?_⟩
    have e2 := e.2
    cases hx : (sys n).exec s a with
    | none => trivial
    | some p => rw [hx] at e2; exact always_mono h as p.1 e2

theorem always_and {P Q : State → Prop} : ∀ (as : List (Act Op)) (s : State), always n P s as → always n Q s as →
    always n (fun s => P s ∧ Q s) s as
  | [], s, e, f => ⟨e, f⟩
  | a :: as, s, e, f => by
    refine ⟨⟨e.1, f.1⟩, ?_⟩
    have e2 := e.2
    have f2 := f.2
    cases hx : (sys n).exec s a with
    | none => trivial
    | some p => rw [hx] at e2 f2; exact always_and as p.1 e2 f2

end Verif.WorkQueue
