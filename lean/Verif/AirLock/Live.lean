import Verif.Conc.Progress
import Verif.AirLock.Props

/-
Lemmas for C124: AirLock in fair infinite executions.
-/
namespace Verif.AirLock
open Verif.Conc State

section
variable {α : Type} {s s' : State α} {t c i : Nat}

/-- positions at which a thread takes the lock -/
def want : Loc α → Option Nat
  | .tLock _ | .lLock _ | .lRelock _ | .uLock _ => some 0
  | _ => none

/-- the lock is held -/
def held (l : Loc α) (k : Nat) : Prop := k = 0 ∧ holds l = true

/-- the owner of the lock -/
def owner (s : State α) : Nat → Option Nat
  | 0 => s.owner
  | _ => none

/-- positions where a thread waits -/
def isSleep : Loc α → Prop
  | .lSleep _ => True
  | _ => False

/-- decreases with every step, but from a wait -/
def rank : Loc α → Nat
  | .idle | .garbage => 0
  | .ret _ | .lSleep _ => 1
  | .xUn | .tUn _ | .lUn | .uUn _ | .iRead => 2
  | .tFlag _ | .lFlag _ | .uNotify _ => 3
  | .tData _ | .lData _ | .lFirst _ | .uFlag _ => 4
  | .tTest _ | .lEnter _ | .uData _ => 5
  | .tLock _ | .lLoop _ | .uTest _ => 6
  | .tRead _ | .lTest _ | .lRelock _ | .uLock _ => 7
  | .lLock _ | .uRead _ => 8

theorem step_lower {l : Loc α} {o : Option (Out α)} (h : s.stepAt t c l = some (s', o)) (hl : ¬ isSleep l) : rank (s'.loc t) < rank l := by
  cases l <;> (try (rename_i v; cases v)) <;> simp only [State.stepAt, Option.map_eq_some_iff, reduceCtorEq] at h <;>
    first
    | exact absurd trivial hl
    | (cases h; simp only [State.goto, State.unlock, upd_same]; simp [rank]; done)
    | (cases h; simp only [State.goto, upd_same]; split <;> simp [rank]; done)
    | (obtain ⟨s1, h, e⟩ := h; cases e; obtain ⟨h1, rfl⟩ := lock_some h; simp only [upd_same]; simp [rank]; done)

theorem step_ends {l : Loc α} {o : Option (Out α)} (h : s.stepAt t c l = some (s', o)) (hl : s'.loc t = .idle) : ∃ r, o = some r := by
  cases o with
  | some r => exact ⟨r, rfl⟩
  | none =>
    exfalso
    cases l <;> (try (rename_i v; cases v)) <;> simp only [State.stepAt, Option.map_eq_some_iff, reduceCtorEq] at h <;>
      first
      | (cases h; done)
      | (cases h; simp only [State.goto, State.unlock, upd_same, reduceCtorEq] at hl; done)
      | (cases h; simp only [State.goto, upd_same] at hl; split at hl <;> cases hl; done)
      | (obtain ⟨s1, h, e⟩ := h; cases e; obtain ⟨h1, rfl⟩ := lock_some h; simp only [upd_same] at hl; cases hl; done)

theorem stepAt_loc {l : Loc α} {o : Option (Out α)} (h : s.stepAt t c l = some (s', o)) : s'.loc = upd s.loc t (s'.loc t) := by
  cases l <;> (try (rename_i v; cases v)) <;> simp only [State.stepAt, Option.map_eq_some_iff, reduceCtorEq] at h <;>
    first
    | (cases h; simp only [State.goto, State.unlock, upd_same]; done)
    | (obtain ⟨s1, h, e⟩ := h; cases e; obtain ⟨h1, rfl⟩ := lock_some h; simp only [upd_same]; done)

theorem stepAt_waiting {l : Loc α} {o : Option (Out α)} (h : s.stepAt t c l = some (s', o)) {u : Nat} (hu : u ∈ s'.waiting) : u ∈ s.waiting ∨ u = t := by
  cases l <;> (try (rename_i v; cases v)) <;> simp only [State.stepAt, Option.map_eq_some_iff, reduceCtorEq] at h <;>
    first
    | (cases h; exact .inl hu)
    | (cases h; simpa [State.goto, State.unlock, or_comm] using hu)
    | (cases h; exact .inl (List.mem_of_mem_erase hu))
    | (cases h; exact .inl (List.mem_of_mem_eraseIdx hu))
    | (obtain ⟨s1, h, e⟩ := h; cases e; obtain ⟨h1, rfl⟩ := lock_some h; exact .inl hu)

theorem call_some {op : Op α} (h : (sys α).call t op s = some s') : s.loc t = .idle ∧ s' = s.goto t (start op) := by
  have h := (sys_call h).2
  simp only [State.call] at h
  split at h
  · rename_i hl; cases h; exact ⟨hl, rfl⟩
  · cases h

theorem start_ne (op : Op α) : start op ≠ .idle := by cases op <;> simp [start]

theorem no_garbage (hs : (sys α).Reachable s) (t : Nat) : s.loc t ≠ .garbage := (race_free s hs t t).2.2.2

end

/-- the lock of AirLock -/
def guards (α : Type) : Guards (sys α) (Loc α) where
  loc := State.loc
  rest := .idle
  sleep := isSleep
  waits := asleep
  want := want
  holds := held
  owner := owner
  rank s t := (rank (s.loc t), 0)
  held s k u hs := by
    obtain ⟨g, r⟩ := related_reachable s hs
    match k with
    | 0 => simpa [held, owner] using r.owns u
    | k + 1 => simp [held, owner]
  goes s t hs hr hw := by
    refine ⟨0, ?_⟩
    have := no_garbage hs t
    show (s.stepAt t 0 (s.loc t)).isSome = true
    generalize s.loc t = l at *
    cases hl : want l with
    | some k =>
      have := hw k hl
      cases l <;> simp only [want, reduceCtorEq] at hl <;> cases hl <;> simp only [owner] at this <;> simp [State.stepAt, State.lock, this]
    | none =>
      cases l <;> (try (cases hl; done)) <;> (try (rename_i v; cases v)) <;> first | rfl | exact absurd rfl hr | exact absurd rfl this
  order l k j hw hh := by
    obtain ⟨_, hh⟩ := hh
    cases l <;> simp [want, holds] at hw hh
  other s t c s' o h u hu := by rw [stepAt_loc h, upd_ne _ _ hu]
  fresh _ := rfl
  called s t op s' h := by
    obtain ⟨h1, rfl⟩ := call_some h
    refine ⟨h1, ?_, fun u hu => upd_ne _ _ hu⟩
    simp only [State.goto, upd_same]
    exact start_ne op
  lower s t c s' o _ h hl := .inl (step_lower h hl)
  steady s a s' x t _ h ha hr := by
    cases a with
    | call u op =>
      simp only [Sys.exec, Option.map_eq_some_iff] at h
      obtain ⟨s1, e1, e2⟩ := h
      cases e2
      obtain ⟨h1, rfl⟩ := call_some e1
      have : t ≠ u := by rintro rfl; exact hr h1
      simp only [State.goto, upd_ne _ _ this]
    | move u c =>
      simp only [Sys.exec, Option.map_eq_some_iff] at h
      obtain ⟨⟨s1, o⟩, e1, e2⟩ := h
      cases e2
      have : t ≠ u := by rintro rfl; exact ha c rfl
      show (rank (s1.loc t), 0) = _
      rw [stepAt_loc e1, upd_ne _ _ this]
  busy l k hh := by
    obtain ⟨_, hh⟩ := hh
    constructor
    · rintro rfl; cases hh
    · intro h; cases l <;> first | (cases hh; done) | exact h
  gains s t c s' o k v hs h ho hv := by
    obtain ⟨g, r⟩ := related_reachable s hs
    have st := stepAt_locks r.owns rfl h
    match k with
    | 0 =>
      simp only [owner] at ho ⊢
      rw [st.own] at ho
      split at ho
      · cases ho; exact absurd rfl hv
      · split at ho
        · cases ho
        · exact ho
    | k + 1 => cases ho
  asleep s t hs h := by
    obtain ⟨v, h⟩ := (waits_reachable s hs).asleep t h
    show isSleep (s.loc t)
    rw [h]; trivial
  falls s a s' h t e hw := by
    cases a with
    | call u op =>
      simp only [Sys.exec, Option.map_eq_some_iff] at e
      obtain ⟨s1, e1, e2⟩ := e
      cases e2
      obtain ⟨h1, rfl⟩ := call_some e1
      exact .inl hw
    | move u c =>
      simp only [Sys.exec, Option.map_eq_some_iff] at e
      obtain ⟨⟨s1, o⟩, e1, e2⟩ := e
      cases e2
      rcases stepAt_waiting e1 hw with h | rfl
      · exact .inl h
      · exact .inr ⟨c, rfl⟩
  ends s t c s' o h hl := step_ends h hl

variable {α : Type} {s s' : State α} {t c i : Nat} {E : Infinite (sys α)}

/-- a step of the execution -/
theorem act_cases (E : Infinite (sys α)) (i : Nat) : (∃ t op, E.act i = .call t op ∧ (E.st i).loc t = .idle ∧ E.st (i + 1) = (E.st i).goto t (start op)) ∨
    ∃ t c o, E.act i = .move t c ∧ (E.st i).stepAt t c ((E.st i).loc t) = some (E.st (i + 1), o) ∧ E.out i = retEvents t o := by
  have hx := E.step i
  cases ha : E.act i with
  | call u op =>
    rw [ha] at hx
    simp only [Sys.exec, Option.map_eq_some_iff] at hx
    obtain ⟨s3, e1, e3⟩ := hx
    obtain ⟨h5, h6⟩ := Prod.mk.inj e3
    obtain ⟨h1, h2⟩ := call_some e1
    exact .inl ⟨u, op, rfl, h1, by rw [← h5]; exact h2⟩
  | move u c =>
    rw [ha] at hx
    simp only [Sys.exec, Option.map_eq_some_iff] at hx
    obtain ⟨⟨s3, r⟩, e1, e3⟩ := hx
    obtain ⟨h5, h6⟩ := Prod.mk.inj e3
    exact .inr ⟨u, c, r, rfl, by rw [← h5]; exact e1, h6.symm⟩

/-- positions of calls that do not wait -/
def plain : Loc α → Prop
  | .lLock _ | .lTest _ | .lLoop _ | .lEnter _ | .lSleep _ | .lRelock _ | .lFirst _ | .lData _ | .lFlag _ | .lUn => False
  | _ => True

theorem plain_step {l : Loc α} {o : Option (Out α)} (h : s.stepAt t c l = some (s', o)) (hl : plain l) : plain (s'.loc t) := by
  cases l <;> (try (rename_i v; cases v)) <;> simp only [State.stepAt, Option.map_eq_some_iff, reduceCtorEq] at h <;>
    first
    | (cases hl; done)
    | (cases h; simp only [State.goto, State.unlock, upd_same]; trivial)
    | (cases h; simp only [State.goto, upd_same]; split <;> trivial)
    | (obtain ⟨s1, h, e⟩ := h; cases e; obtain ⟨h1, rfl⟩ := lock_some h; simp only [upd_same]; trivial)

/-- calls that do not wait -/
def Op.waits : Op α → Bool
  | .load _ | .loadX => true
  | _ => false

theorem plain_returns (hf : E.FairTo asleep) {op : Op α} (hw : op.waits = false) (h : E.act i = .call t op) : ∃ j, i < j ∧ ∃ o, E.out j = [.ret t o] := by
  obtain ⟨h1, h2⟩ := (guards α).begun h
  obtain ⟨h3, h4⟩ := call_some h2
  obtain ⟨j, hj, h5⟩ := (guards α).returns (i := i + 1) hf plain (fun l hl hs => by cases l <;> first | (cases hl; done) | (cases hs; done))
    (fun s t c s' o _ e hp => by
      have e : s.stepAt t c (s.loc t) = some (s', o) := e
      left; exact plain_step e hp) h1 (by
      show plain ((E.st (i + 1)).loc t)
      rw [h4]
      simp only [State.goto, upd_same]
      cases op <;> first | trivial | cases hw)
  exact ⟨j, by omega, h5⟩

theorem step_sleeps {l : Loc α} {o : Option (Out α)} {v : Option α} (h : s.stepAt t c l = some (s', o)) (hl : s'.loc t = .lSleep v) : t ∈ s'.waiting := by
  by_cases hx : ∃ w, l = .lEnter w
  · obtain ⟨w, rfl⟩ := hx
    cases h; simp [State.unlock, State.goto]
  cases l <;> (try (rename_i w; cases w)) <;> simp only [State.stepAt, Option.map_eq_some_iff, reduceCtorEq] at h <;>
    first
    | exact absurd ⟨_, rfl⟩ hx
    | (cases h; simp only [State.goto, State.unlock, upd_same, reduceCtorEq] at hl; done)
    | (cases h; simp only [State.goto, upd_same] at hl; split at hl <;> cases hl; done)
    | (obtain ⟨s1, h, e⟩ := h; cases e; obtain ⟨h1, rfl⟩ := lock_some h; simp only [upd_same] at hl; cases hl; done)

theorem load_returns_or_sleeps (hf : E.FairTo asleep) {op : Op α} (h : E.act i = .call t op) :
    ∃ j, i < j ∧ ((∃ o, E.out j = [.ret t o]) ∨ asleep (E.st j) t) := by
  obtain ⟨h1, h2⟩ := (guards α).begun h
  obtain ⟨h3, h4⟩ := call_some h2
  obtain ⟨j, hj, h5 | h5⟩ := (guards α).returns_or (i := i + 1) hf h1
  · exact ⟨j, by omega, .inl h5⟩
  have h5 : isSleep ((E.st j).loc t) := h5
  obtain ⟨m, h6, h7, h8⟩ := Infinite.least (P := fun j => isSleep ((E.st j).loc t)) ⟨j, hj, h5⟩
  have hne : m ≠ i + 1 := by
    rintro rfl
    rw [h4] at h7
    simp only [State.goto, upd_same] at h7
    cases op <;> exact h7
  obtain ⟨n, rfl⟩ : ∃ n, m = n + 1 := ⟨m - 1, by omega⟩
  have hn := h8 n (by omega) (by omega)
  refine ⟨n + 1, by omega, .inr ?_⟩
  obtain ⟨v, hv⟩ : ∃ v, (E.st (n + 1)).loc t = .lSleep v := by
    cases hl : (E.st (n + 1)).loc t <;> rw [hl] at h7 <;> first | exact ⟨_, rfl⟩ | cases h7
  rcases act_cases E n with ⟨u, op', _, e1, e2⟩ | ⟨u, c, o, _, e1, _⟩
  · exfalso
    by_cases e : t = u
    · subst e
      rw [e2] at hv
      simp only [State.goto, upd_same] at hv
      cases op' <;> cases hv
    · rw [e2] at hv
      simp only [State.goto, upd_ne _ _ e] at hv
      exact hn (by rw [hv]; trivial)
  · by_cases e : t = u
    · subst e; exact step_sleeps e1 hv
    · rw [stepAt_loc e1, upd_ne _ _ e] at hv
      exact absurd (by rw [hv]; trivial) hn

/-- positions of try_unload before the slot is emptied -/
def leaving : Loc α → Prop
  | .uRead .moves | .uLock .moves | .uTest .moves | .uData .moves | .uFlag _ => True
  | _ => False

theorem leaving_step (hg : s'.loc t ≠ .garbage) {o : Option (Out α)} (h : (sys α).move t c s = some (s', o)) (hl : leaving (s.loc t))
    (hd : s.loaded = true) : leaving (s'.loc t) ∨ s'.loaded = false := by
  replace h : s.stepAt t c (s.loc t) = some (s', o) := h
  generalize s.loc t = l at *
  cases l <;> (try (rename_i f; cases f)) <;> first | (cases hl; done) | skip
  · cases h; simp only [State.goto, upd_same, hd]; exact .inl trivial
  · simp only [State.stepAt, Option.map_eq_some_iff] at h
    obtain ⟨s1, h, e⟩ := h; cases e; obtain ⟨h1, rfl⟩ := lock_some h
    simp only [upd_same]; exact .inl trivial
  · cases h; simp only [State.goto, upd_same, hd]; exact .inl trivial
  · cases h
    simp only [State.goto, upd_same] at hg ⊢
    cases hx : s.data with
    | none => rw [hx] at hg; exact absurd rfl hg
    | some x => exact .inl trivial
  · cases h; exact .inr rfl

theorem emptied (hf : E.FairTo asleep) (h : E.act i = .call t .tryUnload) : ∃ j, i < j ∧ (E.st j).loaded = false := by
  apply Classical.byContradiction
  intro hn
  have hn : ∀ j, i + 1 ≤ j → (E.st j).loaded = true := by
    intro j hj
    cases e : (E.st j).loaded with
    | true => rfl
    | false => exact absurd ⟨j, by omega, e⟩ hn
  obtain ⟨h1, h2⟩ := (guards α).begun h
  obtain ⟨h3, h4⟩ := call_some h2
  obtain ⟨j, hj, h5⟩ := (guards α).until_end (i := i + 1) (t := t) hf (fun j => leaving ((E.st j).loc t)) (fun j => (E.st j).loaded = false)
    (fun j _ hp => by
      show ¬ isSleep ((E.st j).loc t) ∧ (E.st j).loc t ≠ .idle
      generalize (E.st j).loc t = l at hp
      constructor
      · intro hs; cases l <;> first | (cases hp; done) | (cases hs; done)
      · rintro rfl; exact hp)
    (fun j _ hp hm => .inl (by
      have hid : (E.st j).loc t ≠ .idle := by intro e; rw [e] at hp; exact hp
      rw [show (E.st (j + 1)).loc t = _ from (guards α).keeps hm hid]; exact hp))
    (fun j c o hj hp e => leaving_step (no_garbage (E.reachable _) t) e hp (hn j hj)) (by
      show leaving ((E.st (i + 1)).loc t)
      rw [h4]; simp only [State.goto, upd_same]; trivial)
  rw [hn j hj] at h5; cases h5

/-- positions of a load that has begun to wait -/
def loading : Loc α → Prop
  | .lSleep _ | .lRelock _ | .lLoop _ | .lData _ | .lFlag _ => True
  | _ => False

/-- and is awake -/
def comes : Loc α → Prop
  | .lRelock _ | .lLoop _ | .lData _ | .lFlag _ => True
  | _ => False

theorem comes_step {o : Option (Out α)} (h : (sys α).move t c s = some (s', o)) (hl : loading (s.loc t)) (hfail : failing (s.loc t) = false)
    (hd : s.loaded = false) : comes (s'.loc t) ∨ s'.loaded = true := by
  replace h : s.stepAt t c (s.loc t) = some (s', o) := h
  generalize s.loc t = l at *
  cases l with
  | lSleep v => cases h; simp only [State.goto, upd_same]; exact .inl trivial
  | lRelock v =>
    simp only [State.stepAt, Option.map_eq_some_iff] at h
    obtain ⟨s1, h, e⟩ := h; cases e; obtain ⟨h1, rfl⟩ := lock_some h
    simp only [upd_same]; exact .inl trivial
  | lLoop v => cases h; simp only [State.goto, upd_same, hd]; exact .inl trivial
  | lData v =>
    cases v with
    | none => cases hfail
    | some v => cases h; simp only [State.goto, upd_same]; exact .inl trivial
  | lFlag v => cases h; exact .inr rfl
  | _ => cases hl

/-- while the slot stays empty a load that has begun to wait stays there -/
theorem loading_stays (hc : ∀ i t op, E.act i = .call t op → op.loadSucceeds = true) (he : ∀ j, i ≤ j → (E.st j).loaded = false)
    (hl : loading ((E.st i).loc t)) {j : Nat} (hj : i ≤ j) : loading ((E.st j).loc t) := by
  obtain ⟨d, rfl⟩ := Nat.exists_eq_add_of_le hj
  clear hj
  induction d with
  | zero => exact hl
  | succ d ih =>
    rw [← Nat.add_assoc]
    have hid : (E.st (i + d)).loc t ≠ .idle := by intro e; rw [e] at ih; exact ih
    rcases act_cases E (i + d) with ⟨u, op, _, e1, e2⟩ | ⟨u, c, o, _, e1, _⟩
    · have : t ≠ u := by rintro rfl; exact hid e1
      rw [e2]; simp only [State.goto, upd_ne _ _ this]; exact ih
    · by_cases e : t = u
      · subst e
        rcases comes_step (show (sys α).move t c (E.st (i + d)) = _ from e1) ih (sysLoads_failing _ (E.restricted hc _) t) (he _ (by omega)) with h | h
        · cases hx : (E.st (i + d + 1)).loc t <;> rw [hx] at h <;> first | trivial | cases h
        · rw [he _ (by omega)] at h; cases h
      · rw [stepAt_loc e1, upd_ne _ _ e]; exact ih

/-- an awake load fills the slot -/
theorem awake_fills (hf : E.FairTo asleep) (hc : ∀ i t op, E.act i = .call t op → op.loadSucceeds = true)
    (hl : awakeLoader (E.st i) t) : ∃ j, i ≤ j ∧ (E.st j).loaded = true := by
  apply Classical.byContradiction
  intro hn
  have he : ∀ j, i ≤ j → (E.st j).loaded = false := by
    intro j hj
    cases e : (E.st j).loaded with
    | false => rfl
    | true => exact absurd ⟨j, hj, e⟩ hn
  obtain ⟨h1, h2⟩ := hl
  have h2 : loading ((E.st i).loc t) := h2
  have hid : (E.st i).loc t ≠ .idle := by intro e; rw [e] at h2; exact h2
  obtain ⟨j, c, o, h3, h4, h5, _, _, _⟩ := (guards α).next hf hid h1
  have h6 : loading ((E.st j).loc t) := by rw [show (E.st j).loc t = _ from h4]; exact h2
  have h7 : comes ((E.st (j + 1)).loc t) := by
    rcases comes_step h5 h6 (sysLoads_failing _ (E.restricted hc _) t) (he _ (by omega)) with h | h
    · exact h
    · rw [he _ (by omega)] at h; cases h
  obtain ⟨m, hm, h8⟩ := (guards α).until_end (i := j + 1) (t := t) hf (fun j => comes ((E.st j).loc t)) (fun j => (E.st j).loaded = true)
    (fun j _ hp => by
      show ¬ isSleep ((E.st j).loc t) ∧ (E.st j).loc t ≠ .idle
      generalize (E.st j).loc t = l at hp
      constructor
      · intro hs; cases l <;> first | (cases hp; done) | (cases hs; done)
      · rintro rfl; exact hp)
    (fun j _ hp hm => .inl (by
      have hid : (E.st j).loc t ≠ .idle := by intro e; rw [e] at hp; exact hp
      rw [show (E.st (j + 1)).loc t = _ from (guards α).keeps hm hid]; exact hp))
    (fun k c o hj hp e => comes_step e (by
      show loading ((E.st k).loc t)
      cases hx : (E.st k).loc t <;> rw [hx] at hp <;> first | trivial | cases hp) (sysLoads_failing _ (E.restricted hc _) t) (he k (by omega))) h7
  rw [he m (by omega)] at h8; cases h8

/-- the waiting thread that is notified -/
theorem notify_wakes (hs : (sys α).Reachable s) {x : α} {o : Option (Out α)} (h : s.stepAt t c (.uNotify x) = some (s', o)) (ht : s.loc t = .uNotify x)
    (hw : s.waiting ≠ []) : ∃ u, awakeLoader s' u := by
  have w := waits_reachable s hs
  cases h
  have hlt : c % s.waiting.length < s.waiting.length := Nat.mod_lt _ (List.length_pos_iff.2 hw)
  obtain ⟨v, hv⟩ := w.asleep _ (List.getElem_mem hlt)
  refine ⟨s.waiting[c % s.waiting.length], eraseIdx_nodup w.nodup hlt, ?_⟩
  have hne : s.waiting[c % s.waiting.length] ≠ t := by intro e; rw [e, ht] at hv; cases hv
  simp only [State.goto, upd_ne _ _ hne, hv]

/-- A load that waits beside an empty slot: the slot is filled. -/
theorem waiting_fills (hf : E.FairTo asleep) (hc : ∀ i t op, E.act i = .call t op → op.loadSucceeds = true)
    (hl : loading ((E.st i).loc t)) : ∃ j, i ≤ j ∧ (E.st j).loaded = true := by
  apply Classical.byContradiction
  intro hn
  have he : ∀ j, i ≤ j → (E.st j).loaded = false := by
    intro j hj
    cases e : (E.st j).loaded with
    | false => rfl
    | true => exact absurd ⟨j, hj, e⟩ hn
  have awake : ∀ j u, i ≤ j → ¬ awakeLoader (E.st j) u := by
    intro j u hj h
    obtain ⟨k, h1, h2⟩ := awake_fills hf hc h
    rw [he k (by omega)] at h2; cases h2
  have hw : ∀ j, i ≤ j → asleep (E.st j) t := by
    intro j hj
    apply Classical.byContradiction
    intro h
    exact awake j t hj ⟨h, loading_stays hc he hl hj⟩
  obtain ⟨u, hu | hu⟩ := no_lost_wakeup _ (E.restricted hc i) (he i (Nat.le_refl _)) t (hw i (Nat.le_refl _))
  · exact awake i u (Nat.le_refl _) hu
  · obtain ⟨x, hx⟩ : ∃ x, (E.st i).loc u = .uNotify x := by
      cases h : (E.st i).loc u <;> simp only [willNotify, h] at hu <;> first | exact ⟨_, rfl⟩ | cases hu
    obtain ⟨j, c, o, h3, h4, h5, _, _, _⟩ := (guards α).next (i := i) (t := u) hf (by
      show (E.st i).loc u ≠ .idle
      rw [hx]; nofun) (fun h => by
      obtain ⟨v, h⟩ := (waits_reachable _ (E.reachable i)).asleep u h
      rw [hx] at h; cases h)
    have h4 : (E.st j).loc u = (E.st i).loc u := h4
    have h5 : (E.st j).stepAt u c ((E.st j).loc u) = some (E.st (j + 1), o) := h5
    rw [h4, hx] at h5
    obtain ⟨w, hw'⟩ := notify_wakes (E.reachable j) h5 (by rw [h4, hx]) (by
      intro h; have := hw j h3; simp [asleep, h] at this)
    exact awake _ w (by omega) hw'

/-- A load returns, or the slot is filled again and again. -/
theorem returns_or_filled (hf : E.FairTo asleep) (hc : ∀ i t op, E.act i = .call t op → op.loadSucceeds = true)
    (hu : ∀ n, ∃ k u, n ≤ k ∧ E.act k = .call u .tryUnload) {op : Op α} (h : E.act i = .call t op) :
    (∃ j, i < j ∧ ∃ o, E.out j = [.ret t o]) ∨ ∀ n, ∃ j, n ≤ j ∧ (E.st j).loaded = false ∧ (E.st (j + 1)).loaded = true := by
  apply Classical.byContradiction
  intro hn
  obtain ⟨h1, h2⟩ := not_or.1 hn
  obtain ⟨n, h2⟩ := Classical.not_forall.1 h2
  have h2 : ∀ j, n ≤ j → (E.st j).loaded = false → (E.st (j + 1)).loaded = false := by
    intro j hj he
    cases e : (E.st (j + 1)).loaded with
    | false => rfl
    | true => exact absurd ⟨j, hj, he, e⟩ h2
  obtain ⟨k, u, h3, h4⟩ := hu (max (i + 1) n)
  obtain ⟨m, h5, h6⟩ := emptied hf h4
  have he : ∀ d, (E.st (m + d)).loaded = false := by
    intro d
    induction d with
    | zero => exact h6
    | succ d ih => exact h2 (m + d) (by omega) ih
  obtain ⟨hid, _⟩ := (guards α).begun h
  have hid := (guards α).goes_on (j := m) (fun k hk o e => h1 ⟨k, by omega, o, e⟩) hid (by omega)
  obtain ⟨j, hj, h7 | h7⟩ := (guards α).returns_or (i := m) hf hid
  · exact h1 ⟨j, by omega, h7⟩
  · have h7 : isSleep ((E.st j).loc t) := h7
    obtain ⟨k, hk, h8⟩ := waiting_fills hf hc (i := j) (t := t) (by cases hx : (E.st j).loc t <;> rw [hx] at h7 <;> first | trivial | cases h7)
    have := he (k - m)
    rw [show m + (k - m) = k by omega, h8] at this
    cases this

/-- positions from which the slot may be filled -/
def filler : Loc α → Bool
  | .tRead _ | .tLock _ | .tTest _ | .tData _ | .tFlag _ | .lLock _ | .lTest _ | .lLoop _ | .lEnter _ | .lSleep _ | .lRelock _ | .lFirst _ | .lData _ | .lFlag _ => true
  | _ => false

theorem filler_step {l : Loc α} {o : Option (Out α)} (h : s.stepAt t c l = some (s', o)) :
    (filler (s'.loc t) = true → filler l = true) ∧ (s.loaded = false → s'.loaded = true → filler l = true ∧ filler (s'.loc t) = false) := by
  cases l <;> (try (rename_i v; cases v)) <;> simp only [State.stepAt, Option.map_eq_some_iff, reduceCtorEq] at h <;>
    first
    | (cases h; simp only [State.goto, State.unlock, upd_same]; simp [filler]; done)
    | (cases h; simp only [State.goto, upd_same]; constructor <;> (try split) <;> simp_all [filler]; done)
    | (obtain ⟨s1, h, e⟩ := h; cases e; obtain ⟨h1, rfl⟩ := lock_some h; simp only [upd_same]; simp_all [filler]; done)

/-- the calls that fill the slot -/
def Op.fills : Op α → Bool
  | .tryLoad _ | .tryLoadX | .load _ | .loadX => true
  | _ => false

/-- Without further loads the slot is not filled again and again. -/
theorem fills_end {n : Nat} (hl : ∀ i t op, n ≤ i → E.act i = .call t op → op.fills = false) :
    ∃ m, ∀ j, m ≤ j → (E.st j).loaded = false → (E.st (j + 1)).loaded = false := by
  obtain ⟨b, hb⟩ := (guards α).finitely_many (E.st n) (E.reachable n)
  have hb : ∀ t, b ≤ t → (E.st n).loc t = .idle := hb
  have one : ∀ j t, n ≤ j → filler ((E.st (j + 1)).loc t) = true → filler ((E.st j).loc t) = true := by
    intro j t hj h
    rcases act_cases E j with ⟨u, op, e0, e1, e2⟩ | ⟨u, c, o, _, e1, _⟩
    · by_cases e : t = u
      · subst e
        rw [e2] at h
        simp only [State.goto, upd_same] at h
        have := hl j t op hj e0
        cases op <;> first | (cases this; done) | (cases h; done)
      · rw [e2] at h; simp only [State.goto, upd_ne _ _ e] at h; exact h
    · by_cases e : t = u
      · subst e; exact (filler_step e1).1 h
      · rw [stepAt_loc e1, upd_ne _ _ e] at h; exact h
  have far : ∀ d t, b ≤ t → filler ((E.st (n + d)).loc t) = false := by
    intro d t ht
    induction d with
    | zero => rw [show n + 0 = n from rfl, hb t ht]; rfl
    | succ d ih =>
      cases h : filler ((E.st (n + (d + 1))).loc t) with
      | false => rfl
      | true => rw [one (n + d) t (by omega) h] at ih; cases ih
  let f : Nat → Nat := fun j => (List.range b).countP (fun t => filler ((E.st j).loc t))
  have mono : ∀ j, n ≤ j → f (j + 1) ≤ f j := fun j hj => List.countP_mono_left (fun t _ h => one j t hj h)
  have drop : ∀ j, n ≤ j → (E.st j).loaded = false → (E.st (j + 1)).loaded = true → f (j + 1) < f j := by
    intro j hj h1 h2
    rcases act_cases E j with ⟨u, op, e0, e1, e2⟩ | ⟨u, c, o, _, e1, _⟩
    · rw [e2] at h2; simp only [State.goto] at h2; rw [h1] at h2; cases h2
    · obtain ⟨h3, h4⟩ := (filler_step e1).2 h1 h2
      have hu : u < b := by
        apply Classical.byContradiction
        intro hu
        have := far (j - n) u (by omega)
        rw [show n + (j - n) = j by omega, h3] at this; cases this
      exact countP_lt (fun t _ h => one j t hj h) ⟨u, List.mem_range.2 hu, h3, h4⟩
  apply Classical.byContradiction
  intro hn
  have again : ∀ m, ∃ j, m ≤ j ∧ (E.st j).loaded = false ∧ (E.st (j + 1)).loaded = true := by
    intro m
    apply Classical.byContradiction
    intro h
    refine hn ⟨m, fun j hj h1 => ?_⟩
    cases e : (E.st (j + 1)).loaded with
    | false => rfl
    | true => exact absurd ⟨j, hj, h1, e⟩ h
  have mono' : ∀ d j, n ≤ j → f (j + d) ≤ f j := by
    intro d
    induction d with
    | zero => intro j _; exact Nat.le_refl _
    | succ d ih => intro j hj; exact Nat.le_trans (mono (j + d) (by omega)) (ih j hj)
  have main : ∀ k j, n ≤ j → f j = k → False := by
    intro k
    induction k using Nat.strongRecOn with
    | _ k ih =>
      intro j hj hk
      obtain ⟨m, h1, h2, h3⟩ := again j
      have h4 := drop m (by omega) h2 h3
      have h5 := mono' (m - j) j hj
      rw [show j + (m - j) = m by omega] at h5
      exact ih (f (m + 1)) (by omega) (m + 1) (by omega) rfl
  exact main _ n (Nat.le_refl _) rfl

end Verif.AirLock
