import Verif.Conc.Sim

/-
Calls without effect: a history stays linearizable when they are left out.
-/
namespace Verif.Conc
variable {Q Op Out : Type}

/-- the result of the call of thread `t` in progress, if it returns in `h` -/
def ends (t : Nat) : List (Event Op Out) → Option Out
  | [] => none
  | .call _ _ :: h => ends t h
  | .ret u o :: h => if u = t then some o else ends t h

/-- the history without the calls that returned a result with property `p` -/
def without (p : Out → Bool) : List (Event Op Out) → List (Event Op Out)
  | [] => []
  | .call t op :: h => if (ends t h).any p then without p h else .call t op :: without p h
  | .ret t o :: h => if p o then without p h else .ret t o :: without p h

theorem ends_done {sp : Spec Q Op Out} {t : Nat} {o : Out} (tr : List (TEvent Op Out)) : ∀ {g g' : Ghost Q Op Out},
    TSteps sp g tr g' → g.st t = .done o → ∀ o', ends t (erase tr) = some o' → o' = o := by
  induction tr with
  | nil => intro g g' _ _ o' h; cases h
  | cons e tr ih =>
    rintro g g' ⟨g1, h1, h2⟩ hd o' he
    cases h1 with
    | @call q st u op hid =>
      refine ih h2 ?_ o' he
      have : t ≠ u := by rintro rfl; simp only at hd; rw [hid] at hd; cases hd
      simp only at hd ⊢
      rw [upd_ne _ _ this]; exact hd
    | @lin q st u op q' o2 hid hs =>
      refine ih h2 ?_ o' he
      have : t ≠ u := by rintro rfl; simp only at hd; rw [hid] at hd; cases hd
      simp only at hd ⊢
      rw [upd_ne _ _ this]; exact hd
    | @ret q st u o2 hid =>
      simp only [erase, ends] at he
      split at he
      · rename_i hu
        subst hu
        simp only at hd
        rw [hid] at hd
        cases hd; cases he; rfl
      · rename_i hu
        refine ih h2 ?_ o' he
        simp only at hd ⊢
        rw [upd_ne _ _ (Ne.symm hu)]; exact hd

/-- the threads with and without the calls left out; `b`: the call in progress is left out -/
def Thin (p : Out → Bool) (b : Bool) : Status Op Out → Status Op Out → Prop
  | .idle, x => x = .idle
  | .pending op, x => x = if b then .idle else .pending op
  | .done o, x => if p o then (if b then x = .idle else ∃ op, x = .pending op) else x = .done o

theorem TSteps.without {sp : Spec Q Op Out} {p : Out → Bool}
    (hp : ∀ {q op q' o}, sp.step q op = some (q', o) → p o = true → q' = q) (tr : List (TEvent Op Out)) :
    ∀ {g g' : Ghost Q Op Out} {st : Nat → Status Op Out}, TSteps sp g tr g' →
    (∀ t, Thin p ((ends t (erase tr)).any p) (g.st t) (st t)) →
    ∃ tr' g2, TSteps sp ⟨g.q, st⟩ tr' g2 ∧ erase tr' = Conc.without p (erase tr) := by
  induction tr with
  | nil => intro g g' st h k; exact ⟨[], _, rfl, rfl⟩
  | cons e tr ih =>
    rintro g g' st' ⟨g1, h1, h2⟩ k
    cases h1 with
    | @call q st t op hid =>
      have kt : st' t = .idle := by have := k t; simp only [hid] at this; exact this
      by_cases hb : (ends t (erase tr)).any p = true
      · obtain ⟨tr', g2, h3, h4⟩ := ih (st := st') h2 (fun u => by
          by_cases hu : u = t
          · subst hu; simp only [upd_same, Thin, hb, if_true]; exact kt
          · simp only [upd_ne _ _ hu]; exact k u)
        exact ⟨tr', g2, h3, by simp only [erase, Conc.without, hb, if_true]; exact h4⟩
      · obtain ⟨tr', g2, h3, h4⟩ := ih (st := upd st' t (.pending op)) h2 (fun u => by
          by_cases hu : u = t
          · subst hu; simp only [upd_same, Thin, if_neg hb]
          · simp only [upd_ne _ _ hu]; exact k u)
        refine ⟨.call t op :: tr', g2, ⟨_, TStep.call kt, h3⟩, ?_⟩
        simp only [erase, Conc.without, if_neg hb, h4]
    | @lin q st t op q' o hid hs =>
      have kt : st' t = if (ends t (erase tr)).any p then .idle else .pending op := by
        have := k t; simp only [hid, Thin] at this; exact this
      by_cases ho : p o = true
      · cases hp hs ho
        obtain ⟨tr', g2, h3, h4⟩ := ih (st := st') h2 (fun u => by
          by_cases hu : u = t
          · subst hu
            simp only [upd_same, Thin, ho, if_true]
            split at kt
            · rename_i hb; rw [if_pos hb]; exact kt
            · rename_i hb; rw [if_neg hb]; exact ⟨op, kt⟩
          · simp only [upd_ne _ _ hu]; exact k u)
        exact ⟨tr', g2, h3, h4⟩
      · have hb : ¬ (ends t (erase tr)).any p = true := by
          intro hb
          rw [Option.any_eq_true] at hb
          obtain ⟨o', h5, h6⟩ := hb
          cases ends_done tr h2 (t := t) (o := o) (by simp only [upd_same]) o' h5
          exact ho h6
        rw [if_neg hb] at kt
        obtain ⟨tr', g2, h3, h4⟩ := ih (st := upd st' t (.done o)) h2 (fun u => by
          by_cases hu : u = t
          · subst hu; simp only [upd_same, Thin, if_neg ho]
          · simp only [upd_ne _ _ hu]; exact k u)
        exact ⟨.lin t op o :: tr', g2, ⟨_, TStep.lin kt hs, h3⟩, h4⟩
    | @ret q st t o hid =>
      have kt := k t
      simp only [hid, Thin, erase, ends, if_true, Option.any_some] at kt
      by_cases ho : p o = true
      · simp only [ho, if_true] at kt
        obtain ⟨tr', g2, h3, h4⟩ := ih (st := st') h2 (fun u => by
          by_cases hu : u = t
          · subst hu; simp only [upd_same, Thin]; exact kt
          · have := k u; simp only [erase, ends, if_neg (Ne.symm hu)] at this; simp only [upd_ne _ _ hu]; exact this)
        exact ⟨tr', g2, h3, by simp only [erase, Conc.without, ho, if_true]; exact h4⟩
      · rw [if_neg ho] at kt
        obtain ⟨tr', g2, h3, h4⟩ := ih (st := upd st' t .idle) h2 (fun u => by
          by_cases hu : u = t
          · subst hu; simp only [upd_same, Thin]
          · have := k u; simp only [erase, ends, if_neg (Ne.symm hu)] at this; simp only [upd_ne _ _ hu]; exact this)
        refine ⟨.ret t o :: tr', g2, ⟨_, TStep.ret kt, h3⟩, ?_⟩
        simp only [erase, Conc.without, if_neg ho, h4]

/-- If calls with results of a certain kind have no effect, a linearizable history without them is linearizable. -/
theorem Linearizable.without {sp : Spec Q Op Out} {p : Out → Bool} {h : List (Event Op Out)}
    (hp : ∀ {q op q' o}, sp.step q op = some (q', o) → p o = true → q' = q) (hl : Linearizable sp h) :
    Linearizable sp (Conc.without p h) := by
  obtain ⟨tr, g, h1, rfl⟩ := hl
  obtain ⟨tr', g2, h3, h4⟩ := TSteps.without hp tr (st := fun _ => .idle) h1 (fun _ => rfl)
  exact ⟨tr', g2, h3, h4⟩

/-- the specification when only the calls that `P` admits are made -/
def Spec.only (sp : Spec Q Op Out) (P : Op → Bool) : Spec Q Op Out := ⟨sp.init, fun q op => if P op then sp.step q op else none⟩

/-- the same when only the calls made are known to have no effect when they give such a result -/
theorem Linearizable.withoutOf {sp : Spec Q Op Out} {p : Out → Bool} {h : List (Event Op Out)} (P : Op → Bool)
    (hp : ∀ {q op q' o}, P op = true → sp.step q op = some (q', o) → p o = true → q' = q)
    (hc : ∀ t op, .call t op ∈ h → P op = true) (hl : Linearizable sp h) : Linearizable sp (Conc.without p h) := by
  obtain ⟨tr, g, h1, h2⟩ := hl
  have h3 : TSteps (sp.only P) ⟨sp.init, fun _ => .idle⟩ tr ⟨g.q, g.st⟩ := by
    refine TSteps.map (sp := sp) (sp' := sp.only P) id (fun _ => True) (fun op => P op = true) ?_ tr (g := ⟨sp.init, fun _ => .idle⟩)
      trivial (fun _ _ h => by cases h) (fun t op hm => hc t op (h2 ▸ hm)) h1
    intro q op q' o _ ho hs
    exact ⟨trivial, by simp only [Spec.only, ho, if_true, id]; exact hs⟩
  obtain ⟨tr', g', h4, h5⟩ := Linearizable.without (sp := sp.only P) (p := p) (h := h) (fun {q op q' o} hs ho => by
    simp only [Spec.only] at hs
    split at hs
    · rename_i hP; exact hp hP hs ho
    · cases hs) ⟨tr, _, h3, h2⟩
  refine ⟨tr', ⟨g'.q, g'.st⟩, ?_, h5⟩
  refine TSteps.map (sp := sp.only P) (sp' := sp) id (fun _ => True) (fun _ => True) ?_ tr' (g := ⟨sp.init, fun _ => .idle⟩)
    trivial (fun _ _ _ => trivial) (fun _ _ _ => trivial) h4
  intro q op q' o _ _ hs
  refine ⟨trivial, ?_⟩
  simp only [Spec.only] at hs
  split at hs
  · exact hs
  · cases hs

end Verif.Conc
