import Verif.Conc.Sim

/-
Lemmas on locks: `h l` says whether a thread at position `l` holds the lock, `own` is the lock's owner.
-/
namespace Verif.Conc
variable {L : Type} {h : L → Bool} {own own' : Option Nat} {loc : Nat → L} {t : Nat} {l l' : L}

/-- the lock is held by the thread whose position says so -/
def Owns (h : L → Bool) (own : Option Nat) (loc : Nat → L) : Prop := ∀ t, h (loc t) = true ↔ own = some t

theorem Owns.unique (k : Owns h own loc) {u : Nat} (h1 : h (loc t) = true) (h2 : h (loc u) = true) : t = u := by
  have := ((k t).1 h1).symm.trans ((k u).1 h2)
  exact Option.some.inj this

/-- a step of thread `t` from `l` to `l'` takes and gives back the lock as the positions say -/
theorem Owns.step (k : Owns h own loc) (hl : loc t = l) (e : own' = if h l' then some t else if h l then none else own)
    (f : h l' = true → h l = true ∨ own = none) : Owns h own' (upd loc t l') := by
  intro u
  have kt := k t
  rw [hl] at kt
  by_cases hu : u = t
  · subst hu
    rw [upd_same, e]
    cases h1 : h l' with
    | true => simp
    | false =>
      cases h2 : h l with
      | true => simp
      | false =>
        simp only [Bool.false_eq_true, if_false, false_iff]
        intro h3; rw [← kt, h2] at h3; cases h3
  · rw [upd_ne _ _ hu, k u, e]
    cases h1 : h l' with
    | true =>
      simp only [if_true, Option.some.injEq]
      constructor
      · intro h3
        rcases f h1 with h4 | h4
        · rw [kt.1 h4] at h3; cases h3; exact absurd rfl hu
        · rw [h4] at h3; cases h3
      · intro h3; exact absurd h3.symm hu
    | false =>
      cases h2 : h l with
      | true =>
        simp only [Bool.false_eq_true, if_false, if_true]
        constructor
        · intro h3; rw [kt.1 h2] at h3; cases h3; exact absurd rfl hu
        · intro h3; cases h3
      | false => simp

/-- the position of the owner after the step -/
theorem Owns.step_holder (k : Owns h own loc) (hl : loc t = l)
    (e : own' = if h l' then some t else if h l then none else own) :
    own'.map (upd loc t l') = if h l' then some l' else if h l then none else own.map loc := by
  rw [e]
  cases h1 : h l' with
  | true => simp [upd_same]
  | false =>
    cases h2 : h l with
    | true => simp
    | false =>
      simp only [Bool.false_eq_true, if_false]
      cases h3 : own with
      | none => rfl
      | some u =>
        have : u ≠ t := by
          rintro rfl
          have := (k u).2 h3
          rw [hl, h2] at this; cases this
        simp [upd_ne _ _ this]

theorem Owns.holder (k : Owns h own loc) (hl : loc t = l) (hh : h l = true) : own.map loc = some l := by
  have := (k t).1 (by rw [hl]; exact hh)
  rw [this, Option.map_some, hl]

end Verif.Conc
