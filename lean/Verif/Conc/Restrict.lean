import Verif.Conc.Sim

/-
A system in which only some of the calls are made.
-/
namespace Verif.Conc
variable {S Op Out : Type}

/-- the same system when the threads make only the calls that `p` admits -/
def Sys.restrict (M : Sys S Op Out) (p : Op → Bool) : Sys S Op Out where
  init := M.init
  call t op s := if p op then M.call t op s else none
  move := M.move

theorem Sys.restrict_run (M : Sys S Op Out) (p : Op → Bool) (as : List (Act Op)) : ∀ (s : S) (r : S × List (Event Op Out)),
    (M.restrict p).run s as = some r ↔ M.run s as = some r ∧ ∀ op ∈ calls as, p op = true := by
  induction as with
  | nil => intro s r; simp [Sys.run, calls]
  | cons a as ih =>
    intro s r
    cases a with
    | call t op =>
      simp only [Sys.run, Sys.exec, Sys.restrict, calls, List.mem_cons, forall_eq_or_imp]
      by_cases hp : p op = true
      · simp only [hp, if_true, true_and]
        cases hc : M.call t op s with
        | none => simp
        | some s1 =>
          simp only [Option.map_some, Option.bind_some, Option.map_eq_some_iff]
          constructor
          · rintro ⟨r', h, e⟩
            have := (ih s1 r').1 h
            exact ⟨⟨r', this.1, e⟩, this.2⟩
          · rintro ⟨⟨r', h, e⟩, h2⟩
            exact ⟨r', (ih s1 r').2 ⟨h, h2⟩, e⟩
      · simp [hp]
    | move t c =>
      simp only [Sys.run, Sys.exec, Sys.restrict, calls]
      cases hc : M.move t c s with
      | none => simp
      | some r1 =>
        simp only [Option.map_some, Option.bind_some, Option.map_eq_some_iff]
        constructor
        · rintro ⟨r', h, e⟩
          have := (ih r1.1 r').1 h
          exact ⟨⟨r', this.1, e⟩, this.2⟩
        · rintro ⟨⟨r', h, e⟩, h2⟩
          exact ⟨r', (ih r1.1 r').2 ⟨h, h2⟩, e⟩

/-- the states of the executions with only such calls -/
theorem Sys.restrict_reachable {M : Sys S Op Out} {p : Op → Bool} {s : S} :
    (M.restrict p).Reachable s ↔ ∃ as h, M.run M.init as = some (s, h) ∧ ∀ op ∈ calls as, p op = true := by
  constructor
  · rintro ⟨as, h, e⟩
    have := (M.restrict_run p as _ _).1 e
    exact ⟨as, h, this.1, this.2⟩
  · rintro ⟨as, h, e⟩
    exact ⟨as, h, (M.restrict_run p as _ _).2 e⟩

theorem Sys.restrict_sub {M : Sys S Op Out} {p : Op → Bool} {s : S} (h : (M.restrict p).Reachable s) : M.Reachable s := by
  obtain ⟨as, ev, e, _⟩ := Sys.restrict_reachable.1 h
  exact ⟨as, ev, e⟩

end Verif.Conc
