import Verif.Conc.Trace

/-
Running calls one after the other, each to its end: used to replay the single threaded unit tests of the repository.
-/
namespace Verif.Conc
variable {S Op Out : Type}

deriving instance DecidableEq for Event

/-- thread `t` moves until its call returns, at most `n` times -/
def Sys.finish (M : Sys S Op Out) (t : Nat) : Nat → S → Option (S × Out)
  | 0, _ => none
  | n + 1, s => (M.move t 0 s).bind fun r => match r.2 with
    | some o => some (r.1, o)
    | none => M.finish t n r.1

/-- the calls, made by the threads named, one after the other: the state reached and the results -/
def Sys.inTurn (M : Sys S Op Out) (n : Nat) : S → List (Nat × Op) → Option (S × List Out)
  | s, [] => some (s, [])
  | s, (t, op) :: ops => (M.call t op s).bind fun s1 => (M.finish t n s1).bind fun r =>
      (M.inTurn n r.1 ops).map fun r' => (r'.1, r.2 :: r'.2)

/-- the results of calls of thread 0 on a new object -/
def Sys.results (M : Sys S Op Out) (ops : List Op) : Option (List Out) := (M.inTurn 100 M.init (ops.map (0, ·))).map (·.2)

/-- the history of such calls -/
def turns : List (Nat × Op) → List Out → List (Event Op Out)
  | (t, op) :: ops, o :: os => .call t op :: .ret t o :: turns ops os
  | _, _ => []

theorem Sys.finish_run {M : Sys S Op Out} {t : Nat} (n : Nat) : ∀ {s : S} {r : S × Out}, M.finish t n s = some r →
    ∃ as, M.run s as = some (r.1, [.ret t r.2]) := by
  induction n with
  | zero => intro s r h; cases h
  | succ n ih =>
    intro s r h
    simp only [Sys.finish, Option.bind_eq_some_iff] at h
    obtain ⟨⟨s1, o⟩, h1, h2⟩ := h
    cases o with
    | some o => cases h2; exact ⟨[.move t 0], by simp [Sys.run, Sys.exec, h1]⟩
    | none =>
      obtain ⟨as, h3⟩ := ih h2
      exact ⟨.move t 0 :: as, by simp [Sys.run, Sys.exec, h1, h3]⟩

/-- Such calls are an execution of the system. -/
theorem Sys.inTurn_run {M : Sys S Op Out} {n : Nat} (ops : List (Nat × Op)) : ∀ {s : S} {r : S × List Out},
    M.inTurn n s ops = some r → r.2.length = ops.length ∧ ∃ as, M.run s as = some (r.1, turns ops r.2) := by
  induction ops with
  | nil => intro s r h; cases h; exact ⟨rfl, [], rfl⟩
  | cons a ops ih =>
    obtain ⟨t, op⟩ := a
    intro s r h
    simp only [Sys.inTurn, Option.bind_eq_some_iff, Option.map_eq_some_iff] at h
    obtain ⟨s1, h1, ⟨s2, o⟩, h2, ⟨s3, os⟩, h3, rfl⟩ := h
    obtain ⟨as2, e2⟩ := Sys.finish_run n h2
    obtain ⟨hl, as3, e3⟩ := ih h3
    refine ⟨by simpa using hl, .call t op :: (as2 ++ as3), ?_⟩
    have := Sys.run_append as2 e2 e3
    simp [Sys.run, Sys.exec, h1, this, turns]

end Verif.Conc
