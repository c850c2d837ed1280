import Verif.Conc.Sim

/-
Linearizability when only "happens before" orders the calls, independently of any container.

In the C++ memory model there is no global clock: what orders two calls is that the return of one happens before the
beginning of the other.  The steps of an execution are numbered (1, 2, ...; 0 is the construction of the object);
`hb m n` says that step `m` happens before step `n`.
-/
namespace Verif.Conc
variable {S Q Op Out : Type}

/-- The history of a schedule with the number of each event's step; `n` is the number of the first step. -/
def Sys.stamped (M : Sys S Op Out) : Nat → S → List (Act Op) → List (Nat × Event Op Out)
  | _, _, [] => []
  | n, s, a :: as => match M.exec s a with
    | none => []
    | some (s', ev) => ev.map (n, ·) ++ M.stamped (n + 1) s' as

/-- In the history `h` thread `t` calls `op` in step `n`, and this call returns `o` in step `m`. -/
def Completed (h : List (Nat × Event Op Out)) (n m t : Nat) (op : Op) (o : Out) : Prop :=
  (n, .call t op) ∈ h ∧ (m, .ret t o) ∈ h ∧ n < m ∧ ∀ k o', n < k → k < m → (k, .ret t o') ∉ h

/-- a call of a linearization: the number of the step in which it begins, the call, its result -/
structure Entry (Op Out : Type) where
  call : Nat
  op : Op
  out : Out

/-- the calls, one after the other, lead the specification from `q` to `q'` with these results -/
def Runs (sp : Spec Q Op Out) : Q → List (Entry Op Out) → Q → Prop
  | q, [], q' => q' = q
  | q, x :: xs, q' => ∃ q1, sp.step q x.op = some (q1, x.out) ∧ Runs sp q1 xs q'

/-- `L` is a linearization of `h`: it is a run of the specification; it consists of calls of `h`, each at most once, and
contains every completed call with its result; and if the return of a call happens before the beginning of another one,
it stands before it. -/
structure LinearizedBy (sp : Spec Q Op Out) (h : List (Nat × Event Op Out)) (hb : Nat → Nat → Prop) (L : List (Entry Op Out)) : Prop where
  legal : ∃ q, Runs sp sp.init L q
  calls : ∀ x ∈ L, ∃ t, (x.call, .call t x.op) ∈ h
  once : (L.map (·.call)).Nodup
  complete : ∀ n m t op o, Completed h n m t op o → ⟨n, op, o⟩ ∈ L
  order : L.Pairwise fun x y => ∀ m t, Completed h y.call m t y.op y.out → ¬ hb m x.call

theorem Runs.append {sp : Spec Q Op Out} {q q1 q2 : Q} {xs ys : List (Entry Op Out)} (h1 : Runs sp q xs q1) (h2 : Runs sp q1 ys q2) :
    Runs sp q (xs ++ ys) q2 := by
  induction xs generalizing q with
  | nil => cases h1; exact h2
  | cons x xs ih =>
    obtain ⟨q3, h3, h4⟩ := h1
    exact ⟨q3, h3, ih h4⟩

/-- without the numbers of the steps it is the history of the schedule -/
theorem Sys.stamped_events (M : Sys S Op Out) (as : List (Act Op)) : ∀ (n : Nat) (s s' : S) (h : List (Event Op Out)), M.run s as = some (s', h) →
    (M.stamped n s as).map Prod.snd = h := by
  induction as with
  | nil => intro n s s' h e; cases e; rfl
  | cons a as ih =>
    intro n s s' h e
    simp only [Sys.run, Option.bind_eq_some_iff, Option.map_eq_some_iff] at e
    obtain ⟨⟨s1, h1⟩, e1, ⟨s2, h2⟩, e2, e3⟩ := e
    cases e3
    simp only [Sys.stamped, e1, List.map_append, List.map_map]
    rw [ih _ _ _ _ e2]
    have : h1.map (Prod.snd ∘ (n, ·)) = h1 := by simp [Function.comp_def]
    rw [this]

end Verif.Conc
