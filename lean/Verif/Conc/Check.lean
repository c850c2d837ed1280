import Verif.Conc.Sim

/-
A decision procedure that refutes linearizability of a concrete history: if no assignment of moments works, the history
is not linearizable.
-/
namespace Verif.Conc
variable {Q Op Out : Type}

/-- let thread `t` take effect -/
def linStep (sp : Spec Q Op Out) (t : Nat) (g : Ghost Q Op Out) : Option (Ghost Q Op Out) :=
  match g.st t with
  | .pending op => (sp.step g.q op).map fun r => ⟨r.1, upd g.st t (.done r.2)⟩
  | _ => none

/-- at most `n` threads of `ts` take effect -/
def explore (sp : Spec Q Op Out) (ts : List Nat) : Nat → Ghost Q Op Out → List (Ghost Q Op Out)
  | 0, g => [g]
  | n + 1, g => g :: ts.flatMap fun t => match linStep sp t g with | some g' => explore sp ts n g' | none => []

/-- a visible event -/
def evStep [DecidableEq Op] [DecidableEq Out] (g : Ghost Q Op Out) : Event Op Out → Option (Ghost Q Op Out)
  | .call t op => if g.st t = .idle then some ⟨g.q, upd g.st t (.pending op)⟩ else none
  | .ret t o => if g.st t = .done o then some ⟨g.q, upd g.st t .idle⟩ else none

/-- can the history be linearized? -/
def check [DecidableEq Op] [DecidableEq Out] (sp : Spec Q Op Out) (ts : List Nat) : Ghost Q Op Out → List (Event Op Out) → Bool
  | _, [] => true
  | g, e :: h => (explore sp ts ts.length g).any fun g' => match evStep g' e with | some g2 => check sp ts g2 h | none => false

/-- the thread of an event -/
def Event.thread : Event Op Out → Nat
  | .call t _ => t
  | .ret t _ => t

/-- has the thread begun a call that has not taken effect? -/
def Status.isPending : Status Op Out → Bool
  | .pending _ => true
  | _ => false

/-- number of pending threads -/
def pend (ts : List Nat) (st : Nat → Status Op Out) : Nat := (ts.filter fun t => (st t).isPending).length

theorem pend_le (ts : List Nat) (st : Nat → Status Op Out) : pend ts st ≤ ts.length := List.length_filter_le _ _

theorem pend_cons (u : Nat) (ts : List Nat) (st : Nat → Status Op Out) :
    pend (u :: ts) st = (if (st u).isPending then 1 else 0) + pend ts st := by
  simp only [pend, List.filter_cons]
  split <;> simp <;> omega

theorem pend_lt {ts : List Nat} {st : Nat → Status Op Out} {t : Nat} {op : Op} {o : Out} (ht : t ∈ ts)
    (h : st t = .pending op) : pend ts (upd st t (.done o)) < pend ts st := by
  have h1 : (st t).isPending = true := by rw [h]; rfl
  have h2 : (upd st t (.done o) t).isPending = false := by rw [upd_same]; rfl
  have mono : ∀ ts : List Nat, pend ts (upd st t (.done o)) ≤ pend ts st := by
    intro ts
    induction ts with
    | nil => exact Nat.le_refl _
    | cons u ts ih =>
      rw [pend_cons, pend_cons]
      by_cases hu : u = t
      · subst hu; simp only [h1, h2]; simp; omega
      · rw [upd_ne _ _ hu]; omega
  induction ts with
  | nil => cases ht
  | cons u ts ih =>
    rw [pend_cons, pend_cons]
    by_cases hu : u = t
    · subst hu
      have := mono ts
      simp only [h1, h2]; simp; omega
    · rw [upd_ne _ _ hu]
      have := ih (by rcases List.mem_cons.1 ht with h | h; exact absurd h.symm hu; exact h)
      omega

variable [DecidableEq Op] [DecidableEq Out] {sp : Spec Q Op Out} {ts : List Nat}

theorem check_step (tr : List (TEvent Op Out)) : ∀ (n : Nat) (g g' : Ghost Q Op Out) (e : Event Op Out) (h : List (Event Op Out)),
    pend ts g.st ≤ n → (∀ t, t ∉ ts → g.st t = .idle) → TSteps sp g tr g' → erase tr = e :: h →
    ∃ g1 ∈ explore sp ts n g, ∃ g2, evStep g1 e = some g2 ∧ (∀ t, t ∉ ts → g1.st t = .idle) ∧
      ∃ tr' , tr'.length < tr.length ∧ TSteps sp g2 tr' g' ∧ erase tr' = h := by
  induction tr with
  | nil => intro n g g' e h _ _ _ he; cases he
  | cons a tr ih =>
    intro n g g' e h hn hi ⟨ga, h1, h2⟩ he
    have hself : g ∈ explore sp ts n g := by cases n <;> simp [explore]
    cases h1 with
    | call hid =>
      rename_i q st t op
      simp only [erase, List.cons.injEq] at he
      obtain ⟨rfl, rfl⟩ := he
      exact ⟨_, hself, _, by simp [evStep, hid], hi, tr, by simp, h2, rfl⟩
    | ret hd =>
      rename_i q st t o
      simp only [erase, List.cons.injEq] at he
      obtain ⟨rfl, rfl⟩ := he
      exact ⟨_, hself, _, by simp [evStep, hd], hi, tr, by simp, h2, rfl⟩
    | lin hp hs =>
      rename_i q st t op q' o
      simp only [erase] at he
      have ht : t ∈ ts := by
        by_cases ht : t ∈ ts
        · exact ht
        · have := hi t ht; simp only at this; rw [hp] at this; cases this
      have hlt := pend_lt (o := o) ht hp
      cases n with
      | zero => simp only at hn; omega
      | succ n =>
        obtain ⟨g1, m1, g2, e1, i1, tr', l1, s1, er1⟩ := ih n ⟨q', upd st t (.done o)⟩ g' e h (by simp only at hn ⊢; omega)
          (fun u hu => by
            have hne : u ≠ t := fun e => hu (e ▸ ht)
            simp only [upd_ne _ _ hne]; exact hi u hu) h2 he
        refine ⟨g1, ?_, g2, e1, i1, tr', by simp; omega, s1, er1⟩
        simp only [explore, List.mem_cons, List.mem_flatMap]
        exact .inr ⟨t, ht, by simp only [linStep, hp, hs, Option.map_some]; exact m1⟩

theorem check_complete (h : List (Event Op Out)) : ∀ (g g' : Ghost Q Op Out) (tr : List (TEvent Op Out)),
    (∀ e ∈ h, e.thread ∈ ts) → (∀ t, t ∉ ts → g.st t = .idle) → TSteps sp g tr g' → erase tr = h → check sp ts g h = true := by
  induction h with
  | nil => intros; rfl
  | cons e h ih =>
    intro g g' tr hts hi hs he
    obtain ⟨g1, m1, g2, e1, i1, tr', _, s1, er1⟩ := check_step tr _ g g' e h (pend_le ts g.st) hi hs he
    have hmem := hts e (by simp)
    simp only [check, List.any_eq_true]
    refine ⟨g1, m1, ?_⟩
    rw [e1]
    refine ih g2 g' tr' (fun e h' => hts e (List.mem_cons_of_mem _ h')) ?_ s1 er1
    intro u hu
    cases e with
    | call t op =>
      simp only [evStep] at e1
      split at e1 <;> cases e1
      have hne : u ≠ t := fun e => hu (e ▸ hmem)
      simp only [upd_ne _ _ hne]; exact i1 u hu
    | ret t o =>
      simp only [evStep] at e1
      split at e1 <;> cases e1
      have hne : u ≠ t := fun e => hu (e ▸ hmem)
      simp only [upd_ne _ _ hne]; exact i1 u hu

/-- If the check fails, the history is not linearizable. -/
theorem not_linearizable {h : List (Event Op Out)} (hts : (h.all fun e => ts.contains e.thread) = true)
    (hc : check sp ts sp.ghost h = false) : ¬ Linearizable sp h := by
  rintro ⟨tr, g, h1, h2⟩
  have := check_complete h sp.ghost g tr (fun e he => by
    have := List.all_eq_true.1 hts e he; simpa using this) (fun _ _ => rfl) h1 h2
  rw [hc] at this; cases this

end Verif.Conc
