import Verif.Conc.Extend
import Verif.Conc.Restrict

/-
Calls that take locks in a fixed order and sometimes wait, in fair infinite executions, independently of any container.
-/
namespace Verif.Conc
variable {S Op Out L : Type} {M : Sys S Op Out}

/-- Fairness to the threads that are not waiting: a thread that, again and again, can take a step and is not waiting takes
steps again and again.  A waiting thread need not wake up by itself. -/
def Infinite.FairTo (E : Infinite M) (waits : S → Nat → Prop) : Prop :=
  ∀ t, (∀ i, ∃ j, i ≤ j ∧ E.can t j ∧ ¬ waits (E.st j) t) → ∀ i, ∃ j, i ≤ j ∧ E.moves t j

/-- without waiting this is fairness -/
theorem Infinite.fairTo_iff (E : Infinite M) : E.FairTo (fun _ _ => False) ↔ E.Fair := by
  simp [Infinite.FairTo, Infinite.Fair]

/-- fairness to all threads includes fairness to those not waiting -/
theorem Infinite.Fair.to {E : Infinite M} (h : E.Fair) (waits : S → Nat → Prop) : E.FairTo waits := by
  intro t hi
  exact h t (fun i => by obtain ⟨j, h1, h2, _⟩ := hi i; exact ⟨j, h1, h2⟩)

/-- the lexicographic order of pairs -/
def Less (a b : Nat × Nat) : Prop := a.1 < b.1 ∨ a.1 = b.1 ∧ a.2 < b.2

theorem Less.induction {P : Nat × Nat → Prop} (h : ∀ a, (∀ b, Less b a → P b) → P a) (a : Nat × Nat) : P a := by
  obtain ⟨m, n⟩ := a
  induction m using Nat.strongRecOn generalizing n with
  | _ m ihm =>
    induction n using Nat.strongRecOn with
    | _ n ihn =>
      refine h _ ?_
      rintro ⟨m', n'⟩ (h1 | ⟨h1, h2⟩)
      · exact ihm m' h1 n'
      · simp only at h1 h2; subst h1; exact ihn n' h2

/-- What a system with locks `0, 1, ...` is like: `loc` is the position of a thread, `want` the lock it has to take next,
`holds` the locks held there, `owner` the owner of a lock.  A thread holding a lock wants only smaller ones.  `rest`: the
position between calls; `sleep`: the positions where a thread waits; `rank` decreases with every step of the thread, except
from `sleep`, and no other thread changes it. -/
structure Guards (M : Sys S Op Out) (L : Type) where
  loc : S → Nat → L
  rest : L
  sleep : L → Prop
  waits : S → Nat → Prop
  want : L → Option Nat
  holds : L → Nat → Prop
  owner : S → Nat → Option Nat
  rank : S → Nat → Nat × Nat
  held : ∀ s k u, M.Reachable s → (holds (loc s u) k ↔ owner s k = some u)
  goes : ∀ s t, M.Reachable s → loc s t ≠ rest → (∀ k, want (loc s t) = some k → owner s k = none) → ∃ c, (M.move t c s).isSome = true
  order : ∀ l k j, want l = some k → holds l j → k < j
  other : ∀ s t c s' o, M.move t c s = some (s', o) → ∀ u, u ≠ t → loc s' u = loc s u
  fresh : ∀ t, loc M.init t = rest
  called : ∀ s t op s', M.call t op s = some s' → loc s t = rest ∧ loc s' t ≠ rest ∧ ∀ u, u ≠ t → loc s' u = loc s u
  lower : ∀ s t c s' o, M.Reachable s → M.move t c s = some (s', o) → ¬ sleep (loc s t) → Less (rank s' t) (rank s t)
  steady : ∀ s a s' h t, M.Reachable s → M.exec s a = some (s', h) → (∀ c, a ≠ .move t c) → loc s t ≠ rest → rank s' t = rank s t
  busy : ∀ l k, holds l k → l ≠ rest ∧ ¬ sleep l
  gains : ∀ s t c s' o k v, M.Reachable s → M.move t c s = some (s', o) → owner s' k = some v → v ≠ t → owner s k = some v
  asleep : ∀ s t, M.Reachable s → waits s t → sleep (loc s t)
  falls : ∀ s a s' h t, M.exec s a = some (s', h) → waits s' t → waits s t ∨ ∃ c, a = .move t c
  ends : ∀ s t c s' o, M.move t c s = some (s', o) → loc s' t = rest → ∃ r, o = some r

namespace Guards
variable (G : Guards M L) {E : Infinite M} {t i : Nat}

theorem keeps (hm : ¬ E.moves t i) (hr : G.loc (E.st i) t ≠ G.rest) : G.loc (E.st (i + 1)) t = G.loc (E.st i) t := by
  have h := E.step i
  cases ha : E.act i with
  | call u op =>
    rw [ha] at h
    simp only [Sys.exec, Option.map_eq_some_iff] at h
    obtain ⟨s3, e1, e3⟩ := h
    obtain ⟨h1, h2⟩ := Prod.mk.inj e3
    rw [← h1]
    obtain ⟨h3, _, h4⟩ := G.called _ _ _ _ e1
    exact h4 t (by rintro rfl; exact hr h3)
  | move u c =>
    rw [ha] at h
    simp only [Sys.exec, Option.map_eq_some_iff] at h
    obtain ⟨⟨s3, r⟩, e1, e3⟩ := h
    obtain ⟨h1, h2⟩ := Prod.mk.inj e3
    rw [← h1]
    exact G.other _ _ _ _ _ e1 t (by rintro rfl; exact hm ⟨c, ha⟩)

theorem keeps_until {j : Nat} (hij : i ≤ j) (hm : ∀ k, i ≤ k → k < j → ¬ E.moves t k) (hr : G.loc (E.st i) t ≠ G.rest) :
    G.loc (E.st j) t = G.loc (E.st i) t := by
  induction j with
  | zero => cases Nat.le_zero.1 hij; rfl
  | succ j ih =>
    by_cases h : i = j + 1
    · subst h; rfl
    · have h1 := ih (by omega) fun k h1 h2 => hm k h1 (by omega)
      rw [G.keeps (hm j (by omega) (by omega)) (by rw [h1]; exact hr), h1]

theorem rank_until {j : Nat} (hij : i ≤ j) (hm : ∀ k, i ≤ k → k < j → ¬ E.moves t k) (hr : G.loc (E.st i) t ≠ G.rest) :
    G.rank (E.st j) t = G.rank (E.st i) t := by
  induction j with
  | zero => cases Nat.le_zero.1 hij; rfl
  | succ j ih =>
    by_cases h : i = j + 1
    · subst h; rfl
    · have hm' : ∀ k, i ≤ k → k < j → ¬ E.moves t k := fun k h1 h2 => hm k h1 (by omega)
      refine Eq.trans (G.steady _ _ _ _ t (E.reachable j) (E.step j) (fun c h => hm j (by omega) (by omega) ⟨c, h⟩) ?_) (ih (by omega) hm')
      rw [G.keeps_until (by omega) hm' hr]; exact hr

theorem awake_until {j : Nat} (hij : i ≤ j) (hm : ∀ k, i ≤ k → k < j → ¬ E.moves t k) (hw : ¬ G.waits (E.st i) t) :
    ¬ G.waits (E.st j) t := by
  induction j with
  | zero => cases Nat.le_zero.1 hij; exact hw
  | succ j ih =>
    by_cases h : i = j + 1
    · subst h; exact hw
    · intro h2
      rcases G.falls _ _ _ _ t (E.step j) h2 with h3 | ⟨c, h3⟩
      · exact ih (by omega) (fun k h1 h2 => hm k h1 (by omega)) h3
      · exact hm j (by omega) (by omega) ⟨c, h3⟩

/-- A thread that is in a call and not waiting takes its next step, if the lock it wants becomes free again and again. -/
theorem advance (hf : E.FairTo G.waits) (hr : G.loc (E.st i) t ≠ G.rest) (hw : ¬ G.waits (E.st i) t)
    (hk : ∀ k, G.want (G.loc (E.st i) t) = some k → ∀ j, ∃ j', j ≤ j' ∧ G.owner (E.st j') k = none) :
    ∃ j c o, i ≤ j ∧ G.loc (E.st j) t = G.loc (E.st i) t ∧ M.move t c (E.st j) = some (E.st (j + 1), o) ∧ E.out j = retEvents t o ∧
      G.rank (E.st j) t = G.rank (E.st i) t ∧ ∀ k, i ≤ k → k < j → ¬ E.moves t k := by
  have : ∃ j, i ≤ j ∧ E.moves t j := by
    apply Classical.byContradiction
    intro hn
    have hn : ∀ j, i ≤ j → ¬ E.moves t j := fun j h1 h2 => hn ⟨j, h1, h2⟩
    have hl : ∀ j, i ≤ j → G.loc (E.st j) t = G.loc (E.st i) t := fun j hj => G.keeps_until hj (fun k h _ => hn k h) hr
    have hb : ∀ j, i ≤ j → ¬ G.waits (E.st j) t := fun j hj => G.awake_until hj (fun k h _ => hn k h) hw
    obtain ⟨j, h1, h2⟩ := hf t (fun j0 => by
      cases hk1 : G.want (G.loc (E.st i) t) with
      | none =>
        refine ⟨max i j0, by omega, ?_, hb _ (by omega)⟩
        refine G.goes _ _ (E.reachable _) (by rw [hl _ (by omega)]; exact hr) ?_
        intro k h; rw [hl _ (by omega), hk1] at h; cases h
      | some k =>
        obtain ⟨j, h1, h2⟩ := hk k hk1 (max i j0)
        refine ⟨j, by omega, ?_, hb _ (by omega)⟩
        refine G.goes _ _ (E.reachable _) (by rw [hl _ (by omega)]; exact hr) ?_
        intro k' h; rw [hl _ (by omega), hk1] at h; cases h; exact h2) i
    exact hn j h1 h2
  obtain ⟨j, h1, ⟨c, h2⟩, h3⟩ := Infinite.least this
  have h := E.step j
  rw [h2] at h
  simp only [Sys.exec, Option.map_eq_some_iff] at h
  obtain ⟨⟨s3, r⟩, e1, e3⟩ := h
  obtain ⟨h4, h5⟩ := Prod.mk.inj e3
  simp only at h4
  refine ⟨j, c, r, h1, G.keeps_until h1 h3 hr, by rw [← h4]; exact e1, ?_, G.rank_until h1 h3 hr, h3⟩
  rw [← h5]; cases r <;> rfl

/-- Every lock is free again and again. -/
theorem free (hf : E.FairTo G.waits) (k : Nat) : ∀ i, ∃ j, i ≤ j ∧ G.owner (E.st j) k = none := by
  induction k using Nat.strongRecOn with
  | _ k ihk =>
    have main : ∀ r i u, G.rank (E.st i) u = r → G.owner (E.st i) k = some u → ∃ j, i ≤ j ∧ G.owner (E.st j) k = none := by
      intro r
      induction r using Less.induction with
      | _ r ih =>
        intro i u hr ho
        have hh := (G.held _ _ _ (E.reachable i)).2 ho
        obtain ⟨hb1, hb2⟩ := G.busy _ _ hh
        obtain ⟨j, c, o, h1, h2, h3, h4, h5, _⟩ := G.advance hf (i := i) hb1 (fun h => hb2 (G.asleep _ _ (E.reachable i) h))
          (fun k' hk => ihk k' (G.order _ _ _ hk hh))
        cases ho' : G.owner (E.st (j + 1)) k with
        | none => exact ⟨j + 1, by omega, ho'⟩
        | some v =>
          by_cases hv : v = u
          · subst hv
            have hl := G.lower _ _ _ _ _ (E.reachable j) h3 (by rw [h2]; exact hb2)
            obtain ⟨j', h6, h7⟩ := ih _ (by rw [← hr, ← h5]; exact hl) (j + 1) v rfl ho'
            exact ⟨j', by omega, h7⟩
          · have hv' := G.gains _ _ _ _ _ _ _ (E.reachable j) h3 ho' hv
            rw [(G.held _ _ _ (E.reachable j)).1 (h2 ▸ hh)] at hv'
            exact absurd (Option.some.inj hv').symm hv
    intro i
    cases ho : G.owner (E.st i) k with
    | none => exact ⟨i, by omega, ho⟩
    | some u => exact main _ i u rfl ho

/-- A thread that is in a call and not waiting takes its next step. -/
theorem next (hf : E.FairTo G.waits) (hr : G.loc (E.st i) t ≠ G.rest) (hw : ¬ G.waits (E.st i) t) :
    ∃ j c o, i ≤ j ∧ G.loc (E.st j) t = G.loc (E.st i) t ∧ M.move t c (E.st j) = some (E.st (j + 1), o) ∧ E.out j = retEvents t o ∧
      G.rank (E.st j) t = G.rank (E.st i) t ∧ ∀ k, i ≤ k → k < j → ¬ E.moves t k :=
  G.advance hf hr hw (fun k _ => G.free hf k)

/-- A call returns or comes to a position where it waits. -/
theorem returns_or (hf : E.FairTo G.waits) (hr : G.loc (E.st i) t ≠ G.rest) :
    ∃ j, i ≤ j ∧ ((∃ o, E.out j = [.ret t o]) ∨ G.sleep (G.loc (E.st j) t)) := by
  generalize hn : G.rank (E.st i) t = r
  induction r using Less.induction generalizing i with
  | _ r ih =>
    by_cases hs : G.sleep (G.loc (E.st i) t)
    · exact ⟨i, by omega, .inr hs⟩
    · obtain ⟨j, c, o, h1, h2, h3, h4, hd, _⟩ := G.next hf hr (fun h => hs (G.asleep _ _ (E.reachable i) h))
      have hl := G.lower _ _ _ _ _ (E.reachable j) h3 (by rw [h2]; exact hs)
      by_cases he : G.loc (E.st (j + 1)) t = G.rest
      · obtain ⟨x, rfl⟩ := G.ends _ _ _ _ _ h3 he
        exact ⟨j, h1, .inl ⟨x, h4⟩⟩
      · obtain ⟨j', h5, h6⟩ := ih _ (by rw [← hn, ← hd]; exact hl) he rfl
        exact ⟨j', by omega, h6⟩

/-- A call returns if it does not come to wait: `P` holds at all times and excludes waiting. -/
theorem returns_along (hf : E.FairTo G.waits) (P : Nat → Prop) (hP : ∀ j, i ≤ j → P j → ¬ G.sleep (G.loc (E.st j) t))
    (hk : ∀ j, i ≤ j → P j → G.loc (E.st j) t ≠ G.rest → ¬ E.moves t j → P (j + 1))
    (hm : ∀ j c o, i ≤ j → P j → M.move t c (E.st j) = some (E.st (j + 1), o) → P (j + 1) ∨ G.loc (E.st (j + 1)) t = G.rest)
    (hr : G.loc (E.st i) t ≠ G.rest) (hi : P i) : ∃ j, i ≤ j ∧ ∃ o, E.out j = [.ret t o] := by
  generalize hn : G.rank (E.st i) t = r
  induction r using Less.induction generalizing i with
  | _ r ih =>
    have hs := hP i (Nat.le_refl _) hi
    obtain ⟨j, c, o, h1, h2, h3, h4, hd, hu⟩ := G.next hf hr (fun h => hs (G.asleep _ _ (E.reachable i) h))
    have hPj : ∀ d, i + d ≤ j → P (i + d) := by
      intro d
      induction d with
      | zero => intro _; exact hi
      | succ d ihd =>
        intro hd
        refine hk (i + d) (by omega) (ihd (by omega)) ?_ (hu _ (by omega) (by omega))
        rw [G.keeps_until (by omega) (fun k h1 h2 => hu k h1 (by omega)) hr]; exact hr
    have hj := hPj (j - i) (by omega)
    rw [show i + (j - i) = j by omega] at hj
    have hl := G.lower _ _ _ _ _ (E.reachable j) h3 (by rw [h2]; exact hs)
    by_cases he : G.loc (E.st (j + 1)) t = G.rest
    · obtain ⟨x, rfl⟩ := G.ends _ _ _ _ _ h3 he
      exact ⟨j, h1, x, h4⟩
    · rcases hm _ _ _ h1 hj h3 with h6 | h6
      · obtain ⟨j', h5, h6⟩ := ih _ (by rw [← hn, ← hd]; exact hl) (fun k hk => hP k (by omega)) (fun k h => hk k (by omega))
          (fun k c o h => hm k c o (by omega)) he h6 rfl
        exact ⟨j', by omega, h6⟩
      · exact absurd h6 he

/-- A call that does not wait returns: `P` holds of its positions. -/
theorem returns (hf : E.FairTo G.waits) (P : L → Prop) (hP : ∀ l, P l → ¬ G.sleep l)
    (hm : ∀ s t c s' o, M.Reachable s → M.move t c s = some (s', o) → P (G.loc s t) → P (G.loc s' t) ∨ G.loc s' t = G.rest)
    (hr : G.loc (E.st i) t ≠ G.rest) (hi : P (G.loc (E.st i) t)) : ∃ j, i ≤ j ∧ ∃ o, E.out j = [.ret t o] :=
  G.returns_along hf (fun j => P (G.loc (E.st j) t)) (fun _ _ => hP _) (fun j _ h1 h2 h3 => by rw [G.keeps h3 h2]; exact h1)
    (fun j c o _ h1 h2 => hm _ _ _ _ _ (E.reachable j) h2 h1) hr hi

/-- A thread that is in a call and does not wait while `P` holds comes to the end of `P`. -/
theorem until_end (hf : E.FairTo G.waits) (P Q : Nat → Prop) (hP : ∀ j, i ≤ j → P j → ¬ G.sleep (G.loc (E.st j) t) ∧ G.loc (E.st j) t ≠ G.rest)
    (hk : ∀ j, i ≤ j → P j → ¬ E.moves t j → P (j + 1) ∨ Q (j + 1))
    (hm : ∀ j c o, i ≤ j → P j → M.move t c (E.st j) = some (E.st (j + 1), o) → P (j + 1) ∨ Q (j + 1)) (hi : P i) : ∃ j, i ≤ j ∧ Q j := by
  apply Classical.byContradiction
  intro hn
  have hn : ∀ j, i ≤ j → ¬ Q j := fun j h1 h2 => hn ⟨j, h1, h2⟩
  have hall : ∀ d, P (i + d) := by
    intro d
    induction d with
    | zero => exact hi
    | succ d ih =>
      refine Or.resolve_right ?_ (hn (i + d + 1) (by omega))
      by_cases h : E.moves t (i + d)
      · obtain ⟨c, h⟩ := h
        have hs := E.step (i + d)
        rw [h] at hs
        simp only [Sys.exec, Option.map_eq_some_iff] at hs
        obtain ⟨⟨s3, r⟩, e1, e3⟩ := hs
        obtain ⟨h4, h5⟩ := Prod.mk.inj e3
        simp only at h4
        exact hm (i + d) c r (by omega) ih (by rw [← h4]; exact e1)
      · exact hk (i + d) (by omega) ih h
  have main : ∀ r j, i ≤ j → G.rank (E.st j) t = r → False := by
    intro r
    induction r using Less.induction with
    | _ r ih =>
      intro j hj hr
      have hPj : P j := by have := hall (j - i); rwa [show i + (j - i) = j by omega] at this
      obtain ⟨h1, h2⟩ := hP j hj hPj
      obtain ⟨j', c, o, h3, h4, h5, _, h6, _⟩ := G.next hf h2 (fun h => h1 (G.asleep _ _ (E.reachable j) h))
      have hl := G.lower _ _ _ _ _ (E.reachable j') h5 (by rw [h4]; exact h1)
      rw [h6, hr] at hl
      exact ih _ hl (j' + 1) (by omega) rfl
  exact main _ i (Nat.le_refl _) rfl

/-- a call has begun -/
theorem begun {op : Op} (h : E.act i = .call t op) :
    G.loc (E.st (i + 1)) t ≠ G.rest ∧ M.call t op (E.st i) = some (E.st (i + 1)) := by
  have hs := E.step i
  rw [h] at hs
  simp only [Sys.exec, Option.map_eq_some_iff] at hs
  obtain ⟨s1, e1, e2⟩ := hs
  obtain ⟨h1, _⟩ := Prod.mk.inj e2
  rw [← h1]
  exact ⟨(G.called _ _ _ _ e1).2.1, e1⟩

/-- a call that does not return goes on -/
theorem goes_on (hn : ∀ j, i ≤ j → ∀ o, E.out j ≠ [.ret t o]) (hr : G.loc (E.st i) t ≠ G.rest) {j : Nat} (hj : i ≤ j) :
    G.loc (E.st j) t ≠ G.rest := by
  obtain ⟨d, rfl⟩ := Nat.exists_eq_add_of_le hj
  clear hj
  induction d with
  | zero => exact hr
  | succ d ih =>
    by_cases hm : E.moves t (i + d)
    · obtain ⟨c, hm⟩ := hm
      have h := E.step (i + d)
      rw [hm] at h
      simp only [Sys.exec, Option.map_eq_some_iff] at h
      obtain ⟨⟨s3, r⟩, e1, e3⟩ := h
      obtain ⟨h1, h2⟩ := Prod.mk.inj e3
      intro hid
      rw [show i + (d + 1) = i + d + 1 from rfl, ← h1] at hid
      obtain ⟨x, hx⟩ := G.ends _ _ _ _ _ e1 hid
      simp only [hx] at h2
      exact hn (i + d) (by omega) x h2.symm
    · rw [show i + (d + 1) = i + d + 1 from rfl, G.keeps hm ih]
      exact ih

/-- beyond some thread all threads are between calls -/
theorem finitely_many (s : S) (hs : M.Reachable s) : ∃ n, ∀ t, n ≤ t → G.loc s t = G.rest := by
  refine Sys.invariant (fun s => ∃ n, ∀ t, n ≤ t → G.loc s t = G.rest) ⟨0, fun t _ => G.fresh t⟩ ?_ ?_ s hs
  · rintro s t op s' ⟨n, hn⟩ h
    refine ⟨max n (t + 1), fun u hu => ?_⟩
    rw [(G.called _ _ _ _ h).2.2 u (by omega)]
    exact hn u (by omega)
  · rintro s t c s' o ⟨n, hn⟩ h
    refine ⟨max n (t + 1), fun u hu => ?_⟩
    rw [G.other _ _ _ _ _ h u (by omega)]
    exact hn u (by omega)

/-- Every finite execution is the beginning of a fair infinite one, if a thread between calls can begin one. -/
theorem extends_fair {op : Op} (hop : ∀ s t, G.loc s t = G.rest → (M.call t op s).isSome = true) (as : List (Act Op)) {s : S}
    {h : List (Event Op Out)} (e : M.run M.init as = some (s, h)) : ∃ E : Infinite M, E.Fair ∧ E.sched 0 as.length = as ∧ E.st as.length = s ∧
      ∀ i t op', E.act i = .call t op' → .call t op' ∈ as ∨ op' = op := by
  obtain ⟨E, h1, h2, h0⟩ := Infinite.extends (fun a => ∃ t, a = .call t op) (fun s hs => by
    obtain ⟨n, hn⟩ := G.finitely_many s hs
    exact ⟨.call n op, by simpa [Sys.exec] using hop s n (hn n (Nat.le_refl n)), n, rfl⟩) as e
  have h3 : E.sched 0 as.length = as := by
    have : ∀ k i, (E.sched i k).length = k := by
      intro k
      induction k with
      | zero => intro i; rfl
      | succ k ih => intro i; simp [Infinite.sched, ih]
    apply List.ext_getElem (this _ _)
    intro i hi1 hi2
    have key : ∀ k j i, i < k → (E.sched j k)[i]? = some (E.act (j + i)) := by
      intro k
      induction k with
      | zero => intro j i hi; omega
      | succ k ih =>
        intro j i hi
        cases i with
        | zero => rfl
        | succ i => rw [Infinite.sched, List.getElem?_cons_succ, ih _ _ (by omega)]; congr 2; omega
    apply Option.some.inj
    rw [← List.getElem?_eq_getElem, ← List.getElem?_eq_getElem, ← h2 i hi2, key _ _ _ hi2, Nat.zero_add]
  refine ⟨E, h1, h3, ?_, fun i t op' ha => ?_⟩
  · have := E.reached as.length
    rw [h3, e] at this
    simp only [Option.some.injEq, Prod.mk.injEq] at this
    exact this.1.symm
  · by_cases hi : i < as.length
    · left
      have := h2 i hi
      rw [ha] at this
      exact List.mem_of_getElem? this.symm
    · rcases h0 i (by omega) with ⟨u, c, h⟩ | ⟨u, h⟩
      · rw [ha] at h; cases h
      · rw [ha] at h; cases h; exact .inr rfl

end Guards

/-- the calls of an infinite execution -/
theorem Infinite.restricted (E : Infinite M) {p : Op → Bool} (h : ∀ i t op, E.act i = .call t op → p op = true) (i : Nat) :
    (M.restrict p).Reachable (E.st i) := by
  refine Sys.restrict_reachable.2 ⟨E.sched 0 i, E.hist 0 i, E.reached i, ?_⟩
  have key : ∀ k i, ∀ op ∈ calls (E.sched i k), p op = true := by
    intro k
    induction k with
    | zero => intro i op hop; cases hop
    | succ k ih =>
      intro i op hop
      simp only [Infinite.sched] at hop
      cases ha : E.act i with
      | call t op' =>
        rw [ha] at hop
        rcases List.mem_cons.1 hop with rfl | hop
        · exact h i t op ha
        · exact ih _ op hop
      | move t c => rw [ha] at hop; exact ih _ op hop
  exact key i 0

/-- the beginning of an infinite execution -/
theorem Infinite.follows {E : Infinite M} {as : List (Act Op)} (h : E.sched 0 as.length = as) :
    (∀ i a, as[i]? = some a → E.act i = a) ∧ ∀ i s h, i ≤ as.length → M.run M.init (as.take i) = some (s, h) → E.st i = s := by
  have hs : ∀ i, i ≤ as.length → as = E.sched 0 i ++ E.sched i (as.length - i) := by
    intro i hi
    have := E.sched_append i (as.length - i) 0
    rw [Nat.zero_add, show i + (as.length - i) = as.length by omega, h] at this
    exact this
  have hl : ∀ k i, (E.sched i k).length = k := by
    intro k
    induction k with
    | zero => intro i; rfl
    | succ k ih => intro i; simp [Infinite.sched, ih]
  constructor
  · intro i a ha
    have hi : i < as.length := (List.getElem?_eq_some_iff.1 ha).1
    rw [hs i (by omega), List.getElem?_append_right (by rw [hl]; omega), hl, Nat.sub_self] at ha
    obtain ⟨k, hk⟩ : ∃ k, as.length - i = k + 1 := ⟨as.length - i - 1, by omega⟩
    rw [hk] at ha
    simpa [Infinite.sched] using ha
  · intro i s h hi he
    have : as.take i = E.sched 0 i := by
      conv => lhs; rw [hs i hi]
      exact List.take_left' (hl _ _)
    rw [this, E.reached i] at he
    cases he; rfl

end Verif.Conc
