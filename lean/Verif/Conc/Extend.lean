import Verif.Conc.Infinite

/-
Fair infinite executions exist, independently of any container: every finite execution is the beginning of one, if in every
reachable state something can happen.
-/
namespace Verif.Conc
variable {S Op Out : Type} {M : Sys S Op Out}

theorem countP_lt {α : Type} {p q : α → Bool} : ∀ {l : List α}, (∀ x ∈ l, p x = true → q x = true) → (∃ x ∈ l, q x = true ∧ p x = false) →
    l.countP p < l.countP q := by
  intro l
  induction l with
  | nil => rintro _ ⟨x, h, _⟩; cases h
  | cons a l ih =>
    intro h1 h2
    have hle : l.countP p ≤ l.countP q := List.countP_mono_left fun x hx => h1 x (List.mem_cons_of_mem _ hx)
    rw [List.countP_cons, List.countP_cons]
    by_cases h3 : q a = true ∧ p a = false
    · simp [h3.1, h3.2]; omega
    · have h4 : ∃ x ∈ l, q x = true ∧ p x = false := by
        obtain ⟨x, hx, h⟩ := h2
        rcases List.mem_cons.1 hx with rfl | hx
        · exact absurd h h3
        · exact ⟨x, hx, h⟩
      have := ih (fun x hx => h1 x (List.mem_cons_of_mem _ hx)) h4
      have ha := h1 a List.mem_cons_self
      cases hp : p a with
      | true => rw [ha hp]; simp; omega
      | false =>
        cases hq : q a with
        | true => exact absurd ⟨hq, hp⟩ h3
        | false => simp; omega

theorem Sys.run_before {M : Sys S Op Out} (as : List (Act Op)) : ∀ {s s' : S} {h : List (Event Op Out)} {bs : List (Act Op)},
    M.run s (as ++ bs) = some (s', h) → ∃ s1 h1 h2, M.run s as = some (s1, h1) ∧ M.run s1 bs = some (s', h2) ∧ h = h1 ++ h2 := by
  induction as with
  | nil => intro s s' h bs e; exact ⟨s, [], h, rfl, e, rfl⟩
  | cons a as ih =>
    intro s s' h bs e
    simp only [List.cons_append, Sys.run, Option.bind_eq_some_iff, Option.map_eq_some_iff] at e
    obtain ⟨⟨s1, h1⟩, e1, ⟨s2, h2⟩, e2, e3⟩ := e
    cases e3
    obtain ⟨s3, h3, h4, e4, e5, rfl⟩ := ih e2
    exact ⟨s3, h1 ++ h3, h4, by simp only [Sys.run, e1, Option.bind_some, e4, Option.map_some], e5, by simp⟩

namespace Fairly

/-- the key of a thread: the larger, the longer it can wait -/
def key (last : Nat → Nat) (t : Nat) : Nat := max t (last t)

theorem exists_least (f : Nat → Nat) {P : Nat → Prop} (h : ∃ t, P t) : ∃ t, P t ∧ ∀ u, P u → f t ≤ f u := by
  obtain ⟨t, ht⟩ := h
  generalize hk : f t = k
  induction k using Nat.strongRecOn generalizing t with
  | _ k ih =>
    by_cases h : ∃ u, P u ∧ f u < k
    · obtain ⟨u, h1, h2⟩ := h
      exact ih _ h2 u h1 rfl
    · refine ⟨t, ht, fun u hu => ?_⟩
      rw [hk]
      exact Nat.le_of_not_lt fun h1 => h ⟨u, hu, h1⟩

/-- the next action: of the threads that can take a step one with the least key, or anything else that can happen -/
theorem exists_pick (M : Sys S Op Out) (ok : Act Op → Prop) (last : Nat → Nat) (s : S) (h : ∃ a, (M.exec s a).isSome = true ∧ ok a) :
    ∃ a, (M.exec s a).isSome = true ∧ ((∃ t c, a = .move t c) ∨ ok a) ∧ ∀ t, (∃ c, (M.move t c s).isSome = true) → ∃ u c, a = .move u c ∧ key last u ≤ key last t := by
  by_cases hm : ∃ t c, (M.move t c s).isSome = true
  · obtain ⟨t, ⟨c, hc⟩, ht⟩ := exists_least (key last) hm
    exact ⟨.move t c, by simpa [Sys.exec] using hc, .inl ⟨t, c, rfl⟩, fun u hu => ⟨t, c, rfl, ht u hu⟩⟩
  · obtain ⟨a, ha, hok⟩ := h
    exact ⟨a, ha, .inr hok, fun t ht => absurd ⟨t, ht⟩ hm⟩

open Classical in
/-- the action at time `i`: that of `as` if there is one -/
noncomputable def pick (M : Sys S Op Out) (ok : Act Op → Prop) (as : List (Act Op)) (i : Nat) (s : S) (last : Nat → Nat) : Act Op :=
  match as[i]? with
  | some a => a
  | none => if h : ∃ a, (M.exec s a).isSome = true ∧ ok a then (exists_pick M ok last s h).choose else .move 0 0

/-- when the threads have taken their last step -/
def after (i : Nat) (last : Nat → Nat) : Act Op → Nat → Nat
  | .call _ _ => last
  | .move t _ => upd last t (i + 1)

/-- state and times of the last steps at time `i` -/
noncomputable def chain (M : Sys S Op Out) (ok : Act Op → Prop) (as : List (Act Op)) : Nat → S × (Nat → Nat)
  | 0 => (M.init, fun _ => 0)
  | i + 1 =>
    let p := chain M ok as i
    (((M.exec p.1 (pick M ok as i p.1 p.2)).map Prod.fst).getD p.1, after i p.2 (pick M ok as i p.1 p.2))

end Fairly

open Fairly in
/-- Every finite execution is the beginning of a fair infinite one; the calls that follow can be chosen as `ok` if such calls are
always possible. -/
theorem Infinite.extends (ok : Act Op → Prop) (hgo : ∀ s, M.Reachable s → ∃ a, (M.exec s a).isSome = true ∧ ok a) (as : List (Act Op)) {s : S}
    {h : List (Event Op Out)} (e : M.run M.init as = some (s, h)) : ∃ E : Infinite M, E.Fair ∧ (∀ i, i < as.length → some (E.act i) = as[i]?) ∧
      ∀ i, as.length ≤ i → (∃ t c, E.act i = .move t c) ∨ ok (E.act i) := by
  let st : Nat → S := fun i => (chain M ok as i).1
  let last : Nat → Nat → Nat := fun i => (chain M ok as i).2
  let act : Nat → Act Op := fun i => pick M ok as i (st i) (last i)
  have hst : ∀ i, st (i + 1) = ((M.exec (st i) (act i)).map Prod.fst).getD (st i) := fun i => rfl
  have hlast : ∀ i, last (i + 1) = after i (last i) (act i) := fun i => rfl
  have hacts : ∀ i a, as[i]? = some a → act i = a := by
    intro i a h; simp only [act, pick, h]
  have inv : ∀ i, (∃ h, M.run M.init (as.take i) = some (st i, h) ∨ as.length < i ∧ M.Reachable (st i)) ∧ (M.exec (st i) (act i)).isSome = true := by
    have some_of : ∀ i, (∃ h, M.run M.init (as.take i) = some (st i, h) ∨ as.length < i ∧ M.Reachable (st i)) → (M.exec (st i) (act i)).isSome = true := by
      intro i hi
      cases ha : as[i]? with
      | some a =>
        rw [hacts i a ha]
        have hlt : i < as.length := (List.getElem?_eq_some_iff.1 ha).1
        obtain ⟨h1, hi | hi⟩ := hi
        · have e' := e
          rw [← List.take_append_drop i as, List.drop_eq_getElem_cons hlt] at e'
          obtain ⟨s1, h1', h2, e1, e2, _⟩ := Sys.run_before _ e'
          rw [hi] at e1; cases e1
          have : as[i] = a := (List.getElem?_eq_some_iff.1 ha).2
          rw [this] at e2
          simp only [Sys.run, Option.bind_eq_some_iff] at e2
          obtain ⟨x, e3, _⟩ := e2
          rw [e3]; rfl
        · omega
      | none =>
        have hr : M.Reachable (st i) := by
          obtain ⟨h1, hi | hi⟩ := hi
          · exact ⟨_, _, hi⟩
          · exact hi.2
        have hp := hgo _ hr
        simp only [act, pick, ha, dif_pos hp]
        exact (exists_pick M ok (last i) (st i) hp).choose_spec.1
    intro i
    induction i with
    | zero => exact ⟨⟨[], .inl (by simp [Sys.run]; rfl)⟩, some_of 0 ⟨[], .inl (by simp [Sys.run]; rfl)⟩⟩
    | succ i ih =>
      have hn : ∃ h, M.run M.init (as.take (i + 1)) = some (st (i + 1), h) ∨ as.length < i + 1 ∧ M.Reachable (st (i + 1)) := by
        obtain ⟨⟨h1, hi⟩, hx⟩ := ih
        obtain ⟨⟨s', x⟩, hx⟩ := Option.isSome_iff_exists.1 hx
        have hs' : st (i + 1) = s' := by rw [hst, hx]; rfl
        have one : M.run (st i) [act i] = some (s', x) := by
          simp only [Sys.run, hx, Option.bind_some, Option.map_some, List.append_nil]
        by_cases hlt : i < as.length
        · rcases hi with hi | hi
          · refine ⟨h1 ++ x, .inl ?_⟩
            rw [List.take_succ_eq_append_getElem hlt, hs', ← hacts i _ (List.getElem?_eq_getElem hlt)]
            exact Sys.run_append _ hi one
          · omega
        · have hr : M.Reachable (st i) := by
            rcases hi with hi | hi
            · exact ⟨_, _, hi⟩
            · exact hi.2
          obtain ⟨as0, h0, e0⟩ := hr
          exact ⟨[], .inr ⟨by omega, _, _, by rw [hs']; exact Sys.run_append _ e0 one⟩⟩
      exact ⟨hn, some_of _ hn⟩
  have hstep : ∀ i, ∃ x, M.exec (st i) (act i) = some (st (i + 1), x) := by
    intro i
    obtain ⟨⟨s', x⟩, hx⟩ := Option.isSome_iff_exists.1 (inv i).2
    exact ⟨x, by rw [hst, hx]; rfl⟩
  let E : Infinite M := ⟨act, st, fun i => (hstep i).choose, rfl, fun i => (hstep i).choose_spec⟩
  refine ⟨E, ?_, fun i hi => by rw [List.getElem?_eq_getElem hi]; exact congrArg some (hacts i _ (List.getElem?_eq_getElem hi)),
    fun i hi => ?_⟩
  rotate_left
  · have hnone : as[i]? = none := List.getElem?_eq_none hi
    have hp := hgo _ (E.reachable i)
    have hact : act i = (exists_pick M ok (last i) (st i) hp).choose := by simp only [act, pick, hnone]; exact dif_pos hp
    show (∃ t c, act i = .move t c) ∨ ok (act i)
    rw [hact]
    exact (exists_pick M ok (last i) (st i) hp).choose_spec.2.1
  -- fairness
  intro t hc i0
  apply Classical.byContradiction
  intro hn
  have hn : ∀ j, i0 ≤ j → ¬ E.moves t j := fun j h1 h2 => hn ⟨j, h1, h2⟩
  generalize hN : max i0 as.length = N
  have hkey : ∀ j, N ≤ j → key (last j) t = key (last N) t := by
    intro j hj
    induction j with
    | zero => cases Nat.le_zero.1 hj; rfl
    | succ j ih =>
      by_cases h : N = j + 1
      · subst h; rfl
      · rw [← ih (by omega)]
        simp only [key, hlast]
        cases ha : act j with
        | call u op => rfl
        | move u c =>
          have : t ≠ u := by rintro rfl; exact hn j (by omega) ⟨c, ha⟩
          simp only [after, upd_ne _ _ this]
  generalize hK : key (last N) t = K at hkey
  have dead : ∀ j u, K ≤ j → K < key (last j) u → K < key (last (j + 1)) u := by
    intro j u hj hu
    simp only [key, hlast] at hu ⊢
    cases ha : act j with
    | call v op => exact hu
    | move v c =>
      simp only [after]
      by_cases h : u = v
      · subst h; rw [upd_same]; omega
      · rw [upd_ne _ _ h]; exact hu
  have kill : ∀ j, N ≤ j → K ≤ j → E.can t j → ∃ u, u ≤ K ∧ key (last j) u ≤ K ∧ K < key (last (j + 1)) u := by
    intro j hj hjK hcan
    have hnone : as[j]? = none := List.getElem?_eq_none (by omega)
    have hr : M.Reachable (st j) := E.reachable j
    have hp := hgo _ hr
    have hact : act j = (exists_pick M ok (last j) (st j) hp).choose := by simp only [act, pick, hnone, dif_pos hp]
    obtain ⟨u, c, h1, h2⟩ := (exists_pick M ok (last j) (st j) hp).choose_spec.2.2 t hcan
    rw [← hact] at h1
    rw [hkey j hj] at h2
    refine ⟨u, ?_, h2, ?_⟩
    · simp only [key] at h2; omega
    · simp only [key, hlast, h1, after, upd_same]; omega
  have cnt : ∀ m j, N ≤ j → K ≤ j → (List.range (K + 1)).countP (fun u => decide (key (last j) u ≤ K)) ≤ m → False := by
    intro m
    induction m using Nat.strongRecOn with
    | _ m ih =>
      intro j hj hjK hm
      obtain ⟨j', h1, h2⟩ := hc j
      obtain ⟨u, h3, h4, h5⟩ := kill j' (by omega) (by omega) h2
      have mono : ∀ d, (List.range (K + 1)).countP (fun u => decide (key (last (j + d)) u ≤ K)) ≤
          (List.range (K + 1)).countP (fun u => decide (key (last j) u ≤ K)) := by
        intro d
        induction d with
        | zero => exact Nat.le_refl _
        | succ d ihd =>
          refine Nat.le_trans (List.countP_mono_left fun x _ hx => ?_) ihd
          simp only [decide_eq_true_eq] at hx ⊢
          apply Nat.le_of_not_lt
          intro h
          exact absurd (dead _ _ (by omega) h) (by rw [Nat.add_assoc]; omega)
      have h6 := mono (j' - j)
      rw [show j + (j' - j) = j' by omega] at h6
      have h7 : (List.range (K + 1)).countP (fun u => decide (key (last (j' + 1)) u ≤ K)) <
          (List.range (K + 1)).countP (fun u => decide (key (last j') u ≤ K)) := by
        refine countP_lt (fun x _ hx => ?_) ⟨u, List.mem_range.2 (by omega), by simpa using h4, by simpa using h5⟩
        simp only [decide_eq_true_eq] at hx ⊢
        apply Nat.le_of_not_lt
        intro h
        exact absurd (dead _ _ (by omega) h) (by omega)
      exact ih _ (by omega : _ < m) (j' + 1) (by omega) (by omega) (Nat.le_refl _)
  exact cnt _ (max N K) (by omega) (by omega) (Nat.le_refl _)

end Verif.Conc
