import Verif.WorkQueue.Measure

/-
Closing ends: the measure of the whole queue, and invariants of a queue closed by one client.
-/
namespace Verif.WorkQueue
open Verif.Conc State

variable {n t c i x : Nat} {s s' : State} {o : Option Out} {l : Loc} {h : List (Event Op Out)} {W : Nat}

/-! ### The measure -/

/-- of the queue and the threads `ts` -/
def measure (W n : Nat) (ts : List Nat) (s : State) : Nat := W * load s + (ts.map fun u => rank W n s (s.loc u)).sum

theorem sum_le {f g : Nat → Nat} {d : Nat} (ts : List Nat) (h : ∀ u ∈ ts, g u ≤ f u + d) :
    (ts.map g).sum ≤ (ts.map f).sum + d * ts.length := by
  induction ts with
  | nil => simp
  | cons u ts ih =>
    have h1 := ih fun u hu => h u (by simp [hu])
    have h2 := h u (by simp)
    simp only [List.map_cons, List.sum_cons, List.length_cons, Nat.mul_add]; omega

theorem sum_but {f g : Nat → Nat} {d t : Nat} (ts : List Nat) (hn : ts.Nodup) (ht : t ∈ ts) (h : ∀ u, u ≠ t → g u ≤ f u + d) :
    (ts.map g).sum + f t ≤ (ts.map f).sum + g t + d * ts.length := by
  induction ts with
  | nil => cases ht
  | cons u ts ih =>
    obtain ⟨h1, h2⟩ := List.nodup_cons.1 hn
    simp only [List.map_cons, List.sum_cons, List.length_cons, Nat.mul_add]
    by_cases e : u = t
    · subst e
      have := sum_le (f := f) (g := g) (d := d) ts fun v hv => h v fun e => h1 (e ▸ hv)
      omega
    · have h3 := ih h2 ((List.mem_cons.1 ht).resolve_left fun e' => e e'.symm)
      have h4 := h u e
      omega

theorem measure_step {ts : List Nat} (hh : s.halt = true) (k : Inv n s) (hn : ts.Nodup) (hi : ∀ u, u ∉ ts → s.loc u = .idle)
    (hW : 30 * ts.length + 61 ≤ W) (hm : stepAt n s t c (s.loc t) = some (s', o)) :
    measure W n ts s' < measure W n ts s := by
  obtain ⟨a, l', e1, w⟩ := step_loc hm
  have ne : ∀ u, u ≠ t → s'.loc u = s.loc u ∨ (s.loc u = .wSleep ∧ s'.loc u = .wRelock) := by
    intro u hu; rw [e1, upd_ne _ _ hu]; exact w.all u
  have lower : ∀ s1 u, u ≠ t → rank W n s1 (s'.loc u) ≤ rank W n s1 (s.loc u) := by
    intro s1 u hu
    rcases ne u hu with h | ⟨h1, h2⟩
    · rw [h]; exact Nat.le_refl _
    · rw [h1, h2]; simp [rank, base, extra, fetching]
  have ht : t ∈ ts := by
    by_cases h : t ∈ ts
    · exact h
    · rw [hi t h] at hm; cases hm
  unfold measure
  rcases step_alt (W := W) hh k hm with ⟨h1, h2⟩ | ⟨h1, h2⟩
  · have h3 := sum_but (f := fun u => rank W n s (s.loc u)) (g := fun u => rank W n s' (s'.loc u)) (d := 0) ts hn ht
      fun u hu => Nat.le_trans (lower s' u hu) (rank_mono h1 _)
    simp only [Nat.zero_mul] at h3
    omega
  · have h3 := sum_but (f := fun u => rank W n s (s.loc u)) (g := fun u => rank W n s' (s'.loc u)) (d := 30) ts hn ht
      fun u hu => Nat.le_trans (lower s' u hu) (rank_any s s' _)
    have h4 : W * load s' + W ≤ W * load s := by
      rw [← Nat.mul_succ]; exact Nat.mul_le_mul_left _ h1
    omega

/-- without further calls, a halted queue comes to rest -/
theorem bounded_run (W : Nat) (as : List (Act Op)) : ∀ {s s' : State} {h : List (Event Op Out)} {ts : List Nat}, s.halt = true → Inv n s →
    ts.Nodup → (∀ u, u ∉ ts → s.loc u = .idle) → 30 * ts.length + 61 ≤ W → onlyMoves as →
    (sys n).run s as = some (s', h) → as.length ≤ measure W n ts s := by
  induction as with
  | nil => intros; simp
  | cons a as ih =>
    intro s s' h ts hh k hn hi hW ho e
    simp only [Sys.run, Option.bind_eq_some_iff, Option.map_eq_some_iff] at e
    obtain ⟨⟨s1, h1⟩, e1, ⟨s2, h2⟩, e2, e3⟩ := e
    cases e3
    cases a with
    | call t op => exact absurd (by simp) (ho t op)
    | move t c =>
      simp only [Sys.exec, Option.map_eq_some_iff] at e1
      obtain ⟨⟨s3, o⟩, e1, e3⟩ := e1
      cases e3
      have e1 : stepAt n s t c (s.loc t) = some (s3, o) := e1
      have hlt := measure_step hh k hn hi hW e1
      have hh' : s3.halt = true := by
        rcases (step_halt e1).1 with h | ⟨_, h, _⟩
        · rw [h]; exact hh
        · exact h
      have hi' : ∀ u, u ∉ ts → s3.loc u = .idle := by
        intro u hu
        obtain ⟨a, l', e4, w⟩ := step_loc e1
        have hne : u ≠ t := by rintro rfl; rw [hi u hu] at e1; cases e1
        rw [e4, upd_ne _ _ hne]
        exact w.awake (hi u hu) (by simp)
      have := ih hh' (inv_move k e1) hn hi' hW (fun t op hm => ho t op (by simp [hm])) e2
      simp only [List.length_cons]; omega

theorem halt_run (as : List (Act Op)) {s s' : State} {h : List (Event Op Out)} (hh : s.halt = true)
    (e : (sys n).run s as = some (s', h)) : s'.halt = true :=
  Sys.run_invariant (M := sys n) (I := fun s => s.halt = true) (allowed := fun _ _ => True)
    (fun k _ hc => by obtain ⟨_, rfl⟩ := call_eq hc; exact k)
    (fun k hm => by
      rcases (step_halt hm).1 with h | ⟨_, h, _⟩
      · rw [h]; exact k
      · exact h) as hh (fun _ _ _ => trivial) e

/-! ### One closer -/

/-- after having set halt, before the last join -/
def inClose : Loc → Bool
  | .cUnlock | .cClear _ | .cNotify1 | .cLoop _ | .cNotify2 | .cJoin _ false => true
  | .aCheck b _ (.close _) => b = some .dummy
  | .aSize _ _ (.close _) | .aPush _ _ (.close _) _ | .aNotify (.close _) _ => true
  | _ => false

/-- before having looked at halt -/
def beforeHalt : Loc → Bool
  | .dTest | .cLock | .cTest | .cHalt => true
  | _ => false

theorem closing_of_inClose (h : inClose l = true) : closing l = true := by
  cases l <;> simp [inClose] at h <;> simp [closing] <;> split at h <;> simp_all [Ret.isClose]

theorem step_joined (h : stepAt n s t c l = some (s', o)) :
    s'.joined = s.joined ∨ ∃ k b, l = .cJoin k b ∧ s'.joined = upd s.joined k true ∧ s'.loc t = .cJoin (k + 1) b := by
  have back : ∀ {s1 : State} {r}, (s1.back t r).joined = s1.joined := by
    intro s1 r
    cases r <;> rfl
  unfold stepAt at h
  split at h
  all_goals try (split at h)
  all_goals try (split at h)
  all_goals try (split at h)
  all_goals try (simp only [State.lock] at h; split at h)
  all_goals (first | (cases h; done) | skip)
  all_goals obtain ⟨rfl, rfl⟩ := Prod.mk.inj (Option.some.inj h)
  all_goals (try (exact .inl rfl))
  all_goals (try (rw [back]; first | exact .inl rfl | (split <;> first | exact .inl (joined_notifyOne _) | exact .inl rfl)))
  all_goals (try (exact .inl (joined_setQue _ _ _)))
  all_goals (try (exact .inl (back.trans (joined_notifyOne _))))
  exact .inr ⟨_, _, rfl, rfl, by rw [loc_goto, upd_same]⟩

/-- the steps of closeWorkerQueue -/
theorem step_close (h : stepAt n s t c l = some (s', o)) (hl : closing l = true) :
    (inClose l = true → inClose (s'.loc t) = true ∨ l = .cJoin n false) ∧
    (∀ k b, s'.loc t = .cJoin k b → k = 0 ∨ ∃ k', k = k' + 1 ∧ l = .cJoin k' b ∧ s'.joined k' = true) ∧
    (∀ k, s'.loc t = .cJoin k true → s.halt = true ∨ ∃ k', l = .cJoin k' true) ∧
    (beforeHalt l = true → s'.halt = true ∨ beforeHalt (s'.loc t) = true) := by
  have go : ∀ {s1 : State} {l'}, (s1.goto t l').loc t = l' := by intro s1 l'; rw [loc_goto, upd_same]
  have back : ∀ {s1 : State} {k}, (s1.back t (.close k)).loc t = .cLoop k := by intro s1 k; simp only [State.back]; rw [go]
  cases l with
  | aCheck b p r =>
    cases r with
    | client => cases hl
    | close k =>
      cases b with
      | none =>
        obtain ⟨rfl, rfl⟩ := Prod.mk.inj (Option.some.inj h)
        rw [back]; simp [inClose, beforeHalt]
      | some b =>
        simp only [stepAt] at h
        split at h
        · obtain ⟨rfl, rfl⟩ := Prod.mk.inj (Option.some.inj h)
          rw [back]; simp [inClose, beforeHalt]
        · split at h
          · obtain ⟨rfl, rfl⟩ := Prod.mk.inj (Option.some.inj h)
            rw [go]; simp [inClose, beforeHalt]
          · split at h
            · obtain ⟨rfl, rfl⟩ := Prod.mk.inj (Option.some.inj h)
              rw [back]; simp [inClose, beforeHalt]
            · obtain ⟨rfl, rfl⟩ := Prod.mk.inj (Option.some.inj h)
              rw [go]; simp [inClose, beforeHalt]
  | aSize b p r =>
    cases r with
    | client => cases hl
    | close k => obtain ⟨rfl, rfl⟩ := Prod.mk.inj (Option.some.inj h); rw [go]; simp [inClose, beforeHalt]
  | aPush b p r m =>
    cases r with
    | client => cases hl
    | close k => obtain ⟨rfl, rfl⟩ := Prod.mk.inj (Option.some.inj h); rw [go]; simp [inClose, beforeHalt]
  | aNotify r m =>
    cases r with
    | client => cases hl
    | close k => obtain ⟨rfl, rfl⟩ := Prod.mk.inj (Option.some.inj h); rw [back]; simp [inClose, beforeHalt]
  | dTest =>
    obtain ⟨rfl, rfl⟩ := Prod.mk.inj (Option.some.inj h); rw [go]
    cases hh : s.halt <;> simp [inClose, beforeHalt]
    exact hh
  | cLock =>
    simp only [stepAt, State.lock] at h
    split at h
    · obtain ⟨rfl, rfl⟩ := Prod.mk.inj (Option.some.inj h); rw [go]; simp [inClose, beforeHalt]
    · cases h
  | cTest =>
    obtain ⟨rfl, rfl⟩ := Prod.mk.inj (Option.some.inj h); rw [go]
    cases hh : s.halt <;> simp [inClose, beforeHalt]
    exact hh
  | cHalt =>
    obtain ⟨rfl, rfl⟩ := Prod.mk.inj (Option.some.inj h); rw [go]
    simp [inClose, beforeHalt, goto]
  | cUnlock =>
    obtain ⟨rfl, rfl⟩ := Prod.mk.inj (Option.some.inj h); rw [unlock, go]
    simp [inClose, beforeHalt]
  | cClear q => cases q <;> obtain ⟨rfl, rfl⟩ := Prod.mk.inj (Option.some.inj h) <;> rw [go] <;> simp [inClose, beforeHalt]
  | cNotify1 => obtain ⟨rfl, rfl⟩ := Prod.mk.inj (Option.some.inj h); rw [go]; simp [inClose, beforeHalt]
  | cLoop k => cases k <;> obtain ⟨rfl, rfl⟩ := Prod.mk.inj (Option.some.inj h) <;> rw [go] <;> simp [inClose, beforeHalt]
  | cNotify2 =>
    obtain ⟨rfl, rfl⟩ := Prod.mk.inj (Option.some.inj h); rw [go]
    simp [inClose, beforeHalt]
  | cJoin k b =>
    simp only [stepAt] at h
    split at h
    · next hk =>
      subst hk
      obtain ⟨rfl, rfl⟩ := Prod.mk.inj (Option.some.inj h); rw [go]
      cases b <;> simp [inClose, beforeHalt]
    · split at h
      · next hj =>
        obtain ⟨rfl, rfl⟩ := Prod.mk.inj (Option.some.inj h); rw [go]
        have hj : ∀ l', (s.goto t l').joined k = true := fun _ => hj
        cases b <;> simp [inClose, beforeHalt, hj]
      · split at h
        · obtain ⟨rfl, rfl⟩ := Prod.mk.inj (Option.some.inj h); rw [go]
          cases b <;> simp [inClose, beforeHalt, goto, upd]
        · cases h
  | cOut => obtain ⟨rfl, rfl⟩ := Prod.mk.inj (Option.some.inj h); rw [unlock, go]; simp [inClose, beforeHalt]
  | _ => cases hl

theorem closing_start (n : Nat) (op : Op) : closing (start n op) = op.closes ∧ inClose (start n op) = false ∧
    (∀ k b, start n op ≠ .cJoin k b) ∧ (op.closes = true → beforeHalt (start n op) = true) := by
  cases op with
  | addVector bs p => simp only [start]; split <;> simp [closing, Op.closes, inClose]
  | _ => simp [start, closing, Op.closes, Ret.isClose, inClose, beforeHalt]

/-- what is always true when closing calls do not overlap, `x` being the last thread that made one -/
structure Closer (n x : Nat) (s : State) (h : List (Event Op Out)) : Prop where
  inv : Inv n s
  only : ∀ t, t ≠ x → closing (s.loc t) = false
  low : ∀ k, s.loc x = .cJoin k false → ∀ j, j < k → s.joined j = true
  bound : ∀ k b, s.loc x = .cJoin k b → k ≤ n
  done : s.halt = true → inClose (s.loc x) = true ∨ ∀ j, j < n → s.joined j = true
  joins : ∀ k, s.loc x = .cJoin k true → s.halt = true
  early : ∀ op, op.closes = true → .call x op ∈ h → s.halt = true ∨ beforeHalt (s.loc x) = true
  past : ∀ u op, op.closes = true → .call u op ∈ h → u ≠ x → s.halt = true ∧ ∀ j, j < n → s.joined j = true

theorem Inv.joined_lt {k : Nat} (i : Inv n s) (h : s.joined k = true) : k < n := by
  have h2 := i.place k
  rw [i.joined k h] at h2
  exact h2

theorem closer_init (n x : Nat) : Closer n x (State.init n) [] := by
  have hl : ∀ t, closing ((State.init n).loc t) = false ∧ ∀ k b, (State.init n).loc t ≠ .cJoin k b := by
    intro t
    simp only [State.init]
    split <;> simp [closing]
  exact ⟨inv_init n, fun t _ => (hl t).1, fun k h => absurd h ((hl x).2 _ _), fun k b h => absurd h ((hl x).2 _ _), fun h => (by cases h),
    fun k h => absurd h ((hl x).2 _ _), fun op _ h => (by cases h), fun u op _ h => (by cases h)⟩

theorem closer_call {op : Op} (k : Closer n x s h) (hx : op.closes = true → t = x) (hc : s.call n t op = some s') :
    Closer n x s' (h ++ [.call t op]) := by
  have hi := inv_call k.inv hc
  obtain ⟨hid, rfl⟩ := call_eq hc
  obtain ⟨h1, h2, h3, h4⟩ := closing_start n op
  by_cases e : t = x
  · subst e
    have el : (s.goto t (start n op)).loc t = start n op := by rw [loc_goto, upd_same]
    refine ⟨hi, fun u hu => ?_, fun k h => ?_, fun k b h => ?_, fun hh => ?_, fun k h => ?_, fun op' hop hm => ?_, fun u op' hop hm hu => ?_⟩
    · rw [loc_goto, upd_ne _ _ hu]; exact k.only u hu
    · rw [el] at h; exact absurd h (h3 _ _)
    · rw [el] at h; exact absurd h (h3 _ _)
    · rcases k.done hh with h | h
      · rw [hid] at h; cases h
      · exact .inr h
    · rw [el] at h; exact absurd h (h3 _ _)
    · rw [el]
      rcases List.mem_append.1 hm with hm | hm
      · rcases k.early op' hop hm with h | h
        · exact .inl h
        · rw [hid] at h; cases h
      · simp only [List.mem_singleton, Event.call.injEq, true_and] at hm
        subst hm
        exact .inr (h4 hop)
    · refine k.past u op' hop ?_ hu
      rcases List.mem_append.1 hm with hm | hm
      · exact hm
      · simp only [List.mem_singleton, Event.call.injEq] at hm
        exact absurd hm.1 hu
  · have el : (s.goto t (start n op)).loc x = s.loc x := by rw [loc_goto, upd_ne _ _ (Ne.symm e)]
    refine ⟨hi, fun u hu => ?_, fun k' h => ?_, fun k' b h => ?_, fun hh => ?_, fun k' h => ?_, fun op' hop hm => ?_, fun u op' hop hm hu => ?_⟩
    · by_cases e' : u = t
      · subst e'; rw [loc_goto, upd_same, h1]
        cases ho : op.closes
        · rfl
        · exact absurd (hx ho) e
      · rw [loc_goto, upd_ne _ _ e']; exact k.only u hu
    · rw [el] at h; exact k.low _ h
    · rw [el] at h; exact k.bound _ _ h
    · rw [el]; exact k.done hh
    · rw [el] at h; exact k.joins _ h
    · rw [el]
      refine k.early op' hop ?_
      rcases List.mem_append.1 hm with hm | hm
      · exact hm
      · simp only [List.mem_singleton, Event.call.injEq] at hm
        exact absurd hm.1.symm e
    · refine k.past u op' hop ?_ hu
      rcases List.mem_append.1 hm with hm | hm
      · exact hm
      · simp only [List.mem_singleton, Event.call.injEq] at hm
        rw [hm.2] at hop
        exact absurd (hm.1.trans (hx hop)) hu

/-- another thread may close the queue when `x` has finished -/
theorem closer_next (k : Closer n x s h) (hx : closing (s.loc x) = false) (t : Nat) (ht : closing (s.loc t) = false) : Closer n t s h := by
  by_cases e : t = x
  · subst e; exact k
  have nj : ∀ k b, s.loc t ≠ .cJoin k b := by intro k b h; rw [h] at ht; cases ht
  have nin : inClose (s.loc x) = false := by
    cases hin : inClose (s.loc x) with
    | false => rfl
    | true => rw [closing_of_inClose hin] at hx; cases hx
  have nbe : beforeHalt (s.loc x) = false := by
    generalize s.loc x = l at hx
    cases l <;> simp_all [closing, beforeHalt]
  have hd : s.halt = true → ∀ j, j < n → s.joined j = true := fun hh => (k.done hh).resolve_left (by rw [nin]; simp)
  refine ⟨k.inv, fun u hu => ?_, fun k h => absurd h (nj _ _), fun k b h => absurd h (nj _ _), fun hh => .inr (hd hh),
    fun k h => absurd h (nj _ _), fun op hop hm => .inl (k.past t op hop hm e).1, fun u op hop hm hu => ?_⟩
  · by_cases e' : u = x
    · subst e'; exact hx
    · exact k.only u e'
  · by_cases e' : u = x
    · subst e'
      have hh := (k.early op hop hm).resolve_right (by rw [nbe]; simp)
      exact ⟨hh, hd hh⟩
    · exact k.past u op hop hm e'

theorem closer_move (k : Closer n x s h) (hm : stepAt n s t c (s.loc t) = some (s', o)) : Closer n x s' (h ++ retEvents t o) := by
  have hi := inv_move k.inv hm
  have hcall : ∀ u op, .call u op ∈ h ++ retEvents t o → .call u op ∈ h := by
    intro u op hm
    rcases List.mem_append.1 hm with hm | hm
    · exact hm
    · cases o <;> simp [retEvents] at hm
  have hmono : ∀ j, s.joined j = true → s'.joined j = true := by
    intro j hj
    rcases step_joined hm with h | ⟨k', b, _, h, _⟩ <;> rw [h]
    · exact hj
    · by_cases e : j = k'
      · subst e; rw [upd_same]
      · rw [upd_ne _ _ e]; exact hj
  obtain ⟨a, l', e1, w⟩ := step_loc hm
  have ne : ∀ u, u ≠ t → s'.loc u = s.loc u ∨ (s.loc u = .wSleep ∧ s'.loc u = .wRelock) := by
    intro u hu; rw [e1, upd_ne _ _ hu]; exact w.all u
  have honly : ∀ u, u ≠ x → closing (s'.loc u) = false := by
    intro u hu
    by_cases e : u = t
    · subst e; exact step_closing hm (k.only u hu)
    · rcases ne u e with h | ⟨_, h⟩ <;> rw [h]
      · exact k.only u hu
      · rfl
  have hhalt : s.halt = true → s'.halt = true := by
    intro hh
    rcases (step_halt hm).1 with h | ⟨_, h, _⟩
    · rw [h]; exact hh
    · exact h
  have hpast : ∀ u op, op.closes = true → .call u op ∈ h ++ retEvents t o → u ≠ x → s'.halt = true ∧ ∀ j, j < n → s'.joined j = true := by
    intro u op hop hm' hu
    obtain ⟨h1, h2⟩ := k.past u op hop (hcall _ _ hm') hu
    exact ⟨hhalt h1, fun j hj => hmono j (h2 j hj)⟩
  by_cases e : t = x
  · subst e
    cases hcl : closing (s.loc t) with
    | false =>
      have hcl' := step_closing hm hcl
      have nj : ∀ k b, s'.loc t ≠ .cJoin k b := by intro k b h; rw [h] at hcl'; cases hcl'
      have nin : inClose (s.loc t) = false := by
        cases hin : inClose (s.loc t) with
        | false => rfl
        | true => rw [closing_of_inClose hin] at hcl; cases hcl
      have nbe : beforeHalt (s.loc t) = false := by
        generalize s.loc t = l at hcl
        cases l <;> simp_all [closing, beforeHalt]
      refine ⟨hi, honly, fun k h => absurd h (nj _ _), fun k b h => absurd h (nj _ _), fun hh => .inr fun j hj => hmono j ?_,
        fun k h => absurd h (nj _ _), fun op hop hm' => ?_, hpast⟩
      · have : s.halt = true := by
          rcases (step_halt hm).1 with h | ⟨h, _⟩
          · rw [← h]; exact hh
          · rw [h] at hcl; cases hcl
        exact ((k.done this).resolve_left (by rw [nin]; simp)) j hj
      · exact .inl (hhalt ((k.early op hop (hcall _ _ hm')).resolve_right (by rw [nbe]; simp)))
    | true =>
      obtain ⟨g1, g2, g3, g4⟩ := step_close hm hcl
      refine ⟨hi, honly, fun k' hk' j hj => ?_, fun k' b hk' => ?_, fun hh => ?_, fun k' hk' => ?_, fun op hop hm' => ?_, hpast⟩
      · rcases g2 k' _ hk' with h | ⟨k2, rfl, h, hj2⟩
        · omega
        · by_cases e : j = k2
          · subst e; exact hj2
          · exact hmono j (k.low _ h j (by omega))
      · rcases g2 k' _ hk' with h | ⟨k2, rfl, h, hj2⟩
        · omega
        · exact hi.joined_lt hj2
      · rcases (step_halt hm).1 with h | ⟨_, _, h⟩
        · rw [h] at hh
          rcases k.done hh with h1 | h1
          · rcases g1 h1 with h2 | h2
            · exact .inl h2
            · exact .inr fun j hj => hmono j (k.low _ h2 j hj)
          · exact .inr fun j hj => hmono j (h1 j hj)
        · rw [h]; exact .inl rfl
      · rcases g3 k' hk' with h | ⟨k2, h⟩
        · exact hhalt h
        · exact hhalt (k.joins _ h)
      · rcases k.early op hop (hcall _ _ hm') with h | h
        · exact .inl (hhalt h)
        · exact g4 h
  · have hl : (s.loc x = s'.loc x ∨ ((∀ k b, s'.loc x ≠ .cJoin k b) ∧ inClose (s.loc x) = false ∧ beforeHalt (s.loc x) = false)) := by
      rcases ne x (Ne.symm e) with h | ⟨h1, h2⟩
      · exact .inl h.symm
      · exact .inr ⟨by rw [h2]; simp, by rw [h1]; rfl, by rw [h1]; rfl⟩
    have hh' : s'.halt = true → s.halt = true := by
      intro hh
      rcases (step_halt hm).1 with h | ⟨h, _⟩
      · rw [← h]; exact hh
      · have := k.only t e; rw [h] at this; cases this
    refine ⟨hi, honly, fun k' hk' j hj => ?_, fun k' b hk' => ?_, fun hh => ?_, fun k' hk' => ?_, fun op hop hm' => ?_, hpast⟩
    · rcases hl with h | h
      · rw [← h] at hk'; exact hmono j (k.low _ hk' j hj)
      · exact absurd hk' (h.1 _ _)
    · rcases hl with h | h
      · rw [← h] at hk'; exact k.bound _ _ hk'
      · exact absurd hk' (h.1 _ _)
    · rcases k.done (hh' hh) with h1 | h1
      · rcases hl with h | h
        · rw [← h]; exact .inl h1
        · rw [h.2.1] at h1; cases h1
      · exact .inr fun j hj => hmono j (h1 j hj)
    · rcases hl with h | h
      · rw [← h] at hk'; exact hhalt (k.joins _ hk')
      · exact absurd hk' (h.1 _ _)
    · rcases k.early op hop (hcall _ _ hm') with h1 | h1
      · exact .inl (hhalt h1)
      · rcases hl with h | h
        · rw [← h]; exact .inr h1
        · rw [h.2.2] at h1; cases h1

/-- a step that returns ends the call, any other does not -/
theorem step_ret (h : stepAt n s t c l = some (s', o)) : (∀ v, o = some v → s'.loc t = .idle) ∧ (o = none → s'.loc t ≠ .idle) := by
  have back : ∀ {s1 : State} {r}, (s1.back t r).loc t ≠ .idle := by
    intro s1 r
    cases r <;> simp [State.back, loc_goto, upd_same]
  unfold stepAt at h
  split at h
  all_goals try (split at h)
  all_goals try (split at h)
  all_goals try (split at h)
  all_goals try (simp only [State.lock] at h; split at h)
  all_goals (first | (cases h; done) | skip)
  all_goals obtain ⟨rfl, rfl⟩ := Prod.mk.inj (Option.some.inj h)
  all_goals refine ⟨fun v hv => ?_, fun hn => ?_⟩
  all_goals (first | (cases hv; done) | (cases hn; done) | skip)
  all_goals (try exact back)
  all_goals (try simp only [got, executed, unlock, loc_goto, upd_same])
  all_goals (try split)
  all_goals (try simp)

/-- a thread in a closing call is one that the history says is closing, and conversely it is in a call -/
def Tells (s : State) (f : Nat → Bool) : Prop := ∀ t, (closing (s.loc t) = true → f t = true) ∧ (f t = true → s.loc t ≠ .idle)

theorem tells_init (n : Nat) : Tells (State.init n) fun _ => false := by
  intro t
  refine ⟨fun h => ?_, fun h => by cases h⟩
  simp only [State.init] at h
  split at h <;> simp [closing] at h

theorem tells_call {f : Nat → Bool} {op : Op} (k : Tells s f) (hc : s.call n t op = some s') : Tells s' (closers f (.call t op)) := by
  obtain ⟨hid, rfl⟩ := call_eq hc
  intro u
  by_cases e : u = t
  · subst e
    rw [loc_goto, upd_same, (closing_start n op).1]
    refine ⟨fun h => by simp [closers, h, upd_same], fun _ h => ?_⟩
    cases op with
    | addVector bs p => simp only [start] at h; split at h <;> cases h
    | _ => cases h
  · rw [loc_goto, upd_ne _ _ e]
    have : closers f (.call t op) u = f u := by
      simp only [closers]
      split
      · exact upd_ne _ _ e
      · rfl
    rw [this]; exact k u

theorem tells_move {f : Nat → Bool} (k : Tells s f) (hm : stepAt n s t c (s.loc t) = some (s', o)) (hi : ∀ v, o = some v → s'.loc t = .idle)
    (hn : o = none → s'.loc t ≠ .idle) : Tells s' ((retEvents t o).foldl closers f) := by
  obtain ⟨a, l', e1, w⟩ := step_loc hm
  have ne : ∀ u, u ≠ t → s'.loc u = s.loc u ∨ (s.loc u = .wSleep ∧ s'.loc u = .wRelock) := by
    intro u hu; rw [e1, upd_ne _ _ hu]; exact w.all u
  intro u
  by_cases e : u = t
  · subst e
    cases o with
    | some v =>
      rw [hi v rfl]
      exact ⟨(fun h => by cases h), fun h => by simp [retEvents, closers, upd_same] at h⟩
    | none =>
      refine ⟨fun h => ?_, fun _ => hn rfl⟩
      cases hc : closing (s.loc u) with
      | true => exact (k u).1 hc
      | false => rw [step_closing hm hc] at h; cases h
  · have hf : (retEvents t o).foldl closers f u = f u := by
      cases o with
      | none => rfl
      | some v => exact upd_ne _ _ e
    rw [hf]
    rcases ne u e with h | ⟨h1, h2⟩
    · rw [h]; exact k u
    · rw [h2]; exact ⟨(fun h => by cases h), fun _ => by simp⟩

theorem inTurn_append (h2 : List (Event Op Out)) (h1 : List (Event Op Out)) : ∀ {f : Nat → Bool}, inTurn f (h1 ++ h2) ↔
    inTurn f h1 ∧ inTurn (h1.foldl closers f) h2 := by
  induction h1 with
  | nil => intro f; simp [inTurn]
  | cons e h1 ih => intro f; simp only [List.cons_append, inTurn, List.foldl_cons, ih, and_assoc]

theorem turns_run (as : List (Act Op)) (e : (sys n).run (sys n).init as = some (s, h)) :
    Tells s (h.foldl closers fun _ => false) ∧ (closedInTurn h → ∃ x, Closer n x s h) := by
  refine Sys.run_history (M := sys n) (I := fun s h => Tells s (h.foldl closers fun _ => false) ∧ (closedInTurn h → ∃ x, Closer n x s h))
    ?_ ?_ as (h0 := []) ⟨tells_init n, fun _ => ⟨0, closer_init n 0⟩⟩ e
  · intro s t op s' h i hc
    refine ⟨?_, fun hx => ?_⟩
    · rw [List.foldl_append]; exact tells_call i.1 hc
    · obtain ⟨g1, g2⟩ := (inTurn_append _ _).1 hx
      obtain ⟨x, k⟩ := i.2 g1
      have hid := (call_eq hc).1
      cases hop : op.closes with
      | false => exact ⟨x, closer_call k (fun h => by rw [hop] at h; cases h) hc⟩
      | true =>
        have hno := g2.1 t op rfl hop
        have hx : closing (s.loc x) = false := by
          cases hcl : closing (s.loc x) with
          | false => rfl
          | true => have := (i.1 x).1 hcl; rw [hno x] at this; cases this
        exact ⟨t, closer_call (closer_next k hx t (by rw [hid]; rfl)) (fun _ => rfl) hc⟩
  · intro s t c s' o h i hm
    refine ⟨?_, fun hx => ?_⟩
    · rw [List.foldl_append]; exact tells_move i.1 hm (step_ret hm).1 (step_ret hm).2
    · obtain ⟨x, k⟩ := i.2 ((inTurn_append _ _).1 hx).1
      exact ⟨x, closer_move k hm⟩

/-- calls of one thread do not overlap -/
theorem closedBy_inTurn (as : List (Act Op)) (e : (sys n).run (sys n).init as = some (s, h)) (hx : closedBy x h) : closedInTurn h := by
  refine ((Sys.run_history (M := sys n) (I := fun s h => Tells s (h.foldl closers fun _ => false) ∧
    (closedBy x h → closedInTurn h ∧ ∀ u, u ≠ x → h.foldl closers (fun _ => false) u = false))
    ?_ ?_ as (h0 := []) ⟨tells_init n, fun _ => ⟨trivial, fun _ _ => rfl⟩⟩ e).2 hx).1
  · intro s t op s' h i hc
    refine ⟨by rw [List.foldl_append]; exact tells_call i.1 hc, fun hx => ?_⟩
    obtain ⟨g1, g2⟩ := i.2 fun t op hm => hx t op (List.mem_append_left _ hm)
    have ho := hx t op (by simp)
    refine ⟨(inTurn_append _ _).2 ⟨g1, fun t' op' e hop u => ?_, trivial⟩, fun u hu => ?_⟩
    · cases e
      by_cases eu : u = t
      · subst eu
        cases hf : h.foldl closers (fun _ => false) u with
        | false => rfl
        | true => exact absurd (call_eq hc).1 ((i.1 u).2 hf)
      · exact g2 u (by rw [← ho hop]; exact eu)
    · rw [List.foldl_append]
      simp only [List.foldl_cons, List.foldl_nil, closers]
      split
      · rename_i hop
        rw [upd_ne _ _ (by rw [ho hop]; exact hu)]; exact g2 u hu
      · exact g2 u hu
  · intro s t c s' o h i hm
    refine ⟨by rw [List.foldl_append]; exact tells_move i.1 hm (step_ret hm).1 (step_ret hm).2, fun hx => ?_⟩
    obtain ⟨g1, g2⟩ := i.2 fun t op hm => hx t op (List.mem_append_left _ hm)
    cases o with
    | none => simpa [retEvents] using ⟨g1, g2⟩
    | some v =>
      refine ⟨(inTurn_append _ _).2 ⟨g1, (fun _ _ e => by cases e), trivial⟩, fun u hu => ?_⟩
      rw [List.foldl_append]
      simp only [retEvents, List.foldl_cons, List.foldl_nil, closers]
      by_cases eu : u = t
      · subst eu; exact upd_same _ _ _
      · rw [upd_ne _ _ eu]; exact g2 u hu

/-- without further calls nothing overlaps that did not before -/
theorem inTurn_more (bs : List (Act Op)) {s' : State} {h' : List (Event Op Out)} (ho : onlyMoves bs) (e' : (sys n).run s bs = some (s', h'))
    (hx : closedInTurn h) : closedInTurn (h ++ h') := by
  refine (inTurn_append _ _).2 ⟨hx, ?_⟩
  have hno : ∀ t op, Event.call t op ∉ h' := fun t op hm => ho t op (Sys.run_mem_call bs e' hm)
  clear e' hx
  generalize h.foldl closers (fun _ => false) = f
  induction h' generalizing f with
  | nil => trivial
  | cons a h' ih =>
    refine ⟨fun t op e => absurd (by rw [e]; simp) (hno t op), ih (fun t op hm => hno t op (List.mem_cons_of_mem _ hm)) _⟩

theorem closer_run (as : List (Act Op)) (e : (sys n).run (sys n).init as = some (s, h)) (hx : closedInTurn h) : ∃ x, Closer n x s h :=
  (turns_run as e).2 hx

/-! ### Progress -/

/-- positions at which a thread may have to wait -/
def waits : Loc → Bool
  | .idle | .exited | .crash | .wLock | .wRelock | .cLock | .cJoin _ _ | .wSleep => true
  | _ => false

theorem step_some (hl : waits l = false) : stepAt n s t c l ≠ none := by
  cases l with
  | aCheck b p r =>
    cases b with
    | none => simp [stepAt]
    | some b =>
      simp only [stepAt]
      split
      · simp
      · split
        · simp
        · split <;> simp
  | vExec bs =>
    match bs with
    | [] => simp [stepAt]
    | none :: bs => simp [stepAt]
    | some .dummy :: bs => simp [stepAt]
    | some (.task i) :: bs => simp [stepAt]
  | wChk b =>
    match b with
    | none => simp [stepAt]
    | some .dummy => simp [stepAt]
    | some (.task i) => simp [stepAt]
  | cClear q => cases q <;> simp [stepAt]
  | iE q => cases q <;> simp [stepAt]
  | nB q => cases q <;> simp [stepAt]
  | wE q => cases q <;> simp [stepAt]
  | cLoop k => cases k <;> simp [stepAt]
  | gHigh => simp only [stepAt]; split <;> simp
  | gLowPop => simp only [stepAt]; split <;> simp
  | gMed => simp only [stepAt]; split <;> simp
  | gLow => simp only [stepAt]; split <;> simp
  | eTest i bs => simp only [stepAt]; split <;> simp
  | idle | exited | crash | wLock | wRelock | cLock | cJoin | wSleep => cases hl
  | _ => simp [stepAt]

theorem stuck_closed (k : Closer n x s h) (hh : s.halt = true) (hst : stuck n s) :
    (∀ t, t < n → s.loc t = .exited) ∧ ∀ t, n ≤ t → s.loc t = .idle ∨ s.loc t = .crash := by
  have hst : ∀ t, s.loc t ≠ .wSleep → stepAt n s t 0 (s.loc t) = none := fun t ht => hst t 0 ht
  have hw : ∀ t, waits (s.loc t) = true := by
    intro t
    cases hc : waits (s.loc t) with
    | true => rfl
    | false =>
      exact absurd (hst t (by intro e; rw [e] at hc; cases hc)) (step_some hc)
  have hj : ∀ t b, (∀ j, j < n → s.joined j = true ∨ s.loc j = .exited) → ∀ k', s.loc t ≠ .cJoin k' b := by
    intro t b hall k' hl
    have ht : t = x := by
      by_cases e : t = x
      · exact e
      · have := k.only t e; rw [hl] at this; cases this
    subst ht
    have hb := k.bound _ _ hl
    have h1 := hst t (by rw [hl]; simp)
    rw [hl] at h1
    simp only [stepAt] at h1
    split at h1
    · cases h1
    · split at h1
      · cases h1
      · split at h1
        · cases h1
        · next h2 h3 h4 =>
          rcases hall k' (by omega) with h | h
          · exact h3 h
          · exact h4 h
  have hown : s.owner = none := by
    cases ho : s.owner with
    | none => rfl
    | some u =>
      have h1 := (k.inv.owns u).2 ho
      have h2 := hw u
      cases hl : s.loc u <;> rw [hl] at h1 h2 <;> simp [holds, waits] at h1 h2
      subst h1
      rename_i k' 
      have ht : u = x := by
        by_cases e : u = x
        · exact e
        · have := k.only u e; rw [hl] at this; cases this
      subst ht
      refine absurd hl (hj u _ (fun j hj => .inl ?_) k')
      rcases k.done hh with h | h
      · rw [hl] at h; cases h
      · exact h j hj
  have hlock : ∀ t, s.loc t ≠ .wLock ∧ s.loc t ≠ .wRelock ∧ s.loc t ≠ .cLock := by
    intro t
    refine ⟨fun hl => ?_, fun hl => ?_, fun hl => ?_⟩ <;>
    · have h1 := hst t (by rw [hl]; simp)
      rw [hl] at h1
      simp [stepAt, State.lock, hown] at h1
  have hsl : ∀ t, s.loc t ≠ .wSleep := by
    rcases k.inv.asleep hh with h | ⟨t, h⟩
    · exact h
    · have := hw t
      generalize s.loc t = l at h this
      cases l <;> simp [WorkQueue.early, waits] at h this
  have hex : ∀ t, t < n → s.loc t = .exited := by
    intro t ht
    have h1 := hw t
    have h2 := k.inv.place t
    have h3 := hlock t
    have h4 := hsl t
    generalize s.loc t = l at h1 h2 h3 h4
    cases l <;> simp_all [waits, place] <;> omega
  refine ⟨hex, fun t ht => ?_⟩
  have h1 := hw t
  have h2 := k.inv.place t
  have h3 := hlock t
  have h4 := hsl t
  have h5 := fun b => hj t b (fun j hj => .inr (hex j hj))
  generalize s.loc t = l at h1 h2 h3 h4 h5
  cases l <;> simp_all [waits, place]
  omega


/-- notify_one wakes a waiting worker if there is one -/
theorem notifyOne_some (h : ∃ k, k < n ∧ s.loc k = .wSleep) : ∃ j, s.loc j = .wSleep ∧ notifyOne n c s = s.goto j .wRelock := by
  obtain ⟨k, hk, hl⟩ := h
  have hm : k ∈ sleeping n s := by simp [sleeping, hk, hl]
  have hpos : 0 < (sleeping n s).length := List.length_pos_of_mem hm
  have hlt : c % (sleeping n s).length < (sleeping n s).length := Nat.mod_lt _ hpos
  have he : (sleeping n s)[c % (sleeping n s).length]? = some ((sleeping n s)[c % (sleeping n s).length]) := List.getElem?_eq_getElem hlt
  have := List.mem_of_getElem? he
  simp only [sleeping, List.mem_filter, List.mem_range, decide_eq_true_eq] at this
  refine ⟨_, this.2, ?_⟩
  unfold notifyOne
  rw [he]
  rfl

/-! ### Nothing is executed afterwards -/

theorem runs_step (h : stepAt n s t c l = some (s', o)) (hl : ∀ i bs, l ≠ .eRun i bs) : s'.runs = s.runs := by
  have back : ∀ {s1 : State} {r}, (s1.back t r).runs = s1.runs := by
    intro s1 r
    cases r <;> rfl
  unfold stepAt at h
  split at h
  all_goals try (split at h)
  all_goals try (split at h)
  all_goals try (split at h)
  all_goals try (simp only [State.lock] at h; split at h)
  all_goals (first | (cases h; done) | skip)
  all_goals obtain ⟨rfl, rfl⟩ := Prod.mk.inj (Option.some.inj h)
  all_goals (try (exact rfl))
  all_goals (try (exact back))
  all_goals (try (exact back.trans (runs_notifyOne _)))
  all_goals (try (exact runs_setQue _ _ _))
  all_goals (try (exact absurd rfl (hl _ _)))

/-- if all workers have exited, nothing is executed any more -/
theorem silent_run (hn : 0 < n) (as : List (Act Op)) : ∀ {s s' : State} {h : List (Event Op Out)}, Inv n s → (∀ t, t < n → s.loc t = .exited) →
    (sys n).run s as = some (s', h) → s'.runs = s.runs ∧ ∀ t, t < n → s'.loc t = .exited := by
  induction as with
  | nil => intro s s' h _ hx e; cases e; exact ⟨rfl, hx⟩
  | cons a as ih =>
    intro s s' h k hx e
    simp only [Sys.run, Option.bind_eq_some_iff, Option.map_eq_some_iff] at e
    obtain ⟨⟨s1, h1⟩, e1, ⟨s2, h2⟩, e2, e3⟩ := e
    cases e3
    cases a with
    | call t op =>
      simp only [Sys.exec, Option.map_eq_some_iff] at e1
      obtain ⟨s3, e1, e3⟩ := e1
      cases e3
      have e1 : s.call n t op = some s1 := e1
      have k' := inv_call k e1
      obtain ⟨hid, rfl⟩ := call_eq e1
      refine ih (s := s.goto t (start n op)) k' (fun u hu => ?_) e2
      rw [loc_goto, upd_ne _ _ (fun e => by rw [← e, hx u hu] at hid; cases hid)]
      exact hx u hu
    | move t c =>
      simp only [Sys.exec, Option.map_eq_some_iff] at e1
      obtain ⟨⟨s3, o⟩, e1, e3⟩ := e1
      cases e3
      have e1 : stepAt n s t c (s.loc t) = some (s3, o) := e1
      have hr : s3.runs = s.runs := by
        refine runs_step e1 fun i bs he => ?_
        have := k.place t
        rw [he] at this
        rcases this with ⟨h1, _⟩ | h1
        · rw [hx t h1] at he; cases he
        · omega
      obtain ⟨g1, g2⟩ := ih (inv_move k e1) (fun u hu => by
        obtain ⟨a, l', e4, w⟩ := step_loc e1
        have hne : u ≠ t := by rintro rfl; rw [hx u hu] at e1; cases e1
        rw [e4, upd_ne _ _ hne]
        exact w.awake (hx u hu) (by simp)) e2
      exact ⟨g1.trans hr, g2⟩

end Verif.WorkQueue
