import Verif.WorkQueue.Place
import Verif.WorkQueue.Full.Sim

/-
Executions of the work queue with the code of its queues: the corresponding execution in which the queues act in one step, who
acts in it, and how long it is.
-/
namespace Verif.WorkQueue.Full
open Verif.Conc WorkQueue.State

/-- the thread of a step or call -/
def who : Act Op → Nat
  | .call t _ => t
  | .move t _ => t

/-- the number of steps of a thread -/
def moves (u : Nat) : List (Act Op) → Nat
  | [] => 0
  | .call _ _ :: as => moves u as
  | .move t _ :: as => (if t = u then 1 else 0) + moves u as

theorem moves_append (u : Nat) (as bs : List (Act Op)) : moves u (as ++ bs) = moves u as + moves u bs := by
  induction as with
  | nil => simp [moves]
  | cons a as ih => cases a <;> simp [moves, ih] <;> omega

abbrev SLoc := SimpleQueue.Loc (Option Blk)

/-- Bound on the steps a thread at position `l` can make inside the queues before the next step that counts when the queues act in
one step; `m`: its positions in the queues, `st`: its status there. -/
def pot (l : Loc) (m : Que → SLoc) (st : Que → St) : Nat :=
  match queueOp l with
  | none => 0
  | some (x, _) =>
    match st x with
    | .idle => 20
    | .pending _ => SimpleQueue.rank (m x)
    | .done _ => SimpleQueue.rank (m x) + 20

/-- of thread `u` -/
def State.pot (f : State) (g : Que → G) (u : Nat) : Nat := Full.pot (f.w.loc u) (fun x => (f.q x).loc u) fun x => (g x).st u

theorem pot_idle {l : Loc} {m : Que → SLoc} {st : Que → St} (h : ∀ x, st x = .idle) : Full.pot l m st ≤ 20 := by
  unfold Full.pot; split
  · omega
  · rw [h]; exact Nat.le_refl _

theorem setQ_apply {A B : Type} (h : A → B) (q : Que → A) (x : Que) (a : A) (e : h a = h (q x)) : (fun y => h (setQ q x a y)) = fun y => h (q y) := by
  funext y; unfold setQ; split
  · rename_i e'; rw [e', e]
  · rfl

/-- calls take effect -/
theorem Rel.lins {n : Nat} {w : WorkQueue.State} {x : Que} (tr : List (TEvent (SimpleQueue.Op (Option Blk)) (SimpleQueue.Out (Option Blk)))) :
    ∀ {s : WorkQueue.State} {g : Que → G} {g' : G}, Rel n w g s → TSteps (SimpleQueue.actualSpec _) (g x) tr g' → erase tr = [] →
    ∃ bs s', (∀ a ∈ bs, ∃ u, a = .move u 0 ∧ (g x).st u ≠ .idle) ∧ (WorkQueue.sys n).run s bs = some (s', []) ∧ Rel n w (setQ g x g') s' ∧
      (∀ u, (g x).st u = .idle → g'.st u = .idle) ∧
      ∀ u m, Full.pot (w.loc u) m (fun y => (setQ g x g' y).st u) ≤ 20 * moves u bs + Full.pot (w.loc u) m (fun y => (g y).st u) := by
  induction tr with
  | nil =>
    intro s g g' r h _; cases h
    exact ⟨[], s, (by intro a h; cases h), rfl, by rw [setQ_self]; exact r, fun _ h => h, fun u m => by rw [setQ_self]; simp [moves]⟩
  | cons e tr ih =>
    intro s g g' r ⟨g1, h1, h2⟩ he
    cases e with
    | call t op => cases he
    | ret t o => cases he
    | lin t op o =>
      obtain ⟨s1, e1, r1⟩ := r.lin h1 0
      obtain ⟨bs, s', hb, e2, r2, hi, hp⟩ := ih (g := setQ g x g1) r1 (by rw [setQ_same]; exact h2) he
      rw [setQ_setQ] at r2
      simp only [setQ_setQ, setQ_same] at hp hb hi
      have hst : (g x).st t = .pending op ∧ g1.st = upd (g x).st t (.done o) := by
        generalize g x = gx at h1
        cases h1 with
        | lin h _ => exact ⟨h, rfl⟩
      refine ⟨.move t 0 :: bs, s', ?_, ?_, r2, ?_, fun u m => ?_⟩
      · intro a hm
        rcases List.mem_cons.1 hm with rfl | hm
        · exact ⟨t, rfl, by rw [hst.1]; simp⟩
        · obtain ⟨u, rfl, hu⟩ := hb a hm
          refine ⟨u, rfl, fun h => hu ?_⟩
          rw [hst.2]
          by_cases e : u = t
          · subst e; rw [hst.1] at h; cases h
          · rw [upd_ne _ _ e]; exact h
      · simp [Sys.run, Sys.exec, e1, e2]
      · intro u h
        refine hi u ?_
        rw [hst.2]
        by_cases e : u = t
        · subst e; rw [hst.1] at h; cases h
        · rw [upd_ne _ _ e]; exact h
      · refine Nat.le_trans (hp u m) ?_
        have : Full.pot (w.loc u) m (fun y => (setQ g x g1 y).st u) ≤ (if t = u then 20 else 0) + Full.pot (w.loc u) m (fun y => (g y).st u) := by
          by_cases e : t = u
          · subst e
            unfold Full.pot
            split
            · omega
            · rename_i y op' _
              unfold setQ
              by_cases e : y = x
              · subst e
                simp only [if_true, hst.2, upd_same, hst.1]; omega
              · simp only [if_neg e]; omega
          · rw [setQ_apply (fun a : G => a.st u) g x g1 (by rw [hst.2, upd_ne _ _ (Ne.symm e)])]; omega
        simp only [moves]
        split at this <;> rename_i e <;> simp only [e, if_true, if_false] <;> omega

/-- the moment of a return in a trace with no other visible event -/
theorem erase_ret {Op Out : Type} {t : Nat} {o : Out} (tr : List (TEvent Op Out)) (h : erase tr = [.ret t o]) :
    ∃ a b, tr = a ++ .ret t o :: b ∧ erase a = [] ∧ erase b = [] := by
  induction tr with
  | nil => cases h
  | cons e tr ih =>
    cases e with
    | call u op => simp [erase] at h
    | ret u o' =>
      simp only [erase, List.cons.injEq, Event.ret.injEq] at h
      obtain ⟨⟨rfl, rfl⟩, h⟩ := h
      exact ⟨[], tr, rfl, rfl, h⟩
    | lin u op o' =>
      obtain ⟨a, b, rfl, h1, h2⟩ := ih h
      exact ⟨_ :: a, b, rfl, h1, h2⟩

/-- The relation with the states of the queues; only threads in `P` are inside queues. -/
structure Related (n : Nat) (P : Nat → Prop) (f : State) (g : Que → G) (s : WorkQueue.State) : Prop where
  rel : Rel n f.w g s
  queues : ∀ x, SimpleQueue.R (f.q x) (g x)
  others : ∀ u, ¬ P u → ∀ x, (g x).st u = .idle

/-- a thread with status idle is in no call -/
theorem status_idle {q : SimpleQueue.State (Option Blk)} {g : G} (r : SimpleQueue.R q g) {t : Nat} (h : g.st t = .idle) : q.loc t = .idle := by
  have h1 := r.status t
  rw [h] at h1
  generalize hl : q.loc t = l at h1
  cases l with
  | oCheck c v => cases c <;> cases v <;> cases h1
  | oFlag => simp only [SimpleQueue.status] at h1; split at h1 <;> cases h1
  | crash =>
    have := r.data
    rw [r.locks.puller_eq hl rfl] at this
    exact absurd this id
  | idle => rfl
  | _ => cases h1

theorem idle_status {q : SimpleQueue.State (Option Blk)} {g : G} (r : SimpleQueue.R q g) {t : Nat} (h : q.loc t = .idle) : g.st t = .idle := by
  rw [r.status t, h]; rfl

theorem related_move {n t c : Nat} {P : Nat → Prop} {f f' : State} {g : Que → G} {s : WorkQueue.State} {o : Option Out} (k : Related n P f g s)
    (ht : P t) (h : (sys n).move t c f = some (f', o)) :
    ∃ bs s' g', (∀ a ∈ bs, ∃ u c, a = .move u c ∧ P u) ∧ (WorkQueue.sys n).run s bs = some (s', retEvents t o) ∧ Related n P f' g' s' ∧
      ∀ u, f'.pot g' u + (if t = u then 1 else 0) ≤ 21 * moves u bs + f.pot g u := by
  obtain ⟨r, hq, hP⟩ := k
  simp only [sys, State.step] at h
  split at h
  · rename_i hl
    simp only [Option.map_eq_some_iff] at h
    obtain ⟨⟨w', o'⟩, h, e⟩ := h
    cases e
    obtain ⟨s', h1, r'⟩ := r.local hl h
    refine ⟨[.move t c], s', g, (by intro a hm; simp at hm; exact ⟨t, c, hm, ht⟩), ?_, ⟨r', hq, hP⟩, fun u => ?_⟩
    · have : (WorkQueue.sys n).move t c s = some (s', o') := h1
      simp only [Sys.run, Sys.exec, this, Option.map_some, Option.bind_some, List.append_nil]
      cases o' <;> rfl
    · by_cases e : t = u
      · subst e
        have : f.pot g t = 0 := by unfold State.pot Full.pot; rw [hl]
        have h2 := pot_idle (l := w'.loc t) (m := fun x => (f.q x).loc t) ((r.at_ t).local hl).1
        simp only [moves, if_true, State.pot] at *; omega
      · obtain ⟨a, l', e1, e2⟩ := step_loc h
        have : State.pot { f with w := w' } g u = f.pot g u := by
          unfold State.pot
          simp only [e1, upd_ne _ _ (Ne.symm e)]
          rcases e2.1 u with h3 | ⟨h3, h4⟩
          · rw [h3]
          · rw [h3, h4]; rfl
        simp only [moves, if_neg e, this]; omega
  · rename_i x op hl
    split at h
    · rename_i hi
      simp only [Option.map_eq_some_iff] at h
      obtain ⟨q', h, e⟩ := h
      cases e
      obtain ⟨h1, h2⟩ := SimpleQueue.simulation.call (hq x) trivial h
      refine ⟨[], s, _, (by intro a hm; cases hm), rfl, ⟨r.begin hl h1, fun y => ?_, fun u hu y => ?_⟩, fun u => ?_⟩
      · show SimpleQueue.R (setQ f.q x q' y) _
        unfold setQ; split
        · exact h2
        · exact hq y
      · unfold setQ; split
        · simp only; rw [upd_ne _ _ (by rintro rfl; exact hu ht)]; exact hP u hu x
        · exact hP u hu y
      · have hc : q' = (f.q x).goto t (SimpleQueue.State.start op) := by
          simp only [SimpleQueue.sys, SimpleQueue.State.call, hi] at h
          exact (Option.some.inj h).symm
        subst hc
        simp only [moves]
        by_cases e : t = u
        · subst e
          unfold State.pot Full.pot
          rw [hl]
          simp only [setQ_same, upd_same, h1, SimpleQueue.State.goto, if_true]
          have : SimpleQueue.rank (SimpleQueue.State.start op) ≤ 18 := by cases op <;> simp [SimpleQueue.State.start, SimpleQueue.rank]
          omega
        · simp only [if_neg e]
          have : State.pot { f with q := setQ f.q x ((f.q x).goto t (SimpleQueue.State.start op)) }
              (setQ g x ⟨(g x).q, upd (g x).st t (.pending op)⟩) u = f.pot g u := by
            unfold State.pot
            simp only
            rw [setQ_apply (fun a : G => a.st u) g x _ (upd_ne _ _ (Ne.symm e)),
              setQ_apply (fun a : SimpleQueue.State (Option Blk) => a.loc u) f.q x _ (upd_ne _ _ (Ne.symm e))]
          omega
    · rename_i hi
      simp only [Option.map_eq_some_iff] at h
      obtain ⟨⟨q', o'⟩, h, e⟩ := h
      obtain ⟨tr, g', t1, t2, r'⟩ := SimpleQueue.simulation.move (hq x) h
      have hq' : ∀ y, SimpleQueue.R (setQ f.q x q' y) (setQ g x g' y) := by
        intro y; unfold setQ; split
        · exact r'
        · exact hq y
      have hst : (g x).st t ≠ .idle := fun h => hi (status_idle (hq x) h)
      have hPb : ∀ {u}, (g x).st u ≠ .idle → P u := fun {u} h => Classical.byContradiction fun hn => h (hP u hn x)
      -- the step in the queue lowers the rank of `t`
      have hp : ∀ u, Full.pot (f.w.loc u) (fun y => (setQ f.q x q' y).loc u) (fun y => (g y).st u) + (if t = u then 1 else 0) ≤ f.pot g u := by
        intro u
        obtain ⟨l', e1, e2⟩ := SimpleQueue.step_rank (l := (f.q x).loc t) h
        by_cases e : t = u
        · subst e
          unfold State.pot Full.pot
          rw [hl]
          simp only [setQ_same, e1, upd_same, if_true]
          split
          · rename_i h; exact absurd h hst
          · omega
          · omega
        · unfold State.pot
          rw [if_neg e, setQ_apply (fun a : SimpleQueue.State (Option Blk) => a.loc u) f.q x q' (by rw [e1, upd_ne _ _ (Ne.symm e)])]
          omega
      cases o' with
      | none =>
        cases e
        obtain ⟨bs, s', hb, h1, h2, h3, h4⟩ := r.lins tr t1 t2
        refine ⟨bs, s', setQ g x g', fun a ha => ?_, h1, ⟨h2, hq', fun u hu y => ?_⟩, fun u => ?_⟩
        · obtain ⟨u, rfl, h⟩ := hb a ha; exact ⟨u, 0, rfl, hPb h⟩
        · unfold setQ; split
          · exact h3 u (hP u hu x)
          · exact hP u hu y
        · have := hp u
          have := h4 u fun y => (setQ f.q x q' y).loc u
          unfold State.pot at *
          simp only at *
          omega
      | some v =>
        cases e
        obtain ⟨a, b, rfl, h1, h2⟩ := erase_ret tr t2
        obtain ⟨g1, ha, hb⟩ := TSteps.append_iff.1 t1
        obtain ⟨g2, hb, hc⟩ := hb
        obtain ⟨as, s1, ho1, e1, r1, i1, p1⟩ := r.lins a ha h1
        have r2 := r1.ret (x := x) (by rw [setQ_same]; exact hb)
        rw [setQ_setQ] at r2
        obtain ⟨bs, s2, ho2, e2, r3, i3, p3⟩ := r2.lins (x := x) b (by rw [setQ_same]; exact hc) h2
        rw [setQ_setQ] at r3
        simp only [setQ_setQ, setQ_same] at p3 ho2 i3
        have hg2 : g1.st t = .done v ∧ g2.st = upd g1.st t .idle := by
          cases hb with
          | ret h => exact ⟨h, rfl⟩
        have i2 : ∀ u, g1.st u = .idle → g2.st u = .idle := by
          intro u hu
          rw [hg2.2]
          by_cases e : u = t
          · subst e; exact upd_same _ _ _
          · rw [upd_ne _ _ e]; exact hu
        refine ⟨as ++ bs, s2, setQ g x g', ?_, Sys.run_append as e1 e2, ⟨r3, hq', fun u hu y => ?_⟩, fun u => ?_⟩
        · intro ac hm
          rcases List.mem_append.1 hm with hm | hm
          · obtain ⟨u, rfl, h⟩ := ho1 ac hm; exact ⟨u, 0, rfl, hPb h⟩
          · obtain ⟨u, rfl, h⟩ := ho2 ac hm
            exact ⟨u, 0, rfl, hPb fun h' => h (i2 u (i1 u h'))⟩
        · unfold setQ; split
          · exact i3 u (i2 u (i1 u (hP u hu x)))
          · exact hP u hu y
        · have q0 := hp u
          have q1 := p1 u fun y => (setQ f.q x q' y).loc u
          have q3 := p3 u fun y => (setQ f.q x q' y).loc u
          rw [moves_append]
          have q2 : Full.pot ((f.w.goto t (next n t (f.w.loc t) v)).loc u) (fun y => (setQ f.q x q' y).loc u) (fun y => (setQ g x g2 y).st u) ≤
              Full.pot (f.w.loc u) (fun y => (setQ f.q x q' y).loc u) (fun y => (setQ g x g1 y).st u) := by
            rw [loc_goto]
            by_cases e : u = t
            · subst e
              have hat := r1.at_ u
              rw [upd_same]
              have hid : ∀ y, (setQ g x g2 y).st u = .idle := by
                intro y; unfold setQ; split
                · rw [hg2.2]; exact upd_same _ _ _
                · rename_i hy
                  have := (r.at_ u)
                  unfold At at this
                  rw [hl] at this
                  exact this.1 y hy
              refine Nat.le_trans (pot_idle hid) ?_
              unfold Full.pot
              rw [hl]
              simp only [setQ_same, hg2.1]
              omega
            · rw [upd_ne _ _ e]
              have : (fun y => (setQ g x g2 y).st u) = fun y => (setQ g x g1 y).st u := by
                funext y; unfold setQ; split
                · rw [hg2.2, upd_ne _ _ e]
                · rfl
              rw [this]; exact Nat.le_refl _
          unfold State.pot at *
          simp only at *
          omega

theorem related_call {n t : Nat} {P : Nat → Prop} {f f' : State} {g : Que → G} {s : WorkQueue.State} {op : Op} (k : Related n P f g s)
    (h : (sys n).call t op f = some f') : ∃ s', (WorkQueue.sys n).call t op s = some s' ∧ Related n P f' g s' := by
  obtain ⟨r, hq, hP⟩ := k
  simp only [sys, Option.map_eq_some_iff] at h
  obtain ⟨w', h, e⟩ := h
  cases e
  unfold WorkQueue.State.call at h
  split at h
  · rename_i hi
    cases h
    have hs : s.loc t = .idle := by
      have := r.at_ t
      rw [hi] at this
      exact (this.local rfl).2
    refine ⟨s.goto t (start n op), by simp only [WorkQueue.sys, WorkQueue.State.call, hs], ⟨?_, hq, hP⟩⟩
    exact r.goto (by rw [hi]; rfl) r.rest (fun _ => rfl) rfl rfl _
  · cases h

theorem related_init (n : Nat) (P : Nat → Prop) :
    Related n P (sys n).init (fun _ => (SimpleQueue.actualSpec _).ghost) (WorkQueue.sys n).init :=
  ⟨⟨rfl, fun x => by cases x <;> rfl, fun _ => At.new fun _ => rfl⟩, fun _ => SimpleQueue.R.init, fun _ _ _ => rfl⟩

/-- every execution -/
theorem related_run {n : Nat} {P : Nat → Prop} (as : List (Act Op)) : ∀ {f f' : State} {g : Que → G} {s : WorkQueue.State}
    {h : List (Event Op Out)}, Related n P f g s → (∀ a ∈ as, P (who a)) → (sys n).run f as = some (f', h) →
    ∃ bs s' g', (∀ a ∈ bs, P (who a)) ∧ (WorkQueue.sys n).run s bs = some (s', h) ∧ Related n P f' g' s' ∧
      (onlyMoves as → onlyMoves bs ∧ ∀ u, f'.pot g' u + moves u as ≤ 21 * moves u bs + f.pot g u) := by
  induction as with
  | nil =>
    intro f f' g s h k _ e; cases e
    exact ⟨[], s, g, (by intro a h; cases h), rfl, k, fun h => ⟨h, fun u => by simp [moves]⟩⟩
  | cons a as ih =>
    intro f f' g s h k hp e
    simp only [Sys.run, Option.bind_eq_some_iff, Option.map_eq_some_iff] at e
    obtain ⟨⟨f1, h1⟩, e1, ⟨f2, h2⟩, e2, e3⟩ := e
    cases e3
    have hp' : ∀ a ∈ as, P (who a) := fun a h => hp a (List.mem_cons_of_mem _ h)
    cases a with
    | call t op =>
      simp only [Sys.exec, Option.map_eq_some_iff] at e1
      obtain ⟨f3, e1, e3⟩ := e1
      cases e3
      obtain ⟨s1, e4, k1⟩ := related_call k e1
      obtain ⟨bs, s2, g2, ho, e5, k2, _⟩ := ih k1 hp' e2
      refine ⟨.call t op :: bs, s2, g2, ?_, ?_, k2, ?_⟩
      · intro b hb
        rcases List.mem_cons.1 hb with rfl | hb
        · exact hp (.call t op) (List.mem_cons_self ..)
        · exact ho b hb
      · simp [Sys.run, Sys.exec, e4, e5]
      · intro h; exact absurd (List.mem_cons_self ..) (h t op)
    | move t c =>
      simp only [Sys.exec, Option.map_eq_some_iff] at e1
      obtain ⟨⟨f3, o⟩, e1, e3⟩ := e1
      cases e3
      obtain ⟨bs1, s1, g1, ho1, e4, k1, p1⟩ := related_move k (hp (.move t c) (List.mem_cons_self ..) : P t) e1
      obtain ⟨bs, s2, g2, ho, e5, k2, p2⟩ := ih k1 hp' e2
      refine ⟨bs1 ++ bs, s2, g2, ?_, ?_, k2, ?_⟩
      · intro b hb
        rcases List.mem_append.1 hb with hb | hb
        · obtain ⟨u, c, rfl, hu⟩ := ho1 b hb; exact hu
        · exact ho b hb
      · have := Sys.run_append bs1 e4 e5
        rw [this]
        cases o <;> rfl
      · intro h
        obtain ⟨h3, h4⟩ := p2 fun u op hm => h u op (List.mem_cons_of_mem _ hm)
        refine ⟨fun u op hm => ?_, fun u => ?_⟩
        · rcases List.mem_append.1 hm with hm | hm
          · obtain ⟨_, _, h, _⟩ := ho1 _ hm; cases h
          · exact h3 u op hm
        · have : f3.pot g1 u + (if t = u then 1 else 0) ≤ 21 * moves u bs1 + f.pot g u := p1 u
          have := h4 u
          rw [moves_append]
          simp only [moves]
          omega

/-- the queues are in states that SimpleQueue can reach -/
theorem queues_reachable {n : Nat} (f : State) (h : (sys n).Reachable f) (x : Que) : (SimpleQueue.sys (Option Blk)).Reachable (f.q x) := by
  refine Sys.invariant (M := sys n) (fun f => ∀ x, (SimpleQueue.sys (Option Blk)).Reachable (f.q x)) ?_ ?_ ?_ f h x
  · intro x; exact ⟨[], [], rfl⟩
  · intro f t op f' hi h
    simp only [sys, Option.map_eq_some_iff] at h
    obtain ⟨w', h, e⟩ := h
    cases e; exact hi
  · intro f t c f' o hi h
    have ext : ∀ {x : Que} {a : Act (SimpleQueue.Op (Option Blk))} {q' : SimpleQueue.State (Option Blk)} {ev},
        (SimpleQueue.sys (Option Blk)).exec (f.q x) a = some (q', ev) → ∀ y, (SimpleQueue.sys (Option Blk)).Reachable (setQ f.q x q' y) := by
      intro x a q' ev he y
      unfold setQ; split
      · obtain ⟨as, h, e⟩ := hi x
        exact ⟨as ++ [a], h ++ (ev ++ []), Sys.run_append as e (by simp [Sys.run, he])⟩
      · exact hi y
    simp only [sys, State.step] at h
    split at h
    · simp only [Option.map_eq_some_iff] at h
      obtain ⟨r, h, e⟩ := h
      cases e; exact hi
    · rename_i x op hl
      split at h
      · simp only [Option.map_eq_some_iff] at h
        obtain ⟨q', h, e⟩ := h
        cases e
        exact ext (a := .call t op) (by simp only [Sys.exec, h, Option.map_some]; rfl)
      · simp only [Option.map_eq_some_iff] at h
        obtain ⟨⟨q', o'⟩, h, e⟩ := h
        have := ext (x := x) (a := .move t c) (by simp only [Sys.exec, h, Option.map_some]; rfl)
        cases o' <;> (cases e; exact this)

theorem next_idle {n t : Nat} (l : Loc) (o : SimpleQueue.Out (Option Blk)) : next n t l o ≠ .idle := by
  unfold next gotLoc
  split <;> (try split) <;> simp

theorem At.idle {n t : Nat} {l : Loc} {st : Que → St} (h : At n t l st .idle) : l = .idle := by
  unfold At at h
  split at h
  · exact h.2.symm
  · rename_i x op hq
    rcases h.2 with ⟨_, h⟩ | ⟨_, h⟩ | ⟨o, _, h⟩
    · exact h.symm
    · exact h.symm
    · exact absurd h.symm (next_idle _ _)

/-- the other threads stay where they are, unless they are woken -/
theorem move_other {n t c : Nat} {f f' : State} {o : Option Out} (h : (sys n).move t c f = some (f', o)) :
    f.w.loc t ≠ .idle ∧ ∀ u, u ≠ t → f.w.loc u = .idle → f'.w.loc u = .idle := by
  simp only [sys, State.step] at h
  split at h
  · simp only [Option.map_eq_some_iff] at h
    obtain ⟨⟨w', o'⟩, h, e⟩ := h
    cases e
    refine ⟨fun hl => ?_, fun u hu hi => ?_⟩
    · rw [hl] at h; cases h
    · obtain ⟨a, l', e1, e2⟩ := step_loc h
      simp only [e1, upd_ne _ _ hu]
      exact e2.awake hi (by simp)
  · rename_i x op hl
    refine ⟨fun h' => (by rw [h'] at hl; cases hl), fun u hu hi => ?_⟩
    split at h
    · simp only [Option.map_eq_some_iff] at h
      obtain ⟨q', h, e⟩ := h
      cases e; exact hi
    · simp only [Option.map_eq_some_iff] at h
      obtain ⟨⟨q', o'⟩, h, e⟩ := h
      cases o' with
      | none => cases e; exact hi
      | some v => cases e; rw [loc_goto, upd_ne _ _ hu]; exact hi

theorem moves_busy {n : Nat} {ts : List Nat} (as : List (Act Op)) : ∀ {f f' : State} {h : List (Event Op Out)},
    (∀ u, u ∉ ts → f.w.loc u = .idle) → onlyMoves as → (sys n).run f as = some (f', h) → ∀ a ∈ as, who a ∈ ts := by
  induction as with
  | nil => intro f f' h _ _ _ a ha; cases ha
  | cons b as ih =>
    intro f f' h hi ho e a ha
    simp only [Sys.run, Option.bind_eq_some_iff, Option.map_eq_some_iff] at e
    obtain ⟨⟨f1, h1⟩, e1, ⟨f2, h2⟩, e2, e3⟩ := e
    cases e3
    cases b with
    | call t op => exact absurd (List.mem_cons_self ..) (ho t op)
    | move t c =>
      simp only [Sys.exec, Option.map_eq_some_iff] at e1
      obtain ⟨⟨f3, o⟩, e1, e3⟩ := e1
      cases e3
      obtain ⟨h3, h4⟩ := move_other e1
      have ht : t ∈ ts := Classical.byContradiction fun hn => h3 (hi t hn)
      rcases List.mem_cons.1 ha with rfl | ha
      · exact ht
      · exact ih (fun u hu => h4 u (by rintro rfl; exact hu ht) (hi u hu)) (fun u op hm => ho u op (List.mem_cons_of_mem _ hm)) e2 a ha

theorem length_le_sum {ts : List Nat} (as : List (Act Op)) (ho : onlyMoves as) (h : ∀ a ∈ as, who a ∈ ts) :
    as.length ≤ (ts.map fun u => moves u as).sum := by
  induction as with
  | nil => exact Nat.zero_le _
  | cons a as ih =>
    have := ih (fun u op hm => ho u op (List.mem_cons_of_mem _ hm)) (fun a hm => h a (List.mem_cons_of_mem _ hm))
    cases a with
    | call t op => exact absurd (List.mem_cons_self ..) (ho t op)
    | move t c =>
      have hm : t ∈ ts := h (.move t c) (List.mem_cons_self ..)
      have : 1 + (ts.map fun u => moves u as).sum ≤ (ts.map fun u => moves u (.move t c :: as)).sum := by
        clear ih this h ho
        simp only [moves]
        induction ts with
        | nil => cases hm
        | cons v ts ih =>
          simp only [List.map_cons, List.sum_cons]
          have mono : (ts.map fun u => moves u as).sum ≤ (ts.map fun u => (if t = u then 1 else 0) + moves u as).sum := by
            clear ih hm
            induction ts with
            | nil => exact Nat.le_refl _
            | cons v ts ih => simp only [List.map_cons, List.sum_cons]; omega
          rcases List.mem_cons.1 hm with rfl | hm
          · simp only [if_true]; omega
          · have := ih hm; omega
      simp only [List.length_cons]; omega

theorem sum_le_length {ts : List Nat} (hn : ts.Nodup) (as : List (Act Op)) : (ts.map fun u => moves u as).sum ≤ as.length := by
  induction as with
  | nil =>
    have : ∀ ts : List Nat, (ts.map fun u => moves u []).sum = 0 := by
      intro ts; induction ts with
      | nil => rfl
      | cons v ts ih => simp only [List.map_cons, List.sum_cons, ih]; rfl
    rw [this]; exact Nat.zero_le _
  | cons a as ih =>
    cases a with
    | call t op => simp only [moves, List.length_cons]; omega
    | move t c =>
      have : (ts.map fun u => moves u (.move t c :: as)).sum ≤ (if t ∈ ts then 1 else 0) + (ts.map fun u => moves u as).sum := by
        clear ih
        simp only [moves]
        induction ts with
        | nil => exact Nat.le_refl _
        | cons v ts ih =>
          simp only [List.map_cons, List.sum_cons]
          have hn' := List.nodup_cons.1 hn
          have := ih hn'.2
          by_cases e : t = v
          · subst e
            simp only [if_true, List.mem_cons_self]
            rw [if_neg hn'.1] at this
            omega
          · simp only [List.mem_cons, e, false_or, if_false]
            omega
      simp only [List.length_cons]
      split at this <;> omega

end Verif.WorkQueue.Full
