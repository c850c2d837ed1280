import Verif.WorkQueue.Inner.Spec
import Verif.WorkQueue.Props
import Verif.WorkQueue.PropsClose
import Verif.WorkQueue.Throw.Props

/-
A queue closed by one block: the executions are, up to the exception, executions in which another client closes the queue.
-/
namespace Verif.WorkQueue.Inner
open Verif.Conc WorkQueue.State

variable {n t c i0 w : Nat} {closes : Nat → Bool} {s s' : State} {o : Option Res} {h : List (Event Op Res)}

theorem submitted_append (i : Nat) (h h' : List (Event Op Res)) : submitted i (h ++ h') = submitted i h + submitted i h' := by
  induction h with
  | nil => simp [submitted]
  | cons e h ih => cases e <;> simp [submitted, ih] <;> omega

theorem submitted_ret (i t : Nat) (o : Option Res) : submitted i (retEvents (Op := Op) t o) = 0 := by
  cases o <;> rfl

/-- the positions of the first call of closeWorkerQueue -/
def onWay (l : Loc) : Prop := l = .cLock ∨ l = .cTest ∨ l = .cHalt ∨ inClose l = true

theorem onWay_closing {l : Loc} (h : onWay l) : closing l = true := by
  rcases h with rfl | rfl | rfl | h
  · rfl
  · rfl
  · rfl
  · exact closing_of_inClose h

theorem onWay_awake {l : Loc} (h : onWay l) : l ≠ .wSleep := by
  rintro rfl
  have := onWay_closing h
  cases this

/-- no block has closed the queue -/
structure Before (n : Nat) (s : State) (h' : List (Event Op Out)) : Prop where
  none : ∀ t op, .call t op ∈ h' → op.closes = false
  out : ∀ t, s.inside t = false
  free : ∀ t, t < n → s.q.loc (n + t) = .idle

/-- worker `w` is or has been in a call of closeWorkerQueue, made by block `i0` -/
structure Begun (n i0 w : Nat) (closes : Nat → Bool) (s : State) (h : List (Event Op Res)) (h' : List (Event Op Out)) : Prop where
  lt : w < n
  clo : closes i0 = true
  only : closedBy (n + w) h'
  way : onWay (s.q.loc (n + w))
  joins : ∀ j, s.q.joined j = true → ∃ k, s.q.loc (n + w) = .cJoin k false ∧ j < k
  free : ∀ u, u < n → u ≠ w → s.q.loc (n + u) = .idle
  phase : ((∀ t, s.inside t = true ↔ t = w) ∧ ∃ bs, s.q.loc w = .eRun i0 bs) ∨
    ((∀ t, s.inside t = false) ∧ s.q.loc (n + w) = .cJoin w false ∧ 1 ≤ s.q.runs i0 ∧ .ret w .threw ∈ h)

/-- the state is one of the plain model, in which the call is that of another client -/
structure Base (n i0 : Nat) (s : State) (h : List (Event Op Res)) (h' : List (Event Op Out)) : Prop where
  run : ∃ as, (WorkQueue.sys n).run (WorkQueue.sys n).init as = some (s.q, h')
  adds : WorkQueue.adds i0 h' = submitted i0 h

theorem Begun.closer (k : Begun n i0 w closes s h h') (b : Base n i0 s h h') : Closer n (n + w) s.q h' := by
  obtain ⟨as, e⟩ := b.run
  obtain ⟨x, kx⟩ := closer_run as e (closedBy_inTurn as e k.only)
  by_cases hx : n + w = x
  · subst hx; exact kx
  · have := kx.only _ hx
    rw [onWay_closing k.way] at this; cases this

theorem runs_le {q q' : WorkQueue.State} {l : Loc} {o : Option Out} (h : stepAt n q t c l = some (q', o)) (i : Nat) : q.runs i ≤ q'.runs i := by
  by_cases hl : ∃ j bs, l = .eRun j bs
  · obtain ⟨j, bs, rfl⟩ := hl
    obtain ⟨rfl, rfl⟩ := Prod.mk.inj (Option.some.inj h)
    simp only [runs_goto, upd]
    split <;> simp_all
  · rw [runs_step h (fun j bs e => hl ⟨j, bs, e⟩)]
    exact Nat.le_refl _

/-- the position of another thread -/
theorem other_loc {q q' : WorkQueue.State} {l : Loc} {o : Option Out} {u : Nat} (h : stepAt n q t c l = some (q', o)) (hu : u ≠ t)
    (ha : q.loc u ≠ .wSleep) : q'.loc u = q.loc u := by
  obtain ⟨a, l', e, w⟩ := step_loc h
  rw [e, upd_ne _ _ hu]
  exact w.awake rfl ha

theorem base_move {h' : List (Event Op Out)} {q' : WorkQueue.State} {oo : Option Out} {u : Nat} (b : Base n i0 s h h')
    (hm : stepAt n s.q u c (s.q.loc u) = some (q', oo)) (hq : s'.q = q') :
    Base n i0 s' (h ++ retEvents t o) (h' ++ retEvents u oo) := by
  obtain ⟨as, e⟩ := b.run
  refine ⟨⟨as ++ [.move u c], ?_⟩, ?_⟩
  · rw [hq]
    refine Sys.run_append as e ?_
    have hm' : (WorkQueue.sys n).move u c s.q = some (q', oo) := hm
    simp only [Sys.run, Sys.exec, hm', Option.map_some, Option.bind_some, List.append_nil]
    cases oo <;> rfl
  · rw [adds_append, adds_ret, submitted_append, submitted_ret, b.adds]

theorem closedBy_ret {x u : Nat} {h' : List (Event Op Out)} (k : closedBy x h') (oo : Option Out) : closedBy x (h' ++ retEvents u oo) := by
  intro t op hm hop
  rcases List.mem_append.1 hm with hm | hm
  · exact k t op hm hop
  · cases oo <;> simp [retEvents] at hm

/-- a step of another thread -/
theorem begun_other {h' : List (Event Op Out)} {q' : WorkQueue.State} {oo : Option Out} (k : Begun n i0 w closes s h h') (b : Base n i0 s h h')
    (hm : stepAt n s.q t c (s.q.loc t) = some (q', oo)) (ht : t ≠ n + w) (htw : ∀ bs, s.q.loc w = .eRun i0 bs → s.inside w = true → t ≠ w) :
    Begun n i0 w closes { s with q := q' } (h ++ retEvents t (oo.map .ret)) (h' ++ retEvents t oo) := by
  have kc := k.closer b
  have hl : q'.loc (n + w) = s.q.loc (n + w) := other_loc hm (Ne.symm ht) (onWay_awake k.way)
  have hj : q'.joined = s.q.joined := by
    rcases step_joined hm with h | ⟨k', b', e, _⟩
    · exact h
    · have := kc.only t ht
      rw [e] at this; cases this
  refine ⟨k.lt, k.clo, closedBy_ret k.only _, ?_, ?_, ?_, ?_⟩
  · show onWay (q'.loc (n + w)); rw [hl]; exact k.way
  · show ∀ j, q'.joined j = true → ∃ k, q'.loc (n + w) = .cJoin k false ∧ j < k
    rw [hl, hj]; exact k.joins
  · intro u hu huw
    have hi := k.free u hu huw
    show q'.loc (n + u) = .idle
    rw [other_loc hm (by rintro rfl; rw [hi] at hm; cases hm) (by rw [hi]; simp), hi]
  · rcases k.phase with ⟨h1, bs, h2⟩ | ⟨h1, h2, h3, h4⟩
    · refine .inl ⟨h1, bs, ?_⟩
      show q'.loc w = _
      rw [other_loc hm (Ne.symm (htw bs h2 ((h1 w).2 rfl))) (by rw [h2]; simp), h2]
    · refine .inr ⟨h1, ?_, Nat.le_trans h3 (runs_le hm i0), List.mem_append_left _ h4⟩
      show q'.loc (n + w) = _
      rw [hl, h2]

/-- a step of closeWorkerQueue -/
theorem begun_close {h' : List (Event Op Out)} {q' : WorkQueue.State} {oo : Option Out} (k : Begun n i0 w closes s h h') (b : Base n i0 s h h')
    (hi : ∀ t, s.inside t = true ↔ t = w) {bs : List (Option Blk)} (hw : s.q.loc w = .eRun i0 bs)
    (hne : ∀ l, s.q.loc (n + w) ≠ .cJoin w l)
    (hm : stepAt n s.q (n + w) c (s.q.loc (n + w)) = some (q', oo)) :
    Begun n i0 w closes { s with q := q' } h (h' ++ retEvents (n + w) oo) := by
  have kc := k.closer b
  have hjw : s.q.joined w = false := by
    cases hj : s.q.joined w with
    | false => rfl
    | true => have := kc.inv.joined w hj; rw [hw] at this; cases this
  have hlow : ∀ m, s.q.loc (n + w) = .cJoin m false → m ≤ w := by
    intro m hl
    apply Nat.le_of_not_lt
    intro hlt
    have := kc.low m hl w hlt
    rw [hjw] at this; cases this
  have hlw : q'.loc w = .eRun i0 bs := by
    rw [other_loc hm (by have := k.lt; omega) (by rw [hw]; simp), hw]
  have hway : onWay (q'.loc (n + w)) := by
    rcases k.way with hl | hl | hl | hl
    · rw [hl] at hm
      simp only [stepAt, State.lock] at hm
      split at hm
      · obtain ⟨rfl, rfl⟩ := Prod.mk.inj (Option.some.inj hm)
        rw [loc_goto, upd_same]; exact .inr (.inl rfl)
      · cases hm
    · have hh : s.q.halt = false := by
        cases hh : s.q.halt with
        | false => rfl
        | true =>
          rcases kc.done hh with h1 | h1
          · rw [hl] at h1; cases h1
          · rw [h1 w k.lt] at hjw; cases hjw
      rw [hl] at hm
      simp only [stepAt, hh] at hm
      obtain ⟨rfl, rfl⟩ := Prod.mk.inj (Option.some.inj hm)
      rw [loc_goto, upd_same]; exact .inr (.inr (.inl rfl))
    · rw [hl] at hm
      obtain ⟨rfl, rfl⟩ := Prod.mk.inj (Option.some.inj hm)
      rw [loc_goto, upd_same]; exact .inr (.inr (.inr rfl))
    · rcases (step_close hm (closing_of_inClose hl)).1 hl with h1 | h1
      · exact .inr (.inr (.inr h1))
      · have := hlow _ h1
        have := k.lt
        omega
  refine ⟨k.lt, k.clo, closedBy_ret k.only _, hway, ?_, ?_, .inl ⟨hi, bs, hlw⟩⟩
  rotate_left
  · intro u hu huw
    show q'.loc (n + u) = .idle
    rw [other_loc hm (by omega) (by rw [k.free u hu huw]; simp), k.free u hu huw]
  show ∀ j, q'.joined j = true → ∃ m, q'.loc (n + w) = .cJoin m false ∧ j < m
  intro j hj
  rcases step_joined hm with h1 | ⟨m, l, e1, e2, e3⟩
  · rw [h1] at hj
    obtain ⟨m, hl, hlt⟩ := k.joins j hj
    have hm1 := hlow m hl
    have hm2 : m ≠ w := by rintro rfl; exact hne _ hl
    rw [hl] at hm
    simp only [stepAt] at hm
    split at hm
    · have := k.lt; omega
    · split at hm
      · obtain ⟨rfl, rfl⟩ := Prod.mk.inj (Option.some.inj hm)
        exact ⟨m + 1, by rw [loc_goto, upd_same], by omega⟩
      · split at hm
        · obtain ⟨rfl, rfl⟩ := Prod.mk.inj (Option.some.inj hm)
          exact ⟨m + 1, by rw [loc_goto, upd_same], by omega⟩
        · cases hm
  · have hlf : l = false := by
      rcases k.way with h1 | h1 | h1 | h1
      · rw [h1] at e1; cases e1
      · rw [h1] at e1; cases e1
      · rw [h1] at e1; cases e1
      · rw [e1] at h1
        cases l with
        | false => rfl
        | true => cases h1
    subst hlf
    refine ⟨m + 1, e3, ?_⟩
    rw [e2] at hj
    by_cases ej : j = m
    · omega
    · rw [upd_ne _ _ ej] at hj
      obtain ⟨m', h1, h2⟩ := k.joins j hj
      rw [e1] at h1
      cases h1; omega

/-- a step after a block has begun to close the queue -/
theorem begun_move {h' : List (Event Op Out)} (hc : ∀ i, closes i = true → i = i0) (k : Begun n i0 w closes s h h') (b : Base n i0 s h h')
    (ha : submitted i0 h ≤ 1) (hm : s.step n closes t c = some (s', o)) :
    ∃ u oo, stepAt n s.q u c (s.q.loc u) = some (s'.q, oo) ∧ Begun n i0 w closes s' (h ++ retEvents t o) (h' ++ retEvents u oo) ∧
      Base n i0 s' (h ++ retEvents t o) (h' ++ retEvents u oo) := by
  have kc := k.closer b
  obtain ⟨as, e⟩ := b.run
  have once := (WorkQueue.at_most_once n as s.q h' e i0).2 (by rw [b.adds]; exact ha)
  have hplain : ∀ (_ : t ≠ n + w) (_ : ∀ bs, s.q.loc w = .eRun i0 bs → s.inside w = true → t ≠ w), s.plain n t c = some (s', o) →
      ∃ u oo, stepAt n s.q u c (s.q.loc u) = some (s'.q, oo) ∧ Begun n i0 w closes s' (h ++ retEvents t o) (h' ++ retEvents u oo) ∧
      Base n i0 s' (h ++ retEvents t o) (h' ++ retEvents u oo) := by
    intro h1 h2 h3
    simp only [State.plain, Option.map_eq_some_iff] at h3
    obtain ⟨⟨q', oo⟩, h3, h4⟩ := h3
    obtain ⟨rfl, rfl⟩ := Prod.mk.inj h4
    exact ⟨t, oo, h3, begun_other k b h3 h1 h2, base_move b h3 rfl⟩
  have hclo : s.closeStep n w c = some (s', o) → (∀ t, s.inside t = true ↔ t = w) → (∃ bs, s.q.loc w = .eRun i0 bs) →
      (∀ l, s.q.loc (n + w) ≠ .cJoin w l) → t = w →
      ∃ u oo, stepAt n s.q u c (s.q.loc u) = some (s'.q, oo) ∧ Begun n i0 w closes s' (h ++ retEvents t o) (h' ++ retEvents u oo) ∧
      Base n i0 s' (h ++ retEvents t o) (h' ++ retEvents u oo) := by
    rintro h3 hi ⟨bs, hw⟩ hne rfl
    simp only [State.closeStep, Option.map_eq_some_iff] at h3
    obtain ⟨⟨q', oo⟩, h3, h4⟩ := h3
    obtain ⟨rfl, rfl⟩ := Prod.mk.inj h4
    refine ⟨n + t, oo, h3, ?_, base_move b h3 rfl⟩
    simpa [retEvents] using begun_close k b hi hw hne h3
  unfold State.step at hm
  split at hm
  · rename_i htn
    have htw : t ≠ n + w := by omega
    split at hm
    · rename_i i bs hl
      split at hm
      · rename_i hci
        obtain rfl := hc i hci
        obtain ⟨g1, g2, g3, g4⟩ := once t (by rw [hl]; simp [fetched])
        rcases k.phase with ⟨hi, bs', hw⟩ | ⟨_, _, hr, _⟩
        rotate_left
        · omega
        obtain rfl := g1 w (by rw [hw]; simp [fetched])
        simp only [State.inner, (hi w).2 rfl, if_true] at hm
        split at hm
        · rename_i oo hl'
          have := onWay_closing k.way
          rw [hl'] at this; cases this
        · rename_i m l hl'
          split at hm
          · rename_i hj
            obtain ⟨rfl, hj⟩ := hj
            have hlf : l = false := by
              rcases k.way with h1 | h1 | h1 | h1
              · rw [h1] at hl'; cases hl'
              · rw [h1] at hl'; cases hl'
              · rw [h1] at hl'; cases hl'
              · rw [hl'] at h1
                cases l with
                | false => rfl
                | true => cases h1
            subst hlf
            simp only [State.finish] at hm
            obtain ⟨rfl, rfl⟩ := Prod.mk.inj (Option.some.inj hm)
            have hst : stepAt n s.q m c (s.q.loc m) = some ({ s.q with runs := upd s.q.runs i (s.q.runs i + 1) }.goto m (.eDone i bs), none) := by
              rw [hl]; rfl
            have hlw : ({ s.q with runs := upd s.q.runs i (s.q.runs i + 1) }.goto m (.eDone i bs)).loc (n + m) = .cJoin m false := by
              rw [loc_goto, upd_ne _ _ (by omega)]; exact hl'
            refine ⟨m, none, hst, ⟨k.lt, k.clo, closedBy_ret k.only _, ?_, ?_, ?_, .inr ⟨?_, hlw, ?_, ?_⟩⟩, base_move b hst rfl⟩
            rotate_left 2
            · intro u hu huw
              show upd s.q.loc m _ (n + u) = .idle
              rw [upd_ne _ _ (by omega)]; exact k.free u hu huw
            rotate_right 2
            · exact hlw ▸ .inr (.inr (.inr rfl))
            · intro j hj'
              obtain ⟨m', h1, h2⟩ := k.joins j hj'
              rw [hl'] at h1
              cases h1
              exact ⟨m, hlw, h2⟩
            · intro u
              by_cases eu : u = m
              · subst eu; exact upd_same _ _ _
              · show upd s.inside m false u = false
                rw [upd_ne _ _ eu]
                cases hu : s.inside u with
                | false => rfl
                | true => exact absurd ((hi u).1 hu) eu
            · show 1 ≤ upd s.q.runs i (s.q.runs i + 1) i
              rw [upd_same]; omega
            · simp [retEvents]
          · rename_i hj
            refine hclo hm hi ⟨_, hw⟩ ?_ rfl
            intro l' e'
            rw [hl'] at e'
            cases e'
            refine hj ⟨rfl, ?_⟩
            cases hjw : s.q.joined w with
            | false => rfl
            | true => have := kc.inv.joined w hjw; rw [hl] at this; cases this
        · rename_i hl'
          exact hclo hm hi ⟨_, hw⟩ (fun l' e' => hl' _ _ e') rfl
      · rename_i hci
        refine hplain htw ?_ hm
        rintro bs' hw _ rfl
        rw [hl] at hw
        cases hw
        exact hci k.clo
    · rename_i hl
      refine hplain htw ?_ hm
      rintro bs' hw _ rfl
      exact hl _ _ hw
  · split at hm
    · cases hm
    · have := k.lt
      exact hplain (by omega) (fun _ _ _ => by omega) hm

/-- a client makes a call that does not close the queue -/
theorem base_call {h' : List (Event Op Out)} {op : Op} (b : Base n i0 s h h') (hc : s.q.call n t op = some s'.q) :
    Base n i0 s' (h ++ [.call t op]) (h' ++ [.call t op]) := by
  obtain ⟨as, e⟩ := b.run
  refine ⟨⟨as ++ [.call t op], ?_⟩, ?_⟩
  · refine Sys.run_append as e ?_
    have hc' : (WorkQueue.sys n).call t op s.q = some s'.q := hc
    simp only [Sys.run, Sys.exec, hc', Option.map_some, Option.bind_some, List.append_nil]
  · rw [adds_append, submitted_append, b.adds]
    simp [WorkQueue.adds, submitted]

theorem begun_call {h' : List (Event Op Out)} {op : Op} {q' : WorkQueue.State} (k : Begun n i0 w closes s h h') (hop : op.closes = false)
    (ht : 2 * n ≤ t) (hc : s.q.call n t op = some q') :
    Begun n i0 w closes { s with q := q' } (h ++ [.call t op]) (h' ++ [.call t op]) := by
  obtain ⟨hid, rfl⟩ := call_eq hc
  have hlt := k.lt
  have hl : ∀ u, u < 2 * n → (s.q.goto t (start n op)).loc u = s.q.loc u := by
    intro u hu
    rw [loc_goto, upd_ne _ _ (by omega)]
  refine ⟨k.lt, k.clo, ?_, ?_, ?_, ?_, ?_⟩
  · intro u op' hm hcl
    rcases List.mem_append.1 hm with hm | hm
    · exact k.only u op' hm hcl
    · simp at hm; obtain ⟨rfl, rfl⟩ := hm; rw [hop] at hcl; cases hcl
  · show onWay ((s.q.goto t (start n op)).loc (n + w)); rw [hl _ (by omega)]; exact k.way
  · show ∀ j, s.q.joined j = true → ∃ k, (s.q.goto t (start n op)).loc (n + w) = .cJoin k false ∧ j < k
    rw [hl _ (by omega)]; exact k.joins
  · intro u hu huw
    show (s.q.goto t (start n op)).loc (n + u) = .idle
    rw [hl _ (by omega)]; exact k.free u hu huw
  · rcases k.phase with ⟨h1, bs, h2⟩ | ⟨h1, h2, h3, h4⟩
    · refine .inl ⟨h1, bs, ?_⟩
      show (s.q.goto t (start n op)).loc w = _
      rw [hl _ (by omega), h2]
    · refine .inr ⟨h1, ?_, h3, List.mem_append_left _ h4⟩
      show (s.q.goto t (start n op)).loc (n + w) = _
      rw [hl _ (by omega), h2]

theorem shuts_zero {h' : List (Event Op Out)} (hn : ∀ t op, .call t op ∈ h' → op.closes = false) : Throw.shuts h' = 0 := by
  induction h' with
  | nil => rfl
  | cons e h' ih =>
    cases e with
    | call t op =>
      simp only [Throw.shuts, hn t op (by simp)]
      simpa using ih fun t op hm => hn t op (by simp [hm])
    | ret t o => exact ih fun t op hm => hn t op (by simp [hm])

/-- every state is one of the plain model -/
theorem phases (hc : ∀ i, closes i = true → i = i0) (as : List (Act Op)) (e : (sys n closes).run (sys n closes).init as = some (s, h))
    (ha : submitted i0 h ≤ 1) (hx : notByClients h) :
    ∃ h', Base n i0 s h h' ∧ (Before n s h' ∨ ∃ w, Begun n i0 w closes s h h') := by
  have key := Sys.run_history (M := sys n closes) (I := fun s h => submitted i0 h ≤ 1 → notByClients h →
    ∃ h', Base n i0 s h h' ∧ (Before n s h' ∨ ∃ w, Begun n i0 w closes s h h')) ?_ ?_ as (h0 := []) ?_ e
  · simpa using key ha hx
  · intro s t op s' h ih hcall ha hx
    rw [submitted_append] at ha
    obtain ⟨h', b, k⟩ := ih (by omega) (fun t op hm => hx t op (List.mem_append_left _ hm))
    simp only [sys] at hcall
    split at hcall
    · cases hcall
    rename_i ht
    simp only [Option.map_eq_some_iff] at hcall
    obtain ⟨q', hcall, rfl⟩ := hcall
    have hop := hx t op (by simp)
    refine ⟨h' ++ [.call t op], base_call b hcall, ?_⟩
    rcases k with k | ⟨w, k⟩
    · refine .inl ⟨?_, k.out, ?_⟩
      · intro u op' hm
        rcases List.mem_append.1 hm with hm | hm
        · exact k.none u op' hm
        · simp at hm; obtain ⟨rfl, rfl⟩ := hm; exact hop
      · intro u hu
        obtain ⟨_, rfl⟩ := call_eq hcall
        show (s.q.goto t _).loc (n + u) = .idle
        rw [loc_goto, upd_ne _ _ (by omega)]; exact k.free u hu
    · exact .inr ⟨w, begun_call k hop (by omega) hcall⟩
  · intro s t c s' o h ih hm ha hx
    have hmove : s.step n closes t c = some (s', o) := hm
    rw [submitted_append, submitted_ret] at ha
    obtain ⟨h', b, k⟩ := ih (by omega) (fun t op hm => hx t op (List.mem_append_left _ hm))
    rcases k with k | ⟨w, k⟩
    rotate_left
    · obtain ⟨u, oo, _, k', b'⟩ := begun_move hc k b (by omega) hmove
      exact ⟨_, b', .inr ⟨w, k'⟩⟩
    have hplain : (t < n ∨ 2 * n ≤ t) → s.plain n t c = some (s', o) → ∃ h', Base n i0 s' (h ++ retEvents t o) h' ∧
        (Before n s' h' ∨ ∃ w, Begun n i0 w closes s' (h ++ retEvents t o) h') := by
      intro ht h3
      simp only [State.plain, Option.map_eq_some_iff] at h3
      obtain ⟨⟨q', oo⟩, h3, h4⟩ := h3
      obtain ⟨rfl, rfl⟩ := Prod.mk.inj h4
      refine ⟨_, base_move b h3 rfl, .inl ⟨?_, k.out, ?_⟩⟩
      · intro u op' hm
        rcases List.mem_append.1 hm with hm | hm
        · exact k.none u op' hm
        · cases oo <;> simp [retEvents] at hm
      · intro u hu
        show q'.loc (n + u) = .idle
        rw [other_loc h3 (by omega) (by rw [k.free u hu]; simp)]
        exact k.free u hu
    unfold State.step at hmove
    split at hmove
    · rename_i htn
      split at hmove
      · rename_i i bs hl
        split at hmove
        · rename_i hci
          obtain rfl := hc i hci
          simp only [State.inner, k.out t] at hmove
          obtain ⟨rfl, rfl⟩ := Prod.mk.inj (Option.some.inj hmove)
          have hcall : s.q.call n (n + t) .close = some (s.q.goto (n + t) .cLock) := by
            simp [State.call, k.free t htn, start]
          have b' : Base n i ⟨s.q.goto (n + t) .cLock, upd s.inside t true⟩ (h ++ [.call (n + t) .close]) (h' ++ [.call (n + t) .close]) :=
            base_call b hcall
          obtain ⟨as', e'⟩ := b.run
          have hnj : ∀ j, s.q.joined j = false := by
            intro j
            cases hj : s.q.joined j with
            | false => rfl
            | true =>
              have h1 := ((Throw.single_run as' e').pre j hj).1
              have := shuts_zero k.none
              omega
          refine ⟨h' ++ [.call (n + t) .close], ⟨b'.run, ?_⟩, .inr ⟨t, htn, hci, ?_, ?_, ?_, ?_, .inl ⟨?_, bs, ?_⟩⟩⟩
          · have := b'.adds
            simpa [retEvents, submitted_append, submitted, Op.adds] using this
          · intro u op hm hcl
            rcases List.mem_append.1 hm with hm | hm
            · rw [k.none u op hm] at hcl; cases hcl
            · simp at hm; exact hm.1
          · exact .inl (by rw [loc_goto, upd_same])
          · intro j hj
            have hj : s.q.joined j = true := hj
            rw [hnj j] at hj; cases hj
          · intro u hu huw
            show (s.q.goto (n + t) .cLock).loc (n + u) = .idle
            rw [loc_goto, upd_ne _ _ (by omega)]; exact k.free u hu
          · intro u
            show upd s.inside t true u = true ↔ u = t
            by_cases eu : u = t
            · subst eu; simp [upd_same]
            · rw [upd_ne _ _ eu, k.out u]; simp [eu]
          · show (s.q.goto (n + t) .cLock).loc t = _
            rw [loc_goto, upd_ne _ _ (by omega), hl]
        · exact hplain (.inl htn) hmove
      · exact hplain (.inl htn) hmove
    · split at hmove
      · cases hmove
      · exact hplain (.inr (by omega)) hmove
  · intro _ _
    refine ⟨[], ⟨⟨[], rfl⟩, rfl⟩, .inl ⟨fun _ _ hm => (by cases hm), fun _ => rfl, fun t ht => ?_⟩⟩
    show (WorkQueue.State.init n).loc (n + t) = .idle
    simp only [WorkQueue.State.init]
    rw [if_neg (by omega)]

/-- the steps that follow without further calls -/
theorem follow (hc : ∀ i, closes i = true → i = i0) (bs : List (Act Op)) : ∀ {s s' : State} {h h2 : List (Event Op Res)} {h' : List (Event Op Out)},
    Begun n i0 w closes s h h' → Base n i0 s h h' → submitted i0 h ≤ 1 → onlyMoves bs → (sys n closes).run s bs = some (s', h2) →
    ∃ bs' h2', bs'.length = bs.length ∧ onlyMoves bs' ∧ (WorkQueue.sys n).run s.q bs' = some (s'.q, h2') ∧
      Begun n i0 w closes s' (h ++ h2) (h' ++ h2') ∧ Base n i0 s' (h ++ h2) (h' ++ h2') := by
  induction bs with
  | nil =>
    intro s s' h h2 h' k b _ _ e
    cases e
    exact ⟨[], [], rfl, fun _ _ hm => (by cases hm), rfl, by simpa using k, by simpa using b⟩
  | cons a bs ih =>
    intro s s' h h2 h' k b ha ho e
    simp only [Sys.run, Option.bind_eq_some_iff, Option.map_eq_some_iff] at e
    obtain ⟨⟨s1, h1⟩, e1, ⟨s2, h3⟩, e2, e3⟩ := e
    cases e3
    cases a with
    | call t op => exact absurd (by simp) (ho t op)
    | move t c =>
      simp only [Sys.exec, Option.map_eq_some_iff] at e1
      obtain ⟨⟨s3, o⟩, e1, e3⟩ := e1
      cases e3
      have e1 : s.step n closes t c = some (s3, o) := e1
      obtain ⟨u, oo, hm, k', b'⟩ := begun_move hc k b ha e1
      obtain ⟨bs', h2', g1, g2, g3, g4, g5⟩ := ih k' b' (by rw [submitted_append, submitted_ret]; omega)
        (fun t op hm => ho t op (by simp [hm])) e2
      refine ⟨.move u c :: bs', retEvents u oo ++ h2', by simp [g1], ?_, ?_, ?_, ?_⟩
      · intro t op hm
        rcases List.mem_cons.1 hm with hm | hm
        · cases hm
        · exact g2 t op hm
      · have hm' : (WorkQueue.sys n).move u c s.q = some (s3.q, oo) := hm
        simp only [Sys.run, Sys.exec, hm', Option.map_some, Option.bind_some, g3]
        cases oo <;> rfl
      · rw [← List.append_assoc]
        cases o <;> simpa [retEvents] using g4
      · rw [← List.append_assoc]
        cases o <;> simpa [retEvents] using g5

/-- a queue that nobody has closed is not halted -/
theorem before_halt {h' : List (Event Op Out)} (hn : 0 < n) (k : Before n s h') (b : Base n i0 s h h') : s.q.halt = false := by
  obtain ⟨as, e⟩ := b.run
  have hz := shuts_zero k.none
  have hs := Throw.single_run as e
  cases hh : s.q.halt with
  | false => rfl
  | true =>
    have hx : closedBy 0 h' := fun t op hm hop => by rw [k.none t op hm] at hop; cases hop
    obtain ⟨x, kx⟩ := closer_run as e (closedBy_inTurn as e hx)
    rcases kx.done hh with h1 | h1
    · have := hs.one x (closing_of_inClose h1); omega
    · have := (hs.pre 0 (h1 0 hn)).1; omega

theorem rest_worker {l : Loc} (ht : t < n) (h1 : waits l = true) (h2 : place n t l) (h3 : l ≠ .wLock ∧ l ≠ .wRelock ∧ l ≠ .cLock)
    (h4 : l ≠ .wSleep) : l = .exited := by
  cases l <;> simp_all [waits, place] <;> omega

theorem rest_client {l : Loc} (hn : 0 < n) (ht : n ≤ t) (h1 : waits l = true) (h2 : place n t l)
    (h3 : l ≠ .wLock ∧ l ≠ .wRelock ∧ l ≠ .cLock) (h4 : l ≠ .wSleep) (h5 : closing l = false) : l = .idle := by
  cases l <;> simp_all [waits, place, closing] <;> omega

/-- when nobody can go on, the block's call has thrown and all workers have exited -/
theorem begun_stuck {h' : List (Event Op Out)} (hc : ∀ i, closes i = true → i = i0) (k : Begun n i0 w closes s h h') (b : Base n i0 s h h')
    (ha : submitted i0 h ≤ 1) (hh : s.q.halt = true) (hst : stuck n closes s) :
    (∀ t, t < n → s.q.loc t = .exited) ∧ (∀ t, 2 * n ≤ t → s.q.loc t = .idle) ∧ .ret w .threw ∈ h ∧ (∀ j, s.q.joined j = true ↔ j < w) ∧
      s.q.owner = none := by
  have kc := k.closer b
  have hlt := k.lt
  -- everybody but the worker that runs the block, and its call, is stuck in the plain model
  have hstep : ∀ t, t ≠ n + w → (t = w → ∀ bs, s.q.loc w ≠ .eRun i0 bs) → s.q.loc t ≠ .wSleep → stepAt n s.q t 0 (s.q.loc t) = none := by
    intro t h1 h2 h3
    have := hst t 0 h3
    simp only [sys, State.step] at this
    split at this
    · have hp : s.plain n t 0 = none := by
        split at this
        · rename_i i bs hl
          split at this
          · rename_i hci
            obtain rfl := hc i hci
            rcases k.phase with ⟨g1, bs', g2⟩ | ⟨g1, _⟩
            · have htw : t ≠ w := by
                rintro rfl
                exact h2 rfl _ hl
              simp only [State.inner] at this
              have hin : s.inside t = false := by
                cases hin : s.inside t with
                | false => rfl
                | true => exact absurd ((g1 t).1 hin) htw
              rw [hin] at this
              cases this
            · simp only [State.inner, g1 t] at this
              cases this
          · exact this
        · exact this
      simp only [State.plain, Option.map_eq_none_iff] at hp
      exact hp
    · split at this
      · have := k.free (t - n) (by omega) (by omega)
        rw [show n + (t - n) = t by omega] at this
        rw [this]; rfl
      · simp only [State.plain, Option.map_eq_none_iff] at this
        exact this
  -- the block's call is at its joins
  have hfr : ∃ m, s.q.loc (n + w) = .cJoin m false ∧ (∀ bs, s.q.loc w = .eRun i0 bs → m < w ∧ s.q.joined m = false ∧ s.q.loc m ≠ .exited) := by
    rcases k.phase with ⟨g1, bs, g2⟩ | ⟨_, g2, g3, _⟩
    · have hjw : s.q.joined w = false := by
        cases hj : s.q.joined w with
        | false => rfl
        | true => have := kc.inv.joined w hj; rw [g2] at this; cases this
      have hin : inClose (s.q.loc (n + w)) = true := by
        rcases kc.done hh with h1 | h1
        · exact h1
        · rw [h1 w hlt] at hjw; cases hjw
      have hm := hst w 0 (by rw [g2]; simp)
      simp only [sys, State.step, if_pos hlt, g2, k.clo, if_true, State.inner, (g1 w).2 rfl] at hm
      have hcl : s.closeStep n w 0 = none → ∃ m, s.q.loc (n + w) = .cJoin m false ∧
          (∀ bs, s.q.loc w = .eRun i0 bs → m < w ∧ s.q.joined m = false ∧ s.q.loc m ≠ .exited) := by
        intro hz
        simp only [State.closeStep, Option.map_eq_none_iff] at hz
        have hw : waits (s.q.loc (n + w)) = true := by
          cases hw : waits (s.q.loc (n + w)) with
          | true => rfl
          | false => exact absurd hz (step_some hw)
        generalize hl : s.q.loc (n + w) = l at hin hw hz
        cases l with
        | cJoin m lk =>
          cases lk with
          | true => cases hin
          | false =>
            simp only [stepAt] at hz
            split at hz
            · cases hz
            · split at hz
              · cases hz
              · split at hz
                · cases hz
                · rename_i h1 h2 h3
                  refine ⟨m, rfl, fun _ _ => ⟨?_, by simpa using h2, h3⟩⟩
                  have hle : m ≤ w := by
                    apply Nat.le_of_not_lt
                    intro hlt'
                    have := kc.low m hl w hlt'
                    rw [hjw] at this; cases this
                  have hne : m ≠ w := by
                    rintro rfl
                    rw [hl] at hm
                    simp [State.finish, hjw] at hm
                  omega
        | _ => simp_all [inClose, waits]
      split at hm
      · cases hm
      · split at hm
        · cases hm
        · exact hcl hm
      · exact hcl hm
    · refine ⟨w, g2, fun bs hw => ?_⟩
      obtain ⟨as, e⟩ := b.run
      have := ((WorkQueue.at_most_once n as s.q h' e i0).2 (by rw [b.adds]; exact ha) w (by rw [hw]; simp [fetched])).2.2.1
      omega
  obtain ⟨m, hfl, hfm⟩ := hfr
  have hw : ∀ t, t ≠ n + w → (t = w → ∀ bs, s.q.loc w ≠ .eRun i0 bs) → waits (s.q.loc t) = true := by
    intro t h1 h2
    cases hc : waits (s.q.loc t) with
    | true => rfl
    | false => exact absurd (hstep t h1 h2 (by intro e; rw [e] at hc; cases hc)) (step_some hc)
  have hown : s.q.owner = none := by
    cases ho : s.q.owner with
    | none => rfl
    | some u =>
      have h1 := (kc.inv.owns u).2 ho
      have hu : u ≠ n + w := by rintro rfl; rw [hfl] at h1; cases h1
      have h2 := hw u hu (by rintro rfl bs e; rw [e] at h1; cases h1)
      have h3 := kc.only u hu
      cases hl : s.q.loc u <;> rw [hl] at h1 h2 h3 <;> simp [holds, waits, closing] at h1 h2 h3
  have hlock : ∀ t, s.q.loc t ≠ .wLock ∧ s.q.loc t ≠ .wRelock ∧ s.q.loc t ≠ .cLock := by
    intro t
    refine ⟨fun hl => ?_, fun hl => ?_, fun hl => ?_⟩ <;>
    · have h1 := hstep t (by rintro rfl; rw [hfl] at hl; cases hl) (by rintro rfl bs e; rw [e] at hl; cases hl) (by rw [hl]; simp)
      rw [hl] at h1
      simp [stepAt, State.lock, hown] at h1
  have hsl : ∀ t, s.q.loc t ≠ .wSleep := by
    rcases kc.inv.asleep hh with h | ⟨t, h⟩
    · exact h
    · have := hw t (by rintro rfl; rw [hfl] at h; cases h) (by rintro rfl bs e; rw [e] at h; cases h)
      generalize s.q.loc t = l at h this
      cases l <;> simp [WorkQueue.early, waits] at h this
  have hex : ∀ t, t < n → (t = w → ∀ bs, s.q.loc w ≠ .eRun i0 bs) → s.q.loc t = .exited := by
    intro t ht h0
    exact rest_worker ht (hw t (by omega) h0) (kc.inv.place t) (hlock t) (hsl t)
  have hne : ∀ bs, s.q.loc w ≠ .eRun i0 bs := by
    intro bs e
    obtain ⟨g1, g2, g3⟩ := hfm bs e
    exact g3 (hex m (by omega) (by omega))
  rcases k.phase with ⟨_, bs, g2⟩ | ⟨_, g2, _, g4⟩
  · exact absurd g2 (hne bs)
  refine ⟨fun t ht => hex t ht (fun _ => hne), fun t ht => ?_, g4, fun j => ⟨fun hj => ?_, fun hj => kc.low w g2 j hj⟩, hown⟩
  · have h0 : t ≠ n + w := by omega
    exact rest_client (by omega) (by omega) (hw t h0 (by omega)) (kc.inv.place t) (hlock t) (hsl t) (kc.only t h0)
  · obtain ⟨m', h1, h2⟩ := k.joins j hj
    rw [g2] at h1
    cases h1; exact h2

/-! ### Closing again -/

theorem plain_run {x : Nat} {q' : WorkQueue.State} {oo : Option Out} (hx : 2 * n ≤ x) (hm : stepAt n s.q x c (s.q.loc x) = some (q', oo)) :
    (sys n closes).run s [.move x c] = some ({ s with q := q' }, retEvents x (oo.map .ret)) := by
  have h1 : (sys n closes).move x c s = some ({ s with q := q' }, oo.map .ret) := by
    simp only [sys, State.step, if_neg (show ¬ x < n by omega), if_neg (show ¬ x < 2 * n by omega), State.plain, hm, Option.map_some]
  simp only [Sys.run, Sys.exec, h1, Option.map_some, Option.bind_some, List.append_nil]
  cases oo <;> rfl

theorem join_loop {x : Nat} (hx : 2 * n ≤ x) : ∀ (m k : Nat) (s : State), k + m = n → s.q.loc x = .cJoin k true →
    (∀ t, t < n → s.q.loc t = .exited) → (∀ j, j < k → s.q.joined j = true) →
    ∃ s', (sys n closes).run s (go x m) = some (s', []) ∧ s'.q.loc x = .cJoin n true ∧ (∀ t, t < n → s'.q.loc t = .exited) ∧
      ∀ j, j < n → s'.q.joined j = true := by
  intro m
  induction m with
  | zero =>
    intro k s hk hl he hj
    obtain rfl : k = n := by omega
    exact ⟨s, rfl, hl, he, hj⟩
  | succ m ih =>
    intro k s hk hl he hj
    have hstep : ∃ q', stepAt n s.q x 0 (s.q.loc x) = some (q', none) ∧ q'.loc x = .cJoin (k + 1) true ∧ (∀ t, t < n → q'.loc t = .exited) ∧
        ∀ j, j < k + 1 → q'.joined j = true := by
      rw [hl]
      simp only [stepAt, if_neg (show ¬ k = n by omega), he k (by omega), if_true]
      split
      · rename_i hjk
        refine ⟨_, rfl, by rw [loc_goto, upd_same], fun t ht => ?_, fun j hj' => ?_⟩
        · rw [loc_goto, upd_ne _ _ (by omega)]; exact he t ht
        · by_cases e : j = k
          · subst e; exact hjk
          · exact hj j (by omega)
      · refine ⟨_, rfl, by rw [loc_goto, upd_same], fun t ht => ?_, fun j hj' => ?_⟩
        · rw [loc_goto, upd_ne _ _ (by omega)]; exact he t ht
        · show upd s.q.joined k true j = true
          by_cases e : j = k
          · subst e; exact upd_same _ _ _
          · rw [upd_ne _ _ e]; exact hj j (by omega)
    obtain ⟨q', h1, h2, h3, h4⟩ := hstep
    obtain ⟨s', g1, g2⟩ := ih (k + 1) { s with q := q' } (by omega) h2 h3 h4
    refine ⟨s', ?_, g2⟩
    show (sys n closes).run s ([.move x 0] ++ go x m) = _
    have := Sys.run_append _ (plain_run (closes := closes) hx h1) g1
    simpa [retEvents] using this

end Verif.WorkQueue.Inner
