import Verif.Blocking.Seq
import Verif.Blocking.Single

/-
The blocking queues: linearizability of whole executions.
-/
namespace Verif.Blocking
open Verif.Conc

variable {α : Type} {s s' : State α} {t c : Nat} {w b : Bool} {g : Ghost (List α × List α) (Op α) (Out α)}

theorem ok_result (k : Kind) (x : α) : okRet (k.result x) := by
  unfold Kind.result; cases k.fate <;> exact ⟨by simp, by simp⟩

theorem afterTry_ret {k : Kind} {r : Option α} {o : Out α} (h : State.afterTry k r = .ret o) : okRet o := by
  have ok : ∀ v : Option α, okRet (.val v) := fun v => ⟨by simp, by simp⟩
  cases r with
  | some x => cases h; exact ok_result k x
  | none =>
    rcases k with f | f | ⟨f, d⟩ | f <;> try cases d
    all_goals simp only [State.afterTry] at h <;> cases h
    all_goals exact ok _

theorem stepAt_loc {l : Loc α} {o : Option (Out α)} (h : s.stepAt b t c l = some (s', o)) : s'.loc = upd s.loc t (s'.loc t) := by
  have lock : ∀ {x : Option (State α)}, x.map (·, (none : Option (Out α))) = some (s', o) →
      (∀ s1, x = some s1 → s1.loc = upd s.loc t (s1.loc t)) → s'.loc = upd s.loc t (s'.loc t) := by
    intro x hx hs
    simp only [Option.map_eq_some_iff] at hx
    obtain ⟨s1, e1, e2⟩ := hx; cases e2
    exact hs _ e1
  have pL : ∀ (l' : Loc α) s1, s.lockPull t l' = some s1 → s1.loc = upd s.loc t (s1.loc t) := by
    intro l' s1 h; obtain ⟨_, rfl⟩ := lockPull_some h; simp only [upd_same]
  have pU : ∀ (l' : Loc α) s1, s.lockPush t l' = some s1 → s1.loc = upd s.loc t (s1.loc t) := by
    intro l' s1 h; obtain ⟨_, rfl⟩ := lockPush_some h; simp only [upd_same]
  cases l with
  | oCheck ck k r =>
    cases ck with
    | lock => exact lock h (pU _)
    | _ => cases h; simp only [State.goto, State.unlockPush, upd_same]
  | _ =>
    first
    | exact lock h (pU _)
    | exact lock h (pL _)
    | (cases h; done)
    | (cases h; simp only [State.goto, State.unlockPush, State.unlockPull, upd_same]; done)
    | (simp only [State.stepAt] at h; split at h <;> cases h <;> simp only [State.goto, upd_same])

/-- only try_peek and empty can return the values in question -/
theorem stepAt_ret {l : Loc α} {o : Option (Out α)} {v : Out α} (h : s.stepAt b t c l = some (s', o)) (h1 : cls l ≠ 1)
    (h3 : cls l ≠ 3) (hr : s'.loc t = .ret v) : okRet v := by
  have unit : okRet (Out.unit : Out α) := ⟨by simp, by simp⟩
  have pL : ∀ l' : Loc α, (∀ v, l' ≠ .ret v) → (s.lockPull t l').map (·, none) = some (s', o) → okRet v := by
    intro l' hn h'
    simp only [Option.map_eq_some_iff] at h'
    obtain ⟨s1, h', e⟩ := h'; cases e
    obtain ⟨_, rfl⟩ := lockPull_some h'
    simp only [upd_same] at hr
    exact absurd hr (hn v)
  have pU : ∀ l' : Loc α, (∀ v, l' ≠ .ret v) → (s.lockPush t l').map (·, none) = some (s', o) → okRet v := by
    intro l' hn h'
    simp only [Option.map_eq_some_iff] at h'
    obtain ⟨s1, h', e⟩ := h'; cases e
    obtain ⟨_, rfl⟩ := lockPush_some h'
    simp only [upd_same] at hr
    exact absurd hr (hn v)
  cases l with
  | kUn r => exact absurd rfl h1
  | kLock d => exact absurd rfl h1
  | kPFront d => exact absurd rfl h1
  | kBack d => exact absurd rfl h1
  | oPFront k =>
    cases h
    simp only [State.goto, upd_same] at hr
    exact absurd hr (moveOut_ind (P := (· ≠ .ret v)) (next := .oPPop k) k _ (by simp) (by simp) (by simp))
  | oBack k =>
    cases h
    simp only [State.goto, upd_same] at hr
    exact absurd hr (moveOut_ind (P := (· ≠ .ret v)) (next := .oPop k) k _ (by simp) (by simp) (by simp))
  | wPFront k =>
    cases h
    simp only [State.goto, upd_same] at hr
    exact absurd hr (moveOut_ind (P := (· ≠ .ret v)) (next := .wPPop k) k _ (by simp) (by simp) (by simp))
  | wBack k =>
    cases h
    simp only [State.goto, upd_same] at hr
    exact absurd hr (moveOut_ind (P := (· ≠ .ret v)) (next := .wPop k) k _ (by simp) (by simp) (by simp))
  | wUn k x =>
    cases h
    simp only [State.goto, State.unlockPull, upd_same] at hr
    cases hr; exact ok_result k x
  | oLock k => cases b <;> exact pL _ (by simp) h
  | wLock k => cases b <;> exact pL _ (by simp) h
  | wRelock k d => cases b <;> exact pL _ (by simp) h
  | wTest k d =>
    cases h
    simp only [State.goto, upd_same] at hr
    cases d <;> split at hr <;> cases hr
  | eRead => exact absurd rfl h3
  | oCheck ck k r =>
    cases ck with
    | lock => exact pU _ (by simp) h
    | _ =>
      cases h
      simp only [State.goto, State.unlockPush, upd_same] at hr
      first
      | (cases hr; done)
      | (cases r <;> (first | (cases hr; done) | (split at hr <;> cases hr)))
      | (split at hr <;> cases hr)
  | oUnPull k r =>
    cases h
    simp only [State.goto, State.unlockPull, upd_same] at hr
    exact afterTry_ret hr
  | _ =>
    first
    | (refine pL _ ?_ h; simp; done)
    | (refine pU _ ?_ h; simp; done)
    | (cases h; done)
    | (cases h; simp only [State.goto, State.unlockPush, State.unlockPull, upd_same] at hr; cases hr; done)
    | (cases h; simp only [State.goto, State.unlockPush, State.unlockPull, upd_same] at hr; cases hr
       exact ⟨by simp, by simp⟩)
    | (cases h; simp only [State.goto, State.unlockPush, State.unlockPull, upd_same] at hr; split at hr <;> cases hr <;>
       first | done | exact ⟨by simp, by simp⟩)
    | (simp only [State.stepAt] at h; split at h <;> cases h <;> simp only [State.goto, upd_same] at hr <;> cases hr)
    | skip

/-- nobody is in try_peek or empty -/
def Quiet (s : State α) : Prop := ∀ u, cls (s.loc u) ≠ 1 ∧ cls (s.loc u) ≠ 3 ∧ ∀ v, s.loc u = .ret v → okRet v

theorem run_ok (as : List (Act (Op α))) : ∀ {s s' : State α} {h : List (Event (Op α) (Out α))}, Quiet s →
    (∀ t op, .call t op ∈ as → op ≠ .peek ∧ op ≠ .peekX ∧ op ≠ .empty) → (sys b α).run s as = some (s', h) → ∀ t o, .ret t o ∈ h → okRet o := by
  induction as with
  | nil => intro s s' h _ _ e t o hm; cases e; cases hm
  | cons a as ih =>
    intro s s' h q hc e t o hm
    simp only [Sys.run, Option.bind_eq_some_iff, Option.map_eq_some_iff] at e
    obtain ⟨⟨s1, h1⟩, e1, ⟨s2, h2⟩, e2, e3⟩ := e
    cases e3
    have hc' := fun t op (h : .call t op ∈ as) => hc t op (List.mem_cons_of_mem _ h)
    cases a with
    | call u op =>
      simp only [Sys.exec, Option.map_eq_some_iff] at e1
      obtain ⟨s3, e1, e3⟩ := e1
      cases e3
      have e1 : s.call b u op = some s1 := e1
      obtain ⟨l, hst, hl, rfl, _⟩ := call_locks e1
      rcases List.mem_append.1 hm with hm | hm
      · simp at hm
      · refine ih ?_ hc' e2 t o hm
        intro v
        by_cases e : v = u
        · subst e
          simp only [State.goto, upd_same]
          obtain ⟨n1, n1', n2⟩ := hc v op (by simp)
          rcases start_cases hst with ⟨i, rfl, rfl⟩ | ⟨i, rfl, rfl, _⟩ | ⟨k', rfl, rfl⟩ | ⟨x, rfl, rfl⟩ |
            ⟨rfl, rfl, _⟩ | ⟨rfl, rfl⟩ | ⟨rfl, rfl⟩ | ⟨rfl, rfl⟩ <;>
            first
            | (cases x <;> first | exact absurd rfl n1 | exact absurd rfl n1')
            | exact absurd rfl n2
            | (cases k' <;> simp [cls, Kind.cls])
            | simp [cls]
        · simp only [State.goto, upd_ne _ _ e]; exact q v
    | move u d =>
      simp only [Sys.exec, Option.map_eq_some_iff] at e1
      obtain ⟨⟨s3, o'⟩, e1, e3⟩ := e1
      cases e3
      have e1 : s.stepAt b u d (s.loc u) = some (s3, o') := e1
      obtain ⟨q1, q2, q3⟩ := q u
      rcases List.mem_append.1 hm with hm | hm
      · cases o' with
        | none => cases hm
        | some v =>
          simp only [List.mem_singleton, Event.ret.injEq] at hm
          obtain ⟨rfl, rfl⟩ := hm
          rcases (stepAt_out e1).1 with hr | ⟨x, hr, _⟩
          · exact q3 _ hr
          · exact absurd (by rw [hr]; rfl) q1
      · refine ih ?_ hc' e2 t o hm
        intro v
        by_cases e : v = u
        · subst e
          refine ⟨?_, ?_, fun w hw => stepAt_ret e1 q1 q2 hw⟩ <;>
            rcases (stepAt_region e1).2 with h | h <;> simp [h, q1, q2]
        · rw [stepAt_loc e1, upd_ne _ _ e]; exact q v

/-- what the queue holds: priority elements, normal elements -/
def State.contents (s : State α) : List α × List α := (s.prio, s.pull.reverse ++ s.push)

/-- no call is in progress but sleeping ones -/
def State.atRest (s : State α) : Prop := ∀ t, s.loc t = .idle ∨ ∃ k, s.loc t = .wSleep k

theorem atRest_split (k : Locks s) (h : s.atRest) : s.split.all = s.contents := by
  have : s.puller = none := by
    cases hp : s.pullOwner with
    | none => simp [State.puller, hp]
    | some u =>
      have hu := (k.pull u).2 hp
      rcases h u with h | ⟨_, h⟩ <;> rw [h] at hu <;> cases hu
  simp [State.split, this, Blocking.split, Parts.all, State.contents]

/-- All calls but size; results in question excluded. -/
theorem trace_all {f : Bool} {q0 : List α × List α} {s0 : State α} (k : K f b q0 s0 []) (as : List (Act (Op α)))
    {h : List (Event (Op α) (Out α))} (e : (sys b α).run s0 as = some (s, h)) (hn : ∀ t, .call t .size ∉ h)
    (he : f = false → ∀ t, .call t .empty ∉ h) (h1 : ∀ t, .ret t (.bool false) ∉ h) (h2 : ∀ t, .ret t (.peek none) ∉ h) :
    ∃ tr g, TSteps (twoSpec α) ⟨q0, fun _ => .idle⟩ tr g ∧ erase tr = h ∧ (s.atRest → g.q = s.contents) := by
  obtain ⟨tr, htr, k'⟩ := (traceSim f b q0).run_from as k
    (fun t op hm => ⟨fun e' => hn t (e' ▸ Sys.run_calls as e t op hm), fun hf e' => he hf t (e' ▸ Sys.run_calls as e t op hm)⟩)
    (fun t o hm => ⟨fun e' => h1 t (e' ▸ hm), fun e' => h2 t (e' ▸ hm)⟩) e
  obtain ⟨g, hg, r⟩ := k'.valid
  exact ⟨tr, g, hg, by simpa [erase] using htr, fun hr => by rw [r.queue, atRest_split r.locks hr]⟩

/-- Calls other than try_peek, size and empty. -/
theorem trace_plain {f : Bool} {q0 : List α × List α} {s0 : State α} (k : K f b q0 s0 []) (hq : Quiet s0) (as : List (Act (Op α)))
    {h : List (Event (Op α) (Out α))} (e : (sys b α).run s0 as = some (s, h))
    (hn : ∀ t op, .call t op ∈ h → op.observes = false) :
    ∃ tr g, TSteps (twoSpec α) ⟨q0, fun _ => .idle⟩ tr g ∧ erase tr = h ∧ (s.atRest → g.q = s.contents) := by
  have ok := run_ok as hq (fun t op hm => by
    have := hn t op (Sys.run_calls as e t op hm)
    refine ⟨?_, ?_, ?_⟩ <;> (intro e'; subst e'; cases this)) e
  exact trace_all k as e (fun t hm => by have := hn t _ hm; cases this) (fun _ t hm => by have := hn t _ hm; cases this)
    (fun t hm => (ok t _ hm).1 rfl) (fun t hm => (ok t _ hm).2 rfl)

theorem Quiet.init : Quiet (State.init : State α) := fun _ => ⟨by simp [State.init, cls], by simp [State.init, cls], by simp [State.init]⟩

/-- from two levels to one, if the priority channel is not used -/
theorem to_fifo {tr : List (TEvent (Op α) (Out α))} {q0 : List α} {g : Ghost (List α × List α) (Op α) (Out α)}
    (h : TSteps (twoSpec α) ⟨([], q0), fun _ => .idle⟩ tr g) (hp : ∀ t i, .call t (.prio i) ∉ erase tr) :
    TSteps (fifoSpec α) ⟨q0, fun _ => .idle⟩ tr ⟨g.q.2, g.st⟩ := by
  refine TSteps.map (sp := twoSpec α) (sp' := fifoSpec α) (fun q => q.2) (fun q => q.1 = []) (fun op => ∀ i, op ≠ .prio i) ?_ tr
    (g := ⟨([], q0), fun _ => .idle⟩) rfl (fun _ _ h => by cases h) (fun t op hm i e => hp t i (e ▸ hm)) h
  rintro ⟨p, q⟩ op q' o hp hop hs
  simp only at hp
  subst hp
  cases op with
  | prio i => exact absurd rfl (hop i)
  | ins i =>
    cases i <;> simp only [twoSpec, two, Option.some.injEq, Prod.mk.injEq] at hs <;>
      obtain ⟨rfl, rfl⟩ := hs <;> exact ⟨rfl, by simp [fifoSpec, fifo]⟩
  | tryPopX l | popX l | timedPopX l | popOrCallX l =>
    cases l <;> cases q <;>
      simp only [twoSpec, two, next?, Option.some.injEq, Prod.mk.injEq, reduceCtorEq, if_true, Bool.false_eq_true, if_false] at hs <;>
      obtain ⟨rfl, rfl⟩ := hs <;> exact ⟨rfl, by simp [fifoSpec, fifo]⟩
  | _ =>
    cases q <;> simp only [twoSpec, two, next?, Option.some.injEq, Prod.mk.injEq, reduceCtorEq] at hs <;>
      obtain ⟨rfl, rfl⟩ := hs <;> exact ⟨rfl, by simp [fifoSpec, fifo]⟩

/-- BlockingQueue has no priority channel -/
theorem no_prio_calls (as : List (Act (Op α))) : ∀ {s s' : State α} {h : List (Event (Op α) (Out α))},
    (sys false α).run s as = some (s', h) → ∀ t i, .call t (.prio i) ∉ h := by
  induction as with
  | nil => intro s s' h e t i hm; cases e; cases hm
  | cons a as ih =>
    intro s s' h e t i hm
    simp only [Sys.run, Option.bind_eq_some_iff, Option.map_eq_some_iff] at e
    obtain ⟨⟨s1, h1⟩, e1, ⟨s2, h2⟩, e2, e3⟩ := e
    cases e3
    rcases List.mem_append.1 hm with hm | hm
    · cases a with
      | call u op =>
        simp only [Sys.exec, Option.map_eq_some_iff] at e1
        obtain ⟨s3, e1, e3⟩ := e1
        cases e3
        simp only [List.mem_singleton, Event.call.injEq] at hm
        obtain ⟨rfl, rfl⟩ := hm
        simp only [sys, State.call, State.start] at e1
        split at e1 <;> simp at e1
      | move u d =>
        simp only [Sys.exec, Option.map_eq_some_iff] at e1
        obtain ⟨⟨s3, o'⟩, e1, e3⟩ := e1
        cases e3
        cases o' <;> simp at hm
    · exact ih e2 t i hm

/-- FIFO order: what is taken out is what was put in, in the same order. -/
theorem fifo_order (tr : List (TEvent (Op α) (Out α))) : ∀ {g g' : Ghost (List α) (Op α) (Out α)},
    (∀ t o, .lin t .clear o ∉ tr) → (∀ t op o, .lin t op o ∈ tr → op.loses = false) → TSteps (fifoSpec α) g tr g' → g.q ++ inserted tr = removed tr ++ g'.q := by
  induction tr with
  | nil => intro g g' _ _ h; cases h; simp [inserted, removed]
  | cons e tr ih =>
    intro g g' hc hx ⟨g1, h1, h2⟩
    have := ih (fun t o hm => hc t o (List.mem_cons_of_mem _ hm)) (fun t op o hm => hx t op o (List.mem_cons_of_mem _ hm)) h2
    cases h1 with
    | call hid => simpa [inserted, removed] using this
    | ret hid => simpa [inserted, removed] using this
    | @lin q st t op q' o hid hs =>
      cases op with
      | clear => exact absurd (List.mem_cons_self ..) (hc t o)
      | tryPopX l | popX l | timedPopX l | popOrCallX l =>
        have hl : l = false := hx t _ o (List.mem_cons_self ..)
        subst hl
        cases q <;> simp only [fifoSpec, fifo, Option.some.injEq, Prod.mk.injEq, reduceCtorEq, Bool.false_eq_true, if_false] at hs <;>
          obtain ⟨rfl, rfl⟩ := hs <;> simpa [inserted, removed] using this
      | ins i =>
        cases i <;> simp only [fifoSpec, fifo, Option.some.injEq, Prod.mk.injEq] at hs <;>
          obtain ⟨rfl, rfl⟩ := hs <;> simpa [inserted, removed] using this
      | _ =>
        cases q <;> simp only [fifoSpec, fifo, Option.some.injEq, Prod.mk.injEq, reduceCtorEq] at hs <;>
          obtain ⟨rfl, rfl⟩ := hs <;> simpa [inserted, removed] using this

/-- Whatever is thrown and cleared: what is taken out, and then what is left, was put in, in this order. -/
theorem fifo_sub (tr : List (TEvent (Op α) (Out α))) : ∀ {g g' : Ghost (List α) (Op α) (Out α)},
    TSteps (fifoSpec α) g tr g' → (removed tr ++ g'.q).Sublist (g.q ++ inserted tr) := by
  induction tr with
  | nil => intro g g' h; cases h; simp [inserted, removed]
  | cons e tr ih =>
    intro g g' ⟨g1, h1, h2⟩
    have := ih h2
    cases h1 with
    | call hid => simpa [inserted, removed] using this
    | ret hid => simpa [inserted, removed] using this
    | @lin q st t op q' o hid hs =>
      cases op with
      | clear =>
        cases hs
        simp only [inserted, removed]
        exact List.Sublist.trans this (List.sublist_append_right q (inserted tr))
      | tryPopX l | popX l | timedPopX l | popOrCallX l =>
        cases l <;> cases q <;>
          simp only [fifoSpec, fifo, Option.some.injEq, Prod.mk.injEq, reduceCtorEq, if_true, Bool.false_eq_true, if_false] at hs <;>
          obtain ⟨rfl, rfl⟩ := hs <;> first
          | (simpa [inserted, removed] using this; done)
          | (simp only [inserted, removed, List.cons_append]; exact this.cons _)
      | ins i =>
        cases i <;> simp only [fifoSpec, fifo, Option.some.injEq, Prod.mk.injEq] at hs <;>
          obtain ⟨rfl, rfl⟩ := hs <;> simpa [inserted, removed] using this
      | _ =>
        cases q <;> simp only [fifoSpec, fifo, Option.some.injEq, Prod.mk.injEq, reduceCtorEq] at hs <;>
          obtain ⟨rfl, rfl⟩ := hs <;> simpa [inserted, removed] using this

/-- Without clear, as many elements are missing as calls threw having removed one. -/
theorem fifo_count (tr : List (TEvent (Op α) (Out α))) : ∀ {g g' : Ghost (List α) (Op α) (Out α)},
    (∀ t o, .lin t .clear o ∉ tr) → TSteps (fifoSpec α) g tr g' →
    g.q.length + (inserted tr).length = (removed tr).length + g'.q.length + losses tr := by
  induction tr with
  | nil => intro g g' _ h; cases h; simp [inserted, removed, losses]
  | cons e tr ih =>
    intro g g' hc ⟨g1, h1, h2⟩
    have := ih (fun t o hm => hc t o (List.mem_cons_of_mem _ hm)) h2
    cases h1 with
    | call hid => simpa [inserted, removed, losses] using this
    | ret hid => simpa [inserted, removed, losses] using this
    | @lin q st t op q' o hid hs =>
      cases op with
      | clear => exact absurd (List.mem_cons_self ..) (hc t o)
      | tryPopX l | popX l | timedPopX l | popOrCallX l =>
        cases l <;> cases q <;>
          simp only [fifoSpec, fifo, Option.some.injEq, Prod.mk.injEq, reduceCtorEq, if_true, Bool.false_eq_true, if_false] at hs <;>
          obtain ⟨rfl, rfl⟩ := hs <;> simp [inserted, removed, losses, Op.loses] at this ⊢ <;> omega
      | ins i =>
        cases i <;> simp only [fifoSpec, fifo, Option.some.injEq, Prod.mk.injEq] at hs <;>
          obtain ⟨rfl, rfl⟩ := hs <;> simp [inserted, removed, losses, Op.loses] at this ⊢ <;> omega
      | _ =>
        cases q <;> simp only [fifoSpec, fifo, Option.some.injEq, Prod.mk.injEq, reduceCtorEq] at hs <;>
          obtain ⟨rfl, rfl⟩ := hs <;> simp [inserted, removed, losses, Op.loses] at this ⊢ <;> omega

/-- Nothing is lost, duplicated or invented: what is put in is, as a multiset, what is taken out and what is left. -/
theorem two_conserved (tr : List (TEvent (Op α) (Out α))) : ∀ {g g' : Ghost (List α × List α) (Op α) (Out α)},
    (∀ t o, .lin t .clear o ∉ tr) → (∀ t op o, .lin t op o ∈ tr → op.loses = false) → TSteps (twoSpec α) g tr g' →
    (g.q.1 ++ g.q.2 ++ inserted tr).Perm (removed tr ++ (g'.q.1 ++ g'.q.2)) := by
  induction tr with
  | nil => intro g g' _ _ h; cases h; simp [inserted, removed]
  | cons e tr ih =>
    intro g g' hc hx ⟨g1, h1, h2⟩
    have := ih (fun t o hm => hc t o (List.mem_cons_of_mem _ hm)) (fun t op o hm => hx t op o (List.mem_cons_of_mem _ hm)) h2
    cases h1 with
    | call hid => simpa [inserted, removed] using this
    | ret hid => simpa [inserted, removed] using this
    | @lin q st t op q' o hid hs =>
      obtain ⟨p, q⟩ := q
      cases op with
      | clear => exact absurd (List.mem_cons_self ..) (hc t o)
      | tryPopX l | popX l | timedPopX l | popOrCallX l =>
        have hl : l = false := hx t _ o (List.mem_cons_self ..)
        subst hl
        cases p <;> cases q <;> simp only [twoSpec, two, next?, Option.some.injEq, Prod.mk.injEq, reduceCtorEq, Bool.false_eq_true, if_false] at hs <;>
          obtain ⟨rfl, rfl⟩ := hs <;> simpa [inserted, removed] using this
      | ins i =>
        cases i <;> simp only [twoSpec, two, Option.some.injEq, Prod.mk.injEq] at hs <;>
          obtain ⟨rfl, rfl⟩ := hs <;> simpa [inserted, removed] using this
      | prio i =>
        cases i <;> simp only [twoSpec, two, Option.some.injEq, Prod.mk.injEq] at hs <;> obtain ⟨rfl, rfl⟩ := hs <;>
          first | (simpa [inserted, removed] using this; done) | skip
        all_goals
        simp only [inserted, removed]
        refine List.Perm.trans ?_ this
        simp only [List.append_assoc, List.singleton_append]
        exact (List.perm_append_left_iff p).2 (List.perm_middle (l₁ := q)) 
      | _ =>
        cases p <;> cases q <;> simp only [twoSpec, two, next?, Option.some.injEq, Prod.mk.injEq, reduceCtorEq] at hs <;>
          obtain ⟨rfl, rfl⟩ := hs <;> simpa [inserted, removed] using this

/-- Whatever is thrown and cleared: nothing is duplicated or invented; what is missing are the elements in `lost`. -/
theorem two_sub (tr : List (TEvent (Op α) (Out α))) : ∀ {g g' : Ghost (List α × List α) (Op α) (Out α)},
    TSteps (twoSpec α) g tr g' →
    ∃ lost : List α, (g.q.1 ++ g.q.2 ++ inserted tr).Perm (lost ++ (removed tr ++ (g'.q.1 ++ g'.q.2))) := by
  induction tr with
  | nil => intro g g' h; cases h; exact ⟨[], by simp [inserted, removed]⟩
  | cons e tr ih =>
    intro g g' ⟨g1, h1, h2⟩
    obtain ⟨lost, this⟩ := ih h2
    cases h1 with
    | call hid => exact ⟨lost, by simpa [inserted, removed] using this⟩
    | ret hid => exact ⟨lost, by simpa [inserted, removed] using this⟩
    | @lin q st t op q' o hid hs =>
      obtain ⟨p, q⟩ := q
      have pop : ∀ {x : α} {l : List α}, l.Perm (lost ++ (removed tr ++ (g'.q.1 ++ g'.q.2))) →
          (x :: l).Perm (lost ++ (x :: (removed tr ++ (g'.q.1 ++ g'.q.2)))) := fun h =>
        (h.cons _).trans List.perm_middle.symm
      cases op with
      | clear =>
        cases hs
        refine ⟨p ++ q ++ lost, ?_⟩
        simp only [inserted, removed, List.append_assoc]
        refine (List.perm_append_left_iff p).2 ((List.perm_append_left_iff q).2 ?_)
        simpa using this
      | tryPopX l | popX l | timedPopX l | popOrCallX l =>
        cases l <;> cases p <;> cases q <;>
          simp only [twoSpec, two, next?, Option.some.injEq, Prod.mk.injEq, reduceCtorEq, if_true, Bool.false_eq_true, if_false] at hs <;>
          obtain ⟨rfl, rfl⟩ := hs <;> first
          | exact ⟨lost, by simpa [inserted, removed] using this⟩
          | (rename_i x _; exact ⟨x :: lost, by simpa [inserted, removed] using this⟩)
          | (rename_i x _ _ _; exact ⟨x :: lost, by simpa [inserted, removed] using this⟩)
      | ins i =>
        cases i <;> simp only [twoSpec, two, Option.some.injEq, Prod.mk.injEq] at hs <;>
          obtain ⟨rfl, rfl⟩ := hs <;> exact ⟨lost, by simpa [inserted, removed] using this⟩
      | prio i =>
        cases i <;> simp only [twoSpec, two, Option.some.injEq, Prod.mk.injEq] at hs <;> obtain ⟨rfl, rfl⟩ := hs <;>
          first | (exact ⟨lost, by simpa [inserted, removed] using this⟩; done) | skip
        all_goals
        refine ⟨lost, List.Perm.trans ?_ this⟩
        simp only [inserted, List.append_assoc, List.singleton_append]
        exact (List.perm_append_left_iff p).2 (List.perm_middle (l₁ := q))
      | _ =>
        cases p <;> cases q <;> simp only [twoSpec, two, next?, Option.some.injEq, Prod.mk.injEq, reduceCtorEq] at hs <;>
          obtain ⟨rfl, rfl⟩ := hs <;> first
          | exact ⟨lost, by simpa [inserted, removed] using this⟩
          | (refine ⟨lost, ?_⟩; simp only [inserted, removed, List.cons_append, List.nil_append] at this ⊢; exact pop this)

/-- Without clear, as many elements are missing as calls threw having removed one. -/
theorem two_count (tr : List (TEvent (Op α) (Out α))) : ∀ {g g' : Ghost (List α × List α) (Op α) (Out α)},
    (∀ t o, .lin t .clear o ∉ tr) → TSteps (twoSpec α) g tr g' →
    g.q.1.length + g.q.2.length + (inserted tr).length =
      (removed tr).length + (g'.q.1.length + g'.q.2.length) + losses tr := by
  induction tr with
  | nil => intro g g' _ h; cases h; simp [inserted, removed, losses]
  | cons e tr ih =>
    intro g g' hc ⟨g1, h1, h2⟩
    have := ih (fun t o hm => hc t o (List.mem_cons_of_mem _ hm)) h2
    cases h1 with
    | call hid => simpa [inserted, removed, losses] using this
    | ret hid => simpa [inserted, removed, losses] using this
    | @lin q st t op q' o hid hs =>
      obtain ⟨p, q⟩ := q
      cases op with
      | clear => exact absurd (List.mem_cons_self ..) (hc t o)
      | tryPopX l | popX l | timedPopX l | popOrCallX l =>
        cases l <;> cases p <;> cases q <;>
          simp only [twoSpec, two, next?, Option.some.injEq, Prod.mk.injEq, reduceCtorEq, if_true, Bool.false_eq_true, if_false] at hs <;>
          obtain ⟨rfl, rfl⟩ := hs <;> simp [inserted, removed, losses, Op.loses] at this ⊢ <;> omega
      | ins i | prio i =>
        cases i <;> simp only [twoSpec, two, Option.some.injEq, Prod.mk.injEq] at hs <;>
          obtain ⟨rfl, rfl⟩ := hs <;> simp [inserted, removed, losses, Op.loses] at this ⊢ <;> omega
      | _ =>
        cases p <;> cases q <;> simp only [twoSpec, two, next?, Option.some.injEq, Prod.mk.injEq, reduceCtorEq] at hs <;>
          obtain ⟨rfl, rfl⟩ := hs <;> simp [inserted, removed, losses, Op.loses] at this ⊢ <;> omega

end Verif.Blocking
