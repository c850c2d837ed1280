import Verif.Blocking.WaitSpec
import Verif.Blocking.Main

/-
The blocking queues: the calls wait, and call the function passed to popOrCall, as `waiting` says.
-/
namespace Verif.Blocking
open Verif.Conc

variable {α : Type} {s s' : State α} {t c : Nat} {b : Bool} {op : Op α} {m m' : List (Mark α)} {k : Kind}

theorem Rounds.nil {w : List (Mark α)} : Rounds w [] := ⟨0, rfl⟩

theorem Rounds.more {w : List (Mark α)} (h : Rounds w m) : Rounds w (m ++ w) := by
  obtain ⟨n, rfl⟩ := h
  exact ⟨n + 1, by rw [List.replicate_succ', List.flatten_append]; simp⟩

theorem upd_upd {β : Type} (f : Nat → β) (t : Nat) (x y : β) : upd (upd f t x) t y = upd f t y := by
  funext u; simp only [upd]; split <;> rfl

/-- in try_pop -/
def Before (op : Op α) (m : List (Mark α)) : Kind → Prop
  | .try _ => (op = .tryPop ∨ ∃ l, op = .tryPopX l) ∧ m = []
  | .pop _ => (op = .pop ∨ ∃ l, op = .popX l) ∧ Rounds [.waits, .woken] m
  | .timed _ false => (op = .timedPop ∨ ∃ l, op = .timedPopX l) ∧ Rounds [.waits, .woken] m
  | .timed _ true => (op = .timedPop ∨ ∃ l, op = .timedPopX l) ∧ ∃ m', Rounds [.waits, .woken] m' ∧ m = m' ++ [.waits, .timeout]
  | .orCall f => if f = .fn then op = .popOrCallF ∧ m = []
      else (op = .popOrCall ∨ ∃ l, op = .popOrCallX l) ∧ Rounds [.fn, .waits, .woken] m

/-- about to wait -/
def Pre (op : Op α) (m : List (Mark α)) : Kind → Prop
  | .try _ => False
  | .pop f => Before op m (.pop f)
  | .timed f d => d = false ∧ Before op m (.timed f false)
  | .orCall f => f ≠ .fn ∧ ∃ m', Before op m' (.orCall f) ∧ m = m' ++ [.fn]

/-- after the wait -/
def Up (op : Op α) (m : List (Mark α)) (k : Kind) (d : Bool) : Prop := ∃ m', Pre op m' k ∧ m = m' ++ [.waits, wakeMark d k]

/-- about to return -/
def Fin (op : Op α) (m : List (Mark α)) (k : Kind) : Prop :=
  (∀ x : α, waiting op (k.result x) m) ∧ (k.fate = .out → waiting op .threw m)

/-- what has been seen of a call in progress -/
def Doing (op : Op α) (m : List (Mark α)) : Loc α → Prop
  | .oLock k | .oPrio k | .oPFront k | .oPPop k _ | .oCheck _ k _ | .oTest k | .oBack k | .oPop k _ | .oUnPull k _ => Before op m k
  | .wCall f => Before op m (.orCall f)
  | .wLock k | .wPrio k none | .wTest k none | .wEnter k => Pre op m k
  | .wPFront k | .wPPop k _ | .wBack k | .wPop k _ | .wUn k _ => Fin op m k
  | .wSleep k => ∃ m', Pre op m' k ∧ m = m' ++ [.waits]
  | .wRelock k d | .wPrio k (some d) | .wTest k (some d) | .wUnlock k d => Up op m k d
  | .ret o => waiting op o m
  | .yUn => waiting op .threw m
  | .idle => False
  | .crash => True
  | _ => m = [] ∧ ∀ o, waiting op o []

theorem result_ne (k : Kind) (x : α) : k.result x ≠ .val none := by
  unfold Kind.result; split <;> simp

theorem result_fn (k : Kind) (x : α) (h : k.fate = .fn) : k.result x ≠ .threw := by
  simp [Kind.result, h]

theorem Before.fin (h : Before op m k) : Fin op m k := by
  match k, h with
  | .try f, ⟨h, e⟩ => rcases h with rfl | ⟨l, rfl⟩ <;> exact ⟨fun _ => e, fun _ => e⟩
  | .pop f, ⟨h, e⟩ => rcases h with rfl | ⟨l, rfl⟩ <;> exact ⟨fun _ => e, fun _ => e⟩
  | .timed f false, ⟨h, e⟩ =>
    rcases h with rfl | ⟨l, rfl⟩ <;> exact ⟨fun x => .inl ⟨e, result_ne _ x⟩, fun _ => .inl ⟨e, by simp⟩⟩
  | .timed f true, ⟨h, e⟩ => rcases h with rfl | ⟨l, rfl⟩ <;> exact ⟨fun x => .inr e, fun _ => .inr e⟩
  | .orCall f, h =>
    simp only [Before] at h
    split at h
    · rename_i hf
      obtain ⟨rfl, rfl⟩ := h
      refine ⟨fun x => .inl ⟨rfl, result_fn _ x hf⟩, fun h => ?_⟩
      rw [hf] at h; cases h
    · obtain ⟨h, e⟩ := h
      rcases h with rfl | ⟨l, rfl⟩ <;> exact ⟨fun _ => ⟨m, e, .inl rfl⟩, fun _ => ⟨m, e, .inl rfl⟩⟩

theorem Pre.fin (h : Pre op m k) : Fin op m k := by
  match k, h with
  | .pop f, h => exact Before.fin h
  | .timed f d, ⟨e, h⟩ => subst e; exact Before.fin h
  | .orCall f, ⟨hf, m', h, e⟩ =>
    simp only [Before, if_neg hf] at h
    obtain ⟨h, r⟩ := h
    rcases h with rfl | ⟨l, rfl⟩ <;> exact ⟨fun _ => ⟨m', r, .inr e⟩, fun _ => ⟨m', r, .inr e⟩⟩

/-- the try_pop after the wait -/
theorem Up.before {d : Bool} (h : Up op m k d) : Before op m (k.again d) := by
  obtain ⟨m', h, rfl⟩ := h
  match k, h with
  | .pop f, ⟨h, e⟩ => exact ⟨h, e.more⟩
  | .timed f d', ⟨e1, h, e⟩ =>
    cases d with
    | true => exact ⟨h, m', e, rfl⟩
    | false => exact ⟨h, e.more⟩
  | .orCall f, ⟨hf, m'', h, e⟩ =>
    simp only [Before, if_neg hf, Kind.again] at h ⊢
    exact ⟨h.1, by rw [e]; simpa [wakeMark] using h.2.more⟩

theorem Up.fin {d : Bool} (h : Up op m k d) : Fin op m k := by
  have h1 := h.before.fin
  cases k <;> exact h1

theorem Doing.afterTry {r : Option α} (h : Before op m k) : Doing op m (State.afterTry k r) := by
  cases r with
  | some x => cases k <;> exact h.fin.1 x
  | none =>
    match k, h with
    | .try f, ⟨h, e⟩ => rcases h with rfl | ⟨l, rfl⟩ <;> exact e
    | .pop f, h => exact h
    | .timed f false, h => exact ⟨rfl, h⟩
    | .timed f true, ⟨h, e⟩ => rcases h with rfl | ⟨l, rfl⟩ <;> exact .inr e
    | .orCall f, h => exact h

theorem Doing.afterCheck {r : Option α} (h : Before op m k) : Doing op m (State.afterCheck k r) := by
  cases r <;> exact h

theorem Doing.moveOut {next : α → Loc α} {r : Option α} (h : Fin op m k) (hn : ∀ x, Doing op m (next x)) :
    Doing op m (State.moveOut k next r) := by
  cases r with
  | none => exact trivial
  | some x =>
    simp only [State.moveOut]
    split
    · rename_i hf; exact h.2 hf
    · exact hn x

/-- a step of the thread -/
theorem Doing.step {l : Loc α} {o : Option (Out α)} (g : Doing op m l) (h : s.stepAt b t c l = some (s', o)) :
    (o = none ∧ Doing op (m ++ stepMark c l) (s'.loc t)) ∨
    ∃ v, o = some v ∧ s'.loc t = .idle ∧ stepMark c l = [] ∧ waiting op v m := by
  have pL : ∀ l', (s.lockPull t l').map (·, (none : Option (Out α))) = some (s', o) → Doing op m l' → stepMark c l = [] →
      o = none ∧ Doing op (m ++ stepMark c l) (s'.loc t) := by
    intro l' hx hn hm
    simp only [Option.map_eq_some_iff] at hx
    obtain ⟨s1, e1, e2⟩ := hx; cases e2
    obtain ⟨_, rfl⟩ := lockPull_some e1
    refine ⟨rfl, ?_⟩
    simp only [upd_same, hm, List.append_nil]; exact hn
  have pU : ∀ l', (s.lockPush t l').map (·, (none : Option (Out α))) = some (s', o) → Doing op m l' → stepMark c l = [] →
      o = none ∧ Doing op (m ++ stepMark c l) (s'.loc t) := by
    intro l' hx hn hm
    simp only [Option.map_eq_some_iff] at hx
    obtain ⟨s1, e1, e2⟩ := hx; cases e2
    obtain ⟨_, rfl⟩ := lockPush_some e1
    refine ⟨rfl, ?_⟩
    simp only [upd_same, hm, List.append_nil]; exact hn
  cases l with
  | idle => exact g.elim
  | crash => cases h
  | ret v => cases h; exact .inr ⟨v, rfl, by simp [State.goto, upd_same], rfl, g⟩
  | kNone x => cases h; exact .inr ⟨_, rfl, by simp [State.goto, upd_same], rfl, by rw [g.1]; exact g.2 _⟩
  | oCheck ck k r =>
    left
    cases ck with
    | lock => exact pU _ h g rfl
    | _ =>
      cases h
      refine ⟨rfl, ?_⟩
      simp only [State.goto, State.unlockPush, upd_same, stepMark, List.append_nil]
      first
      | exact g
      | exact Doing.afterCheck g
      | (split <;> first | exact g | exact Doing.afterCheck g)
  | oUnPull k r =>
    cases h
    refine .inl ⟨rfl, ?_⟩
    simp only [State.goto, State.unlockPull, upd_same, stepMark, List.append_nil]
    exact Doing.afterTry g
  | oLock k => left; cases b <;> exact pL _ h g rfl
  | oPFront k =>
    cases h; refine .inl ⟨rfl, ?_⟩
    simp only [State.goto, upd_same, stepMark, List.append_nil]
    exact Doing.moveOut (Before.fin g) fun _ => g
  | oBack k =>
    cases h; refine .inl ⟨rfl, ?_⟩
    simp only [State.goto, upd_same, stepMark, List.append_nil]
    exact Doing.moveOut (Before.fin g) fun _ => g
  | wPFront k =>
    cases h; refine .inl ⟨rfl, ?_⟩
    simp only [State.goto, upd_same, stepMark, List.append_nil]
    exact Doing.moveOut g fun _ => g
  | wBack k =>
    cases h; refine .inl ⟨rfl, ?_⟩
    simp only [State.goto, upd_same, stepMark, List.append_nil]
    exact Doing.moveOut g fun _ => g
  | wCall f =>
    cases h; refine .inl ⟨rfl, ?_⟩
    simp only [State.goto, upd_same, stepMark]
    split
    · rename_i hf
      have g' : Before op m (.orCall f) := g
      simp only [Before, if_pos hf] at g'
      obtain ⟨rfl, rfl⟩ := g'
      exact .inr ⟨rfl, rfl⟩
    · rename_i hf
      exact ⟨hf, m, g, rfl⟩
  | wLock k => left; cases b <;> exact pL _ h g rfl
  | wRelock k d => left; cases b <;> exact pL _ h g rfl
  | wPrio k w =>
    cases h; refine .inl ⟨rfl, ?_⟩
    simp only [State.goto, upd_same, stepMark, List.append_nil]
    cases w with
    | none => exact (by split; exact g; exact Pre.fin g)
    | some d => exact (by split; exact g; exact Up.fin g)
  | wTest k w =>
    cases h; refine .inl ⟨rfl, ?_⟩
    simp only [State.goto, upd_same, stepMark, List.append_nil]
    cases w with
    | none => exact (by split; exact g; exact Pre.fin g)
    | some d => exact (by split; exact g; exact Up.fin g)
  | wUn k x =>
    cases h; refine .inl ⟨rfl, ?_⟩
    simp only [State.goto, State.unlockPull, upd_same, stepMark, List.append_nil]
    exact g.1 x
  | wEnter k =>
    cases h; refine .inl ⟨rfl, ?_⟩
    simp only [State.goto, State.unlockPull, upd_same, stepMark]
    exact ⟨m, g, rfl⟩
  | wSleep k =>
    cases h; refine .inl ⟨rfl, ?_⟩
    simp only [State.goto, upd_same, stepMark]
    obtain ⟨m', g, rfl⟩ := g
    exact ⟨m', g, by simp⟩
  | wUnlock k d =>
    cases h; refine .inl ⟨rfl, ?_⟩
    simp only [State.goto, State.unlockPull, upd_same, stepMark, List.append_nil]
    exact Up.before g
  | yUn =>
    cases h; refine .inl ⟨rfl, ?_⟩
    simp only [State.goto, State.unlockPull, upd_same, stepMark, List.append_nil]
    exact g
  | oPrio k =>
    cases h; refine .inl ⟨rfl, ?_⟩
    simp only [State.goto, upd_same, stepMark, List.append_nil]
    split <;> exact g
  | oTest k =>
    cases h; refine .inl ⟨rfl, ?_⟩
    simp only [State.goto, upd_same, stepMark, List.append_nil]
    split <;> exact g
  | kLock d => left; cases b <;> exact pL _ h g rfl
  | oPPop k x | wPPop k x | oPop k x | wPop k x =>
    simp only [State.stepAt, Option.some.injEq, Prod.mk.injEq] at h
    obtain ⟨rfl, rfl⟩ := h
    refine .inl ⟨rfl, ?_⟩
    split <;> simp only [State.goto, upd_same, stepMark, List.append_nil]
    · exact trivial
    · exact g
  | _ =>
    have w : ∀ o, waiting op o m := by obtain ⟨rfl, w⟩ := g; exact w
    first
    | (left; exact pU _ h g rfl)
    | (left; exact pL _ h g rfl)
    | (simp only [State.stepAt, Option.some.injEq, Prod.mk.injEq] at h
       obtain ⟨rfl, rfl⟩ := h
       refine .inl ⟨rfl, ?_⟩
       simp only [stepMark, List.append_nil]
       first
       | (simp only [State.goto, State.unlockPush, State.unlockPull, upd_same]; first | exact g | exact w _ | (split <;> first | exact g | exact w _))
       | (split <;> simp only [State.goto, upd_same] <;> first | exact g | exact w _ | exact trivial | (split <;> first | exact g | exact w _ | exact trivial)))

/-- the beginning of a call -/
theorem Doing.start {l : Loc α} (h : State.start b op = some l) : Doing op [] l := by
  cases op with
  | prio i => cases b <;> cases h; exact ⟨rfl, fun _ => rfl⟩
  | size => cases b <;> cases h; exact ⟨rfl, fun _ => rfl⟩
  | tryPop => cases h; exact ⟨.inl rfl, rfl⟩
  | tryPopX l => cases h; exact ⟨.inr ⟨l, rfl⟩, rfl⟩
  | pop => cases h; exact ⟨.inl rfl, .nil⟩
  | popX l => cases h; exact ⟨.inr ⟨l, rfl⟩, .nil⟩
  | timedPop => cases h; exact ⟨.inl rfl, .nil⟩
  | timedPopX l => cases h; exact ⟨.inr ⟨l, rfl⟩, .nil⟩
  | popOrCall => cases h; exact ⟨.inl rfl, .nil⟩
  | popOrCallX l => cases h; cases l <;> exact ⟨.inr ⟨_, rfl⟩, .nil⟩
  | popOrCallF => cases h; exact ⟨rfl, rfl⟩
  | _ => cases h; exact ⟨rfl, fun _ => rfl⟩

/-- a step of another thread -/
theorem stepAt_other {l : Loc α} {o : Option (Out α)} {u : Nat} (h : s.stepAt b u c l = some (s', o)) (hu : t ≠ u) :
    s'.loc t = s.loc t := by
  rw [stepAt_loc h, upd_ne _ _ hu]

theorem stepMark_inner {l : Loc α} : ∀ x ∈ stepMark c l, x.inner = true := by
  cases l with
  | wSleep k => cases k <;> simp only [stepMark, wakeMark] <;> intro x hx <;> (try split at hx) <;> simp at hx <;> subst hx <;> rfl
  | wEnter k => intro x hx; simp [stepMark] at hx; subst hx; rfl
  | wCall k => intro x hx; simp [stepMark] at hx; subst hx; rfl
  | _ => intro x hx; cases hx

/-- all calls that have ended were as they should be -/
def AllWell (M : List (Mark α)) : Prop :=
  ∀ a op m o d, M = a ++ .call op :: (m ++ .ret o :: d) → (∀ x ∈ m, x.inner = true) → waiting op o m

/-- the thread is doing nothing, or a call of which `Doing` holds -/
def Now (s : State α) (t : Nat) (M : List (Mark α)) : Prop :=
  s.loc t = .idle ∨ ∃ a op m, M = a ++ .call op :: m ∧ (∀ x ∈ m, x.inner = true) ∧ Doing op m (s.loc t)

theorem last_call {a a' m m' : List (Mark α)} {op op' : Op α} (e : a ++ .call op :: m = a' ++ .call op' :: m')
    (h : ∀ x ∈ m, x.inner = true) (h' : ∀ x ∈ m', x.inner = true) : op = op' ∧ m = m' := by
  rcases List.append_eq_append_iff.1 e with ⟨w, e1, e2⟩ | ⟨w, e1, e2⟩
  · cases w with
    | nil => simp at e2; exact e2
    | cons x w => simp at e2; have := h (.call op') (by rw [e2.2]; simp); cases this
  · cases w with
    | nil => simp at e2; exact ⟨e2.1.symm, e2.2.symm⟩
    | cons x w => simp at e2; have := h' (.call op) (by rw [e2.2]; simp); cases this

/-- appending what is no end of a call -/
theorem AllWell.snoc {M : List (Mark α)} {y : Mark α} (h : AllWell M) (hy : ∀ o, y ≠ .ret o) : AllWell (M ++ [y]) := by
  intro a op m o d e hm
  rcases d.eq_nil_or_concat with rfl | ⟨d, z, rfl⟩
  · have e' : M ++ [y] = (a ++ .call op :: m) ++ [.ret o] := by rw [e]; simp
    obtain ⟨_, e2⟩ := List.append_inj' e' rfl
    simp at e2; exact absurd e2 (hy o)
  · have e' : M ++ [y] = (a ++ .call op :: (m ++ .ret o :: d)) ++ [z] := by rw [e]; simp
    obtain ⟨e1, _⟩ := List.append_inj' e' rfl
    exact h _ _ _ _ _ e1 hm

theorem AllWell.inner {M m : List (Mark α)} (h : AllWell M) (hm : ∀ x ∈ m, x.inner = true) : AllWell (M ++ m) := by
  induction m generalizing M with
  | nil => simpa using h
  | cons y m ih =>
    have := ih (h.snoc (y := y) (fun o e => by have := hm y (by simp); rw [e] at this; cases this)) (fun x hx => hm x (by simp [hx]))
    simpa using this

/-- appending the end of a call -/
theorem AllWell.ret {M a m : List (Mark α)} {v : Out α} (h : AllWell M) (e0 : M = a ++ .call op :: m) (hm : ∀ x ∈ m, x.inner = true)
    (hw : waiting op v m) : AllWell (M ++ [.ret v]) := by
  intro a' op' m' o d e hm'
  rcases d.eq_nil_or_concat with rfl | ⟨d, z, rfl⟩
  · have e' : M ++ [.ret v] = (a' ++ .call op' :: m') ++ [.ret o] := by rw [e]; simp
    obtain ⟨e1, e2⟩ := List.append_inj' e' rfl
    simp at e2; subst e2
    obtain ⟨rfl, rfl⟩ := last_call (e0.symm.trans e1) hm hm'
    exact hw
  · have e' : M ++ [.ret v] = (a' ++ .call op' :: (m' ++ .ret o :: d)) ++ [z] := by rw [e]; simp
    obtain ⟨e1, _⟩ := List.append_inj' e' rfl
    exact h _ _ _ _ _ e1 hm'

theorem watch_good (as : List (Act (Op α))) : ∀ {s s' : State α} {h : List (Event (Op α) (Out α))} {M : List (Mark α)},
    (sys b α).run s as = some (s', h) → Now s t M → AllWell M → AllWell (M ++ watch b t s as) := by
  induction as with
  | nil => intro s s' h M _ _ g; simpa [watch] using g
  | cons a as ih =>
    intro s s' h M e n g
    simp only [Sys.run, Option.bind_eq_some_iff, Option.map_eq_some_iff] at e
    obtain ⟨⟨s1, h1⟩, e1, ⟨s2, h2⟩, e2, e3⟩ := e
    cases e3
    simp only [watch, e1]
    rw [← List.append_assoc]
    suffices hs : Now s1 t (M ++ seen t s (resultOf b s a) a) ∧ AllWell (M ++ seen t s (resultOf b s a) a) from ih e2 hs.1 hs.2
    cases a with
    | call u op =>
      simp only [Sys.exec, Option.map_eq_some_iff] at e1
      obtain ⟨s3, e1, e3⟩ := e1
      cases e3
      have e4 : s.call b u op = some s1 := e1
      unfold State.call at e4
      split at e4
      · simp only [Option.map_eq_some_iff] at e4
        obtain ⟨l, e4, rfl⟩ := e4
        by_cases hu : u = t
        · subst hu
          simp only [seen, if_true]
          refine ⟨.inr ⟨M, op, [], rfl, by simp, ?_⟩, g.snoc (by simp)⟩
          simp only [State.goto, upd_same]
          exact Doing.start e4
        · simp only [seen, if_neg hu, List.append_nil]
          refine ⟨?_, g⟩
          have : (s.goto u l).loc t = s.loc t := by simp only [State.goto]; exact upd_ne _ _ (Ne.symm hu)
          unfold Now; rw [this]; exact n
      · cases e4
    | move u c =>
      simp only [Sys.exec, Option.map_eq_some_iff] at e1
      obtain ⟨⟨s3, o⟩, e1, e3⟩ := e1
      cases e3
      have e1 : s.stepAt b u c (s.loc u) = some (s3, o) := e1
      by_cases hu : u = t
      · subst hu
        have hr : resultOf b s (.move u c) = o := by simp [resultOf, e1]
        simp only [hr, seen, if_true]
        rcases n with n | ⟨a, op, m, rfl, hm, gd⟩
        · rw [n] at e1; cases e1
        · rcases gd.step e1 with ⟨rfl, g1⟩ | ⟨v, rfl, hi, hk, hw⟩
          · refine ⟨.inr ⟨a, op, m ++ stepMark c (s.loc u), by simp, ?_, g1⟩, ?_⟩
            · intro x hx
              rcases List.mem_append.1 hx with hx | hx
              · exact hm x hx
              · exact stepMark_inner x hx
            · simpa using g.inner (stepMark_inner (c := c) (l := s.loc u))
          · refine ⟨.inl hi, ?_⟩
            rw [hk]
            exact g.ret rfl hm hw
      · simp only [seen, if_neg hu, List.append_nil]
        refine ⟨?_, g⟩
        have : s3.loc t = s.loc t := stepAt_other e1 (Ne.symm hu)
        unfold Now; rw [this]; exact n

/-- the calls of a thread wait as `waiting` says -/
theorem waits_main {as : List (Act (Op α))} {h : List (Event (Op α) (Out α))} (e : (sys b α).run (sys b α).init as = some (s, h)) :
    AllWell (watch b t (sys b α).init as) := by
  have := watch_good (t := t) as (M := []) e (.inl rfl) (by intro a op m o d e; simp at e)
  simpa using this

end Verif.Blocking
