import Verif.Blocking.Trace

/-
The blocking queues: with one producer, push takes effect when it inserts, and size is linearizable too.
-/
namespace Verif.Blocking
open Verif.Conc

variable {α : Type} {s s' : State α} {t c : Nat} {b : Bool}

/-- only push and emplace make pushElements non-empty -/
theorem stepAt_push {l : Loc α} {o : Option (Out α)} (k : Locks s) (hf : Facts s.prio s.pull s.push s.puller) (hl : s.loc t = l)
    (h : s.stepAt b t c l = some (s', o)) (h0 : s.push = []) (hn : cls l ≠ 4 ∨ ∃ i, region (s'.loc t) = some i) : s'.push = [] := by
  cases hh : holdsPush l with
  | false => rw [(stepAt_frame h).2 hh]; exact h0
  | true =>
    have gone : ∀ {P : Prop} (v : α) (l' : Loc α), region l' = none →
        (∃ i, region (({ s with push := s.push ++ [v] }.goto t l').loc t) = some i) → P := by
      intro P v l' h1 ⟨i, h2⟩
      simp only [State.goto, upd_same] at h2
      rw [h1] at h2; cases h2
    cases l with
    | oCheck ck k' r =>
      cases ck with
      | swap =>
        cases h
        rw [k.puller_eq hl rfl] at hf
        exact hf.2.1
      | lock => cases hh
      | _ => cases h; exact h0
    | pPush2 i =>
      cases i <;> cases h <;> first | exact h0 | skip
      all_goals
        rcases hn with hn | hn
        · exact absurd rfl hn
        · exact gone _ _ rfl hn
    | pAppend i =>
      cases i <;> cases h <;> first | exact h0 | skip
      all_goals
        rcases hn with hn | hn
        · exact absurd rfl hn
        · exact gone _ _ rfl hn
    | pAppend0 i =>
      cases i <;> cases h <;> first | exact h0 | skip
      all_goals
        rcases hn with hn | hn
        · exact absurd rfl hn
        · exact gone _ _ rfl hn
    | pCas i => simp only [State.stepAt] at h; split at h <;> cases h <;> exact h0
    | pCas2 => simp only [State.stepAt] at h; split at h <;> cases h <;> exact h0
    | cPrio => simp only [State.stepAt] at h; split at h <;> cases h <;> exact h0
    | cPush => cases h; rfl
    | _ => first | (cases h; exact h0) | (cases hh; done)

/-- calls of a single producer `p` and any number of consumers -/
def fromOne (p : Nat) (t : Nat) (op : Op α) : Prop := (∃ i, op = .ins i) → t = p

/-- the relation between states and traces -/
structure KOne (p : Nat) (q0 : List α × List α) (s : State α) (tr : List (TEvent (Op α) (Out α))) : Prop where
  rel : ∃ g, TSteps (twoSpec α) ⟨q0, fun _ => .idle⟩ tr g ∧ R true false s g
  flag : Flag s
  one : ∀ u, u ≠ p → cls (s.loc u) ≠ 4
  push : ∀ u i, region (s.loc u) = some i → s.push = []

theorem region_cls {l : Loc α} {i : Ins α} (h : region l = some i) : cls l = 4 := by
  cases l <;> first | rfl | cases h

theorem singleSim (p : Nat) (q0 : List α × List α) : TraceSim (sys false α) (fromOne p) okRet (KOne p q0) where
  call {s tr t op s'} k hop h := by
    obtain ⟨g, hg, r⟩ := k.rel
    obtain ⟨hid, r', hs⟩ := r.call h
    have h' : s.call false t op = some s' := h
    obtain ⟨l, hst, hl, rfl, c⟩ := call_locks h'
    have hnew : region l = none ∧ (cls l = 4 → t = p) := by
      unfold fromOne at hop
      rcases start_cases hst with ⟨i, rfl, rfl⟩ | ⟨i, rfl, rfl, _⟩ | ⟨k', rfl, rfl⟩ | ⟨x, rfl, rfl⟩ |
        ⟨rfl, rfl, _⟩ | ⟨rfl, rfl⟩ | ⟨rfl, rfl⟩ | ⟨rfl, rfl⟩
      case inr.inr.inl => cases k' <;> simp [region, cls, Kind.cls]
      all_goals simp_all [region, cls]
    have st : TSteps (twoSpec α) g [.call t op] ⟨g.q, upd g.st t (.pending op)⟩ := ⟨_, TStep.call hid, rfl⟩
    refine ⟨⟨_, TSteps.append st hg, r'⟩, k.flag.call r.locks h', ?_, ?_⟩
    · intro u hu
      by_cases e : u = t
      · subst e; simp only [State.goto, upd_same]; exact fun h => hu (hnew.2 h)
      · simp only [State.goto, upd_ne _ _ e]; exact k.one u hu
    · intro u i hu
      by_cases e : u = t
      · subst e; simp only [State.goto, upd_same] at hu; rw [hnew.1] at hu; cases hu
      · simp only [State.goto, upd_ne _ _ e] at hu; exact k.push u i hu
  move {s tr t c s' o} k hok h := by
    have h : s.stepAt false t c (s.loc t) = some (s', o) := h
    obtain ⟨g, hg, r⟩ := k.rel
    have hloc := (stepAt_locks r.locks rfl h).loc
    have hside : Side true s (s.loc t) := by
      cases hl : s.loc t with
      | pPull i => exact k.push t i (by rw [hl]; rfl)
      | kTest d => exact fun h => by cases h
      | eRead => exact ⟨fun hf => by rw [k.flag.contents hf]; rfl, fun h => by cases h⟩
      | sPush n => exact (r.noPrio rfl).1
      | ret v => rw [hl] at h; cases h; exact fun _ => (hok v rfl).1
      | kNone d => rw [hl] at h; cases h; exact absurd rfl (hok _ rfl).2
      | _ => trivial
    obtain ⟨tr1, g', st, her, _, r', _⟩ := r.move h hside
    refine ⟨tr ++ tr1, by rw [erase_append, her], ⟨g', TSteps.append st hg, r'⟩, k.flag.move r h, ?_, ?_⟩
    · intro u hu
      by_cases e : u = t
      · subst e; rcases (stepAt_region h).2 with h1 | h1 <;> rw [h1]
        · simp
        · exact k.one u hu
      · rw [hloc, upd_ne _ _ e]; exact k.one u hu
    · intro u i hu
      by_cases e : u = t
      · subst e
        refine stepAt_push r.locks r.facts rfl h ?_ (.inr ⟨i, hu⟩)
        rcases (stepAt_region h).1 i hu with h1 | h1
        · exact k.push u i h1
        · exact r.cas u i h1
      · rw [hloc, upd_ne _ _ e] at hu
        have hup : u = p := by
          by_cases e' : u = p
          · exact e'
          · exact absurd (region_cls hu) (k.one u e')
        refine stepAt_push r.locks r.facts rfl h (k.push u i hu) (.inl (k.one t ?_))
        rw [← hup]; exact fun e' => e e'.symm

theorem KOne.init (p : Nat) : KOne p ([], []) (State.init : State α) [] :=
  ⟨⟨(twoSpec α).ghost, rfl, R.init⟩, Flag.init, fun _ _ h => (by cases h), fun _ _ h => (by cases h)⟩

end Verif.Blocking
