import Verif.Mapped.Vector.Exact
import Verif.Mapped.Vector.Props

/-
Property C128: what MappedVector does in every history.
-/
namespace Verif.Mapped.Vector
open Verif.Mapped Verif.Block

variable {S K V : Type} [DecidableEq K] {E : Env S K V} {kind : Kind} {L : Lawful E.st kind}

theorem Abs.init (h0 : L.Starts) : Abs L (MV.init E) Actual.empty :=
  ⟨h0.start, .nil, fun _ => rfl, fun _ _ h => by cases h⟩

theorem run_append (E : Env S K V) : ∀ (pre post : List (Op K V)) (m : MV S K),
    run E m (pre ++ post) = (run E m pre).bind fun r => (run E r.1 post).map fun s => (s.1, r.2 ++ s.2)
  | [], post, m => by simp [run]
  | op :: pre, post, m => by
    simp only [List.cons_append, run]
    cases exec E m op with
    | none => rfl
    | some r =>
      simp only [Option.bind_some, run_append E pre post r.1]
      cases run E r.1 pre with
      | none => rfl
      | some s =>
        simp only [Option.bind_some, Option.map_some, Option.map_map]
        rfl

/-- Every program, from every state: it does what the description says, up to the first call that is not safe. -/
theorem exact_core (h0 : Corner E.st kind) : ∀ (ops : List (Op K V)) (m : MV S K) (a : Actual K V), Abs L m a →
    (∃ m' a' os, run E m ops = some (m', os) ∧ Runs kind E.unset a ops a' os ∧ Abs L m' a') ∨
    (∃ pre op post m' a' os, ops = pre ++ op :: post ∧ run E m pre = some (m', os) ∧ Runs kind E.unset a pre a' os ∧
      Abs L m' a' ∧ ¬ safe kind E.unset a' op)
  | [], m, a, v => .inl ⟨m, a, [], rfl, ⟨rfl, rfl⟩, v⟩
  | op :: ops, m, a, v => by
    by_cases hs : safe kind E.unset a op
    · obtain ⟨m1, a1, o, e1, s1, v1⟩ := exact_step h0 v hs
      rcases exact_core h0 ops m1 a1 v1 with ⟨m', a', os, e, r, w⟩ | ⟨pre, op', post, m', a', os, h, e, r, w, n⟩
      · exact .inl ⟨m', a', o :: os, by simp [run, e1, e], ⟨a1, o, os, s1, r, rfl⟩, w⟩
      · exact .inr ⟨op :: pre, op', post, m', a', o :: os, by rw [h]; rfl, by simp [run, e1, e], ⟨a1, o, os, s1, r, rfl⟩, w, n⟩
    · exact .inr ⟨[], op, ops, m, a, [], rfl, rfl, ⟨rfl, rfl⟩, v, hs⟩

/-- Vector storage: a call that is not safe has undefined behaviour. -/
theorem unsafe_undefined {E : Env (List V) K V} (hE : E.st = vectorStore V) {L : Lawful E.st .unstable}
    {m : MV (List V) K} {a : Actual K V} (v : Abs L m a) (hd : m.data = a.values)
    {op : Op K V} (hs : ¬ safe .unstable E.unset a op) : exec E m op = none := by
  obtain ⟨st, impl, unset⟩ := E
  cases hE
  obtain ⟨xs, lk⟩ := m
  simp only at hd
  subst hd
  cases op with
  | get i =>
    simp only [safe, Nat.not_lt] at hs
    simp [exec, MV.get, vectorStore, hs]
  | set i x =>
    simp only [safe] at hs
    simp [exec, MV.set, vectorStore, hs]
  | back =>
    simp only [safe, ne_eq, Decidable.not_not] at hs
    simp [exec, MV.back, vectorStore, hs]
  | insertOrAssign k x =>
    simp only [safe, not_forall] at hs
    obtain ⟨i, h1, h2⟩ := hs
    simp [exec, MV.insertOrAssign, v.index, h1, vectorStore, h2]
  | remove k =>
    simp only [safe, not_forall] at hs
    obtain ⟨i, h1, h2⟩ := hs
    simp only [Kind.isStable, Bool.false_eq_true, or_false] at h2
    simp [exec, MV.remove, v.index, h1, vectorStore, h2]
  | removeIndex i =>
    simp only [safe, not_forall, not_or, ne_eq, Decidable.not_not] at hs
    obtain ⟨h1, h2, h3⟩ := hs
    subst h3
    have hp := (shiftLoop_pick true i lk none).2 fun e he h => h2 ⟨e.1, by
      rw [← v.index, FMap.find_eq_some v.wf, ← h]; exact he⟩
    simp [exec, MV.removeIndex, vectorStore, h1, hp, Nat.not_le.2 h1]
  | find k => exact absurd (.inr rfl) hs
  | apply => exact absurd rfl hs
  | modify f => exact absurd rfl hs
  | transform f => exact absurd rfl hs
  | _ => exact absurd trivial hs

/-- C128, vector storage: after every history that has defined behaviour, the container holds the values, and every
search term refers to the position, that the description says; the calls returned what the description says; and the
next call is undefined exactly if it is not safe. -/
theorem exact_unstable (impl : MapImpl K) (unset : Option K) (ops : List (Op K V)) (m : MV (List V) K) (os : List (Obs V))
    (h : run (unstableEnv impl unset) (MV.init (unstableEnv impl unset)) ops = some (m, os)) :
    ∃ a, Runs .unstable unset Actual.empty ops a os ∧ m.data = a.values ∧
      (∀ k, FMap.find m.lookup k = a.index k) ∧ (∀ k i, a.index k = some i → i ≤ a.values.length) ∧
      ∀ op, exec (unstableEnv impl unset) m op = none ↔ ¬ safe .unstable unset a op := by
  rcases exact_core (E := unstableEnv impl unset) (L := vectorLawful V) (vectorCorner V) ops _ _
    (Abs.init (vectorStarts V)) with ⟨m', a', os', e, r, w⟩ | ⟨pre, op', post, m', a', os', h1, e, r, w, n⟩
  · rw [e] at h
    cases h
    refine ⟨a', r, w.rep.1, w.index, w.le, fun op => ⟨fun hn hs => ?_, unsafe_undefined rfl w w.rep.1⟩⟩
    obtain ⟨m1, a1, o, e1, _⟩ := exact_step (E := unstableEnv impl unset) (vectorCorner V) w hs
    rw [hn] at e1; cases e1
  · have := unsafe_undefined (E := unstableEnv impl unset) rfl w w.rep.1 n
    rw [h1, run_append, e] at h
    simp [run, this] at h

/-- C128, stable storage: every program does what the description says, up to the first call that is not safe; and
that one is an unchecked access beyond the end or has undefined behaviour. -/
theorem exact_stable (N : Nat) (impl : MapImpl K) (unset : Option K) (ops : List (Op K V)) :
    (∃ m a os, run (stableEnv N impl unset) (MV.init (stableEnv N impl unset)) ops = some (m, os) ∧
      Runs (.stable N) unset Actual.empty ops a os ∧ ∀ k, FMap.find m.lookup k = a.index k) ∨
    (∃ pre op post m a os, ops = pre ++ op :: post ∧
      run (stableEnv N impl unset) (MV.init (stableEnv N impl unset)) pre = some (m, os) ∧
      Runs (.stable N) unset Actual.empty pre a os ∧ ¬ safe (.stable N) unset a op ∧
      (beyond a op ∨ exec (stableEnv N impl unset) m op = none)) := by
  rcases exact_core (E := stableEnv N impl unset) (L := stableLawful N V) (stableCorner N V) ops _ _
    (Abs.init (stableStarts N V)) with ⟨m', a', os', e, r, w⟩ | ⟨pre, op', post, m', a', os', h1, e, r, w, n⟩
  · exact .inl ⟨m', a', os', e, r, w.index⟩
  · exact .inr ⟨pre, op', post, m', a', os', h1, e, r, n, unsafe_step (E := stableEnv N impl unset) (stableCorner N V) (stableUndef N V) rfl w n⟩

/-- One more call from a described state. -/
theorem step_exact (h0 : Corner E.st kind) {m m' : MV S K} {a : Actual K V} {op : Op K V} {ops : List (Op K V)} {o : Obs V}
    {os : List (Obs V)} (v : Abs L m a) (hs : safe kind E.unset a op) (h : run E m (op :: ops) = some (m', o :: os)) :
    ∃ m1 a1, Step kind E.unset a op a1 o ∧ Abs L m1 a1 ∧ run E m1 ops = some (m', os) := by
  obtain ⟨m1, a1, o', e, s, w⟩ := exact_step h0 v hs
  simp only [run, e, Option.bind_some, Option.map_eq_some_iff, Prod.mk.injEq, List.cons.injEq] at h
  obtain ⟨r, h1, rfl, rfl, rfl⟩ := h
  exact ⟨m1, a1, s, w, h1⟩

/-- Vector storage, every history: if two terms are attached to the element at `i`, and the element is removed by the first
of them, then the second one finds the element that was behind the removed one. -/
theorem second_term_finds_successor (impl : MapImpl K) (unset : Option K) (pre : List (Op K V)) (m m' : MV (List V) K)
    (os : List (Obs V)) (k k2 : K) (i : Nat) (y : V) (o : Obs V)
    (h : run (unstableEnv impl unset) (MV.init (unstableEnv impl unset)) pre = some (m, os))
    (h' : run (unstableEnv impl unset) m [.addTerm k i, .addTerm k2 i, .get (i + 1), .remove k, .find k2] =
      some (m', [.bool true, .bool true, .val y, .done, o])) : o = .found (some y) := by
  rcases exact_core (E := unstableEnv impl unset) (L := vectorLawful V) (vectorCorner V) pre _ _
    (Abs.init (vectorStarts V)) with ⟨m0, a, os0, e, _, v⟩ | ⟨p, op', q, m0, a, os0, h1, e, _, w, n⟩
  · rw [e] at h
    cases h
    obtain ⟨m1, a1, s1, v1, h1⟩ := step_exact (vectorCorner V) v (op := .addTerm k i) trivial h'
    obtain ⟨m2, a2, s2, v2, h2⟩ := step_exact (vectorCorner V) v1 (op := .addTerm k2 i) trivial h1
    have hl : i < a.values.length ∧ a.index k = none := by
      by_contra hc; simp only [Step, if_neg hc] at s1; cases s1.2
    simp only [Step, if_pos hl, and_true] at s1
    subst s1
    have hl2 : i < a.values.length ∧ (a.bind k i).index k2 = none := by
      by_contra hc
      exact nomatch ((if_neg (c := i < (a.bind k i).values.length ∧ (a.bind k i).index k2 = none) hc).mp s2).2
    have s2 : a2 = (a.bind k i).bind k2 i :=
      ((if_pos (c := i < (a.bind k i).values.length ∧ (a.bind k i).index k2 = none) hl2).mp s2).1
    subst s2
    have hk : k2 ≠ k := by
      rintro rfl; simp [Actual.bind] at hl2
    have hg : i + 1 < a.values.length := by
      by_contra hc
      have := unsafe_undefined (E := unstableEnv impl unset) (op := .get (i + 1)) rfl v2 v2.rep.1 hc
      simp [run, this] at h2
    obtain ⟨m3, a3, s3, v3, h3⟩ := step_exact (vectorCorner V) v2 (op := .get (i + 1)) hg h2
    obtain ⟨rfl, s3⟩ := s3
    have hik : ((a.bind k i).bind k2 i).index k = some i := by simp [Actual.bind, hk.symm]
    have hik2 : ((a.bind k i).bind k2 i).index k2 = some i := by simp [Actual.bind]
    obtain ⟨m4, a4, s4, v4, h4⟩ := step_exact (vectorCorner V) v3 (op := .remove k)
      (fun j hj => by rw [hik] at hj; cases hj; exact .inl hl.1) h3
    simp only [Step, hik, and_true] at s4
    subst s4
    obtain ⟨m5, a5, s5, _, _⟩ := step_exact (vectorCorner V) v4 (op := .find k2) (.inr rfl) h4
    obtain ⟨_, rfl⟩ := s5
    simp only [Actual.forget, Actual.takeOut, Actual.takes, Kind.isStable, Bool.not_false, Bool.true_or, if_true, if_neg hk,
      hik2, Option.map_some, Nat.lt_irrefl, gt_iff_lt, if_false, Option.bind_some]
    rw [List.getElem?_eraseIdx_of_ge (Nat.le_refl i)]
    simp only [Actual.bind, List.getElem?_eq_getElem hg, Option.map_some, Option.some.injEq, Obs.val.injEq] at s3 ⊢
    rw [s3]
  · have := unsafe_undefined (E := unstableEnv impl unset) rfl w w.rep.1 n
    rw [h1, run_append, e] at h
    simp [run, this] at h

/-- Vector storage, every history: if the removed element was the last one, its second term finds nothing, and then the
element that is inserted next, whichever it is. -/
theorem second_term_finds_next_insertion (impl : MapImpl K) (unset : Option K) (pre : List (Op K V)) (m m' : MV (List V) K)
    (os : List (Obs V)) (k k2 : K) (i : Nat) (y : V) (o1 o2 o3 : Obs V)
    (h : run (unstableEnv impl unset) (MV.init (unstableEnv impl unset)) pre = some (m, os))
    (h' : run (unstableEnv impl unset) m [.addTerm k i, .addTerm k2 i, .size, .remove k, .find k2, .insertNoKey y, .find k2] =
      some (m', [.bool true, .bool true, .num (i + 1), .done, o1, o2, o3])) :
    o1 = .found none ∧ o2 = .index (some i) ∧ o3 = .found (some y) := by
  rcases exact_core (E := unstableEnv impl unset) (L := vectorLawful V) (vectorCorner V) pre _ _
    (Abs.init (vectorStarts V)) with ⟨m0, a, os0, e, _, v⟩ | ⟨p, op', q, m0, a, os0, h1, e, _, w, n⟩
  · rw [e] at h
    cases h
    obtain ⟨m1, a1, s1, v1, h1⟩ := step_exact (vectorCorner V) v (op := .addTerm k i) trivial h'
    obtain ⟨m2, a2, s2, v2, h2⟩ := step_exact (vectorCorner V) v1 (op := .addTerm k2 i) trivial h1
    have hl : i < a.values.length ∧ a.index k = none := by
      by_contra hc; simp only [Step, if_neg hc] at s1; cases s1.2
    simp only [Step, if_pos hl, and_true] at s1
    subst s1
    have hl2 : i < a.values.length ∧ (a.bind k i).index k2 = none := by
      by_contra hc
      exact nomatch ((if_neg (c := i < (a.bind k i).values.length ∧ (a.bind k i).index k2 = none) hc).mp s2).2
    have s2 : a2 = (a.bind k i).bind k2 i :=
      ((if_pos (c := i < (a.bind k i).values.length ∧ (a.bind k i).index k2 = none) hl2).mp s2).1
    subst s2
    have hk : k2 ≠ k := by
      rintro rfl; simp [Actual.bind] at hl2
    obtain ⟨m3, a3, s3, v3, h3⟩ := step_exact (vectorCorner V) v2 (op := .size) trivial h2
    obtain ⟨rfl, s3⟩ := s3
    have hlen : a.values.length = i + 1 := by
      simp only [Actual.bind, Obs.num.injEq] at s3; exact s3.symm
    have hik : ((a.bind k i).bind k2 i).index k = some i := by simp [Actual.bind, hk.symm]
    have hik2 : ((a.bind k i).bind k2 i).index k2 = some i := by simp [Actual.bind]
    obtain ⟨m4, a4, s4, v4, h4⟩ := step_exact (vectorCorner V) v3 (op := .remove k)
      (fun j hj => by rw [hik] at hj; cases hj; exact .inl hl.1) h3
    simp only [Step, hik, and_true] at s4
    subst s4
    have hidx : ((((a.bind k i).bind k2 i).takeOut .unstable i).forget k).index k2 = some i := by
      simp [Actual.forget, Actual.takeOut, Actual.takes, Kind.isStable, if_neg hk, hik2]
    have hval : ((((a.bind k i).bind k2 i).takeOut .unstable i).forget k).values.length = i := by
      simp [Actual.forget, Actual.takeOut, Actual.takes, Kind.isStable, Actual.bind, List.length_eraseIdx, hlen]
    obtain ⟨m5, a5, s5, v5, h5⟩ := step_exact (vectorCorner V) v4 (op := .find k2) (.inr rfl) h4
    obtain ⟨rfl, rfl⟩ := s5
    obtain ⟨m6, a6, s6, v6, h6⟩ := step_exact (vectorCorner V) v5 (op := .insertNoKey y) trivial h5
    obtain ⟨rfl, rfl⟩ := s6
    obtain ⟨m7, a7, s7, _, _⟩ := step_exact (vectorCorner V) v6 (op := .find k2) (.inr rfl) h6
    obtain ⟨_, rfl⟩ := s7
    refine ⟨?_, by rw [hval], ?_⟩
    · rw [hidx]; simp only [Option.bind_some]; rw [List.getElem?_eq_none (by omega)]
    · simp only [Actual.append, hidx, Option.bind_some]
      rw [List.getElem?_append_right (by omega), hval]; simp
  · have := unsafe_undefined (E := unstableEnv impl unset) rfl w w.rep.1 n
    rw [h1, run_append, e] at h
    simp [run, this] at h

/-- Two terms, removal by one of them: the other one finds the successor, then one past the end, then the next insertion;
removing by index an element without term forgets a default constructed term that belongs to another element. -/
def demoExact : List (Op Nat Nat) :=
  [.insert 1 10, .insert 2 20, .insertNoKey 30, .addTerm 8 0, .addTerm 9 0, .find 9, .get 1, .remove 8, .find 9, .removeIndex 1,
   .size, .remove 2, .find 1, .insertNoKey 40, .find 1, .find 9]

example : (run (unstableEnv MapImpl.atEnd (some 7)) (MV.init (unstableEnv (V := Nat) MapImpl.atEnd (some 7)))
    demoExact).map (fun r => (r.1.data, r.1.lookup, r.2)) =
    some ([40], [(1, 0), (9, 0)], [.index (some 0), .index (some 1), .index (some 2), .bool true, .bool true, .found (some 10),
      .val 20, .done, .found (some 20), .done, .num 1, .done, .found none, .index (some 0), .found (some 40),
      .found (some 40)]) := by decide

/-- the hypotheses of `second_term_finds_successor` and `second_term_finds_next_insertion` -/
example : (run (unstableEnv MapImpl.atEnd none) ⟨[10, 20], [(1, 0), (2, 1)]⟩
    [Op.addTerm 8 0, .addTerm 9 0, .get 1, .remove 8, .find 9]).map (·.2) =
      some [.bool true, .bool true, .val 20, .done, .found (some 20)] ∧
    (run (unstableEnv MapImpl.atEnd none) ⟨[10, 20], [(1, 0), (2, 1)]⟩
    [Op.addTerm 8 1, .addTerm 9 1, .size, .remove 8, .find 9, .insertNoKey 50, .find 9]).map (·.2) =
      some [.bool true, .bool true, .num 2, .done, .found none, .index (some 1), .found (some 50)] ∧
    (run (unstableEnv MapImpl.atEnd none) (MV.init (unstableEnv (V := Nat) MapImpl.atEnd none))
      [Op.insert 1 10, .insert 2 20]).map (fun r => (r.1.data, r.1.lookup, r.2)) =
      some ([10, 20], [(1, 0), (2, 1)], [.index (some 0), .index (some 1)]) := by decide

/-- Stable storage: a term of an element that stays finds it also after the removal by another term. -/
example : (run (stableEnv 2 MapImpl.atEnd none) (MV.init (stableEnv (V := Nat) 2 MapImpl.atEnd none))
    [Op.insert 1 10, .insert 2 20, .addTerm 8 0, .remove 1, .find 8, .addTerm 9 1, .remove 9, .find 2, .remove 2, .size]).map (·.2) =
    some [.index (some 0), .index (some 1), .bool true, .done, .found (some 10), .bool true, .done, .found none, .done, .num 1] := by
  decide

end Verif.Mapped.Vector
