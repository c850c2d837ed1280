import Verif.Mapped.Pointer.Exact
import Verif.Mapped.Pointer.Props

/-
Property C129: what MappedPointerVector does in every history.
-/
namespace Verif.Mapped.Pointer
open Verif.Mapped

variable {K V : Type} [DecidableEq K] {I : MapImpl K} {unset : Option K}

theorem run_append (I : MapImpl K) (unset : Option K) : ∀ (pre post : List (Op K V)) (w : World K V),
    run I unset w (pre ++ post) =
      (run I unset w pre).bind fun r => (run I unset r.1 post).map fun s => (s.1, r.2 ++ s.2)
  | [], post, w => by simp [run]
  | op :: pre, post, w => by
    simp only [List.cons_append, run]
    cases exec I unset w op with
    | none => rfl
    | some r =>
      simp only [Option.bind_some, run_append I unset pre post r.1]
      cases run I unset r.1 pre with
      | none => rfl
      | some s =>
        simp only [Option.bind_some, Option.map_some, Option.map_map]
        rfl

/-- a defined program is described -/
theorem exact_run : ∀ (ops : List (Op K V)) (w : World K V) (a : Actual K V) (w' : World K V) (os : List (Obs V)), Abs w a →
    run I unset w ops = some (w', os) → ∃ a', Runs unset a ops a' os ∧ Abs w' a'
  | [], w, a, w', os, v, h => by cases h; exact ⟨a, ⟨rfl, rfl⟩, v⟩
  | op :: ops, w, a, w', os, v, h => by
    by_cases hs : safe unset a op
    · obtain ⟨w1, a1, o, e1, s1, v1⟩ := exact_step (I := I) v hs
      simp only [run, e1, Option.bind_some, Option.map_eq_some_iff, Prod.mk.injEq] at h
      obtain ⟨r, h1, rfl, rfl⟩ := h
      obtain ⟨a', h2, v'⟩ := exact_run ops w1 a1 r.1 r.2 v1 h1
      exact ⟨a', ⟨a1, o, r.2, s1, h2, rfl⟩, v'⟩
    · simp [run, unsafe_undefined (I := I) v hs] at h

/-- C129: after every history that has defined behaviour: the calls returned what the description says; every element
has the object, and every search term refers to the position, that the description says; the objects in existence are
exactly those of the elements, so none is lost and none is deleted twice; no two elements share an object; and the
next call is undefined exactly if it is not safe. -/
theorem exact_history (I : MapImpl K) (unset : Option K) (ops : List (Op K V)) (w : World K V) (os : List (Obs V))
    (h : run I unset World.init ops = some (w, os)) :
    ∃ a, Runs unset Actual.empty ops a os ∧ w.pv.data = a.objs.map (Option.map (·.1)) ∧
      (∀ k, FMap.find w.pv.lookup k = a.index k) ∧ (∀ k i, a.index k = some i → i ≤ a.objs.length) ∧
      (∀ p x, w.heap.val p = some x ↔ some (p, x) ∈ a.objs) ∧
      (∀ (i j : Nat) (p : Nat) (x y : V), a.objs[i]? = some (some (p, x)) → a.objs[j]? = some (some (p, y)) → i = j) ∧
      ∀ op, exec I unset w op = none ↔ ¬ safe unset a op := by
  obtain ⟨a, r, v⟩ := exact_run ops _ _ w os Abs.init h
  refine ⟨a, r, v.data, v.index, v.le, v.own.val, v.own.uniq, fun op => ⟨fun hn hs => ?_, unsafe_undefined v⟩⟩
  obtain ⟨w1, a1, o, e1, _⟩ := exact_step (I := I) v hs
  rw [hn] at e1; cases e1

/-- Destroying the container after any history with defined behaviour leaves no object. -/
theorem exact_no_leak (I : MapImpl K) (unset : Option K) (ops : List (Op K V)) (w : World K V) (os : List (Obs V))
    (h : run I unset World.init ops = some (w, os)) :
    ∃ h', w.heap.deleteAll w.pv.data = some h' ∧ ∀ p, h'.val p = none := by
  obtain ⟨a, r, v⟩ := exact_run ops _ _ w os Abs.init h
  obtain ⟨h', e, o, _⟩ := v.own.deleteAll
  refine ⟨h', by rw [v.data]; exact e, fun p => ?_⟩
  cases hp : h'.val p with
  | none => rfl
  | some x => exact absurd ((o.val p x).1 hp) (by simp)

/-- Every history: if two terms are attached to the element at `i`, and the element is removed by the first of them, then
the second one finds the object that was behind the removed one; if there was none, every further search for it, removal
by it and assignment to it is undefined. -/
theorem second_term_finds_successor (I : MapImpl K) (unset : Option K) (pre : List (Op K V)) (w w' : World K V)
    (os : List (Obs V)) (k k2 : K) (i n : Nat) (y : Option (Nat × V))
    (h : run I unset World.init pre = some (w, os))
    (h' : run I unset w [.addTerm k i, .addTerm k2 i, .get (i + 1), .size, .remove k] =
      some (w', [.bool true, .bool true, .ptr y, .num n, .done])) :
    (i + 1 < n → exec I unset w' (.find k2) = some (w', .ptr y)) ∧
    (i + 1 = n → exec I unset w' (.find k2) = none ∧ exec I unset w' (.remove k2) = none ∧
      ∀ x, exec I unset w' (.assign k2 x) = none) := by
  obtain ⟨a, _, v⟩ := exact_run pre _ _ w os Abs.init h
  obtain ⟨a', r, v'⟩ := exact_run _ _ _ w' _ v h'
  obtain ⟨a1, o1, _, s1, ⟨a2, o2, _, s2, ⟨a3, o3, _, s3, ⟨a4, o4, _, s4, ⟨a5, o5, _, s5, ⟨rfl, rfl⟩, e5⟩, e4⟩, e3⟩, e2⟩, e1⟩ := r
  simp only [List.cons.injEq, and_true] at e1 e2 e3 e4 e5
  obtain ⟨rfl, rfl⟩ := e1
  simp only [List.cons.injEq, and_true] at e2
  obtain ⟨rfl, rfl⟩ := e2
  simp only [List.cons.injEq, and_true] at e3
  obtain ⟨rfl, rfl⟩ := e3
  simp only [List.cons.injEq, and_true] at e4
  obtain ⟨rfl, rfl⟩ := e4
  simp only [List.cons.injEq, and_true] at e5
  subst e5
  have hl : i < a.objs.length ∧ a.index k = none := by
    by_contra hc; simp only [Step, if_neg hc] at s1; cases s1.2
  simp only [Step, if_pos hl, and_true] at s1
  subst s1
  have hl2 : i < a.objs.length ∧ (a.bind k i).index k2 = none := by
    by_contra hc
    exact nomatch ((if_neg (c := i < (a.bind k i).objs.length ∧ (a.bind k i).index k2 = none) hc).mp s2).2
  have s2 : a2 = (a.bind k i).bind k2 i :=
    ((if_pos (c := i < (a.bind k i).objs.length ∧ (a.bind k i).index k2 = none) hl2).mp s2).1
  subst s2
  have hk : k2 ≠ k := by
    rintro rfl; simp [Actual.bind] at hl2
  obtain ⟨rfl, s3⟩ := s3
  obtain ⟨rfl, s4⟩ := s4
  simp only [Actual.bind, Obs.ptr.injEq, Obs.num.injEq] at s3 s4
  have hik : ((a.bind k i).bind k2 i).index k = some i := by simp [Actual.bind, hk.symm]
  have hik2 : ((a.bind k i).bind k2 i).index k2 = some i := by simp [Actual.bind]
  simp only [Step, hik, and_true] at s5
  subst s5
  have hidx : ((((a.bind k i).bind k2 i).takeOut i).forget k).index k2 = some i := by
    simp [Actual.forget, Actual.takeOut, if_neg hk, hik2]
  have hlen : ((((a.bind k i).bind k2 i).takeOut i).forget k).objs.length = n - 1 := by
    simp [Actual.forget, Actual.takeOut, Actual.bind, List.length_eraseIdx_of_lt hl.1, s4]
  refine ⟨fun hn => ?_, fun hn => ?_⟩
  · have hs : safe unset ((((a.bind k i).bind k2 i).takeOut i).forget k) (.find k2) := by
      intro j hj; rw [hidx] at hj; cases hj; omega
    have hl3 : i < ((((a.bind k i).bind k2 i).takeOut i).forget k).objs.length := by omega
    simp only [exec, PV.find, v'.index, hidx, (v'.obj_at hl3).1, (v'.obj_at hl3).2, Option.bind_some, Option.map_some]
    have : (((((a.bind k i).bind k2 i).takeOut i).forget k).objs[i]?) = a.objs[i + 1]? := by
      simp only [Actual.forget, Actual.takeOut, Actual.bind]
      rw [List.getElem?_eraseIdx_of_ge (Nat.le_refl i)]
    rw [List.getElem?_eq_getElem hl3, List.getElem?_eq_getElem (by omega)] at this
    rw [List.getElem?_eq_getElem (by omega)] at s3
    simp only [Option.bind_some, id] at s3
    rw [Option.some.inj this, s3]
  · have hns : ∀ j, i = j → ¬ j < ((((a.bind k i).bind k2 i).takeOut i).forget k).objs.length := by omega
    exact ⟨unsafe_undefined v' fun hs => hns i rfl (hs i hidx), unsafe_undefined v' fun hs => hns i rfl (hs i hidx),
      fun x => unsafe_undefined v' fun hs => hns i rfl (hs i hidx)⟩

/-- Two terms, removal by one of them; removal by index of an element with two terms and of one without any. -/
def demoExact : List (Op Nat Nat) :=
  [.insert 1 10, .insert 2 20, .insertNoKey 30, .addTerm 8 0, .addTerm 9 0, .find 9, .get 1, .remove 8, .find 9, .removeIndex 1,
   .size, .remove 2, .insertNoKey 40, .find 1, .find 9, .removeIndex 0, .apply]

example : (run MapImpl.atEnd (some 7) (World.init : World Nat Nat) demoExact).map (fun r => (r.1.pv.data, r.1.pv.lookup, r.2)) =
    some ([], [(1, 0)], [.index (some 0), .index (some 1), .index (some 2), .bool true, .bool true,
      .ptr (some (0, 10)), .ptr (some (1, 20)), .done, .ptr (some (1, 20)), .done, .num 1, .done, .index (some 0),
      .ptr (some (3, 40)), .ptr (some (3, 40)), .done, .ptrs []]) := by decide

/-- the hypotheses of `second_term_finds_successor`, both cases -/
example : (run MapImpl.atEnd none (World.init : World Nat Nat)
    [.insert 1 10, .insert 2 20, .addTerm 8 0, .addTerm 9 0, .get 1, .size, .remove 8]).map (·.2.drop 2) =
      some [.bool true, .bool true, .ptr (some (1, 20)), .num 2, .done] ∧
    (run MapImpl.atEnd none (World.init : World Nat Nat)
    [.insert 1 10, .insert 2 20, .addTerm 8 1, .addTerm 9 1, .get 2, .size, .remove 8]).map (·.2.drop 2) =
      some [.bool true, .bool true, .ptr none, .num 2, .done] := by decide

end Verif.Mapped.Pointer
