import Verif.Block.Deque.ArraysProps

/-
C159 for StableBlockDeque: `std::swap(vi, vj)`, that is `T t(std::move(vi)); vi = std::move(vj); vj = std::move(t);` and
the end of the life of `t`, with the move constructor and move assignment of StableBlockDeque.hpp:133-175.
-/
namespace Verif.Block.Deque
open Verif.Block

variable {X : Type} {N : Nat}

/-- `std::swap(vi, vj)` with the temporary object `t`. -/
def swapOps (t i j : Nat) : List (Op X) := [.moveNew t i, .moveAssign i j, .moveAssign j t, .destroy t]

/-- `f` with the values at `i` and `j` exchanged -/
def exchanged {α : Type} (f : Nat → α) (i j : Nat) : Nat → α := fun x => f (if x = i then j else if x = j then i else x)

/-! ## C159 -/

/-- C159.  `std::swap` of any two StableBlockDeques (also moved-from ones, also of a deque with itself) exchanges their
members and does nothing else: no element is constructed, moved or destroyed, no memory allocated or freed.  So every
reference, pointer and iterator stays valid and refers to the same element, now in the other deque. -/
theorem swap_exact (P : Pol) (N : Nat) (w : TWorld X) (t i j : Nat) (a b : ADeq) (ha : w.objs i = some a) (hb : w.objs j = some b)
    (ht : w.objs t = none) :
    runT P N w (swapOps t i j) = some (⟨exchanged w.objs i j, w.heap, w.arrays⟩, [.done, .done, .done, .done]) := by
  have hti : t ≠ i := by rintro rfl; rw [ha] at ht; cases ht
  have htj : t ≠ j := by rintro rfl; rw [hb] at ht; cases ht
  by_cases hij : i = j
  · subst hij
    simp only [swapOps, runT, execT, ht, ha, upd, ADeq.moveCtor, Deq.moveCtor, ADeq.moveAssign, ADeq.freeAll, Deq.husk, hti,
      hti.symm, Option.isNone_none, if_true, if_false, Option.map_some, Option.bind_some, Option.some.injEq,
      Prod.mk.injEq, and_true, TWorld.mk.injEq]
    funext x
    by_cases h1 : x = t
    · subst h1; simp [exchanged, upd, hti, ht]
    · by_cases h2 : x = i
      · subst h2; simp [exchanged, upd, h1, ha]
      · simp [exchanged, upd, h1, h2]
  · have hji : j ≠ i := fun h => hij h.symm
    simp only [swapOps, runT, execT, ht, ha, hb, upd, ADeq.moveCtor, Deq.moveCtor, ADeq.moveAssign, ADeq.freeAll, Deq.husk, hti,
      hti.symm, htj, htj.symm, hij, hji, Option.isNone_none, if_true, if_false, Option.map_some, Option.bind_some, Option.some.injEq,
      Prod.mk.injEq, and_true, TWorld.mk.injEq]
    funext x
    by_cases h1 : x = t
    · subst h1; simp [exchanged, upd, hti, htj, ht]
    · by_cases h2 : x = i
      · subst h2; simp [exchanged, upd, h1, hb, hij]
      · by_cases h3 : x = j
        · subst h3; simp [exchanged, upd, h1, h2, ha]
        · simp [exchanged, upd, h1, h2, h3]

/-- C159.  What a client sees: after `std::swap(vi, vj)` in any state reached by a program `pre`, every program `post` sees
what it sees of two sequences that have been exchanged. -/
theorem swap_seen_partial (P : Pol) (N : Nat) (pre : List (Op X)) (t i j : Nat) (aw : AWorld X) (obs : List (Obs X))
    (h : idealRun noObjs pre = some (aw, obs)) (hc : carefulRun P N World.empty pre = true) (hij : i ≠ j)
    (a b : List X) (ha : aw i = some a) (hb : aw j = some b) (ht : aw t = none) :
    ∃ w w', run P N World.empty pre = some (w, obs) ∧
      run P N w (swapOps t i j) = some (w', [.done, .done, .done, .done]) ∧
      ∀ (post : List (Op X)) (aw' : AWorld X) (obs' : List (Obs X)), idealRun (exchanged aw i j) post = some (aw', obs') →
        carefulRun P N w' post = true → ∃ w'', run P N w' post = some (w'', obs') := by
  have hti : t ≠ i := by rintro rfl; rw [ha] at ht; cases ht
  have htj : t ≠ j := by rintro rfl; rw [hb] at ht; cases ht
  have hji : j ≠ i := fun h => hij h.symm
  obtain ⟨w, us, fs, e, W⟩ := runs P pre World.empty noObjs _ _ WInv.empty aw obs h hc
  have hi : idealRun aw (swapOps t i j) = some (exchanged aw i j, [.done, .done, .done, .done]) := by
    simp only [swapOps, idealRun, ideal, ht, ha, hb, upd, hti, hti.symm, htj, htj.symm, hij, hji, Option.isNone_none, if_true,
      if_false, Option.map_some, Option.bind_some, Option.some.injEq, Prod.mk.injEq, and_true]
    funext x
    by_cases h1 : x = t
    · subst h1; simp [exchanged, upd, hti, htj, ht]
    · by_cases h2 : x = i
      · subst h2; simp [exchanged, upd, h1, hb, hij]
      · by_cases h3 : x = j
        · subst h3; simp [exchanged, upd, h1, h2, ha]
        · simp [exchanged, upd, h1, h2, h3]
  have hcs : carefulRun P N w (swapOps t i j) = true := by
    have : ∀ (ops : List (Op X)) (w : World X), (∀ op, op ∈ ops → op ∈ (swapOps t i j : List (Op X))) →
        carefulRun P N w ops = true := by
      intro ops
      induction ops with
      | nil => intro w _; rfl
      | cons op ops ih =>
        intro w hm
        have h1 := hm op List.mem_cons_self
        rw [carefulRun, Bool.and_eq_true]
        refine ⟨?_, ?_⟩
        · simp only [swapOps, List.mem_cons, List.not_mem_nil, or_false] at h1
          rcases h1 with rfl | rfl | rfl | rfl <;> rfl
        · split
          · exact ih _ fun op ho => hm op (List.mem_cons_of_mem _ ho)
          · rfl
    exact this _ w fun _ h => h
  obtain ⟨w', us', fs', e', W'⟩ := runs P (swapOps t i j) w aw us fs W _ _ hi hcs
  refine ⟨w, w', e, e', ?_⟩
  intro post aw' obs' h' hc'
  obtain ⟨w'', _, _, e'', _⟩ := runs P post w' _ us' fs' W' aw' obs' h' hc'
  exact ⟨w'', e''⟩

/-- Two deques are exchanged. -/
example :
    (idealRun noObjs [Op.new 0, .new 1, .push 0 'a', .push 1 'b', .pushFront 1 'c', .push 1 'd']).map
      (fun r => (r.1 0, r.1 1, r.1 2)) = some (some ['a'], some ['c', 'b', 'd'], none) ∧
    carefulRun ⟨false, false⟩ 1 World.empty [Op.new 0, .new 1, .push 0 'a', .push 1 'b', .pushFront 1 'c', .push 1 'd'] = true ∧
    (runT ⟨false, false⟩ 1 TWorld.empty [Op.new 0, .new 1, .push 0 'a', .push 1 'b', .pushFront 1 'c', .push 1 'd']).bind
      (fun r => (runT ⟨false, false⟩ 1 r.1 (swapOps 2 0 1)).bind fun s =>
        (runT ⟨false, false⟩ 1 s.1 [.iterate 0, .pushFront 1 'e', .iterate 1]).map (·.2)) =
      some [.vals ['c', 'b', 'd'], .done, .vals ['e', 'a']] := by
  decide

end Verif.Block.Deque
