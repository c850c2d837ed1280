import Verif.Block.Vector.ArraysProps

/-
C157 for StableBlockVector: `std::swap(vi, vj)`, that is `T t(std::move(vi)); vi = std::move(vj); vj = std::move(t);` and
the end of the life of `t`, with the move constructor and move assignment of StableBlockVector.hpp:92-131.
-/
namespace Verif.Block.Vector
open Verif.Block

variable {X : Type} {N : Nat}

/-- `std::swap(vi, vj)` with the temporary object `t`. -/
def swapOps (t i j : Nat) : List (Op X) := [.moveNew t i, .moveAssign i j, .moveAssign j t, .destroy t]

/-- `f` with the values at `i` and `j` exchanged -/
def exchanged {α : Type} (f : Nat → α) (i j : Nat) : Nat → α := fun x => f (if x = i then j else if x = j then i else x)

/-! ## C157 -/

/-- C157.  `std::swap` of any two StableBlockVectors (also moved-from ones, also of a vector with itself) exchanges their
members and does nothing else: no element is constructed, moved or destroyed, no memory allocated or freed.  So every
reference, pointer and iterator stays valid and refers to the same element, now in the other vector. -/
theorem swap_exact (N : Nat) (w : TWorld X) (t i j : Nat) (a b : AVec) (ha : w.objs i = some a) (hb : w.objs j = some b)
    (ht : w.objs t = none) :
    runT N w (swapOps t i j) = some (⟨exchanged w.objs i j, w.heap, w.arrays⟩, [.done, .done, .done, .done]) := by
  have hti : t ≠ i := by rintro rfl; rw [ha] at ht; cases ht
  have htj : t ≠ j := by rintro rfl; rw [hb] at ht; cases ht
  by_cases hij : i = j
  · subst hij
    simp only [swapOps, runT, execT, ht, ha, upd, AVec.moveCtor, Vec.moveCtor, AVec.moveAssign, AVec.freeAll, hti,
      hti.symm, Option.isNone_none, if_true, if_false, Option.map_some, Option.bind_some, Option.some.injEq,
      Prod.mk.injEq, and_true, TWorld.mk.injEq]
    funext x
    by_cases h1 : x = t
    · subst h1; simp [exchanged, upd, hti, ht]
    · by_cases h2 : x = i
      · subst h2; simp [exchanged, upd, h1, ha]
      · simp [exchanged, upd, h1, h2]
  · have hji : j ≠ i := fun h => hij h.symm
    simp only [swapOps, runT, execT, ht, ha, hb, upd, AVec.moveCtor, Vec.moveCtor, AVec.moveAssign, AVec.freeAll, hti,
      hti.symm, htj, htj.symm, hij, hji, Option.isNone_none, if_true, if_false, Option.map_some, Option.bind_some, Option.some.injEq,
      Prod.mk.injEq, and_true, TWorld.mk.injEq]
    funext x
    by_cases h1 : x = t
    · subst h1; simp [exchanged, upd, hti, htj, ht]
    · by_cases h2 : x = i
      · subst h2; simp [exchanged, upd, h1, hb, hij]
      · by_cases h3 : x = j
        · subst h3; simp [exchanged, upd, h1, h2, ha]
        · simp [exchanged, upd, h1, h2, h3]

/-- C157.  What a client sees: after `std::swap(vi, vj)` in any state reached by a program `pre`, every program `post` sees
what it sees of two sequences that have been exchanged. -/
theorem swap_seen (N : Nat) (pre post : List (Op X)) (t i j : Nat) (aw : AWorld X) (obs : List (Obs X))
    (h : idealRun N noObjs pre = some (aw, obs)) (hc : carefulRun N noObjs pre = true) (hij : i ≠ j)
    (a b : AObj X) (ha : aw i = some a) (hb : aw j = some b) (ht : aw t = none) (hma : a.moved = false) (hmb : b.moved = false)
    (aw' : AWorld X) (obs' : List (Obs X)) (h' : idealRun N (exchanged aw i j) post = some (aw', obs'))
    (hc' : carefulRun N (exchanged aw i j) post = true) :
    ∃ w w' w'', run N World.empty pre = some (w, obs) ∧
      run N w (swapOps t i j) = some (w', [.done, .done, .done, .done]) ∧ run N w' post = some (w'', obs') := by
  have hti : t ≠ i := by rintro rfl; rw [ha] at ht; cases ht
  have htj : t ≠ j := by rintro rfl; rw [hb] at ht; cases ht
  have hji : j ≠ i := fun h => hij h.symm
  obtain ⟨w, us, fs, e, W⟩ := runs pre World.empty noObjs _ _ WInv.empty aw obs h hc
  have hi : idealRun N aw (swapOps t i j) = some (exchanged aw i j, [.done, .done, .done, .done]) := by
    simp only [swapOps, idealRun, ideal, ht, ha, hb, upd, hti, hti.symm, htj, htj.symm, hij, hji, Option.isNone_none, if_true,
      if_false, Option.map_some, Option.bind_some, Option.some.injEq, Prod.mk.injEq, and_true]
    funext x
    by_cases h1 : x = t
    · subst h1; simp [exchanged, upd, hti, htj, ht]
    · by_cases h2 : x = i
      · subst h2; simp [exchanged, upd, h1, hb, hij]
      · by_cases h3 : x = j
        · subst h3; simp [exchanged, upd, h1, h2, ha]
        · simp [exchanged, upd, h1, h2, h3]
  have hcs : carefulRun N aw (swapOps t i j) = true := by
    simp [swapOps, carefulRun, careful, ideal, ht, ha, hb, upd, hti, hti.symm, htj, htj.symm, hij, hji, hma, hmb]
  obtain ⟨w', us', fs', e', W'⟩ := runs (swapOps t i j) w aw us fs W _ _ hi hcs
  obtain ⟨w'', _, _, e'', _⟩ := runs post w' _ us' fs' W' aw' obs' h' hc'
  exact ⟨w, w', w'', e, e', e''⟩

/-- Two vectors are exchanged. -/
example :
    (idealRun 1 noObjs [.new 0, .new 1, .push 0 'a', .push 1 'b', .push 1 'c', .push 1 'd']).map
      (fun r => (r.1 0, r.1 1, r.1 2)) = some (some ⟨['a'], 64, false⟩, some ⟨['b', 'c', 'd'], 64, false⟩, none) ∧
    (runT 1 TWorld.empty [.new 0, .new 1, .push 0 'a', .push 1 'b', .push 1 'c', .push 1 'd']).bind (fun r =>
      (runT 1 r.1 (swapOps 2 0 1)).bind fun s => (runT 1 s.1 [.iterate 0, .push 1 'e', .iterate 1]).map (·.2)) =
      some [.vals ['b', 'c', 'd'], .done, .vals ['a', 'e']] := by
  decide

end Verif.Block.Vector
