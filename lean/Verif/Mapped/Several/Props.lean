import Verif.Mapped.Several.Lemmas
import Verif.Mapped.Vector.Props
import Verif.Mapped.Dual.Props

/-
Copies, moves and lifetimes of MappedVector and DualMappedVector objects: property C74.
-/
namespace Verif.Mapped.Several
open Verif.Mapped Verif.Block
open Verif.Mapped.Vector (Ideal Obs unstableEnv stableEnv)

variable {K K1 K2 V : Type} [DecidableEq K] [DecidableEq K1] [DecidableEq K2]

/-- No objects yet. -/
def noObjs {K V : Type} : AWorld K V := fun _ => none

/-- several `MappedVector<V, K, unstable>` objects -/
def runMapped (impl : MapImpl K) (unset : Option K) (left : FMap K → FMap K) (ops : List (Op (Vector.Op K V))) :=
  program (vectors V) (Code.mapped (unstableEnv impl unset)) left ops

/-- several `MappedVector<V, K, stable, N>` objects -/
def runMappedStable (N : Nat) (impl : MapImpl K) (unset : Option K) (left : FMap K → FMap K) (ops : List (Op (Vector.Op K V))) :=
  program (stables N V) (Code.mapped (stableEnv N impl unset)) left ops

/-- several `DualMappedVector<V, K1, K2, unstable>` objects -/
def runDual (impl1 : MapImpl K1) (impl2 : MapImpl K2) (left : FMap K1 × FMap K2 → FMap K1 × FMap K2)
    (ops : List (Op (Dual.Op K1 K2 V))) :=
  program (vectors V) (Code.dual (Dual.unstableEnv impl1 impl2)) left ops

/-- several `DualMappedVector<V, K1, K2, stable, N>` objects -/
def runDualStable (N : Nat) (impl1 : MapImpl K1) (impl2 : MapImpl K2) (left : FMap K1 × FMap K2 → FMap K1 × FMap K2)
    (ops : List (Op (Dual.Op K1 K2 V))) :=
  program (stables N V) (Code.dual (Dual.stableEnv N impl1 impl2)) left ops

/-! ## C74: copies are independent, moves transfer, nothing leaks -/

/-- Programs over MappedVector objects with vector storage: whatever a moved-from map contains, every observation is
that of independent ideal containers.  Missing: removals of elements with several search terms (C34). -/
theorem mapped_unstable_partial (impl : MapImpl K) (unset : Option K) (left : FMap K → FMap K)
    (ops : List (Op (Vector.Op K V))) (aw : AWorld K V) (os : List (Obs V))
    (h : idealRun .unstable (Spec.mapped .unstable unset) noObjs ops = some (aw, os))
    (hc : carefulRun .unstable (Spec.mapped .unstable unset) noObjs ops = true) :
    ∃ w, runMapped impl unset left ops = some (w, os) := by
  obtain ⟨w, e, _⟩ := simulate (Λ := vectorsLaws V) (Γ := mappedCalls (unstableEnv impl unset) .unstable) left ops
    (Inv.empty _ _) hc h
  exact ⟨w, e⟩

/-- The same with stable storage; when all objects are destroyed no memory is left over.
Missing: also copies of containers that are empty but have been used, or whose reserved memory is exactly full, and
copy assignment to a moved-from container. -/
theorem mapped_stable_partial (N : Nat) (impl : MapImpl K) (unset : Option K) (left : FMap K → FMap K)
    (ops : List (Op (Vector.Op K V))) (aw : AWorld K V) (os : List (Obs V))
    (h : idealRun (.stable N) (Spec.mapped (.stable N) unset) noObjs ops = some (aw, os))
    (hc : carefulRun (.stable N) (Spec.mapped (.stable N) unset) noObjs ops = true) :
    ∃ w, runMappedStable N impl unset left ops = some (w, os) ∧
      ((∀ i, aw i = none) → ∀ b, w.mem.live b = false) := by
  obtain ⟨w, e, v⟩ := simulate (Λ := stablesLaws N V) (Γ := mappedCalls (stableEnv N impl unset) (.stable N)) left ops
    (Inv.empty _ _) hc h
  refine ⟨w, e, fun hn b => ?_⟩
  obtain ⟨us, fs, W⟩ := v.store
  cases hl : w.mem.live b with
  | false => rfl
  | true =>
    obtain ⟨i, hi⟩ := W.noleak b hl
    obtain ⟨_, h1, h2⟩ := W.getNone (i := i) (by simp [hn i])
    rw [h1, h2] at hi; simp at hi

/-- Programs over DualMappedVector objects with vector storage in which moved-from objects are only destroyed and
assigned to. -/
theorem dual_unstable (impl1 : MapImpl K1) (impl2 : MapImpl K2) (left : FMap K1 × FMap K2 → FMap K1 × FMap K2)
    (ops : List (Op (Dual.Op K1 K2 V))) (aw : AWorld (K1 ⊕ K2) V) (os : List (Obs V))
    (h : idealRun .unstable (Spec.dual .unstable) noObjs ops = some (aw, os))
    (hc : carefulRun .unstable (Spec.dual .unstable) noObjs ops = true) :
    ∃ w, runDual impl1 impl2 left ops = some (w, os) := by
  obtain ⟨w, e, _⟩ := simulate (Λ := vectorsLaws V) (Γ := dualCalls (Dual.unstableEnv impl1 impl2) .unstable) left ops
    (Inv.empty _ _) hc h
  exact ⟨w, e⟩

/-- With vector storage "careful" says only that moved-from objects are neither called, copied nor moved. -/
theorem careful_dual_unstable (w : AWorld (K1 ⊕ K2) V) (op : Op (Dual.Op K1 K2 V))
    (hr : ∀ i a, w i = some a → a.val.reserved = 0) :
    careful .unstable (Spec.dual .unstable) w op = match op with
      | .copyNew _ j | .moveNew _ j | .moveAssign _ j => (w j).any fun a => !a.moved
      | .copyAssign i j => (w i).isSome && (w j).any fun a => !a.moved
      | .call i _ => (w i).any fun a => !a.moved
      | _ => true := by
  cases op with
  | new i => rfl
  | destroy i => rfl
  | moveNew i j => rfl
  | moveAssign i j => rfl
  | copyNew i j =>
    simp only [careful]
    cases hj : w j with
    | none => rfl
    | some a => simp [Kind.iterable, hr j a hj]
  | copyAssign i j =>
    simp only [careful]
    cases hi : w i <;> cases hj : w j <;> simp [Kind.iterable, Kind.isStable]
  | call i c =>
    simp only [careful]
    cases hi : w i with
    | none => rfl
    | some a => cases c <;> simp [Spec.dual, Dual.careful, Kind.iterable]

/-- The same with stable storage; when all objects are destroyed no memory is left over.
Missing: as for `mapped_stable_partial`. -/
theorem dual_stable_partial (N : Nat) (impl1 : MapImpl K1) (impl2 : MapImpl K2)
    (left : FMap K1 × FMap K2 → FMap K1 × FMap K2)
    (ops : List (Op (Dual.Op K1 K2 V))) (aw : AWorld (K1 ⊕ K2) V) (os : List (Obs V))
    (h : idealRun (.stable N) (Spec.dual (.stable N)) noObjs ops = some (aw, os))
    (hc : carefulRun (.stable N) (Spec.dual (.stable N)) noObjs ops = true) :
    ∃ w, runDualStable N impl1 impl2 left ops = some (w, os) ∧
      ((∀ i, aw i = none) → ∀ b, w.mem.live b = false) := by
  obtain ⟨w, e, v⟩ := simulate (Λ := stablesLaws N V) (Γ := dualCalls (Dual.stableEnv N impl1 impl2) (.stable N)) left ops
    (Inv.empty _ _) hc h
  refine ⟨w, e, fun hn b => ?_⟩
  obtain ⟨us, fs, W⟩ := v.store
  cases hl : w.mem.live b with
  | false => rfl
  | true =>
    obtain ⟨i, hi⟩ := W.noleak b hl
    obtain ⟨_, h1, h2⟩ := W.getNone (i := i) (by simp [hn i])
    rw [h1, h2] at hi; simp at hi

/-- A program with every kind of copy and move, in which copies diverge from their originals. -/
def demo : List (Op (Vector.Op Nat Nat)) :=
  [.new 0, .call 0 (.insert 1 10), .call 0 (.insert 2 20), .copyNew 1 0, .call 1 (.remove 2), .call 1 (.insert 3 30),
   .call 0 (.find 2), .call 1 (.find 2), .call 0 (.find 3), .call 1 (.find 3), .moveNew 2 1, .call 2 (.find 1),
   .destroy 1, .copyAssign 2 0, .call 2 (.find 2), .call 2 (.set 1 21), .call 0 (.find 2), .call 2 (.find 2),
   .moveAssign 0 2, .call 0 (.find 2), .destroy 2, .destroy 0]

def demoObs : List (Obs Nat) :=
  [.done, .index (some 0), .index (some 1), .done, .done, .index (some 1), .found (some 20), .found none, .found none,
   .found (some 30), .done, .found (some 10), .done, .done, .found (some 20), .done, .found (some 20),
   .found (some 21), .done, .found (some 21), .done, .done]

example : (idealRun .unstable (Spec.mapped .unstable none) noObjs demo).map (·.2) = some demoObs := by decide +kernel
example : carefulRun .unstable (Spec.mapped .unstable none) noObjs demo = true := by decide +kernel
example : (idealRun (.stable 1) (Spec.mapped (.stable 1) none) noObjs demo).map (·.2) = some demoObs := by decide +kernel
example : carefulRun (.stable 1) (Spec.mapped (.stable 1) none) noObjs demo = true := by decide +kernel

/-- The same for DualMappedVector, with both search types. -/
def demo2 : List (Op (Dual.Op Nat Nat Nat)) :=
  [.new 0, .call 0 (.insert (some 1) (some 7) 10), .call 0 (.insert (some 2) none 20), .copyNew 1 0,
   .call 1 (.remove (.inr 7)), .call 0 (.find (.inl 1)), .call 1 (.find (.inl 1)), .moveNew 2 1, .call 2 (.find (.inl 2)),
   .copyAssign 2 0, .call 2 (.find (.inr 7)), .destroy 1, .moveAssign 0 2, .call 0 (.find (.inr 7)), .destroy 2, .destroy 0]

def demo2Obs : List (Obs Nat) :=
  [.done, .index (some 0), .index (some 1), .done, .done, .found (some 10), .found none, .done, .found (some 20),
   .done, .found (some 10), .done, .done, .found (some 10), .done, .done]

example : (idealRun .unstable (Spec.dual .unstable) noObjs demo2).map (·.2) = some demo2Obs := by decide +kernel
example : carefulRun .unstable (Spec.dual .unstable) noObjs demo2 = true := by decide +kernel
example : (idealRun (.stable 1) (Spec.dual (.stable 1)) noObjs demo2).map (·.2) = some demo2Obs := by decide +kernel
example : carefulRun (.stable 1) (Spec.dual (.stable 1)) noObjs demo2 = true := by decide +kernel

/-! ### Where the code fails -/

/-- C74 violation: a copy of a stable MappedVector that was used and emptied cannot be destroyed or cleared: the array of
block pointers is read at index -1. -/
theorem copy_emptied_violation :
    (idealRun (.stable 2) (Spec.mapped (.stable 2) none) noObjs
      [Op.new 0, .call 0 (.insert 1 10), .call 0 .clear, .copyNew 1 0, .call 1 .size, .destroy 1]).map (·.2) =
      some [.done, .index (some 0), .done, .done, .num 0, .done] ∧
    (runMappedStable 2 MapImpl.atEnd none id
      [Op.new 0, .call 0 (.insert 1 10), .call 0 .clear, .copyNew 1 0, .call 1 .size]).isSome = true ∧
    (runMappedStable 2 MapImpl.atEnd none id
      [Op.new 0, .call 0 (.insert 1 10), .call 0 .clear, .copyNew 1 0, .call 1 .size, .destroy 1]).isNone = true ∧
    (runMappedStable 2 MapImpl.atEnd none id
      [Op.new 0, .call 0 (.insert 1 10), .call 0 .clear, .copyNew 1 0, .call 1 .size, .call 1 .clear]).isNone = true := by
  decide +kernel

/-- C74 violation: inserting into, or copy-assigning to, a moved-from stable MappedVector is undefined, even if the
moved-from map is empty; one that has been move-assigned from reports its old size. -/
theorem moved_from_violation :
    (runMappedStable 2 MapImpl.atEnd none (fun _ => [])
      [Op.new 0, .call 0 (.insert 1 10), .moveNew 1 0, .call 0 (.insert 1 11)]).isNone = true ∧
    (runMappedStable 2 MapImpl.atEnd none (fun _ => [])
      [Op.new 0, .call 0 (.insert 1 10), .moveNew 1 0, .copyAssign 0 1]).isNone = true ∧
    (runMappedStable 2 MapImpl.atEnd none (fun _ => [])
      [Op.new 0, .call 0 (.insert 1 10), .new 1, .moveAssign 1 0, .call 0 .size]).map (·.2) =
      some [.done, .index (some 0), .done, .done, .num 1] := by
  decide +kernel

/-- With vector storage a moved-from container works if the library empties moved-from maps (as the usual ones do), but
the standard does not promise that: with a map that keeps its contents a search dereferences past the end. -/
theorem moved_from_vector_violation :
    (runMapped MapImpl.atEnd none (fun _ => [])
      [Op.new 0, .call 0 (.insert 1 10), .moveNew 1 0, .call 0 (.find 1), .call 0 (.insert 2 20), .call 0 (.find 2)]).map (·.2) =
      some [.done, .index (some 0), .done, .found none, .index (some 0), .found (some 20)] ∧
    (runMapped MapImpl.atEnd none id
      [Op.new 0, .call 0 (.insert 1 10), .call 0 (.insert 2 20), .moveNew 1 0, .call 0 (.find 2)]).isNone = true := by
  decide +kernel

end Verif.Mapped.Several
