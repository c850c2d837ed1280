import Verif.Mapped.SeveralPtr.Model

/-
C164: `std::swap(ti, tj)` of MappedPointerVector or DualMappedPointerVector objects, that is
`T t(std::move(ti)); ti = std::move(tj); tj = std::move(t);` and the end of the life of `t`, with the defaulted move
operations (MappedPointerVector.hpp:29-31, DualMappedPointerVector.hpp:37-40), for any state in which moved-from maps are left.
In a swap of an object with itself, `ti = std::move(ti)` is applied to a moved-from object; the model takes it to stay moved
from (the standard leaves its value unspecified); it is assigned to next.
-/
namespace Verif.Mapped.SeveralPtr
open Verif.Mapped
open Verif.Mapped.Pointer (Objs Obs PV)
open Verif.Mapped.DualPtr (DPV)

variable {P M C V : Type}

/-- `std::swap(ti, tj)` with the temporary object `t`. -/
def swapOps (t i j : Nat) : List (Op C) := [.moveNew t i, .moveAssign i j, .moveAssign j t, .destroy t]

/-- the other of the two objects `i` and `j`; any other object itself -/
def other (i j x : Nat) : Nat := if x = i then j else if x = j then i else x

/-- a call with its objects renamed by `σ` -/
def Op.rename (σ : Nat → Nat) : Op C → Op C
  | .new a => .new (σ a)
  | .moveNew a b => .moveNew (σ a) (σ b)
  | .moveAssign a b => .moveAssign (σ a) (σ b)
  | .destroy a => .destroy (σ a)
  | .call a c => .call (σ a) c

theorem other_other (i j x : Nat) : other i j (other i j x) = x := by
  unfold other; repeat' split <;> simp_all

theorem other_inj (i j x y : Nat) : other i j x = other i j y ↔ x = y :=
  ⟨fun h => by rw [← other_other i j x, h, other_other], fun h => by rw [h]⟩

theorem upd_renamed {A : Type} (f : Nat → A) (i j x : Nat) (a : A) :
    upd (fun y => f (other i j y)) x a = fun y => upd f (other i j x) a (other i j y) := by
  funext y
  simp only [upd, other_inj]

theorem exec_other (code : Code P M C V) (left : M → M) (w : World P V) (i j : Nat) (op : Op C) :
    exec code left ⟨fun x => w.objs (other i j x), w.heap⟩ op =
      (exec code left w (op.rename (other i j))).map fun r => (⟨fun x => r.1.objs (other i j x), r.1.heap⟩, r.2) := by
  cases op with
  | new x => simp only [exec, Op.rename, upd_renamed, Option.map_some]
  | moveNew x y => simp only [exec, Op.rename, upd_renamed]; cases w.objs (other i j y) <;> rfl
  | moveAssign x y =>
    simp only [exec, Op.rename, upd_renamed]
    cases w.objs (other i j x) with
    | none => rfl
    | some p =>
      cases w.objs (other i j y) with
      | none => rfl
      | some q => simp only [Option.bind_some]; cases w.heap.deleteAll (code.data p) <;> rfl
  | destroy x =>
    simp only [exec, Op.rename, upd_renamed]
    cases w.objs (other i j x) with
    | none => rfl
    | some p => simp only [Option.bind_some]; cases w.heap.deleteAll (code.data p) <;> rfl
  | call x c =>
    simp only [exec, Op.rename, upd_renamed]
    cases w.objs (other i j x) with
    | none => rfl
    | some p => simp only [Option.bind_some]; cases code.exec p w.heap c <;> rfl

theorem run_other (code : Code P M C V) (left : M → M) (i j : Nat) (ops : List (Op C)) : ∀ w : World P V,
    run code left ⟨fun x => w.objs (other i j x), w.heap⟩ ops =
      (run code left w (ops.map (Op.rename (other i j)))).map fun r => (⟨fun x => r.1.objs (other i j x), r.1.heap⟩, r.2) := by
  induction ops with
  | nil => intro w; rfl
  | cons op ops ih =>
    intro w
    simp only [List.map_cons, run, exec_other]
    cases exec code left w (op.rename (other i j)) with
    | none => rfl
    | some r =>
      simp only [Option.map_some, Option.bind_some, ih]
      cases run code left r.1 (ops.map (Op.rename (other i j))) <;> rfl

theorem swap_run (code : Code P M C V) (hb : ∀ p, code.build (code.data p) (code.maps p) = p)
    (hd : ∀ d m, code.data (code.build d m) = d) (hm : ∀ d m, code.maps (code.build d m) = m)
    (left : M → M) (w : World P V) (t i j : Nat) (hi : w.objs i ≠ none) (hj : w.objs j ≠ none)
    (ht : w.objs t = none) :
    run code left w (swapOps t i j) = some (⟨fun x => w.objs (other i j x), w.heap⟩, [.done, .done, .done, .done]) := by
  obtain ⟨a, ha⟩ := Option.ne_none_iff_exists'.1 hi
  obtain ⟨b, hb'⟩ := Option.ne_none_iff_exists'.1 hj
  have hti : t ≠ i := by rintro rfl; rw [ha] at ht; cases ht
  have htj : t ≠ j := by rintro rfl; rw [hb'] at ht; cases ht
  have hdel : w.heap.deleteAll [] = some w.heap := rfl
  by_cases hij : i = j
  · subst hij
    simp only [swapOps, run, exec, ha, upd, hb, hd, hm, hdel, hti, hti.symm, if_true, if_false,
      Option.map_some, Option.bind_some, Option.some.injEq, Prod.mk.injEq, and_true, World.mk.injEq]
    funext x
    by_cases h1 : x = t
    · subst h1; simp [upd, other, hti, ht]
    · by_cases h2 : x = i
      · subst h2; simp [upd, other, h1, ha]
      · simp [upd, other, h1, h2]
  have hji : j ≠ i := fun h => hij h.symm
  simp only [swapOps, run, exec, ha, hb', upd, hb, hd, hm, hdel, hti, hti.symm, htj, htj.symm, hij, hji, if_true, if_false,
    Option.map_some, Option.bind_some, Option.some.injEq, Prod.mk.injEq, and_true, World.mk.injEq]
  funext x
  by_cases h1 : x = t
  · subst h1; simp [upd, other, hti, htj, ht]
  · by_cases h2 : x = i
    · subst h2; simp [upd, other, h1, hb', hij]
    · by_cases h3 : x = j
      · subst h3; simp [upd, other, h1, h2, ha]
      · simp [upd, other, h1, h2, h3]

/-! ## C164 -/

/-- C164.  `std::swap` exchanges two MappedPointerVectors, in whatever state they are (also moved from; also one with itself), and does nothing
else: no object is made or deleted.  Every program sees afterwards what it would have seen without the exchange with the two
names exchanged, and is undefined behaviour exactly if that is. -/
theorem mapped_swap {K V : Type} [DecidableEq K] (I : MapImpl K) (unset : Option K) (left : FMap K → FMap K)
    (w : World (PV K) V) (t i j : Nat) (hi : w.objs i ≠ none) (hj : w.objs j ≠ none) (ht : w.objs t = none)
    (post : List (Op (Pointer.Op K V))) :
    ∃ w', run (Code.mapped I unset) left w (swapOps t i j) = some (w', [.done, .done, .done, .done]) ∧
      (∀ x, w'.objs x = w.objs (other i j x)) ∧ w'.heap = w.heap ∧
      (run (Code.mapped I unset) left w' post).map (·.2) =
        (run (Code.mapped I unset) left w (post.map (Op.rename (other i j)))).map (·.2) := by
  refine ⟨_, swap_run _ (fun _ => rfl) (fun _ _ => rfl) (fun _ _ => rfl) left w t i j hi hj ht, fun _ => rfl, rfl, ?_⟩
  rw [run_other, Option.map_map]
  rfl

/-- C164 for DualMappedPointerVector. -/
theorem dual_swap {K1 K2 V : Type} [DecidableEq K1] [DecidableEq K2] (E : DualPtr.Env K1 K2)
    (left : FMap K1 × FMap K2 → FMap K1 × FMap K2)
    (w : World (DPV K1 K2) V) (t i j : Nat) (hi : w.objs i ≠ none) (hj : w.objs j ≠ none) (ht : w.objs t = none)
    (post : List (Op (DualPtr.Op K1 K2 V))) :
    ∃ w', run (Code.dual E) left w (swapOps t i j) = some (w', [.done, .done, .done, .done]) ∧
      (∀ x, w'.objs x = w.objs (other i j x)) ∧ w'.heap = w.heap ∧
      (run (Code.dual E) left w' post).map (·.2) =
        (run (Code.dual E) left w (post.map (Op.rename (other i j)))).map (·.2) := by
  refine ⟨_, swap_run _ (fun _ => rfl) (fun _ _ => rfl) (fun _ _ => rfl) left w t i j hi hj ht, fun _ => rfl, rfl, ?_⟩
  rw [run_other, Option.map_map]
  rfl

/-- Two containers are exchanged; the library leaves moved-from maps as they are. -/
example :
    (run (Code.mapped (V := Nat) (MapImpl.atEnd (K := Nat)) none) id World.init
      ([.new 0, .new 1, .call 0 (.insert 7 70), .call 1 (.insert 8 80), .call 1 (.insert 9 90)] ++ swapOps 2 0 1 ++
       [.call 0 (.find 9), .call 0 .size, .call 1 (.find 7), .call 1 (.find 8)])).map (fun r => r.2.drop 9) =
      some [.ptr (some (2, 90)), .num 2, .ptr (some (0, 70)), .ptr none] := by
  decide +kernel

end Verif.Mapped.SeveralPtr
