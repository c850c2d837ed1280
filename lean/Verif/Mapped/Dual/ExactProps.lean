import Verif.Mapped.Dual.Exact
import Verif.Mapped.Dual.Props

/-
Property C132: what DualMappedVector does in every history.
-/
namespace Verif.Mapped.Dual
open Verif.Mapped Verif.Block
open Verif.Mapped.Vector (Obs Ideal Entry stableUndef)

variable {K1 K2 V : Type} [DecidableEq K1] [DecidableEq K2]

/-- Vector storage: what is not described is undefined. -/
theorem undef_unstable {i1 : MapImpl K1} {i2 : MapImpl K2} {m : DMV (List V) K1 K2} {a : Ideal (K1 ⊕ K2) V}
    (v : Inv (E := unstableEnv i1 i2) (vectorLawful V) m a) {op : Op K1 K2 V} (hd : described .unstable a op = none) :
    exec (unstableEnv i1 i2) m op = none := by
  have hrep : m.data = a.entries.map (·.value) := v.rep.1
  rw [described] at hd
  split at hd
  · rcases ideal_none hd with h | ⟨rfl, h⟩
    · cases op with
      | get i =>
        have h : a.entries.length ≤ i := h
        simp [exec, DMV.get, unstableEnv, vectorStore, hrep, h]
      | set i x =>
        have h : a.entries.length ≤ i := h
        simp [exec, DMV.set, unstableEnv, vectorStore, hrep, Nat.not_lt.2 h]
      | _ => exact h.elim
    · simp [exec, DMV.back, unstableEnv, vectorStore, hrep, h]
  · rename_i hc
    exact absurd (by cases op <;> simp [careful, Kind.iterable]) hc

/-- C132, vector storage: in every program all calls return what the specification says, and the program is undefined
exactly if the specification leaves it open: by accesses beyond the end and `back()` of an empty container. -/
theorem exact_unstable (i1 : MapImpl K1) (i2 : MapImpl K2) (ops : List (Op K1 K2 V)) :
    (run (unstableEnv i1 i2) (DMV.init (unstableEnv i1 i2)) ops).map (·.2) = (idealRun .unstable empty ops).map (·.2) := by
  have hcar : ∀ (a : Ideal (K1 ⊕ K2) V) (op : Op K1 K2 V), described .unstable a op = ideal .unstable a op := by
    intro a op
    rw [described, if_pos (by cases op <;> simp [careful, Kind.iterable])]
  have hrun : ∀ (ops : List (Op K1 K2 V)) (a : Ideal (K1 ⊕ K2) V), describedRun .unstable a ops = idealRun .unstable a ops := by
    intro ops
    induction ops with
    | nil => intro a; rfl
    | cons op ops ih => intro a; simp only [describedRun, idealRun, hcar, ih]
  rw [← hrun]
  rcases exact_core (E := unstableEnv i1 i2) (L := vectorLawful V) ops _ _ (init_inv (vectorStarts V)) with
    ⟨m', a', os, e, r, w⟩ | ⟨pre, op', post, m', a', os, h, e, r, w, n, q⟩
  · rw [e, empty, r]; rfl
  · have := undef_unstable w n
    rw [empty, q, h, run_append, e]
    simp [run, this]

/-- C132, stable storage: every program does what the description says, up to the first call that is not described; and
that one is an unchecked access beyond the end or has undefined behaviour. -/
theorem exact_stable (N : Nat) (i1 : MapImpl K1) (i2 : MapImpl K2) (ops : List (Op K1 K2 V)) :
    (∃ m a os, run (stableEnv N i1 i2) (DMV.init (stableEnv N i1 i2)) ops = some (m, os) ∧
      describedRun (.stable N) empty ops = some (a, os)) ∨
    (∃ pre op post m a os, ops = pre ++ op :: post ∧
      run (stableEnv N i1 i2) (DMV.init (stableEnv N i1 i2)) pre = some (m, os) ∧
      describedRun (.stable N) empty pre = some (a, os) ∧ described (.stable N) a op = none ∧
      (beyond a op ∨ exec (stableEnv N i1 i2) m op = none)) := by
  rcases exact_core (E := stableEnv N i1 i2) (L := stableLawful N V) ops _ _ (init_inv (stableStarts N V)) with
    ⟨m', a', os, e, r, w⟩ | ⟨pre, op', post, m', a', os, h, e, r, w, n, q⟩
  · exact .inl ⟨m', a', os, e, r⟩
  · exact .inr ⟨pre, op', post, m', a', os, h, e, r, n, undef_step (E := stableEnv N i1 i2) (stableUndef N V) w n⟩

/-- Both cases of `exact_stable`: 63 elements can be traversed, 64 cannot (block order 0). -/
example : (run (stableEnv 0 MapImpl.atEnd MapImpl.atEnd) (DMV.init (stableEnv (K1 := Nat) (K2 := Nat) (V := Nat) 0 MapImpl.atEnd MapImpl.atEnd))
    (((List.range 63).map fun i => .insert (some i) none i) ++ [.find (.inr 0), .apply])).isSome = true ∧
    (run (stableEnv 0 MapImpl.atEnd MapImpl.atEnd) (DMV.init (stableEnv (K1 := Nat) (K2 := Nat) (V := Nat) 0 MapImpl.atEnd MapImpl.atEnd))
    (((List.range 64).map fun i => .insert (some i) none i) ++ [.find (.inl 9)])).isSome = true ∧
    (run (stableEnv 0 MapImpl.atEnd MapImpl.atEnd) (DMV.init (stableEnv (K1 := Nat) (K2 := Nat) (V := Nat) 0 MapImpl.atEnd MapImpl.atEnd))
    (((List.range 64).map fun i => .insert (some i) none i) ++ [.find (.inr 0)])).isSome = false := by
  refine ⟨?_, ?_, ?_⟩ <;> decide +kernel

/-- Vector storage: the empty container has no last element. -/
example : (run (unstableEnv MapImpl.atEnd MapImpl.atEnd) (DMV.init (unstableEnv (K1 := Nat) (K2 := Nat) (V := Nat) MapImpl.atEnd MapImpl.atEnd))
    [.insert (some 1) (some 2) 10, .remove (.inr 2), .back]).map (·.2) = none := by decide

end Verif.Mapped.Dual
