import Verif.Mapped.DualStr.Exact
import Verif.Mapped.DualStr.Props

/-
Property C133: what DualStringMappedVector does in every history.
-/
namespace Verif.Mapped.DualStr
open Verif.Mapped Verif.Block Verif.Block.Vector
open Verif.Mapped.Vector (Obs Ideal Entry stableUndef)
open Verif.Mapped.Dual (beyond)
open Verif.Mapped.Str (View)

variable {K2 V : Type} [DecidableEq K2]

/-- Vector storage: what is not described is undefined. -/
theorem undef_unstable {N : Nat} {i1 : MapImpl View} {i2 : MapImpl K2} {hash : String → Nat} {m : DSV (List V) K2}
    {h : Heap String} {a : Ideal (String ⊕ K2) V} (v : Inv (E := unstableEnv N i1 i2 hash) (vectorLawful V) m h a)
    {op : Op K2 V} (hd : described N .unstable a op = none) : exec (unstableEnv N i1 i2 hash) m h op = none := by
  have hrep : m.data = a.entries.map (·.value) := v.base.rep.1
  rw [described] at hd
  split at hd
  · rcases actual_none hd with h | ⟨rfl, h⟩
    · cases op with
      | get i =>
        have h : a.entries.length ≤ i := h
        simp [exec, DSV.get, unstableEnv, vectorStore, hrep, h]
      | set i x =>
        have h : a.entries.length ≤ i := h
        simp [exec, DSV.set, unstableEnv, vectorStore, hrep, Nat.not_lt.2 h]
      | _ => exact h.elim
    · simp [exec, DSV.back, unstableEnv, vectorStore, hrep, h]
  · rename_i hc
    cases op with
    | removeIndex i => exact remove_undef v (.inl ⟨i, rfl⟩) hc
    | remove k => exact remove_undef v (.inr ⟨k, rfl⟩) hc
    | find k => exact absurd (by simp [possible, Dual.careful, Kind.iterable]) hc
    | _ => exact absurd rfl hc

/-- C133, vector storage: in every program, also one with the insertions C43 excludes, all calls return what the
description says, and the program is undefined exactly if the description says so.  (`remove` and `removeIndex` do not
compile for this storage.) -/
theorem exact_unstable (N : Nat) (i1 : MapImpl View) (i2 : MapImpl K2) (hash : String → Nat) (ops : List (Op K2 V)) :
    (run (unstableEnv N i1 i2 hash) (DSV.init (unstableEnv N i1 i2 hash)) Heap.empty ops).map (fun r => r.2.2) =
      (describedRun N .unstable empty ops).map (·.2) := by
  rcases exact_core (E := unstableEnv N i1 i2 hash) (L := vectorLawful V) ops _ _ _ (InvC.init (vectorStarts V)) with
    ⟨m', h', a', os, e, r, w⟩ | ⟨pre, op', post, m', h', a', os, hh, e, r, w, n, q⟩
  · have r : describedRun N .unstable ⟨[], 0⟩ ops = some (a', os) := r
    rw [e, empty, r]; rfl
  · have := undef_unstable w n
    have q : describedRun N .unstable ⟨[], 0⟩ ops = none := q
    rw [empty, q, hh, run_append, e]
    simp [run, this]

/-- C133, stable storage: every program does what the description says, up to the first call that is not described; and
that one is an unchecked access beyond the end or has undefined behaviour. -/
theorem exact_stable (N : Nat) (i1 : MapImpl View) (i2 : MapImpl K2) (hash : String → Nat) (ops : List (Op K2 V)) :
    (∃ m hp a os, run (stableEnv N i1 i2 hash) (DSV.init (stableEnv N i1 i2 hash)) Heap.empty ops = some (m, hp, os) ∧
      describedRun N (.stable N) empty ops = some (a, os)) ∨
    (∃ pre op post m hp a os, ops = pre ++ op :: post ∧
      run (stableEnv N i1 i2 hash) (DSV.init (stableEnv N i1 i2 hash)) Heap.empty pre = some (m, hp, os) ∧
      describedRun N (.stable N) empty pre = some (a, os) ∧ described N (.stable N) a op = none ∧
      (beyond a op ∨ exec (stableEnv N i1 i2 hash) m hp op = none)) := by
  rcases exact_core (E := stableEnv N i1 i2 hash) (L := stableLawful N V) ops _ _ _ (InvC.init (stableStarts N V)) with
    ⟨m', h', a', os, e, r, w⟩ | ⟨pre, op', post, m', h', a', os, hh, e, r, w, n, q⟩
  · exact .inl ⟨m', h', a', os, e, r⟩
  · exact .inr ⟨pre, op', post, m', h', a', os, hh, e, r, n,
      undef_step (E := stableEnv N i1 i2 hash) (stableUndef N V) w n⟩

/-- After every history with defined behaviour, also with the insertions C43 excludes (stable storage): insertions and
removals act on the state as C43 says, except that an insertion with a name in use and a new second term ignores the
name. -/
theorem exact_state (N : Nat) (i1 : MapImpl View) (i2 : MapImpl K2) (hash : String → Nat) (ops : List (Op K2 V))
    (a : Ideal (String ⊕ K2) V) (os : List (Obs V)) (hd : describedRun N (.stable N) empty ops = some (a, os)) :
    ∃ m hp, run (stableEnv N i1 i2 hash) (DSV.init (stableEnv N i1 i2 hash)) Heap.empty ops = some (m, hp, os) ∧
      InsertOk (stableEnv N i1 i2 hash) m hp ∧ InsertIgnoresName (stableEnv N i1 i2 hash) m hp ∧
      RemoveOk (stableEnv N i1 i2 hash) m hp a := by
  rcases exact_core (E := stableEnv N i1 i2 hash) (L := stableLawful N V) ops _ _ _ (InvC.init (stableStarts N V)) with
    ⟨m', h', a', os', e, r, w⟩ | ⟨pre, op', post, m', h', a', os', hh, e, r, w, n, q⟩
  · have r : describedRun N (.stable N) empty ops = some (a', os') := r
    rw [r] at hd; cases hd
    exact ⟨m', h', e, insert_core w, insert_ignores_core w, remove_core w⟩
  · have q : describedRun N (.stable N) empty ops = none := q
    rw [q] at hd; cases hd

/-- The same for vector storage (where removals do not compile). -/
theorem exact_state_unstable (N : Nat) (i1 : MapImpl View) (i2 : MapImpl K2) (hash : String → Nat) (ops : List (Op K2 V))
    (a : Ideal (String ⊕ K2) V) (os : List (Obs V)) (hd : describedRun N .unstable empty ops = some (a, os)) :
    ∃ m hp, run (unstableEnv N i1 i2 hash) (DSV.init (unstableEnv N i1 i2 hash)) Heap.empty ops = some (m, hp, os) ∧
      InsertOk (unstableEnv N i1 i2 hash) m hp ∧ InsertIgnoresName (unstableEnv N i1 i2 hash) m hp := by
  rcases exact_core (E := unstableEnv N i1 i2 hash) (L := vectorLawful V) ops _ _ _ (InvC.init (vectorStarts V)) with
    ⟨m', h', a', os', e, r, w⟩ | ⟨pre, op', post, m', h', a', os', hh, e, r, w, n, q⟩
  · have r : describedRun N .unstable empty ops = some (a', os') := r
    rw [r] at hd; cases hd
    exact ⟨m', h', e, insert_core w, insert_ignores_core w⟩
  · have q : describedRun N .unstable empty ops = none := q
    rw [q] at hd; cases hd

/-- Insertions that ignore the name, and removal of such elements and of the old one. -/
def demoExact : List (Op Nat Nat) :=
  [.insert (some "a") (some 1) 10, .insert (some "a") (some 2) 20, .find (.inl "a"), .find (.inr 2), .insert (some "a") (some 3) 30,
   .addTerm (.inl "b") (.inr 2), .insert (some "b") (some 4) 40, .find (.inl "b"), .remove (.inr 4), .find (.inl "b"),
   .remove (.inl "a"), .find (.inr 1), .insert (some "a") (some 3) 50, .find (.inl "a"), .find (.inr 3), .size, .apply]

example : (describedRun 2 (.stable 2) empty demoExact).map (·.2) =
    some [.index (some 0), .index (some 1), .found (some 10), .found (some 20), .index (some 2), .bool true, .index (some 3),
      .found (some 20), .done, .found (some 20), .done, .found none, .index (some 3), .found (some 50), .found (some 50),
      .num 4, .vals [10, 20, 30, 50]] := by decide +kernel
example : (describedRun 2 .unstable (empty : Ideal (String ⊕ Nat) Nat) (demoExact.filter compiles)).isSome = true ∧
    carefulRun 2 (.stable 2) empty demoExact = false := by decide +kernel

/-- An element with 64 names cannot be removed (block order 0): the description says so, too. -/
example : (describedRun 0 (.stable 0) (empty : Ideal (String ⊕ Nat) Nat)
      (.insert none none 7 :: ((List.range 64).map fun i => .addTermForIndex (.inl (String.ofList (List.replicate i 'a'))) 0) ++
        [.removeIndex 0])).isSome = false ∧
    (describedRun 0 (.stable 0) (empty : Ideal (String ⊕ Nat) Nat)
      (.insert none none 7 :: ((List.range 63).map fun i => .addTermForIndex (.inl (String.ofList (List.replicate i 'a'))) 0) ++
        [.removeIndex 0])).isSome = true := by decide +kernel

end Verif.Mapped.DualStr
