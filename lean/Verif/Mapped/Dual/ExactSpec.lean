import Verif.Mapped.Dual.Spec

/-
What DualMappedVector does in every history: the specification of Spec.lean, with undefined behaviour where the code has it.
-/
namespace Verif.Mapped.Dual
open Verif.Mapped
open Verif.Mapped.Vector (Obs Ideal Entry)

variable {K1 K2 V : Type} [DecidableEq K1] [DecidableEq K2]

/-- One call.  `none` is undefined behaviour: unchecked accesses beyond the end, `back()` of an empty container, and with
stable storage traversals and unsuccessful searches while the reserved block slots are exactly full. -/
def described (kind : Kind) (a : Ideal (K1 ⊕ K2) V) (op : Op K1 K2 V) : Option (Ideal (K1 ⊕ K2) V × Obs V) :=
  if careful kind a op = true then ideal kind a op else none

/-- A program. -/
def describedRun (kind : Kind) : Ideal (K1 ⊕ K2) V → List (Op K1 K2 V) → Option (Ideal (K1 ⊕ K2) V × List (Obs V))
  | a, [] => some (a, [])
  | a, op :: ops => (described kind a op).bind fun r => (describedRun kind r.1 ops).map fun s => (s.1, r.2 :: s.2)

omit [DecidableEq K1] [DecidableEq K2] in
/-- Unchecked accesses by an index beyond the end. -/
def beyond (a : Ideal (K1 ⊕ K2) V) : Op K1 K2 V → Prop
  | .get i | .set i _ => a.entries.length ≤ i
  | _ => False

end Verif.Mapped.Dual
