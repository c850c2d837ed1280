import Verif.Mapped.Dual.ExactSpec
import Verif.Mapped.DualStr.Spec

/-
What DualStringMappedVector does in every history, also where that is not what one wants: a second specification, to be
compared with `ideal` of Verif.Mapped.Dual.Spec.
-/
namespace Verif.Mapped.DualStr
open Verif.Mapped
open Verif.Mapped.Vector (Obs Ideal Entry)
open Verif.Mapped.Dual (ideal attach)

variable {K2 V : Type} [DecidableEq K2]

/-- One call: what happens if it is defined.  If the name is in use and the second term is not, an insertion ignores the
name.  All other calls do what they should. -/
def actual (kind : Kind) (a : Ideal (String ⊕ K2) V) : Op K2 V → Option (Ideal (String ⊕ K2) V × Obs V)
  | .insert (some k1) (some k2) x =>
    if (a.lookup (.inl k1)).isSome ∧ a.lookup (.inr k2) = none then
      some (attach (a.append kind x []) a.entries.length (.inr k2), .index (some a.entries.length))
    else ideal kind a (.insert (some k1) (some k2) x)
  | op => ideal kind a op

/-- Calls with defined behaviour, except for the preconditions of unchecked accesses.  Excluded are the removal of
elements whose search terms exactly fill the reserved slots of the temporary vectors, and with stable storage traversals
and unsuccessful searches while the reserved block slots are exactly full. -/
def possible (N : Nat) (kind : Kind) (a : Ideal (String ⊕ K2) V) : Op K2 V → Bool
  | .removeIndex i => match a.entries[i]? with
    | some e => fits N e
    | none => true
  | .remove k => match (a.lookup k).bind fun i => a.entries[i]? with
    | some e => fits N e
    | none => true
  | op => Dual.careful kind a op

/-- One call.  `none` is undefined behaviour. -/
def described (N : Nat) (kind : Kind) (a : Ideal (String ⊕ K2) V) (op : Op K2 V) : Option (Ideal (String ⊕ K2) V × Obs V) :=
  if possible N kind a op = true then actual kind a op else none

/-- A program. -/
def describedRun (N : Nat) (kind : Kind) : Ideal (String ⊕ K2) V → List (Op K2 V) → Option (Ideal (String ⊕ K2) V × List (Obs V))
  | a, [] => some (a, [])
  | a, op :: ops => (described N kind a op).bind fun r => (describedRun N kind r.1 ops).map fun s => (s.1, r.2 :: s.2)

end Verif.Mapped.DualStr
