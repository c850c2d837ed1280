import Verif.Mapped.Vector.Spec
import Verif.Mapped.Dual.Spec
import Verif.Block.Vector.Spec

/-
Specification of programs using several MappedVector (or several DualMappedVector) objects that are copied, moved,
assigned and destroyed: every object is an independent ideal container.
-/
namespace Verif.Mapped.Several
open Verif.Mapped
open Verif.Mapped.Vector (Ideal Obs)
open Verif.Block.Vector (upd)

/-- Calls of a client; `i` and `j` name objects, `C` are the calls on one object. -/
inductive Op (C : Type) where
  | new (i : Nat)
  | copyNew (i j : Nat)                 -- T ti(tj)
  | moveNew (i j : Nat)                 -- T ti(std::move(tj))
  | copyAssign (i j : Nat)              -- ti = tj
  | moveAssign (i j : Nat)              -- ti = std::move(tj)
  | destroy (i : Nat)
  | call (i : Nat) (c : C)

/-- Specification of the calls on one object: what they do and which ones the code handles
(Verif/Mapped/Vector/Spec.lean, Verif/Mapped/Dual/Spec.lean). -/
structure Spec (K V C : Type) where
  ideal : Ideal K V → C → Option (Ideal K V × Obs V)
  careful : Ideal K V → C → Bool

/-- MappedVector; `unset` is the value of a default constructed key. -/
def Spec.mapped {K V : Type} [DecidableEq K] (kind : Kind) (unset : Option K) : Spec K V (Vector.Op K V) :=
  ⟨Vector.ideal kind, Vector.careful kind unset⟩

/-- DualMappedVector -/
def Spec.dual {K1 K2 V : Type} [DecidableEq K1] [DecidableEq K2] (kind : Kind) : Spec (K1 ⊕ K2) V (Dual.Op K1 K2 V) :=
  ⟨Dual.ideal kind, Dual.careful kind⟩

/-- An ideal object; `moved`: it has been moved from. -/
structure AObj (K V : Type) where
  val : Ideal K V
  moved : Bool
deriving DecidableEq

abbrev AWorld (K V : Type) := Nat → Option (AObj K V)

/-- Stable storage: reserved block slots after adding `n` elements. -/
def reserves (kind : Kind) (reserved len : Nat) : Nat → Nat
  | 0 => reserved
  | n + 1 => reserves kind (kind.reserve reserved len) (len + 1) n

variable {K V C : Type}

/-- One call: the whole intended behaviour.  A copy has the elements and search terms of the original, and from then
on the two are independent; a move transfers them.  `none`: the client breaks a precondition (no such object, name
in use, self move, unchecked access out of range). -/
def ideal (kind : Kind) (sp : Spec K V C) (w : AWorld K V) : Op C → Option (AWorld K V × Obs V)
  | .new i => if (w i).isNone then some (upd w i (some ⟨⟨[], 0⟩, false⟩), .done) else none
  | .copyNew i j => if (w i).isNone then (w j).map fun a => (upd w i (some ⟨a.val, false⟩), .done) else none
  | .moveNew i j => if (w i).isNone then
      (w j).map fun a => (upd (upd w i (some a)) j (some ⟨⟨[], 0⟩, true⟩), .done) else none
  | .copyAssign i j => (w i).bind fun a => (w j).map fun b =>
      (upd w i (some ⟨⟨b.val.entries, reserves kind a.val.reserved a.val.entries.length
        (b.val.entries.length - a.val.entries.length)⟩, false⟩), .done)
  | .moveAssign i j => if i = j then none else (w i).bind fun _ => (w j).map fun b =>
      (upd (upd w i (some b)) j (some ⟨⟨[], 0⟩, true⟩), .done)
  | .destroy i => (w i).map fun _ => (upd w i none, .done)
  | .call i c => (w i).bind fun a => (sp.ideal a.val c).map fun r => (upd w i (some ⟨r.1, a.moved⟩), r.2)

/-- Calls the code handles: excluded are (1) any use of a moved-from object but destroying it or assigning to it (with
stable storage: move-assigning to it), (2) with stable storage: copying from an object whose reserved block slots are
exactly full, and copy-constructing from an empty object that has reserved memory, (3) what the specification of the
single object excludes.  Each exclusion is witnessed in Props. -/
def careful (kind : Kind) (sp : Spec K V C) (w : AWorld K V) : Op C → Bool
  | .new _ => true
  | .copyNew _ j => (w j).any fun a => !a.moved && kind.iterable a.val.reserved a.val.entries.length &&
      (decide (a.val.entries ≠ []) || decide (a.val.reserved = 0))
  | .moveNew _ j => (w j).any fun a => !a.moved
  | .copyAssign i j => ((w i).any fun a => !kind.isStable || !a.moved) &&
      ((w j).any fun a => !a.moved && kind.iterable a.val.reserved a.val.entries.length)
  | .moveAssign _ j => (w j).any fun a => !a.moved
  | .destroy _ => true
  | .call i c => (w i).any fun a => !a.moved && sp.careful a.val c

/-- The specification's run of a program: final objects and observations. -/
def idealRun (kind : Kind) (sp : Spec K V C) : AWorld K V → List (Op C) → Option (AWorld K V × List (Obs V))
  | w, [] => some (w, [])
  | w, op :: ops => (ideal kind sp w op).bind fun r => (idealRun kind sp r.1 ops).map fun s => (s.1, r.2 :: s.2)

/-- All calls of the program are careful ones. -/
def carefulRun (kind : Kind) (sp : Spec K V C) : AWorld K V → List (Op C) → Bool
  | _, [] => true
  | w, op :: ops => careful kind sp w op &&
      (match ideal kind sp w op with | some r => carefulRun kind sp r.1 ops | none => false)

end Verif.Mapped.Several
