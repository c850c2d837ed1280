import Verif.Mapped.Pointer.Spec
import Verif.Mapped.DualPtr.Spec

/-
Specification of programs using several MappedPointerVector (or several DualMappedPointerVector) objects that are moved,
assigned and destroyed: every object is an independent ideal container, and an element's object lives exactly as long as
the element.
-/
namespace Verif.Mapped.SeveralPtr
open Verif.Mapped
open Verif.Mapped.Pointer (Entry Ideal Obs)

/-- Calls of a client; `i` and `j` name containers, `C` are the calls on one container.  There are no copies: they are
deleted in DualMappedPointerVector (DualMappedPointerVector.hpp:41-43), and implicitly so in MappedPointerVector. -/
inductive Op (C : Type) where
  | new (i : Nat)
  | moveNew (i j : Nat)                 -- T ti(std::move(tj))
  | moveAssign (i j : Nat)              -- ti = std::move(tj)
  | destroy (i : Nat)
  | call (i : Nat) (c : C)

/-- Specification of the calls on one container: what they do and which ones the code handles
(Verif/Mapped/Pointer/Spec.lean, Verif/Mapped/DualPtr/Spec.lean). -/
structure Spec (K V C : Type) where
  ideal : Ideal K V → C → Option (Ideal K V × Obs V)
  careful : Ideal K V → C → Bool
  /-- `clear()` -/
  clears : C → Bool
  /-- calls that look up no search term -/
  noLookup : C → Bool

/-- MappedPointerVector; `unset` is the value of a default constructed key. -/
def Spec.mapped {K V : Type} [DecidableEq K] (unset : Option K) : Spec K V (Pointer.Op K V) :=
  ⟨Pointer.ideal, Pointer.careful unset, fun | .clear => true | _ => false,
    fun | .get _ | .apply | .size => true | _ => false⟩

/-- DualMappedPointerVector -/
def Spec.dual {K1 K2 V : Type} [DecidableEq K1] [DecidableEq K2] (E : DualPtr.Env K1 K2) :
    Spec (K1 ⊕ K2) V (DualPtr.Op K1 K2 V) := ⟨DualPtr.ideal, DualPtr.careful E, fun | .clear => true | _ => false,
      fun | .get _ | .apply | .size => true | _ => false⟩

/-- An ideal container; `moved`: it has been moved from, and neither cleared nor assigned to since. -/
structure AObj (K V : Type) where
  entries : List (Entry K V)
  moved : Bool
deriving DecidableEq

/-- All containers; `made`: number of objects made so far by all of them, which is the name of the next one. -/
structure AWorld (K V : Type) where
  objs : Nat → Option (AObj K V)
  made : Nat

/-- change of one entry -/
def upd {A : Type} (f : Nat → A) (i : Nat) (x : A) : Nat → A := fun k => if k = i then x else f k

variable {K V C : Type}

/-- One call: the whole intended behaviour.  A move transfers the elements, with their objects and search terms.
`none`: the client breaks a precondition (no such container, name in use, self move, or a precondition of a call). -/
def ideal (sp : Spec K V C) (w : AWorld K V) : Op C → Option (AWorld K V × Obs V)
  | .new i => if (w.objs i).isNone then some (⟨upd w.objs i (some ⟨[], false⟩), w.made⟩, .done) else none
  | .moveNew i j => if (w.objs i).isNone then (w.objs j).map fun a =>
      (⟨upd (upd w.objs i (some a)) j (some ⟨[], true⟩), w.made⟩, .done) else none
  | .moveAssign i j => if i = j then none else (w.objs i).bind fun _ => (w.objs j).map fun b =>
      (⟨upd (upd w.objs i (some b)) j (some ⟨[], true⟩), w.made⟩, .done)
  | .destroy i => (w.objs i).map fun _ => (⟨upd w.objs i none, w.made⟩, .done)
  | .call i c => (w.objs i).bind fun a => (sp.ideal ⟨a.entries, w.made⟩ c).map fun r =>
      (⟨upd w.objs i (some ⟨r.1.entries, a.moved && !sp.clears c⟩), r.1.made⟩, r.2)

/-- Calls the code handles: excluded are (1) moving from a moved-from container and calls on it that
look up a search term, unless it is first cleared or assigned to, (2) what the specification of the single container excludes.  Exclusion (1) is witnessed in Props. -/
def careful (sp : Spec K V C) (w : AWorld K V) : Op C → Bool
  | .new _ => true
  | .moveNew _ j => (w.objs j).any fun a => !a.moved
  | .moveAssign _ j => (w.objs j).any fun a => !a.moved
  | .destroy _ => true
  | .call i c => (w.objs i).any fun a => if a.moved then sp.clears c || sp.noLookup c else sp.careful ⟨a.entries, w.made⟩ c

/-- The specification's run of a program: final containers and observations. -/
def idealRun (sp : Spec K V C) : AWorld K V → List (Op C) → Option (AWorld K V × List (Obs V))
  | w, [] => some (w, [])
  | w, op :: ops => (ideal sp w op).bind fun r => (idealRun sp r.1 ops).map fun s => (s.1, r.2 :: s.2)

/-- All calls of the program are careful ones. -/
def carefulRun (sp : Spec K V C) : AWorld K V → List (Op C) → Bool
  | _, [] => true
  | w, op :: ops => careful sp w op && (match ideal sp w op with | some r => carefulRun sp r.1 ops | none => false)

end Verif.Mapped.SeveralPtr
