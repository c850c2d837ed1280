import Verif.Mapped.SeveralPtr.Spec

/-
Model of several MappedPointerVector or DualMappedPointerVector objects in one heap.  The moves are defaulted
(MappedPointerVector.hpp:29-31, DualMappedPointerVector.hpp:37-40), so members are moved one by one: the vector of unique
pointers, then the map (or the two maps).  `none` is undefined behaviour.

The standard leaves a moved-from map in an unspecified state: the parameter `left` is the state it is left in.  A
moved-from std::vector is empty in the model; a vector that is moved to destroys its old elements.
-/
namespace Verif.Mapped.SeveralPtr
open Verif.Mapped
open Verif.Mapped.Pointer (Objs Obs PV)
open Verif.Mapped.DualPtr (DPV)

/-- One container class: `P` are its members, `M` its maps. -/
structure Code (P M C V : Type) where
  data : P → List (Option Nat)
  maps : P → M
  build : List (Option Nat) → M → P
  noMaps : M
  exec : P → Objs V → C → Option ((P × Objs V) × Obs V)

/-- MappedPointerVector.hpp:26-211. -/
def Code.mapped {K V : Type} [DecidableEq K] (I : MapImpl K) (unset : Option K) : Code (PV K) (FMap K) (Pointer.Op K V) V where
  data p := p.data
  maps p := p.lookup
  build d m := ⟨d, m⟩
  noMaps := []
  exec p h c := (Pointer.exec I unset ⟨p, h⟩ c).map fun r => ((r.1.pv, r.1.heap), r.2)

/-- DualMappedPointerVector.hpp:29-380. -/
def Code.dual {K1 K2 V : Type} [DecidableEq K1] [DecidableEq K2] (E : DualPtr.Env K1 K2) :
    Code (DPV K1 K2) (FMap K1 × FMap K2) (DualPtr.Op K1 K2 V) V where
  data p := p.data
  maps p := (p.lookup1, p.lookup2)
  build d m := ⟨d, m.1, m.2⟩
  noMaps := ([], [])
  exec p h c := (DualPtr.exec E ⟨p, h⟩ c).map fun r => ((r.1.pv, r.1.heap), r.2)

/-- The containers and the heap. -/
structure World (P V : Type) where
  objs : Nat → Option P
  heap : Objs V

def World.init {P V : Type} : World P V := ⟨fun _ => none, Objs.empty⟩

variable {P M C V : Type}

/-- One call on the modelled code: MappedPointerVector.hpp:29-31, 204-211; DualMappedPointerVector.hpp:36-44, 370-380
(defaulted special member functions). -/
def exec (code : Code P M C V) (left : M → M) (w : World P V) : Op C → Option (World P V × Obs V)
  | .new i => some (⟨upd w.objs i (some (code.build [] code.noMaps)), w.heap⟩, .done)
  | .moveNew i j => (w.objs j).map fun q =>
      (⟨upd (upd w.objs i (some (code.build (code.data q) (code.maps q)))) j (some (code.build [] (left (code.maps q)))),
        w.heap⟩, .done)
  | .moveAssign i j => (w.objs i).bind fun p => (w.objs j).bind fun q =>
      (w.heap.deleteAll (code.data p)).map fun h =>
      (⟨upd (upd w.objs i (some (code.build (code.data q) (code.maps q)))) j (some (code.build [] (left (code.maps q)))),
        h⟩, .done)
  | .destroy i => (w.objs i).bind fun p => (w.heap.deleteAll (code.data p)).map fun h => (⟨upd w.objs i none, h⟩, .done)
  | .call i c => (w.objs i).bind fun p => (code.exec p w.heap c).map fun r =>
      (⟨upd w.objs i (some r.1.1), r.1.2⟩, r.2)

/-- Execution of a program. -/
def run (code : Code P M C V) (left : M → M) : World P V → List (Op C) → Option (World P V × List (Obs V))
  | w, [] => some (w, [])
  | w, op :: ops => (exec code left w op).bind fun r => (run code left r.1 ops).map fun s => (s.1, r.2 :: s.2)

end Verif.Mapped.SeveralPtr
