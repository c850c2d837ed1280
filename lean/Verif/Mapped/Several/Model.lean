import Verif.Mapped.Several.Spec

/-
Model of several MappedVector or DualMappedVector objects.  The classes declare none of the special member functions
(MappedVector.hpp:24-241, DualMappedVector.hpp:24-443), so copying, moving, assigning and destroying are done member by
member: element storage, then the map (or the two maps).  `none` is undefined behaviour.

The standard leaves a moved-from std::map or std::unordered_map in an unspecified state: the parameter `left` is the
state it is left in.  A moved-from std::vector is empty in the model.
-/
namespace Verif.Mapped.Several
open Verif.Mapped
open Verif.Mapped.Vector (Ideal Obs)
open Verif.Block
open Verif.Block.Vector (Vec upd)

/-- How the element storage of several objects behaves.  `T` is what belongs to one object, `H` is shared memory. -/
structure Multi (S T H : Type) where
  join : T → H → S
  split : S → T × H
  memory : H
  fresh : T
  copy : T → H → Option (T × H)
  move : T → T × T
  copyAssign : T → T → H → Option (T × H)
  moveAssign : T → T → H → Option (T × T × H)
  destroy : T → H → Option H

/-- `std::vector<VType>` (the standard library's value semantics). -/
def vectors (V : Type) : Multi (List V) (List V) Unit where
  join s _ := s
  split s := (s, ())
  memory := ()
  fresh := []
  copy s h := some (s, h)
  move s := (s, [])
  copyAssign _ s h := some (s, h)
  moveAssign _ s h := some (s, [], h)
  destroy _ h := some h

/-- `StableBlockVector<VType, N>` (Verif/Block/Vector/Model.lean). -/
def stables (N : Nat) (V : Type) : Multi (Vec × Heap V) Vec (Heap V) where
  join v h := (v, h)
  split s := s
  memory := Heap.empty
  fresh := Vec.default N
  copy v h := v.copyCtor N h
  move v := v.moveCtor
  copyAssign a b h := Vec.copyAssign N a b h
  moveAssign a b h := Vec.moveAssign N a b h
  destroy v h := v.freeAll N h

/-- The calls on one object: storage and maps before and after. -/
structure Code (S M C V : Type) where
  none : M
  exec : S → M → C → Option ((S × M) × Obs V)

/-- MappedVector.hpp:24-241. -/
def Code.mapped {S K V : Type} [DecidableEq K] (E : Vector.Env S K V) : Code S (FMap K) (Vector.Op K V) V where
  none := []
  exec s m c := (Vector.exec E ⟨s, m⟩ c).map fun r => ((r.1.data, r.1.lookup), r.2)

/-- DualMappedVector.hpp:24-443. -/
def Code.dual {S K1 K2 V : Type} [DecidableEq K1] [DecidableEq K2] (E : Dual.Env S K1 K2 V) :
    Code S (FMap K1 × FMap K2) (Dual.Op K1 K2 V) V where
  none := ([], [])
  exec s m c := (Dual.exec E ⟨s, m.1, m.2⟩ c).map fun r => ((r.1.data, r.1.lookup1, r.1.lookup2), r.2)

/-- The objects (storage and maps of each) and the shared memory. -/
structure World (T M H : Type) where
  objs : Nat → Option T
  maps : Nat → M
  mem : H

/-- update of one entry -/
def put {M : Type} (f : Nat → M) (i : Nat) (m : M) : Nat → M := fun k => if k = i then m else f k

variable {S T M H C V : Type}

def World.empty (μ : Multi S T H) (code : Code S M C V) : World T M H := ⟨fun _ => none, fun _ => code.none, μ.memory⟩

/-- One call on the modelled code: MappedVector.hpp:24, 231-241; DualMappedVector.hpp:24, 426-443 (implicitly defined
special member functions). -/
def exec (μ : Multi S T H) (code : Code S M C V) (left : M → M) (w : World T M H) :
    Op C → Option (World T M H × Obs V)
  | .new i => some (⟨upd w.objs i (some μ.fresh), put w.maps i code.none, w.mem⟩, .done)
  | .copyNew i j => (w.objs j).bind fun s => (μ.copy s w.mem).map fun r =>
      (⟨upd w.objs i (some r.1), put w.maps i (w.maps j), r.2⟩, .done)
  | .moveNew i j => (w.objs j).map fun s =>
      (⟨upd (upd w.objs i (some (μ.move s).1)) j (some (μ.move s).2),
        put (put w.maps i (w.maps j)) j (left (w.maps j)), w.mem⟩, .done)
  | .copyAssign i j => (w.objs i).bind fun s => (w.objs j).bind fun t => (μ.copyAssign s t w.mem).map fun r =>
      (⟨upd w.objs i (some r.1), put w.maps i (w.maps j), r.2⟩, .done)
  | .moveAssign i j => (w.objs i).bind fun s => (w.objs j).bind fun t => (μ.moveAssign s t w.mem).map fun r =>
      (⟨upd (upd w.objs i (some r.1)) j (some r.2.1),
        put (put w.maps i (w.maps j)) j (left (w.maps j)), r.2.2⟩, .done)
  | .destroy i => (w.objs i).bind fun s => (μ.destroy s w.mem).map fun h => (⟨upd w.objs i none, w.maps, h⟩, .done)
  | .call i c => (w.objs i).bind fun s => (code.exec (μ.join s w.mem) (w.maps i) c).map fun r =>
      (⟨upd w.objs i (some (μ.split r.1.1).1), put w.maps i r.1.2, (μ.split r.1.1).2⟩, r.2)

/-- Execution of a program. -/
def run (μ : Multi S T H) (code : Code S M C V) (left : M → M) :
    World T M H → List (Op C) → Option (World T M H × List (Obs V))
  | w, [] => some (w, [])
  | w, op :: ops => (exec μ code left w op).bind fun r => (run μ code left r.1 ops).map fun s => (s.1, r.2 :: s.2)

/-- Execution of a program that begins without objects. -/
def program (μ : Multi S T H) (code : Code S M C V) (left : M → M) (ops : List (Op C)) :
    Option (World T M H × List (Obs V)) := run μ code left (World.empty μ code) ops

end Verif.Mapped.Several
