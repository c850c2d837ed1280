import Verif.Mapped.Several.Model
import Verif.Mapped.Str.Spec
import Verif.Mapped.DualStr.Spec

/-
Model of several StringMappedVector or DualStringMappedVector objects.  The classes declare none of the special member
functions (StringMappedVector.hpp:27-231, DualStringMappedVector.hpp:29-443), so copying, moving, assigning and
destroying are done member by member: element storage, the strings `names`, the map (or maps).  The strings of all
objects are in one heap, so that the keys of one object can refer to strings of another.  `none` is undefined behaviour.

The members have separate memory, so the order in which they are treated makes no difference (DualStringMappedVector
declares `lookup1` before `names`).  Copying a `std::unordered_map<std::string_view, size_t>` copies the views and, in its
nodes, the cached hash codes; destroying it reads no string.  The state a moved-from map is left in is the parameter
`left`.  Calls that throw are not modelled here.
-/
namespace Verif.Mapped.SeveralStr
open Verif.Mapped
open Verif.Mapped.Vector (Obs)
open Verif.Mapped.Several (Multi Op put)
open Verif.Mapped.Str (View)
open Verif.Block
open Verif.Block.Vector (Vec upd)

/-- The calls on one object: storage, names, strings and maps before and after. -/
structure Code (S M C V : Type) where
  none : M
  exec : S → Vec → Heap String → M → C → Option ((S × Vec × Heap String × M) × Obs V)

/-- StringMappedVector.hpp:27-231 (Verif/Mapped/Str/Model.lean). -/
def Code.mapped {S V : Type} (E : Str.Env S V) : Code S (FMap View) (Str.Op V) V where
  none := []
  exec s n h m c := (Str.exec E ⟨s, n, m⟩ h c).map fun r => ((r.1.data, r.1.names, r.2.1, r.1.lookup), r.2.2)

/-- DualStringMappedVector.hpp:29-443 (Verif/Mapped/DualStr/Model.lean). -/
def Code.dual {S K2 V : Type} [DecidableEq K2] (E : DualStr.Env S K2 V) :
    Code S (FMap View × FMap K2) (DualStr.Op K2 V) V where
  none := ([], [])
  exec s n h m c := (DualStr.exec E ⟨s, m.1, n, m.2⟩ h c).map fun r =>
    ((r.1.data, r.1.names, r.2.1, r.1.lookup1, r.1.lookup2), r.2.2)

/-- The objects (storage, names and maps of each), the memory of the elements and that of the strings. -/
structure World (T M H : Type) where
  objs : Nat → Option T
  names : Nat → Option Vec
  maps : Nat → M
  mem : H
  strings : Heap String

variable {S T M H C V : Type}

/-- There are no objects. -/
def World.empty (μ : Multi S T H) (code : Code S M C V) : World T M H :=
  ⟨fun _ => none, fun _ => none, fun _ => code.none, μ.memory, Heap.empty⟩

/-- One call on the modelled code: StringMappedVector.hpp:27, 216-226; DualStringMappedVector.hpp:29, 426-440
(implicitly defined special member functions); `N` is `BLOCK_ORDER`. -/
def exec (μ : Multi S T H) (N : Nat) (code : Code S M C V) (left : M → M) (w : World T M H) :
    Op C → Option (World T M H × Obs V)
  | .new i => some (⟨upd w.objs i (some μ.fresh), upd w.names i (some (Vec.default N)), put w.maps i code.none, w.mem, w.strings⟩, .done)
  | .copyNew i j => (w.objs j).bind fun s => (w.names j).bind fun n => (μ.copy s w.mem).bind fun r =>
      (n.copyCtor N w.strings).map fun q =>
      (⟨upd w.objs i (some r.1), upd w.names i (some q.1), put w.maps i (w.maps j), r.2, q.2⟩, .done)
  | .moveNew i j => (w.objs j).bind fun s => (w.names j).map fun n =>
      (⟨upd (upd w.objs i (some (μ.move s).1)) j (some (μ.move s).2),
        upd (upd w.names i (some n.moveCtor.1)) j (some n.moveCtor.2),
        put (put w.maps i (w.maps j)) j (left (w.maps j)), w.mem, w.strings⟩, .done)
  | .copyAssign i j => (w.objs i).bind fun s => (w.objs j).bind fun t => (w.names i).bind fun n => (w.names j).bind fun p =>
      (μ.copyAssign s t w.mem).bind fun r => (Vec.copyAssign N n p w.strings).map fun q =>
      (⟨upd w.objs i (some r.1), upd w.names i (some q.1), put w.maps i (w.maps j), r.2, q.2⟩, .done)
  | .moveAssign i j => (w.objs i).bind fun s => (w.objs j).bind fun t => (w.names i).bind fun n => (w.names j).bind fun p =>
      (μ.moveAssign s t w.mem).bind fun r => (Vec.moveAssign N n p w.strings).map fun q =>
      (⟨upd (upd w.objs i (some r.1)) j (some r.2.1), upd (upd w.names i (some q.1)) j (some q.2.1),
        put (put w.maps i (w.maps j)) j (left (w.maps j)), r.2.2, q.2.2⟩, .done)
  | .destroy i => (w.objs i).bind fun s => (w.names i).bind fun n => (μ.destroy s w.mem).bind fun h =>
      (n.freeAll N w.strings).map fun q => (⟨upd w.objs i none, upd w.names i none, w.maps, h, q⟩, .done)
  | .call i c => (w.objs i).bind fun s => (w.names i).bind fun n =>
      (code.exec (μ.join s w.mem) n w.strings (w.maps i) c).map fun r =>
      (⟨upd w.objs i (some (μ.split r.1.1).1), upd w.names i (some r.1.2.1), put w.maps i r.1.2.2.2,
        (μ.split r.1.1).2, r.1.2.2.1⟩, r.2)

/-- Execution of a program. -/
def run (μ : Multi S T H) (N : Nat) (code : Code S M C V) (left : M → M) :
    World T M H → List (Op C) → Option (World T M H × List (Obs V))
  | w, [] => some (w, [])
  | w, op :: ops => (exec μ N code left w op).bind fun r => (run μ N code left r.1 ops).map fun s => (s.1, r.2 :: s.2)

/-- Execution of a program that begins without objects. -/
def program (μ : Multi S T H) (N : Nat) (code : Code S M C V) (left : M → M) (ops : List (Op C)) :
    Option (World T M H × List (Obs V)) := run μ N code left (World.empty μ code) ops

end Verif.Mapped.SeveralStr
