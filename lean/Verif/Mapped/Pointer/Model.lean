import Verif.Mapped.Map
import Verif.Mapped.Vector.Model

/-
Model of gmlc/containers/MappedPointerVector.hpp.  `none` is undefined behaviour.

Objects live in a heap and are named by the order of their creation; a `unique_ptr` is such a name or null.
Exceptions are modelled in Throw.lean and ThrowProps.lean, the defaulted moves in Mapped/SeveralPtr.
-/
namespace Verif.Mapped.Pointer
open Verif.Mapped

/-- Heap objects; `next` is the name of the next one created. -/
structure Objs (V : Type) where
  val : Nat → Option V
  next : Nat

namespace Objs
variable {V : Type}

def empty : Objs V := ⟨fun _ => none, 0⟩

/-- `std::make_unique<V>(x)`. -/
def make (h : Objs V) (x : V) : Objs V × Nat := (⟨fun p => if p = h.next then some x else h.val p, h.next + 1⟩, h.next)

/-- what the client makes before calling a function that takes a pointer: an object or null -/
def makeOpt (h : Objs V) : Option V → Objs V × Option Nat
  | some x => ((h.make x).1, some (h.make x).2)
  | none => (h, none)

/-- the destructor or reset of a `unique_ptr`; deleting twice is undefined -/
def delete (h : Objs V) : Option Nat → Option (Objs V)
  | none => some h
  | some p => if (h.val p).isSome then some ⟨fun q => if q = p then none else h.val q, h.next⟩ else none

/-- destruction of several -/
def deleteAll (h : Objs V) : List (Option Nat) → Option (Objs V)
  | [] => some h
  | p :: ps => (h.delete p).bind fun h => h.deleteAll ps

/-- reading through a pointer; outer `none`: the object is dead -/
def read (h : Objs V) : Option Nat → Option (Option (Nat × V))
  | none => some none
  | some p => (h.val p).map fun x => some (p, x)

/-- `*p = x` -/
def write (h : Objs V) (p : Nat) (x : V) : Option (Objs V) :=
  if (h.val p).isSome then some ⟨fun q => if q = p then some x else h.val q, h.next⟩ else none

end Objs

/-- MappedPointerVector.hpp:204-211, the members. -/
structure PV (K : Type) where
  data : List (Option Nat)
  lookup : FMap K

namespace PV
variable {K V : Type} [DecidableEq K] (I : MapImpl K)

/-- MappedPointerVector.hpp:33-44; on failure (`none`) the pointer is not moved from. -/
def insertPtr (m : PV K) (k : K) (p : Option Nat) : PV K × Option Nat :=
  if (FMap.find m.lookup k).isSome then (m, none)
  else
    let index := m.data.length
    (⟨m.data ++ [p], (FMap.emplace I m.lookup k index).1⟩, some index)

/-- MappedPointerVector.hpp:46-58. -/
def insert (m : PV K) (h : Objs V) (k : K) (x : V) : PV K × Objs V × Option Nat :=
  if (FMap.find m.lookup k).isSome then (m, h, none)
  else
    let index := m.data.length
    let r := h.make x
    (⟨m.data ++ [some r.2], (FMap.emplace I m.lookup k index).1⟩, r.1, some index)

omit [DecidableEq K] in
/-- MappedPointerVector.hpp:61-68. -/
def insertNoKey (m : PV K) (h : Objs V) (x : V) : PV K × Objs V × Option Nat :=
  let index := m.data.length
  let r := h.make x
  (⟨m.data ++ [some r.2], m.lookup⟩, r.1, some index)

omit [DecidableEq K] in
/-- `dataStorage[i] = std::move(p)`: the old object is deleted. -/
def assignAt (m : PV K) (h : Objs V) (i : Nat) (p : Option Nat) : Option (PV K × Objs V) :=
  (m.data[i]?).bind fun old => (h.delete old).map fun h => (⟨m.data.set i p, m.lookup⟩, h)

/-- MappedPointerVector.hpp:70-83. -/
def insertOrAssignPtr (m : PV K) (h : Objs V) (k : K) (p : Option Nat) : Option (PV K × Objs V × Nat) :=
  match FMap.find m.lookup k with
  | some i => (m.assignAt h i p).map fun r => (r.1, r.2, i)
  | none =>
    let index := m.data.length
    some (⟨m.data ++ [p], (FMap.emplace I m.lookup k index).1⟩, h, index)

/-- MappedPointerVector.hpp:85-99. -/
def insertOrAssign (m : PV K) (h : Objs V) (k : K) (x : V) : Option (PV K × Objs V × Nat) :=
  match FMap.find m.lookup k with
  | some i =>
    let r := h.make x
    (m.assignAt r.1 i (some r.2)).map fun r => (r.1, r.2, i)
  | none =>
    let index := m.data.length
    let r := h.make x
    some (⟨m.data ++ [some r.2], (FMap.emplace I m.lookup k index).1⟩, r.1, index)

omit [DecidableEq K] in
/-- MappedPointerVector.hpp:102. -/
def back (m : PV K) : Option (Option Nat) := m.data.getLast?

/-- MappedPointerVector.hpp:107-114; inner `none`: nullptr. -/
def find (m : PV K) (k : K) : Option (Option Nat) :=
  match FMap.find m.lookup k with
  | some i => m.data[i]?
  | none => some none

omit [DecidableEq K] in
/-- MappedPointerVector.hpp:116-120. -/
def get (m : PV K) (i : Nat) : Option (Option Nat) := if i < m.data.length then m.data[i]? else some none

/-- MappedPointerVector.hpp:123-130. -/
def addSearchTermForIndex (m : PV K) (k : K) (i : Nat) : PV K × Bool :=
  if i < m.data.length then
    let r := FMap.emplace I m.lookup k i
    (⟨m.data, r.1⟩, r.2)
  else (m, false)

omit [DecidableEq K] in
/-- `dataStorage.erase(dataStorage.begin() + i)`: the object goes, the later pointers move down. -/
def eraseAt (m : PV K) (h : Objs V) (i : Nat) : Option (List (Option Nat) × Objs V) :=
  (m.data[i]?).bind fun p => (h.delete p).map fun h => (m.data.eraseIdx i, h)

/-- MappedPointerVector.hpp:134-152; `unset`: the value of `searchType ind;`, see `Vector.Env`; the loop is that of
MappedVector::removeIndex with `erased` true. -/
def removeIndex (unset : Option K) (m : PV K) (h : Objs V) (index : Nat) : Option (PV K × Objs V) :=
  if index ≥ m.data.length then some (m, h)
  else
    (m.eraseAt h index).bind fun r =>
    let l := Vector.MV.shiftLoop true index m.lookup unset
    l.2.map fun ind => (⟨r.1, if (FMap.find l.1 ind).isSome then FMap.erase l.1 ind else l.1⟩, r.2)

/-- MappedPointerVector.hpp:154-168. -/
def remove (m : PV K) (h : Objs V) (search : K) : Option (PV K × Objs V) :=
  match FMap.find m.lookup search with
  | none => some (m, h)
  | some index =>
    (m.eraseAt h index).map fun r =>
      (⟨r.1, FMap.erase (m.lookup.map fun e => (e.1, if e.2 > index then e.2 - 1 else e.2)) search⟩, r.2)

omit [DecidableEq K] in
/-- MappedPointerVector.hpp:172-188, 190-192: the pointers in the order visited. -/
def apply (m : PV K) : List (Option Nat) := m.data

omit [DecidableEq K] in
/-- MappedPointerVector.hpp:194. -/
def size (m : PV K) : Nat := m.data.length

omit [DecidableEq K] in
/-- MappedPointerVector.hpp:196-200; the destructor deletes the same objects. -/
def clear (m : PV K) (h : Objs V) : Option (PV K × Objs V) := (h.deleteAll m.data).map fun h => (⟨[], []⟩, h)

end PV
end Verif.Mapped.Pointer
