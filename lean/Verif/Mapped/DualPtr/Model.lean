import Verif.Mapped.Pointer.Model

/-
Model of gmlc/containers/DualMappedPointerVector.hpp.  `none` is undefined behaviour.  Objects and pointers as in
Verif.Mapped.Pointer.Model.

Not modelled: `at` (DualMappedPointerVector.hpp:242 does not compile when used: a `unique_ptr` is returned as a plain
pointer).  Exceptions are modelled in Throw.lean and ThrowProps.lean, the defaulted moves in Mapped/SeveralPtr.
-/
namespace Verif.Mapped.DualPtr
open Verif.Mapped
open Verif.Mapped.Pointer (Objs)
open Verif.Mapped.Vector.MV (shiftLoop)

/-- DualMappedPointerVector.hpp:370-381, the members. -/
structure DPV (K1 K2 : Type) where
  data : List (Option Nat)
  lookup1 : FMap K1
  lookup2 : FMap K2

/-- What the code depends on: the iteration order of the two maps, and the value of `searchType1 ind1;` and
`searchType2 ind2;` (`none`: indeterminate, as for the built-in types). -/
structure Env (K1 K2 : Type) where
  impl1 : MapImpl K1
  impl2 : MapImpl K2
  unset1 : Option K1
  unset2 : Option K2

namespace DPV
variable {K1 K2 V : Type} [DecidableEq K1] [DecidableEq K2] (E : Env K1 K2)

/-- `dataStorage.emplace_back(p); lookup1.emplace(k1, index); lookup2.emplace(k2, index)`
(DualMappedPointerVector.hpp:59-62, 79-83). -/
def addNew (m : DPV K1 K2) (k1 : K1) (k2 : K2) (p : Option Nat) : DPV K1 K2 :=
  let index := m.data.length
  ⟨m.data ++ [p], (FMap.emplace E.impl1 m.lookup1 k1 index).1, (FMap.emplace E.impl2 m.lookup2 k2 index).1⟩

/-- DualMappedPointerVector.hpp:47-64; on failure (`none`) the pointer is not moved from. -/
def insertPtr (m : DPV K1 K2) (k1 : K1) (k2 : K2) (p : Option Nat) : DPV K1 K2 × Option Nat :=
  if (FMap.find m.lookup1 k1).isSome ∧ (FMap.find m.lookup2 k2).isSome then (m, none)
  else (m.addNew E k1 k2 p, some m.data.length)

/-- DualMappedPointerVector.hpp:66-85. -/
def insert (m : DPV K1 K2) (h : Objs V) (k1 : K1) (k2 : K2) (x : V) : DPV K1 K2 × Objs V × Option Nat :=
  if (FMap.find m.lookup1 k1).isSome ∧ (FMap.find m.lookup2 k2).isSome then (m, h, none)
  else
    let r := h.make x
    (m.addNew E k1 k2 (some r.2), r.1, some m.data.length)

omit [DecidableEq K2] in
/-- DualMappedPointerVector.hpp:88-103. -/
def insert1 (m : DPV K1 K2) (h : Objs V) (k1 : K1) (x : V) : DPV K1 K2 × Objs V × Option Nat :=
  if (FMap.find m.lookup1 k1).isSome then (m, h, none)
  else
    let index := m.data.length
    let r := h.make x
    (⟨m.data ++ [some r.2], (FMap.emplace E.impl1 m.lookup1 k1 index).1, m.lookup2⟩, r.1, some index)

omit [DecidableEq K1] in
/-- DualMappedPointerVector.hpp:106-121. -/
def insert2 (m : DPV K1 K2) (h : Objs V) (k2 : K2) (x : V) : DPV K1 K2 × Objs V × Option Nat :=
  if (FMap.find m.lookup2 k2).isSome then (m, h, none)
  else
    let index := m.data.length
    let r := h.make x
    (⟨m.data ++ [some r.2], m.lookup1, (FMap.emplace E.impl2 m.lookup2 k2 index).1⟩, r.1, some index)

omit [DecidableEq K1] [DecidableEq K2] in
/-- `dataStorage[i] = std::move(p)`: the old object is deleted. -/
def assignAt (m : DPV K1 K2) (h : Objs V) (i : Nat) (p : Option Nat) : Option (DPV K1 K2 × Objs V) :=
  (m.data[i]?).bind fun old => (h.delete old).map fun h => (⟨m.data.set i p, m.lookup1, m.lookup2⟩, h)

/-- DualMappedPointerVector.hpp:130-139, 153-163: the position, if both terms belong to the same element. -/
def common (m : DPV K1 K2) (k1 : K1) (k2 : K2) : Option Nat :=
  match FMap.find m.lookup1 k1, FMap.find m.lookup2 k2 with
  | some i, some j => if j = i then some i else none
  | _, _ => none

/-- `dataStorage.emplace_back(p); lookup1[k1] = index; lookup2[k2] = index` (DualMappedPointerVector.hpp:140-144,
164-169). -/
def addPut (m : DPV K1 K2) (k1 : K1) (k2 : K2) (p : Option Nat) : DPV K1 K2 :=
  let index := m.data.length
  ⟨m.data ++ [p], FMap.put E.impl1 m.lookup1 k1 index, FMap.put E.impl2 m.lookup2 k2 index⟩

/-- DualMappedPointerVector.hpp:125-145. -/
def insertOrAssignPtr (m : DPV K1 K2) (h : Objs V) (k1 : K1) (k2 : K2) (p : Option Nat) :
    Option (DPV K1 K2 × Objs V × Nat) :=
  match m.common k1 k2 with
  | some i => (m.assignAt h i p).map fun r => (r.1, r.2, i)
  | none => some (m.addPut E k1 k2 p, h, m.data.length)

/-- DualMappedPointerVector.hpp:147-170. -/
def insertOrAssign (m : DPV K1 K2) (h : Objs V) (k1 : K1) (k2 : K2) (x : V) : Option (DPV K1 K2 × Objs V × Nat) :=
  let r := h.make x
  match m.common k1 k2 with
  | some i => (m.assignAt r.1 i (some r.2)).map fun r => (r.1, r.2, i)
  | none => some (m.addPut E k1 k2 (some r.2), r.1, m.data.length)

omit [DecidableEq K2] in
/-- DualMappedPointerVector.hpp:173-190. -/
def insertOrAssign1 (m : DPV K1 K2) (h : Objs V) (k1 : K1) (x : V) : Option (DPV K1 K2 × Objs V × Nat) :=
  let r := h.make x
  match FMap.find m.lookup1 k1 with
  | some i => (m.assignAt r.1 i (some r.2)).map fun r => (r.1, r.2, i)
  | none =>
    let index := m.data.length
    some (⟨m.data ++ [some r.2], (FMap.emplace E.impl1 m.lookup1 k1 index).1, m.lookup2⟩, r.1, index)

omit [DecidableEq K1] in
/-- DualMappedPointerVector.hpp:193-210. -/
def insertOrAssign2 (m : DPV K1 K2) (h : Objs V) (k2 : K2) (x : V) : Option (DPV K1 K2 × Objs V × Nat) :=
  let r := h.make x
  match FMap.find m.lookup2 k2 with
  | some i => (m.assignAt r.1 i (some r.2)).map fun r => (r.1, r.2, i)
  | none =>
    let index := m.data.length
    some (⟨m.data ++ [some r.2], m.lookup1, (FMap.emplace E.impl2 m.lookup2 k2 index).1⟩, r.1, index)

omit [DecidableEq K2] in
/-- DualMappedPointerVector.hpp:215-222; inner `none`: nullptr. -/
def find1 (m : DPV K1 K2) (k : K1) : Option (Option Nat) :=
  match FMap.find m.lookup1 k with
  | some i => m.data[i]?
  | none => some none

omit [DecidableEq K1] in
/-- DualMappedPointerVector.hpp:227-234. -/
def find2 (m : DPV K1 K2) (k : K2) : Option (Option Nat) :=
  match FMap.find m.lookup2 k with
  | some i => m.data[i]?
  | none => some none

omit [DecidableEq K1] [DecidableEq K2] in
/-- DualMappedPointerVector.hpp:236-240. -/
def get (m : DPV K1 K2) (i : Nat) : Option (Option Nat) := if i < m.data.length then m.data[i]? else some none

omit [DecidableEq K1] [DecidableEq K2] in
/-- DualMappedPointerVector.hpp:245. -/
def back (m : DPV K1 K2) : Option (Option Nat) := m.data.getLast?

omit [DecidableEq K1] [DecidableEq K2] in
/-- `dataStorage.erase(dataStorage.begin() + i)`: the object goes, the later pointers move down. -/
def eraseAt (m : DPV K1 K2) (h : Objs V) (i : Nat) : Option (List (Option Nat) × Objs V) :=
  (m.data[i]?).bind fun p => (h.delete p).map fun h => (m.data.eraseIdx i, h)

/-- One map's part of a removal (DualMappedPointerVector.hpp:254, 256-262, 270-273 and 255, 263-269, 274-277; also 294-305
and 322-333): the loop of MappedVector::removeIndex with `erased` true, then erase the key it ended with. -/
def dropIndex {K : Type} [DecidableEq K] (unset : Option K) (index : Nat) (l : FMap K) : Option (FMap K) :=
  let s := shiftLoop true index l unset
  s.2.map fun ind => if (FMap.find s.1 ind).isSome then FMap.erase s.1 ind else s.1

/-- The other map's part of a removal by key (DualMappedPointerVector.hpp:288-293, 316-321). -/
def dropKey {K : Type} [DecidableEq K] (index : Nat) (search : K) (l : FMap K) : FMap K :=
  FMap.erase (l.map fun e => (e.1, if e.2 > index then e.2 - 1 else e.2)) search

/-- DualMappedPointerVector.hpp:248-278. -/
def removeIndex (m : DPV K1 K2) (h : Objs V) (index : Nat) : Option (DPV K1 K2 × Objs V) :=
  if index ≥ m.data.length then some (m, h)
  else
    (m.eraseAt h index).bind fun r =>
    (dropIndex E.unset1 index m.lookup1).bind fun l1 =>
    (dropIndex E.unset2 index m.lookup2).map fun l2 => (⟨r.1, l1, l2⟩, r.2)

/-- DualMappedPointerVector.hpp:280-306. -/
def remove1 (m : DPV K1 K2) (h : Objs V) (search : K1) : Option (DPV K1 K2 × Objs V) :=
  match FMap.find m.lookup1 search with
  | none => some (m, h)
  | some index =>
    (m.eraseAt h index).bind fun r =>
    (dropIndex E.unset2 index m.lookup2).map fun l2 => (⟨r.1, dropKey index search m.lookup1, l2⟩, r.2)

/-- DualMappedPointerVector.hpp:308-334. -/
def remove2 (m : DPV K1 K2) (h : Objs V) (search : K2) : Option (DPV K1 K2 × Objs V) :=
  match FMap.find m.lookup2 search with
  | none => some (m, h)
  | some index =>
    (m.eraseAt h index).bind fun r =>
    (dropIndex E.unset1 index m.lookup1).map fun l1 => (⟨r.1, l1, dropKey index search m.lookup2⟩, r.2)

omit [DecidableEq K1] [DecidableEq K2] in
/-- DualMappedPointerVector.hpp:338-358: the pointers in the order visited. -/
def apply (m : DPV K1 K2) : List (Option Nat) := m.data

omit [DecidableEq K1] [DecidableEq K2] in
/-- DualMappedPointerVector.hpp:360. -/
def size (m : DPV K1 K2) : Nat := m.data.length

omit [DecidableEq K1] [DecidableEq K2] in
/-- DualMappedPointerVector.hpp:362-367; the destructor deletes the same objects. -/
def clear (m : DPV K1 K2) (h : Objs V) : Option (DPV K1 K2 × Objs V) := (h.deleteAll m.data).map fun h => (⟨[], [], []⟩, h)

end DPV
end Verif.Mapped.DualPtr
