import Verif.Mapped.Map
import Verif.Mapped.Store

/-
Model of gmlc/containers/MappedVector.hpp.  `none` is undefined behaviour.

The element constructor arguments `Us&&...` are modelled by the constructed value.
Exceptions are modelled in Throw.lean and RemoveThrow.lean.
-/
namespace Verif.Mapped.Vector
open Verif.Mapped

/-- MappedVector.hpp:231-241, the members. -/
structure MV (S K : Type) where
  data : S
  lookup : FMap K

/-- What the code depends on: element storage (`STABILITY`, `BLOCK_ORDER`), iteration order of the map, and the value
of a variable declared `searchType ind;` without initialiser (`none`: indeterminate, for arithmetic types and
pointers; the empty string for `std::string`). -/
structure Env (S K V : Type) where
  st : Store S V
  impl : MapImpl K
  unset : Option K

variable {S K V : Type} [DecidableEq K] (E : Env S K V)

namespace MV

/-- a new container -/
def init : MV S K := ⟨E.st.empty, []⟩

/-- MappedVector.hpp:42-53. -/
def insert (m : MV S K) (k : K) (x : V) : Option (MV S K × Option Nat) :=
  if (FMap.find m.lookup k).isSome then some (m, none)
  else
    let index := E.st.size m.data
    (E.st.push m.data x).map fun d => (⟨d, (FMap.emplace E.impl m.lookup k index).1⟩, some index)

omit [DecidableEq K] in
/-- MappedVector.hpp:57-63. -/
def insertNoKey (m : MV S K) (x : V) : Option (MV S K × Option Nat) :=
  let index := E.st.size m.data
  (E.st.push m.data x).map fun d => (⟨d, m.lookup⟩, some index)

/-- MappedVector.hpp:73-84. -/
def insertOrAssign (m : MV S K) (k : K) (x : V) : Option (MV S K × Nat) :=
  match FMap.find m.lookup k with
  | some i => (E.st.set m.data i x).map fun d => (⟨d, m.lookup⟩, i)
  | none =>
    let index := E.st.size m.data
    (E.st.push m.data x).map fun d => (⟨d, (FMap.emplace E.impl m.lookup k index).1⟩, index)

/-- MappedVector.hpp:86-102; the result says what the returned iterator points to (`none`: `end()`). -/
def find (m : MV S K) (k : K) : Option (Option V) :=
  match FMap.find m.lookup k with
  | some i => E.st.iterAt m.data i
  | none => (E.st.endOk m.data).map fun _ => none

omit [DecidableEq K] in
/-- MappedVector.hpp:104-109. -/
def get (m : MV S K) (i : Nat) : Option V := E.st.get m.data i

omit [DecidableEq K] in
/-- `mv[i] = x`, through the reference of MappedVector.hpp:104. -/
def set (m : MV S K) (i : Nat) (x : V) : Option (MV S K) := (E.st.set m.data i x).map fun d => ⟨d, m.lookup⟩

omit [DecidableEq K] in
/-- MappedVector.hpp:111-113 (inner `none`: throws). -/
def at? (m : MV S K) (i : Nat) : Option (Option V) :=
  if i ≥ E.st.size m.data then some none else (E.st.get m.data i).map some

omit [DecidableEq K] in
/-- MappedVector.hpp:116-119. -/
def back (m : MV S K) : Option V := E.st.back m.data

/-- MappedVector.hpp:122-129. -/
def addSearchTermForIndex (m : MV S K) (k : K) (i : Nat) : MV S K × Bool :=
  if i < E.st.size m.data then
    let r := FMap.emplace E.impl m.lookup k i
    (⟨m.data, r.1⟩, r.2)
  else (m, false)

omit [DecidableEq K] in
/-- MappedVector.hpp:139-145: the loop over the map; `ind` is the last entry found for `index`. -/
def shiftLoop (erased : Bool) (index : Nat) : FMap K → Option K → FMap K × Option K
  | [], ind => ([], ind)
  | e :: m, ind =>
    if erased = true ∧ e.2 > index then
      let r := shiftLoop erased index m ind
      ((e.1, e.2 - 1) :: r.1, r.2)
    else if e.2 = index then
      let r := shiftLoop erased index m (some e.1)
      (e :: r.1, r.2)
    else
      let r := shiftLoop erased index m ind
      (e :: r.1, r.2)

/-- MappedVector.hpp:132-150. -/
def removeIndex (m : MV S K) (index : Nat) : Option (MV S K) :=
  if index ≥ E.st.size m.data then some m
  else
    (E.st.erase m.data index).bind fun r =>
    let l := shiftLoop r.2 index m.lookup E.unset
    l.2.map fun ind => ⟨r.1, if (FMap.find l.1 ind).isSome then FMap.erase l.1 ind else l.1⟩

/-- MappedVector.hpp:152-167. -/
def remove (m : MV S K) (search : K) : Option (MV S K) :=
  match FMap.find m.lookup search with
  | none => some m
  | some index =>
    (E.st.erase m.data index).map fun r =>
      let l := if r.2 then m.lookup.map (fun e => (e.1, if e.2 > index then e.2 - 1 else e.2)) else m.lookup
      ⟨r.1, FMap.erase l search⟩

omit [DecidableEq K] in
/-- MappedVector.hpp:172-175 and 197-199: the elements in the order visited. -/
def apply (m : MV S K) : Option (List V) := E.st.all m.data

omit [DecidableEq K] in
/-- MappedVector.hpp:179-182; `F` may keep a state. -/
def modify {σ : Type} (m : MV S K) (F : σ → V → σ × V) (z : σ) : Option (σ × MV S K) :=
  (E.st.visit F z m.data).map fun r => (r.1, ⟨r.2, m.lookup⟩)

omit [DecidableEq K] in
/-- MappedVector.hpp:186-190: `std::transform` onto itself writes each result before the next call. -/
def transform {σ : Type} (m : MV S K) (F : σ → V → σ × V) (z : σ) : Option (σ × MV S K) :=
  (E.st.visit F z m.data).map fun r => (r.1, ⟨r.2, m.lookup⟩)

omit [DecidableEq K] in
/-- MappedVector.hpp:203. -/
def size (m : MV S K) : Nat := E.st.size m.data

omit [DecidableEq K] in
/-- MappedVector.hpp:206-210. -/
def clear (m : MV S K) : Option (MV S K) := (E.st.clear m.data).map fun d => ⟨d, []⟩

end MV
end Verif.Mapped.Vector
