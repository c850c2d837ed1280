import Verif.Mapped.Vector.Model
import Verif.Mapped.Str.Map

/-
Model of gmlc/containers/StringMappedVector.hpp.  `none` is undefined behaviour.  The strings of all `names` members
live in a heap of their own, which is threaded through the calls, so that one container can refer to strings of another.

Exceptions are in Verif.Mapped.Str.Throw; programs that create, copy, move, assign and destroy several objects are in
Verif.Mapped.SeveralStr.
-/
namespace Verif.Mapped.Str
open Verif.Mapped Verif.Block Verif.Block.Vector

/-- StringMappedVector.hpp:216-226, the members. -/
structure SMV (S : Type) where
  data : S
  names : Vec
  lookup : FMap View

/-- What the code depends on: element storage, `BLOCK_ORDER`, iteration order of the map, and the hash function. -/
structure Env (S V : Type) where
  st : Store S V
  order : Nat
  impl : MapImpl View
  hash : String → Nat

variable {S V : Type} (E : Env S V)

namespace SMV

/-- a new container -/
def init : SMV S := ⟨E.st.empty, Vec.default E.order, []⟩

/-- StringMappedVector.hpp:46-50 and 79-83: the common end of `insert` and `insert_or_assign`. -/
def add (m : SMV S) (h : Heap String) (k : String) (x : V) : Option (SMV S × Heap String × Nat) :=
  let index := E.st.size m.data
  (E.st.push m.data x).bind fun d =>
  (addName E.hash E.order m.names h k).bind fun r =>
  (emplace E.hash E.order r.2.1 E.impl m.lookup r.2.2 index).map fun l =>
    (⟨d, r.1, l.1⟩, r.2.1, index)

/-- StringMappedVector.hpp:39-51. -/
def insert (m : SMV S) (h : Heap String) (k : String) (x : V) : Option (SMV S × Heap String × Option Nat) :=
  (find E.hash E.order h k m.lookup).bind fun f =>
  if f.isSome then some (m, h, none)
  else (m.add E h k x).map fun r => (r.1, r.2.1, some r.2.2)

/-- StringMappedVector.hpp:55-62. -/
def insertNoKey (m : SMV S) (x : V) : Option (SMV S × Option Nat) :=
  let index := E.st.size m.data
  (E.st.push m.data x).map fun d => ({ m with data := d }, some index)

/-- StringMappedVector.hpp:71-84. -/
def insertOrAssign (m : SMV S) (h : Heap String) (k : String) (x : V) : Option (SMV S × Heap String × Nat) :=
  (find E.hash E.order h k m.lookup).bind fun f =>
  match f with
  | some e => (E.st.set m.data e.2 x).map fun d => ({ m with data := d }, h, e.2)
  | none => m.add E h k x

/-- StringMappedVector.hpp:86-102; the result says what the returned iterator points to (`none`: `end()`). -/
def find (m : SMV S) (h : Heap String) (k : String) : Option (Option V) :=
  (Str.find E.hash E.order h k m.lookup).bind fun f =>
  match f with
  | some e => E.st.iterAt m.data e.2
  | none => (E.st.endOk m.data).map fun _ => none

/-- StringMappedVector.hpp:104-109. -/
def get (m : SMV S) (i : Nat) : Option V := E.st.get m.data i

/-- `mv[i] = x`, through the reference of StringMappedVector.hpp:104. -/
def set (m : SMV S) (i : Nat) (x : V) : Option (SMV S) := (E.st.set m.data i x).map fun d => { m with data := d }

/-- StringMappedVector.hpp:111-113 (inner `none`: throws). -/
def at? (m : SMV S) (i : Nat) : Option (Option V) :=
  if i ≥ E.st.size m.data then some none else (E.st.get m.data i).map some

/-- StringMappedVector.hpp:116-119. -/
def back (m : SMV S) : Option V := E.st.back m.data

/-- StringMappedVector.hpp:121-139.  The loop 128-133 is that of MappedVector; `std::string_view ind;` is the empty
view, here `none`. -/
def removeIndex (m : SMV S) (h : Heap String) (index : Nat) : Option (SMV S) :=
  if index ≥ E.st.size m.data then some m
  else
    (E.st.erase m.data index).bind fun r =>
    let l := Vector.MV.shiftLoop r.2 index m.lookup none
    (viewText E.order h l.2).bind fun ind =>
    (Str.find E.hash E.order h ind l.1).map fun (f : Option (View × Nat)) =>
      { m with data := r.1, lookup := match f with | some e => FMap.erase l.1 e.1 | none => l.1 }

/-- StringMappedVector.hpp:141-156. -/
def remove (m : SMV S) (h : Heap String) (search : String) : Option (SMV S) :=
  (Str.find E.hash E.order h search m.lookup).bind fun f =>
  match f with
  | none => some m
  | some e =>
    (E.st.erase m.data e.2).map fun r =>
      let l := if r.2 then m.lookup.map (fun e' => (e'.1, if e'.2 > e.2 then e'.2 - 1 else e'.2)) else m.lookup
      { m with data := r.1, lookup := FMap.erase l e.1 }

/-- StringMappedVector.hpp:160-164 and 188-190: the elements in the order visited. -/
def apply (m : SMV S) : Option (List V) := E.st.all m.data

/-- StringMappedVector.hpp:168-172; `F` may keep a state. -/
def modify {σ : Type} (m : SMV S) (F : σ → V → σ × V) (z : σ) : Option (σ × SMV S) :=
  (E.st.visit F z m.data).map fun r => (r.1, { m with data := r.2 })

/-- StringMappedVector.hpp:176-181: `std::transform` onto itself writes each result before the next call. -/
def transform {σ : Type} (m : SMV S) (F : σ → V → σ × V) (z : σ) : Option (σ × SMV S) :=
  (E.st.visit F z m.data).map fun r => (r.1, { m with data := r.2 })

/-- StringMappedVector.hpp:194. -/
def size (m : SMV S) : Nat := E.st.size m.data

/-- StringMappedVector.hpp:197-201 (`names` is not cleared). -/
def clear (m : SMV S) : Option (SMV S) := (E.st.clear m.data).map fun d => { m with data := d, lookup := [] }

/-- The implicitly defined copy constructor: memberwise, so the keys of the copied map are the same views.
`data'` is the copy of the element storage. -/
def copy (m : SMV S) (h : Heap String) (data' : S) : Option (SMV S × Heap String) :=
  (Vec.copyCtor E.order m.names h).map fun r => (⟨data', r.1, m.lookup⟩, r.2)

/-- The implicitly defined move constructor: (new object, moved-from object).  `data'` and `lookup'` are what the moves of
the storage and of the map leave behind (the standard does not specify the latter). -/
def move (m : SMV S) (data' : S) (lookup' : FMap View) : SMV S × SMV S :=
  (⟨m.data, (Vec.moveCtor m.names).1, m.lookup⟩, ⟨data', (Vec.moveCtor m.names).2, lookup'⟩)

/-- The implicitly defined destructor: what happens to the strings. -/
def destroy (m : SMV S) (h : Heap String) : Option (Heap String) := Vec.freeAll E.order m.names h

end SMV
end Verif.Mapped.Str
