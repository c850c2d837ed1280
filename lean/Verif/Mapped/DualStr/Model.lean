import Verif.Mapped.Dual.Model
import Verif.Mapped.Str.Map

/-
Model of gmlc/containers/DualStringMappedVector.hpp.  `none` is undefined behaviour.  The strings of `names` live in a
heap of their own, which is threaded through the calls.

The element constructor arguments `Us&&...` are modelled by the constructed value.
Exceptions are in Verif.Mapped.DualStr.Throw; programs that create, copy, move, assign and destroy several objects are
in Verif.Mapped.SeveralStr.
-/
namespace Verif.Mapped.DualStr
open Verif.Mapped Verif.Block Verif.Block.Vector
open Verif.Mapped.Str (View text addName)
open Verif.Mapped.Dual (collect eraseAll)

/-- DualStringMappedVector.hpp:426-441, the members. -/
structure DSV (S K2 : Type) where
  data : S
  lookup1 : FMap View
  names : Vec
  lookup2 : FMap K2

/-- What the code depends on: element storage (`STABILITY`), `BLOCK_ORDER`, iteration order of the two maps, and the
hash function for strings. -/
structure Env (S K2 V : Type) where
  st : Store S V
  order : Nat
  impl1 : MapImpl View
  impl2 : MapImpl K2
  hash : String → Nat

variable {S K2 V : Type} [DecidableEq K2] (E : Env S K2 V)

omit [DecidableEq K2] in
/-- `StableBlockVector<K, BLOCK_ORDER> ind;` filled by `push_back` of the keys `ks` and then traversed
(DualStringMappedVector.hpp:314, 319, 331): what the loop sees.  The vector's memory is its own. -/
def traverse {K : Type} (N : Nat) (ks : List K) : Option (List K) :=
  (ks.foldlM (stableStore N K).push (stableStore N K).empty).bind (stableStore N K).all

omit [DecidableEq K2] in
/-- DualStringMappedVector.hpp:331-336: look up each collected view and erase the entry found. -/
def eraseViews (hash : String → Nat) (N : Nat) (h : Heap String) : List View → FMap View → Option (FMap View)
  | [], l => some l
  | v :: vs, l =>
    (text N h v).bind fun k =>
    (Str.find hash N h k l).bind fun f =>
    eraseViews hash N h vs (match f with | some e => FMap.erase l e.1 | none => l)

namespace DSV

/-- a new container -/
def init : DSV S K2 := ⟨E.st.empty, [], Vec.default E.order, []⟩

omit [DecidableEq K2] in
/-- `names.emplace_back(k); lookup1.emplace(names.back(), i)` (DualStringMappedVector.hpp:63-64, 87-88, 148-149, 171-172,
201-202, 215-216, 265-266), with `emplace`'s second result. -/
def addName1 (m : DSV S K2) (h : Heap String) (k : String) (i : Nat) : Option (DSV S K2 × Heap String × Bool) :=
  (addName E.hash E.order m.names h k).bind fun r =>
  (Str.emplace E.hash E.order r.2.1 E.impl1 m.lookup1 r.2.2 i).map fun l =>
    ({ m with names := r.1, lookup1 := l.1 }, r.2.1, l.2)

/-- DualStringMappedVector.hpp:61-66 and 146-151: the common end of `insert` and `insert_or_assign`. -/
def add (m : DSV S K2) (h : Heap String) (k1 : String) (k2 : K2) (x : V) : Option (DSV S K2 × Heap String × Nat) :=
  let index := E.st.size m.data
  (E.st.push m.data x).bind fun d =>
  (addName1 E { m with data := d } h k1 index).map fun r =>
    ({ r.1 with lookup2 := FMap.put E.impl2 r.1.lookup2 k2 index }, r.2.1, index)

/-- DualStringMappedVector.hpp:48-67. -/
def insert (m : DSV S K2) (h : Heap String) (k1 : String) (k2 : K2) (x : V) : Option (DSV S K2 × Heap String × Option Nat) :=
  (Str.find E.hash E.order h k1 m.lookup1).bind fun f =>
  if f.isSome ∧ (FMap.find m.lookup2 k2).isSome then some (m, h, none)
  else (m.add E h k1 k2 x).map fun r => (r.1, r.2.1, some r.2.2)

omit [DecidableEq K2] in
/-- DualStringMappedVector.hpp:85-89 and 169-173: the common end of the variants without second term. -/
def addFirst (m : DSV S K2) (h : Heap String) (k1 : String) (x : V) : Option (DSV S K2 × Heap String × Nat) :=
  let index := E.st.size m.data
  (E.st.push m.data x).bind fun d =>
  (addName1 E { m with data := d } h k1 index).map fun r => (r.1, r.2.1, index)

omit [DecidableEq K2] in
/-- DualStringMappedVector.hpp:75-90. -/
def insert1 (m : DSV S K2) (h : Heap String) (k1 : String) (x : V) : Option (DSV S K2 × Heap String × Option Nat) :=
  (Str.find E.hash E.order h k1 m.lookup1).bind fun f =>
  if f.isSome then some (m, h, none)
  else (m.addFirst E h k1 x).map fun r => (r.1, r.2.1, some r.2.2)

/-- DualStringMappedVector.hpp:98-112. -/
def insert2 (m : DSV S K2) (k2 : K2) (x : V) : Option (DSV S K2 × Option Nat) :=
  if (FMap.find m.lookup2 k2).isSome then some (m, none)
  else
    let index := E.st.size m.data
    (E.st.push m.data x).map fun d => ({ m with data := d, lookup2 := (FMap.emplace E.impl2 m.lookup2 k2 index).1 }, some index)

omit [DecidableEq K2] in
/-- DualStringMappedVector.hpp:118-127. -/
def insertNoKey (m : DSV S K2) (x : V) : Option (DSV S K2 × Option Nat) :=
  let index := E.st.size m.data
  (E.st.push m.data x).map fun d => ({ m with data := d }, some index)

/-- DualStringMappedVector.hpp:134-152. -/
def insertOrAssign (m : DSV S K2) (h : Heap String) (k1 : String) (k2 : K2) (x : V) : Option (DSV S K2 × Heap String × Nat) :=
  (Str.find E.hash E.order h k1 m.lookup1).bind fun f =>
  match f with
  | some e => (E.st.set m.data e.2 x).map fun d => ({ m with data := d, lookup2 := FMap.put E.impl2 m.lookup2 k2 e.2 }, h, e.2)
  | none => m.add E h k1 k2 x

omit [DecidableEq K2] in
/-- DualStringMappedVector.hpp:158-174. -/
def insertOrAssign1 (m : DSV S K2) (h : Heap String) (k1 : String) (x : V) : Option (DSV S K2 × Heap String × Nat) :=
  (Str.find E.hash E.order h k1 m.lookup1).bind fun f =>
  match f with
  | some e => (E.st.set m.data e.2 x).map fun d => ({ m with data := d }, h, e.2)
  | none => m.addFirst E h k1 x

/-- DualStringMappedVector.hpp:180-195. -/
def insertOrAssign2 (m : DSV S K2) (k2 : K2) (x : V) : Option (DSV S K2 × Nat) :=
  match FMap.find m.lookup2 k2 with
  | some i => (E.st.set m.data i x).map fun d => ({ m with data := d }, i)
  | none =>
    let index := E.st.size m.data
    (E.st.push m.data x).map fun d => ({ m with data := d, lookup2 := (FMap.emplace E.impl2 m.lookup2 k2 index).1 }, index)

/-- `lookup2.emplace(k, i)` -/
def emplace2 (m : DSV S K2) (k : K2) (i : Nat) : DSV S K2 × Bool :=
  let r := FMap.emplace E.impl2 m.lookup2 k i
  ({ m with lookup2 := r.1 }, r.2)

omit [DecidableEq K2] in
/-- DualStringMappedVector.hpp:198-206. -/
def addTermForIndex1 (m : DSV S K2) (h : Heap String) (k : String) (i : Nat) : Option (DSV S K2 × Heap String × Bool) :=
  if i < E.st.size m.data then m.addName1 E h k i else some (m, h, false)

/-- DualStringMappedVector.hpp:223-230. -/
def addTermForIndex2 (m : DSV S K2) (k : K2) (i : Nat) : DSV S K2 × Bool :=
  if i < E.st.size m.data then m.emplace2 E k i else (m, false)

omit [DecidableEq K2] in
/-- DualStringMappedVector.hpp:209-220. -/
def addTerm11 (m : DSV S K2) (h : Heap String) (k existing : String) : Option (DSV S K2 × Heap String × Bool) :=
  (Str.find E.hash E.order h existing m.lookup1).bind fun f =>
  match f with
  | some e => m.addName1 E h k e.2
  | none => some (m, h, false)

/-- DualStringMappedVector.hpp:233-243. -/
def addTerm22 (m : DSV S K2) (k existing : K2) : DSV S K2 × Bool :=
  match FMap.find m.lookup2 existing with
  | some i => m.emplace2 E k i
  | none => (m, false)

/-- DualStringMappedVector.hpp:246-256. -/
def addTerm21 (m : DSV S K2) (h : Heap String) (k : K2) (existing : String) : Option (DSV S K2 × Bool) :=
  (Str.find E.hash E.order h existing m.lookup1).map fun f =>
  match f with
  | some e => m.emplace2 E k e.2
  | none => (m, false)

/-- DualStringMappedVector.hpp:259-270. -/
def addTerm12 (m : DSV S K2) (h : Heap String) (k : String) (existing : K2) : Option (DSV S K2 × Heap String × Bool) :=
  match FMap.find m.lookup2 existing with
  | some i => m.addName1 E h k i
  | none => some (m, h, false)

omit [DecidableEq K2] in
/-- DualStringMappedVector.hpp:271-278 and 289-296; the result says what the returned iterator points to
(`none`: `end()`). -/
def find1 (m : DSV S K2) (h : Heap String) (k : String) : Option (Option V) :=
  (Str.find E.hash E.order h k m.lookup1).bind fun f =>
  match f with
  | some e => E.st.iterAt m.data e.2
  | none => (E.st.endOk m.data).map fun _ => none

/-- DualStringMappedVector.hpp:280-287 and 298-305. -/
def find2 (m : DSV S K2) (k : K2) : Option (Option V) :=
  match FMap.find m.lookup2 k with
  | some i => E.st.iterAt m.data i
  | none => (E.st.endOk m.data).map fun _ => none

/-- DualStringMappedVector.hpp:307-344.  The loops 315-321 and 323-329 are those of DualMappedVector; here the keys are
collected in StableBlockVectors. -/
def removeIndex (m : DSV S K2) (h : Heap String) (index : Nat) : Option (DSV S K2) :=
  if index ≥ E.st.size m.data then some m
  else
    (E.st.erase m.data index).bind fun r =>
    let c1 := collect r.2 index m.lookup1
    let c2 := collect r.2 index m.lookup2
    (traverse E.order c1.2).bind fun ind1 =>
    (eraseViews E.hash E.order h ind1 c1.1).bind fun l1 =>
    (traverse E.order c2.2).map fun ind2 =>
      { m with data := r.1, lookup1 := l1, lookup2 := eraseAll ind2 c2.1 }

/-- DualStringMappedVector.hpp:346-354. -/
def remove1 (m : DSV S K2) (h : Heap String) (k : String) : Option (DSV S K2) :=
  (Str.find E.hash E.order h k m.lookup1).bind fun f =>
  match f with
  | none => some m
  | some e => m.removeIndex E h e.2

/-- DualStringMappedVector.hpp:356-364. -/
def remove2 (m : DSV S K2) (h : Heap String) (k : K2) : Option (DSV S K2) :=
  match FMap.find m.lookup2 k with
  | none => some m
  | some index => m.removeIndex E h index

omit [DecidableEq K2] in
/-- DualStringMappedVector.hpp:365-370. -/
def get (m : DSV S K2) (i : Nat) : Option V := E.st.get m.data i

omit [DecidableEq K2] in
/-- `mv[i] = x`, through the reference of DualStringMappedVector.hpp:365. -/
def set (m : DSV S K2) (i : Nat) (x : V) : Option (DSV S K2) := (E.st.set m.data i x).map fun d => { m with data := d }

omit [DecidableEq K2] in
/-- DualStringMappedVector.hpp:372-374 (inner `none`: throws). -/
def at? (m : DSV S K2) (i : Nat) : Option (Option V) :=
  if i ≥ E.st.size m.data then some none else (E.st.get m.data i).map some

omit [DecidableEq K2] in
/-- DualStringMappedVector.hpp:376-378. -/
def back (m : DSV S K2) : Option V := E.st.back m.data

omit [DecidableEq K2] in
/-- DualStringMappedVector.hpp:381-385 and 402-403: the elements in the order visited. -/
def apply (m : DSV S K2) : Option (List V) := E.st.all m.data

omit [DecidableEq K2] in
/-- DualStringMappedVector.hpp:388-392; `F` may keep a state. -/
def modify {σ : Type} (m : DSV S K2) (F : σ → V → σ × V) (z : σ) : Option (σ × DSV S K2) :=
  (E.st.visit F z m.data).map fun r => (r.1, { m with data := r.2 })

omit [DecidableEq K2] in
/-- DualStringMappedVector.hpp:395-400: `std::transform` onto itself writes each result before the next call. -/
def transform {σ : Type} (m : DSV S K2) (F : σ → V → σ × V) (z : σ) : Option (σ × DSV S K2) :=
  (E.st.visit F z m.data).map fun r => (r.1, { m with data := r.2 })

omit [DecidableEq K2] in
/-- DualStringMappedVector.hpp:405. -/
def size (m : DSV S K2) : Nat := E.st.size m.data

omit [DecidableEq K2] in
/-- DualStringMappedVector.hpp:407-412 (`names` is not cleared). -/
def clear (m : DSV S K2) : Option (DSV S K2) :=
  (E.st.clear m.data).map fun d => { m with data := d, lookup1 := [], lookup2 := [] }

end DSV
end Verif.Mapped.DualStr
