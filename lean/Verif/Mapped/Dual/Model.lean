import Verif.Mapped.Vector.Model

/-
Model of gmlc/containers/DualMappedVector.hpp.  `none` is undefined behaviour.

The element constructor arguments `Us&&...` are modelled by the constructed value.
Exceptions are modelled in Throw.lean and RemoveThrow.lean.
-/
namespace Verif.Mapped.Dual
open Verif.Mapped

/-- DualMappedVector.hpp:426-443, the members. -/
structure DMV (S K1 K2 : Type) where
  data : S
  lookup1 : FMap K1
  lookup2 : FMap K2

/-- What the code depends on: element storage (`STABILITY`, `BLOCK_ORDER`) and the iteration order of the two maps. -/
structure Env (S K1 K2 V : Type) where
  st : Store S V
  impl1 : MapImpl K1
  impl2 : MapImpl K2

variable {S K1 K2 V : Type} [DecidableEq K1] [DecidableEq K2] (E : Env S K1 K2 V)

/-- DualMappedVector.hpp:307-314 (315-322 for the second map): lower the indices above the removed one (if it was
erased) and collect the keys of the removed one. -/
def collect {K : Type} (erased : Bool) (index : Nat) : FMap K → FMap K × List K
  | [] => ([], [])
  | e :: m =>
    let r := collect erased index m
    if erased = true ∧ e.2 > index then ((e.1, e.2 - 1) :: r.1, r.2)
    else if e.2 = index then (e :: r.1, e.1 :: r.2)
    else (e :: r.1, r.2)

/-- DualMappedVector.hpp:324-329 (331-336): look up each collected key and erase it if found. -/
def eraseAll {K : Type} [DecidableEq K] : List K → FMap K → FMap K
  | [], m => m
  | k :: ks, m => eraseAll ks (if (FMap.find m k).isSome then FMap.erase m k else m)

namespace DMV

/-- a new container -/
def init : DMV S K1 K2 := ⟨E.st.empty, [], []⟩

/-- DualMappedVector.hpp:48-66. -/
def insert (m : DMV S K1 K2) (k1 : K1) (k2 : K2) (x : V) : Option (DMV S K1 K2 × Option Nat) :=
  if (FMap.find m.lookup1 k1).isSome ∧ (FMap.find m.lookup2 k2).isSome then some (m, none)
  else
    let index := E.st.size m.data
    (E.st.push m.data x).map fun d =>
      (⟨d, FMap.put E.impl1 m.lookup1 k1 index, FMap.put E.impl2 m.lookup2 k2 index⟩, some index)

omit [DecidableEq K2] in
/-- DualMappedVector.hpp:74-88. -/
def insert1 (m : DMV S K1 K2) (k1 : K1) (x : V) : Option (DMV S K1 K2 × Option Nat) :=
  if (FMap.find m.lookup1 k1).isSome then some (m, none)
  else
    let index := E.st.size m.data
    (E.st.push m.data x).map fun d => ({ m with data := d, lookup1 := (FMap.emplace E.impl1 m.lookup1 k1 index).1 }, some index)

omit [DecidableEq K1] in
/-- DualMappedVector.hpp:96-110. -/
def insert2 (m : DMV S K1 K2) (k2 : K2) (x : V) : Option (DMV S K1 K2 × Option Nat) :=
  if (FMap.find m.lookup2 k2).isSome then some (m, none)
  else
    let index := E.st.size m.data
    (E.st.push m.data x).map fun d => ({ m with data := d, lookup2 := (FMap.emplace E.impl2 m.lookup2 k2 index).1 }, some index)

omit [DecidableEq K1] [DecidableEq K2] in
/-- DualMappedVector.hpp:116-125. -/
def insertNoKey (m : DMV S K1 K2) (x : V) : Option (DMV S K1 K2 × Option Nat) :=
  let index := E.st.size m.data
  (E.st.push m.data x).map fun d => ({ m with data := d }, some index)

/-- DualMappedVector.hpp:132-149. -/
def insertOrAssign (m : DMV S K1 K2) (k1 : K1) (k2 : K2) (x : V) : Option (DMV S K1 K2 × Nat) :=
  match FMap.find m.lookup1 k1 with
  | some i => (E.st.set m.data i x).map fun d => ({ m with data := d, lookup2 := FMap.put E.impl2 m.lookup2 k2 i }, i)
  | none =>
    let index := E.st.size m.data
    (E.st.push m.data x).map fun d =>
      (⟨d, FMap.put E.impl1 m.lookup1 k1 index, FMap.put E.impl2 m.lookup2 k2 index⟩, index)

omit [DecidableEq K2] in
/-- DualMappedVector.hpp:155-170. -/
def insertOrAssign1 (m : DMV S K1 K2) (k1 : K1) (x : V) : Option (DMV S K1 K2 × Nat) :=
  match FMap.find m.lookup1 k1 with
  | some i => (E.st.set m.data i x).map fun d => ({ m with data := d }, i)
  | none =>
    let index := E.st.size m.data
    (E.st.push m.data x).map fun d => ({ m with data := d, lookup1 := (FMap.emplace E.impl1 m.lookup1 k1 index).1 }, index)

omit [DecidableEq K1] in
/-- DualMappedVector.hpp:176-191. -/
def insertOrAssign2 (m : DMV S K1 K2) (k2 : K2) (x : V) : Option (DMV S K1 K2 × Nat) :=
  match FMap.find m.lookup2 k2 with
  | some i => (E.st.set m.data i x).map fun d => ({ m with data := d }, i)
  | none =>
    let index := E.st.size m.data
    (E.st.push m.data x).map fun d => ({ m with data := d, lookup2 := (FMap.emplace E.impl2 m.lookup2 k2 index).1 }, index)

/-- `lookup1.emplace(k, i)` -/
def emplace1 (m : DMV S K1 K2) (k : K1) (i : Nat) : DMV S K1 K2 × Bool :=
  let r := FMap.emplace E.impl1 m.lookup1 k i
  ({ m with lookup1 := r.1 }, r.2)

/-- `lookup2.emplace(k, i)` -/
def emplace2 (m : DMV S K1 K2) (k : K2) (i : Nat) : DMV S K1 K2 × Bool :=
  let r := FMap.emplace E.impl2 m.lookup2 k i
  ({ m with lookup2 := r.1 }, r.2)

/-- DualMappedVector.hpp:194-201. -/
def addTermForIndex1 (m : DMV S K1 K2) (k : K1) (i : Nat) : DMV S K1 K2 × Bool :=
  if i < E.st.size m.data then m.emplace1 E k i else (m, false)

/-- DualMappedVector.hpp:217-224. -/
def addTermForIndex2 (m : DMV S K1 K2) (k : K2) (i : Nat) : DMV S K1 K2 × Bool :=
  if i < E.st.size m.data then m.emplace2 E k i else (m, false)

/-- DualMappedVector.hpp:204-213. -/
def addTerm11 (m : DMV S K1 K2) (k : K1) (existing : K1) : DMV S K1 K2 × Bool :=
  match FMap.find m.lookup1 existing with
  | some i => m.emplace1 E k i
  | none => (m, false)

/-- DualMappedVector.hpp:227-236. -/
def addTerm22 (m : DMV S K1 K2) (k : K2) (existing : K2) : DMV S K1 K2 × Bool :=
  match FMap.find m.lookup2 existing with
  | some i => m.emplace2 E k i
  | none => (m, false)

/-- DualMappedVector.hpp:240-249. -/
def addTerm21 (m : DMV S K1 K2) (k : K2) (existing : K1) : DMV S K1 K2 × Bool :=
  match FMap.find m.lookup1 existing with
  | some i => m.emplace2 E k i
  | none => (m, false)

/-- DualMappedVector.hpp:253-262. -/
def addTerm12 (m : DMV S K1 K2) (k : K1) (existing : K2) : DMV S K1 K2 × Bool :=
  match FMap.find m.lookup2 existing with
  | some i => m.emplace1 E k i
  | none => (m, false)

omit [DecidableEq K2] in
/-- DualMappedVector.hpp:264-271 and 282-289; the result says what the returned iterator points to (`none`: `end()`). -/
def find1 (m : DMV S K1 K2) (k : K1) : Option (Option V) :=
  match FMap.find m.lookup1 k with
  | some i => E.st.iterAt m.data i
  | none => (E.st.endOk m.data).map fun _ => none

omit [DecidableEq K1] in
/-- DualMappedVector.hpp:273-280 and 291-298. -/
def find2 (m : DMV S K1 K2) (k : K2) : Option (Option V) :=
  match FMap.find m.lookup2 k with
  | some i => E.st.iterAt m.data i
  | none => (E.st.endOk m.data).map fun _ => none

/-- DualMappedVector.hpp:300-337. -/
def removeIndex (m : DMV S K1 K2) (index : Nat) : Option (DMV S K1 K2) :=
  if index ≥ E.st.size m.data then some m
  else
    (E.st.erase m.data index).map fun r =>
    let c1 := collect r.2 index m.lookup1
    let c2 := collect r.2 index m.lookup2
    ⟨r.1, eraseAll c1.2 c1.1, eraseAll c2.2 c2.1⟩

/-- DualMappedVector.hpp:339-347. -/
def remove1 (m : DMV S K1 K2) (k : K1) : Option (DMV S K1 K2) :=
  match FMap.find m.lookup1 k with
  | none => some m
  | some index => m.removeIndex E index

/-- DualMappedVector.hpp:349-357. -/
def remove2 (m : DMV S K1 K2) (k : K2) : Option (DMV S K1 K2) :=
  match FMap.find m.lookup2 k with
  | none => some m
  | some index => m.removeIndex E index

omit [DecidableEq K1] [DecidableEq K2] in
/-- DualMappedVector.hpp:358-363. -/
def get (m : DMV S K1 K2) (i : Nat) : Option V := E.st.get m.data i

omit [DecidableEq K1] [DecidableEq K2] in
/-- `mv[i] = x`, through the reference of DualMappedVector.hpp:358. -/
def set (m : DMV S K1 K2) (i : Nat) (x : V) : Option (DMV S K1 K2) := (E.st.set m.data i x).map fun d => { m with data := d }

omit [DecidableEq K1] [DecidableEq K2] in
/-- DualMappedVector.hpp:365-367 (inner `none`: throws). -/
def at? (m : DMV S K1 K2) (i : Nat) : Option (Option V) :=
  if i ≥ E.st.size m.data then some none else (E.st.get m.data i).map some

omit [DecidableEq K1] [DecidableEq K2] in
/-- DualMappedVector.hpp:369-371. -/
def back (m : DMV S K1 K2) : Option V := E.st.back m.data

omit [DecidableEq K1] [DecidableEq K2] in
/-- DualMappedVector.hpp:375-379 and 397-398: the elements in the order visited. -/
def apply (m : DMV S K1 K2) : Option (List V) := E.st.all m.data

omit [DecidableEq K1] [DecidableEq K2] in
/-- DualMappedVector.hpp:383-387; `F` may keep a state. -/
def modify {σ : Type} (m : DMV S K1 K2) (F : σ → V → σ × V) (z : σ) : Option (σ × DMV S K1 K2) :=
  (E.st.visit F z m.data).map fun r => (r.1, { m with data := r.2 })

omit [DecidableEq K1] [DecidableEq K2] in
/-- DualMappedVector.hpp:391-396: `std::transform` onto itself writes each result before the next call. -/
def transform {σ : Type} (m : DMV S K1 K2) (F : σ → V → σ × V) (z : σ) : Option (σ × DMV S K1 K2) :=
  (E.st.visit F z m.data).map fun r => (r.1, { m with data := r.2 })

omit [DecidableEq K1] [DecidableEq K2] in
/-- DualMappedVector.hpp:400. -/
def size (m : DMV S K1 K2) : Nat := E.st.size m.data

omit [DecidableEq K1] [DecidableEq K2] in
/-- DualMappedVector.hpp:402-407. -/
def clear (m : DMV S K1 K2) : Option (DMV S K1 K2) := (E.st.clear m.data).map fun d => ⟨d, [], []⟩

end DMV
end Verif.Mapped.Dual
