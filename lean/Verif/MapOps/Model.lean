/-
Model of gmlc/containers/mapOps.hpp, with models of the standard containers it searches: `std::map` as the sequence of
its entries in the order of its comparison, `std::unordered_map` as its buckets.
-/
namespace Verif.MapOps

variable {K V : Type}

/-! ### std::map -/

/-- A `std::map` with comparison `lt`. -/
structure OMap (K V : Type) where
  lt : K → K → Bool
  entries : List (K × V)

namespace OMap

/-- lower_bound: drop the entries whose key is less than `k`. -/
def lowerBound (m : OMap K V) (k : K) : List (K × V) := m.entries.dropWhile fun e => m.lt e.1 k

/-- find: the lower bound, if its key is not greater; `none` is end(). -/
def find (m : OMap K V) (k : K) : Option (K × V) :=
  match m.lowerBound k with
  | e :: _ => if m.lt k e.1 then none else some e
  | [] => none

/-- a new map -/
def empty (lt : K → K → Bool) : OMap K V := ⟨lt, []⟩

/-- insert_or_assign -/
def put (m : OMap K V) (k : K) (v : V) : OMap K V :=
  let before := m.entries.takeWhile fun e => m.lt e.1 k
  match m.lowerBound k with
  | e :: rest => if m.lt k e.1 then { m with entries := before ++ (k, v) :: e :: rest }
    else { m with entries := before ++ (e.1, v) :: rest }
  | [] => { m with entries := before ++ [(k, v)] }

/-- erase by key -/
def erase (m : OMap K V) (k : K) : OMap K V :=
  { m with entries := m.entries.filter fun e => m.lt e.1 k || m.lt k e.1 }

/-- mapOps.hpp:20-25. -/
def mapFindDef (mapS : OMap K V) (val : K) (defVal : V) : V :=
  match mapS.find val with
  | some e => e.2
  | none => defVal

/-- mapOps.hpp:27-35. -/
def mapFind (mapS : OMap K V) (val : K) : Option V :=
  match mapS.find val with
  | some e => some e.2
  | none => none

end OMap

/-! ### std::unordered_map -/

/-- A `std::unordered_map` with hash function `hash` and key comparison `eq`. -/
structure UMap (K V : Type) where
  hash : K → Nat
  eq : K → K → Bool
  buckets : List (List (K × V))

namespace UMap

/-- the bucket of a key -/
def slot (m : UMap K V) (k : K) : Nat := m.hash k % m.buckets.length

/-- find: search the key's bucket; `none` is end(). -/
def find (m : UMap K V) (k : K) : Option (K × V) := ((m.buckets[m.slot k]?).getD []).find? fun e => m.eq e.1 k

/-- all entries -/
def entries (m : UMap K V) : List (K × V) := m.buckets.flatten

/-- a new map with `n` buckets -/
def empty (hash : K → Nat) (eq : K → K → Bool) (n : Nat) : UMap K V := ⟨hash, eq, List.replicate n []⟩

/-- insert_or_assign (without rehashing) -/
def put (m : UMap K V) (k : K) (v : V) : UMap K V :=
  { m with buckets := m.buckets.modify (m.slot k) fun b =>
      if b.any fun e => m.eq e.1 k then b.map fun e => if m.eq e.1 k then (e.1, v) else e else (k, v) :: b }

/-- erase by key -/
def erase (m : UMap K V) (k : K) : UMap K V :=
  { m with buckets := m.buckets.modify (m.slot k) fun b => b.filter fun e => !m.eq e.1 k }

/-- rehash to `n` buckets -/
def rehash (m : UMap K V) (n : Nat) : UMap K V :=
  { m with buckets := (List.range n).map fun i => m.entries.filter fun e => m.hash e.1 % n = i }

/-- mapOps.hpp:37-45. -/
def mapFindDef (mapS : UMap K V) (val : K) (defVal : V) : V :=
  match mapS.find val with
  | some e => e.2
  | none => defVal

/-- mapOps.hpp:47-55. -/
def mapFind (mapS : UMap K V) (val : K) : Option V :=
  match mapS.find val with
  | some e => some e.2
  | none => none

end UMap
end Verif.MapOps
