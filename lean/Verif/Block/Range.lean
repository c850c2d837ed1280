import Verif.Block.Iter

/-
Input ranges: what `assign(first, last)` and `move_assign(first, last)` of StableBlockVector
(StableBlockVector.hpp:174-214) and StableBlockDeque (StableBlockDeque.hpp:253-317) use of the pair
`cur`, `last` of iterators.
-/
namespace Verif.Block

/-- `S` are the states of `cur`; `atEnd` is `cur == last`, `next` is `++cur` (or `cur++`), `fetch` evaluates
`*cur` or `std::move(*cur)` and constructs or assigns an element from it.  `fetch` gives the value and the heap afterwards:
moving from an element may change it. -/
structure InRange (X : Type) where
  S : Type
  atEnd : S → Bool
  fetch : S → Heap X → Option (X × Heap X)
  next : S → Option S

namespace InRange
variable {X : Type}

/-- A range outside of the modelled containers (an array, an initializer list), given by its remaining values. -/
abbrev list : InRange X where
  S := List X
  atEnd := List.isEmpty
  fetch s h := s.head?.map fun x => (x, h)
  next s := match s with | [] => none | _ :: xs => some xs

/-- `*it = x` (BlockIterator.hpp:41) -/
def put (bs : Nat) (h : Heap X) (it : Iter) (x : X) : Option (Heap X) :=
  match it.blk with
  | none => none
  | some b => if 0 ≤ it.pos then h.assign bs b it.pos.toNat x else none

/-- A range of elements of a modelled container, `cur` and `last` being BlockIterators over the slot array `arr`
(BlockIterator.hpp:41, 49-56, 81-93).  The state also counts the elements passed.  `left k = none`: the `k`-th element
of the range is copied; `left k = some y`: it is moved from and `y` is what its move leaves behind, an arbitrary value. -/
abbrev iter (bs : Nat) (arr : SlotPtr) (last : Iter) (left : Nat → Option X) : InRange X where
  S := Nat × Iter
  atEnd s := s.2.eq last
  fetch s h := (s.2.deref bs h).bind fun x =>
    match left s.1 with
    | none => some (x, h)
    | some y => (put bs h s.2 y).map fun h => (x, h)
  next s := (s.2.incr bs arr).map fun it => (s.1 + 1, it)

end InRange
end Verif.Block
