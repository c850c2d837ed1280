import Verif.Block.Heap

/-
Model of gmlc/containers/BlockIterator.hpp.

Computed with unbounded integers; the conversion of the movement to `int` (positions beyond 2^31) is modelled in Iterator/Ints.lean.
-/
namespace Verif.Block

/-- The pointer `vec` into an array of block pointers: either the address of the function-local
static null pointer used by `end()` of a vector without memory, or entry `i` of the slot array. -/
inductive VecPtr where
  | static
  | slot (i : Int)
deriving DecidableEq

/-- BlockIterator.hpp:20-23.  `blk` and `pos` are the block and the index inside it that `ptr`
points to; `blk = none` is an indeterminate or null block pointer. -/
structure Iter where
  vec : VecPtr
  blk : Option Nat
  pos : Int
  offset : Int
deriving DecidableEq

/-- `*vec`: outside the slot array this is undefined behaviour (outer `none`); inside it the
entry may be indeterminate (inner `none`), which is only harmful if dereferenced. -/
def derefVec (arr : SlotPtr) : VecPtr → Option (Option Nat)
  | .static => some none
  | .slot i =>
    match arr with
    | none => none
    | some l => if 0 ≤ i then l[i.toNat]? else none

namespace Iter

/-- BlockIterator.hpp:33-34. -/
def make (arr : SlotPtr) (v : VecPtr) (startoffset : Int) : Option Iter :=
  (derefVec arr v).map fun b => ⟨v, b, startoffset, startoffset⟩

/-- BlockIterator.hpp:42: the object the iterator points to. -/
def deref {X : Type} (bs : Nat) (h : Heap X) (it : Iter) : Option X :=
  match it.blk with
  | none => none
  | some b => if 0 ≤ it.pos then h.read bs b it.pos.toNat else none

/-- BlockIterator.hpp:49-52. -/
def eq (a b : Iter) : Bool := decide (a.vec = b.vec) && decide (a.offset = b.offset)

/-- BlockIterator.hpp:53-56. -/
def ne (a b : Iter) : Bool := decide (a.offset ≠ b.offset) || decide (a.vec ≠ b.vec)

/-- moving `vec` by a number of entries -/
def moveVec : VecPtr → Int → VecPtr
  | .static, _ => .static
  | .slot i, k => .slot (i + k)

/-- BlockIterator.hpp:139-147; the block size is an `int`, `diff` is non-negative here. -/
def check (bs : Int) (arr : SlotPtr) (it : Iter) : Option Iter :=
  if it.offset ≥ bs then
    let diff := it.offset - bs
    let v := moveVec it.vec (1 + diff / bs)
    let off := diff % bs
    (derefVec arr v).map fun b => ⟨v, b, off, off⟩
  else some it

/-- BlockIterator.hpp:150-158. -/
def checkNeg (bs : Int) (arr : SlotPtr) (it : Iter) : Option Iter :=
  if it.offset < 0 then
    let diff := -it.offset - 1
    let v := moveVec it.vec (-(1 + diff / bs))
    let off := bs - 1 - diff % bs
    (derefVec arr v).map fun b => ⟨v, b, off, off⟩
  else some it

/-- BlockIterator.hpp:74-80. -/
def addAssign (bs : Int) (arr : SlotPtr) (it : Iter) (movement : Int) : Option Iter :=
  check bs arr { it with pos := it.pos + movement, offset := it.offset + movement }

/-- BlockIterator.hpp:81-87. -/
def incr (bs : Int) (arr : SlotPtr) (it : Iter) : Option Iter :=
  check bs arr { it with pos := it.pos + 1, offset := it.offset + 1 }

/-- BlockIterator.hpp:94-99. -/
def add (bs : Int) (arr : SlotPtr) (it : Iter) (movement : Int) : Option Iter :=
  addAssign bs arr it movement

/-- BlockIterator.hpp:100-106. -/
def subAssign (bs : Int) (arr : SlotPtr) (it : Iter) (movement : Int) : Option Iter :=
  checkNeg bs arr { it with pos := it.pos - movement, offset := it.offset - movement }

/-- BlockIterator.hpp:107-113. -/
def decr (bs : Int) (arr : SlotPtr) (it : Iter) : Option Iter :=
  checkNeg bs arr { it with pos := it.pos - 1, offset := it.offset - 1 }

/-- BlockIterator.hpp:120-125. -/
def sub (bs : Int) (arr : SlotPtr) (it : Iter) (movement : Int) : Option Iter :=
  subAssign bs arr it movement

/-- BlockIterator.hpp:88-93: the value of `it++`, then the new `it`. -/
def postIncr (bs : Int) (arr : SlotPtr) (it : Iter) : Option (Iter × Iter) :=
  (incr bs arr it).map fun it' => (it, it')

/-- BlockIterator.hpp:114-119: the value of `it--`, then the new `it`. -/
def postDecr (bs : Int) (arr : SlotPtr) (it : Iter) : Option (Iter × Iter) :=
  (decr bs arr it).map fun it' => (it, it')

/-- `*vec == nullptr`.  The entry of a slot without block may never have been written; comparing such an indeterminate
value is formally undefined and gives `junk` here. -/
def nullAt (arr : SlotPtr) (junk : Bool) : VecPtr → Option Bool
  | .static => some true
  | .slot i => (derefVec arr (.slot i)).map fun b => match b with | some _ => false | none => junk

/-- BlockIterator.hpp:126-134, called on `it` with the members of `a`.  `testv != nullptr` holds for every `vec`. -/
def checkEquivalence (arr : SlotPtr) (junk : Bool) (it : Iter) (testv : VecPtr) (testoffset : Int) : Option Bool :=
  (if testv = it.vec then some true
   else (nullAt arr junk testv).bind fun n => if n then nullAt arr junk it.vec else some false).map
    fun same => same && decide (testoffset = it.offset)

/-- BlockIterator.hpp:58-66, `a == b` where one iterator is constant and the other is not. -/
def eqMixed (arr : SlotPtr) (junk : Bool) (a b : Iter) : Option Bool := checkEquivalence arr junk b a.vec a.offset

/-- BlockIterator.hpp:68-72. -/
def neMixed (arr : SlotPtr) (junk : Bool) (a b : Iter) : Option Bool := (eqMixed arr junk a b).map not

/-- BlockIterator.hpp:47: `ptr != nullptr`; `ptr` points into a block or is computed from an entry without block (then
the result is not specified by the model: `junk`). -/
def toBool (junk : Bool) (it : Iter) : Bool := match it.blk with | some _ => true | none => junk

/-- The client loop `for (it = first; it != last; ++it) out.push_back(*it);`, for at most `fuel`
rounds (`none` if it did not stop by then). -/
def collect {X : Type} (bs : Nat) (arr : SlotPtr) (h : Heap X) (last : Iter) :
    Nat → Iter → Option (List X)
  | 0, it => if it.ne last then none else some []
  | fuel + 1, it =>
    if it.ne last then
      (it.deref bs h).bind fun x =>
      (it.incr bs arr).bind fun it' =>
      (collect bs arr h last fuel it').map fun xs => x :: xs
    else some []

/-- The test of a loop with an iterator and an end of different constness: `it != last`, or `last != it` if `swap`. -/
def goOn (arr : SlotPtr) (junk swap : Bool) (it last : Iter) : Option Bool :=
  if swap then last.neMixed arr junk it else it.neMixed arr junk last

/-- The same loop with such a test. -/
def collectMixed {X : Type} (bs : Nat) (arr : SlotPtr) (h : Heap X) (junk swap : Bool) (last : Iter) :
    Nat → Iter → Option (List X)
  | 0, it => (goOn arr junk swap it last).bind fun go => if go then none else some []
  | fuel + 1, it => (goOn arr junk swap it last).bind fun go =>
    if go then
      (it.deref bs h).bind fun x =>
      (it.incr bs arr).bind fun it' =>
      (collectMixed bs arr h junk swap last fuel it').map fun xs => x :: xs
    else some []

end Iter
end Verif.Block
