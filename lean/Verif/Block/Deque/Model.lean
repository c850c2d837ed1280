import Verif.Block.Range

/-
Model of gmlc/containers/StableBlockDeque.hpp.

`none` is undefined behaviour or a broken object lifecycle (see Verif.Block.Heap).
Not modelled here: exceptions thrown by element constructors or the allocator (Throw.lean, CtorThrow.lean); overflow of the `int`
members (IntMembers.lean).

Two points where the outcome depends on the implementation are parameters (`Pol`).
-/
namespace Verif.Block.Deque
open Verif.Block

/-- Parameters.  `memmove`: `std::copy` of block pointers to an overlapping later range works as a
memmove (true in the common standard libraries; undefined according to the C++ standard).
`triv`: the element type has a trivial destructor, so that a destructor call on a cell that holds
no element has no effect. -/
structure Pol where
  memmove : Bool
  triv : Bool

/-- StableBlockDeque.hpp:625-627, the list of blocks kept for reuse. -/
structure FreeL where
  avail : Nat
  idx : Nat
  blocks : SlotPtr

/-- StableBlockDeque.hpp:617-627, the members.  `avail`, `back`, `front` are `dataSlotsAvailable`,
`dataSlotBack`, `dataSlotFront`. -/
structure Deq where
  csize : Nat
  dataptr : SlotPtr
  avail : Nat
  back : Int
  front : Int
  bsize : Int
  fsize : Int
  free : FreeL

variable {X : Type}

/-- StableBlockDeque.hpp:38. -/
def blockSize (N : Nat) : Nat := 1 <<< N

/-- StableBlockDeque.hpp:44. -/
def cntmask (N : Nat) : Nat := blockSize N - 1

/-- `std::copy(src + first, src + last, dst + d)` for arrays of block pointers, to a range that does not
start inside the source range. -/
def slotCopy (src dst : Slots) (first last d : Int) : Option Slots :=
  if 0 ≤ first ∧ first ≤ last ∧ last ≤ src.length ∧ 0 ≤ d ∧ d + (last - first) ≤ dst.length then
    some (dst.take d.toNat ++ (src.drop first.toNat).take (last - first).toNat ++
      dst.drop (d + (last - first)).toNat)
  else none

/-- The same within one array: if the target starts inside the source range the standard leaves the
result undefined. -/
def slotCopyIn (P : Pol) (l : Slots) (first last d : Int) : Option Slots :=
  if first ≤ d ∧ d < last ∧ P.memmove = false then none else slotCopy l l first last d

/-- use of a cell index: negative indices are outside the block -/
def natIdx (j : Int) : Option Nat := if 0 ≤ j then some j.toNat else none

/-- placement new at `p[i][j]` -/
def constructAt (N : Nat) (p : SlotPtr) (i j : Int) (h : Heap X) (x : X) : Option (Heap X) :=
  (slotGet p i).bind fun b => (natIdx j).bind fun j => h.construct (blockSize N) b j x

/-- destructor call on `p[i][j]` -/
def destroyAt (P : Pol) (N : Nat) (p : SlotPtr) (i j : Int) (h : Heap X) : Option (Heap X) :=
  (slotGet p i).bind fun b => (natIdx j).bind fun j =>
    if P.triv = true ∧ h.live b = true ∧ j < blockSize N ∧ h.cells b j = none then some h
    else h.destroy (blockSize N) b j

/-- reading `p[i][j]` -/
def readAt (N : Nat) (p : SlotPtr) (i j : Int) (h : Heap X) : Option X :=
  (slotGet p i).bind fun b => (natIdx j).bind fun j => h.read (blockSize N) b j

namespace FreeL

/-- StableBlockDeque.hpp:553-565: make room. -/
def grow (f : FreeL) : FreeL :=
  if f.idx ≥ f.avail then
    if f.avail = 0 then { f with blocks := some (List.replicate 64 none), avail := 64 }
    else { f with blocks := f.blocks.map (fun l => l.take f.avail ++ List.replicate f.avail none),
                  avail := f.avail * 2 }
  else f

/-- StableBlockDeque.hpp:551-567 (moveBlocktoAvailable). -/
def put (f : FreeL) (b : Nat) : Option FreeL :=
  (slotSet f.grow.blocks f.grow.idx b).map fun p => { f.grow with blocks := p, idx := f.grow.idx + 1 }

/-- StableBlockDeque.hpp:569-576 (getNewBlock). -/
def get (f : FreeL) (h : Heap X) : Option (Nat × FreeL × Heap X) :=
  if f.idx = 0 then some (h.alloc.1, f, h.alloc.2)
  else (slotGet f.blocks ((f.idx : Int) - 1)).map fun b => (b, { f with idx := f.idx - 1 }, h)

/-- StableBlockDeque.hpp:356-358 and 609-611: deallocate `freeblocks[ii]` for `n` entries from `ii`. -/
def freeFrom (N : Nat) (p : SlotPtr) : Nat → Nat → Heap X → Option (Heap X)
  | 0, _, h => some h
  | n + 1, ii, h =>
    (slotGet p ii).bind fun b =>
    (h.dealloc (blockSize N) b).bind fun h => freeFrom N p n (ii + 1) h

end FreeL

namespace Deq

/-- StableBlockDeque.hpp:48 with the initialisers of 617-627. -/
def default (N : Nat) : Deq := ⟨0, none, 0, 0, 0, blockSize N, -1, ⟨0, 0, none⟩⟩

/-- StableBlockDeque.hpp:89-97, 100-102 and 106-108: construct copies of `init` in cells `jj .. jj+n-1` of
`p[i]`, in increasing order. -/
def constructUp (N : Nat) (p : SlotPtr) (i : Int) (init : X) : Int → Nat → Heap X → Option (Heap X)
  | _, 0, h => some h
  | jj, n + 1, h => (constructAt N p i jj h init).bind fun h => constructUp N p i init (jj + 1) n h

/-- StableBlockDeque.hpp:98-103: the middle blocks, `n` of them from slot `ii`. -/
def fillMid (N : Nat) (init : X) : Nat → Int → SlotPtr → Heap X → Option (SlotPtr × Heap X)
  | 0, _, p, h => some (p, h)
  | n + 1, ii, p, h =>
    (slotSet p ii h.alloc.1).bind fun p =>
    (constructUp N p ii init 0 (blockSize N) h.alloc.2).bind fun h => fillMid N init n (ii + 1) p h

/-- StableBlockDeque.hpp:51-111, the position of front and back chosen for `startSize > 0`
(63-85): (front, back, fsize, bsize).  `blockSize / 2 - 2` is unsigned, so that for `N < 2` the
comparison at 66 is with a huge number. -/
def layout (N startSize avail : Nat) : Int × Int × Int × Int :=
  let blocks := startSize >>> N
  let blocks := if blocks > 0 then blocks + 1
    else if 2 ≤ blockSize N / 2 ∧ startSize > blockSize N / 2 - 2 then 1 else blocks
  if blocks = 0 then
    let fsize : Int := (blockSize N / 2 : Nat) - (startSize / 2 : Nat) - 1
    (30, 30, fsize, fsize + startSize + 1)
  else if blocks = 1 then
    (30, 31, blockSize N - (startSize / 2 : Nat) - 1, startSize - (startSize / 2 : Nat))
  else
    let front := (avail - blocks) / 2
    let med := startSize - (startSize >>> N) * blockSize N
    (front, front + blocks, blockSize N - (med / 2 : Nat) - 1, med - (med / 2 : Nat))

/-- StableBlockDeque.hpp:51-111. -/
def ofSize (N : Nat) (h : Heap X) (startSize : Nat) (init : X) : Option (Deq × Heap X) :=
  let avail := Nat.max ((startSize >>> N) + 2) 64
  let p : SlotPtr := some (List.replicate avail none)
  if startSize = 0 then
    (slotSet p 30 h.alloc.1).map fun p =>
      (⟨0, p, avail, 30, 30, (blockSize N / 2 : Nat), (blockSize N / 2 : Nat), ⟨0, 0, none⟩⟩, h.alloc.2)
  else
    let l := layout N startSize avail
    let front := l.1
    let back := l.2.1
    let fsize := l.2.2.1
    let bsize := l.2.2.2
    (slotSet p front h.alloc.1).bind fun p =>
    (constructUp N p front init (fsize + 1)
      ((if back > front then (blockSize N : Int) else bsize) - (fsize + 1)).toNat h.alloc.2).bind fun h =>
    (fillMid N init (back - 1 - front).toNat (front + 1) p h).bind fun r =>
    if back > front then
      (slotSet r.1 back r.2.alloc.1).bind fun p =>
      (constructUp N p back init 0 bsize.toNat r.2.alloc.2).map fun h =>
        (⟨startSize, p, avail, back, front, bsize, fsize, ⟨0, 0, none⟩⟩, h)
    else some (⟨startSize, r.1, avail, back, front, bsize, fsize, ⟨0, 0, none⟩⟩, r.2)

/-- StableBlockDeque.hpp:478-486 and 513-521: the first memory of a deque. -/
def firstBlock (N : Nat) (v : Deq) (h : Heap X) : Option (Deq × Heap X) :=
  let fsize : Int := (blockSize N / 2 : Nat) - 1
  (v.free.get h).bind fun r =>
  (slotSet (some (List.replicate 64 none)) 30 r.1).map fun p =>
    (⟨v.csize, p, 64, 30, 30, fsize + 1, fsize, r.2.1⟩, r.2.2)

/-- StableBlockDeque.hpp:487-504: room for one more block after the last. -/
def roomBack (P : Pol) (v : Deq) : Option Deq :=
  if v.back ≥ (v.avail : Int) - 1 then
    if v.front > 5 then
      v.dataptr.bind fun l =>
      (slotCopyIn P l v.front (v.back + 1) (v.front / 2)).map fun l =>
        { v with dataptr := some l, front := v.front / 2, back := v.front / 2 + (v.back - v.front) }
    else
      v.dataptr.bind fun l =>
      (slotCopy l (List.replicate (v.avail * 2) none) 0 v.avail 0).map fun l =>
        { v with dataptr := some l, avail := v.avail * 2 }
  else some v

/-- StableBlockDeque.hpp:475-508. -/
def blockCheck (P : Pol) (N : Nat) (v : Deq) (h : Heap X) : Option (Deq × Heap X) :=
  if v.bsize ≥ blockSize N then
    if v.avail = 0 then firstBlock N v h
    else
      (roomBack P v).bind fun v =>
      (v.free.get h).bind fun r =>
      (slotSet v.dataptr (v.back + 1) r.1).map fun p =>
        ({ v with dataptr := p, back := v.back + 1, bsize := 0, free := r.2.1 }, r.2.2)
  else some (v, h)

/-- StableBlockDeque.hpp:522-545: room for one more block before the first. -/
def roomFront (P : Pol) (v : Deq) : Option Deq :=
  if v.front = 0 then
    let diff := v.back - v.front
    if v.back < (v.avail : Int) - 5 then
      v.dataptr.bind fun l =>
      (slotCopyIn P l 0 (v.back + 1) (((v.avail : Int) - v.back) / 2)).map fun l =>
        { v with dataptr := some l, front := ((v.avail : Int) - v.back) / 2,
                 back := ((v.avail : Int) - v.back) / 2 + diff }
    else
      v.dataptr.bind fun l =>
      (slotCopy l (List.replicate (v.avail * 2) none) 0 (v.back + 1) v.avail).map fun l =>
        { v with dataptr := some l, front := v.avail, avail := v.avail * 2, back := v.avail + diff }
  else some v

/-- StableBlockDeque.hpp:510-549. -/
def blockCheckFront (P : Pol) (N : Nat) (v : Deq) (h : Heap X) : Option (Deq × Heap X) :=
  if v.fsize < 0 then
    if v.avail = 0 then firstBlock N v h
    else
      (roomFront P v).bind fun v =>
      (v.free.get h).bind fun r =>
      (slotSet v.dataptr (v.front - 1) r.1).map fun p =>
        ({ v with dataptr := p, front := v.front - 1, fsize := (blockSize N : Int) - 1, free := r.2.1 }, r.2.2)
  else some (v, h)

/-- StableBlockDeque.hpp:179-199 (`emplace_back` and both `push_back`s). -/
def pushBack (P : Pol) (N : Nat) (v : Deq) (h : Heap X) (x : X) : Option (Deq × Heap X) :=
  (blockCheck P N v h).bind fun r =>
  (constructAt N r.1.dataptr r.1.back r.1.bsize r.2 x).map fun h =>
    ({ r.1 with bsize := r.1.bsize + 1, csize := r.1.csize + 1 }, h)

/-- StableBlockDeque.hpp:216-236 (`emplace_front` and both `push_front`s). -/
def pushFront (P : Pol) (N : Nat) (v : Deq) (h : Heap X) (x : X) : Option (Deq × Heap X) :=
  (blockCheckFront P N v h).bind fun r =>
  (constructAt N r.1.dataptr r.1.front r.1.fsize r.2 x).map fun h =>
    ({ r.1 with fsize := r.1.fsize - 1, csize := r.1.csize + 1 }, h)

/-- StableBlockDeque.hpp:207-212. -/
def popBackStep (N : Nat) (v : Deq) : Option Deq :=
  if v.bsize > 0 then some { v with bsize := v.bsize - 1 }
  else
    (slotGet v.dataptr v.back).bind fun b =>
    (v.free.put b).map fun f => { v with free := f, back := v.back - 1, bsize := (blockSize N : Int) - 1 }

/-- StableBlockDeque.hpp:201-214. -/
def popBack (P : Pol) (N : Nat) (v : Deq) (h : Heap X) : Option (Deq × Heap X) :=
  if v.csize = 0 then some (v, h)
  else
    (popBackStep N { v with csize := v.csize - 1 }).bind fun v =>
    (destroyAt P N v.dataptr v.back v.bsize h).map fun h => (v, h)

/-- StableBlockDeque.hpp:244-249. -/
def popFrontStep (N : Nat) (v : Deq) : Option Deq :=
  if v.fsize ≠ (blockSize N : Int) - 1 then some { v with fsize := v.fsize + 1 }
  else
    (slotGet v.dataptr v.front).bind fun b =>
    (v.free.put b).map fun f => { v with free := f, front := v.front + 1, fsize := 0 }

/-- StableBlockDeque.hpp:238-251. -/
def popFront (P : Pol) (N : Nat) (v : Deq) (h : Heap X) : Option (Deq × Heap X) :=
  if v.csize = 0 then some (v, h)
  else
    (popFrontStep N { v with csize := v.csize - 1 }).bind fun v =>
    (destroyAt P N v.dataptr v.front v.fsize h).map fun h => (v, h)

/-- StableBlockDeque.hpp:387-397, the cell `operator[](n)` refers to. -/
def cell (N : Nat) (v : Deq) (n : Nat) : Option (Nat × Nat) :=
  (slotGet v.dataptr (v.front + (((v.fsize + n + 1).toNat >>> N : Nat) : Int))).map fun b =>
    (b, (v.fsize + n + 1).toNat &&& cntmask N)

/-- StableBlockDeque.hpp:387-397, reading through `operator[]`. -/
def get (N : Nat) (v : Deq) (h : Heap X) (n : Nat) : Option X :=
  (cell N v n).bind fun c => h.read (blockSize N) c.1 c.2

/-- `v[n] = x`. -/
def set (N : Nat) (v : Deq) (h : Heap X) (n : Nat) (x : X) : Option (Heap X) :=
  (cell N v n).bind fun c => h.assign (blockSize N) c.1 c.2 x

/-- StableBlockDeque.hpp:399-413 (outer `none`: undefined; inner `none`: throws). -/
def at? (N : Nat) (v : Deq) (h : Heap X) (n : Nat) : Option (Option X) :=
  if n ≥ v.csize then some none else (get N v h n).map some

/-- StableBlockDeque.hpp:363-373. -/
def backVal (N : Nat) (v : Deq) (h : Heap X) : Option X :=
  if v.bsize = 0 then readAt N v.dataptr (v.back - 1) ((blockSize N : Int) - 1) h
  else readAt N v.dataptr v.back (v.bsize - 1) h

/-- StableBlockDeque.hpp:375-385. -/
def frontVal (N : Nat) (v : Deq) (h : Heap X) : Option X :=
  if v.fsize = (blockSize N : Int) - 1 then readAt N v.dataptr (v.front + 1) 0 h
  else readAt N v.dataptr v.front (v.fsize + 1) h

/-- StableBlockDeque.hpp:415. -/
def size (v : Deq) : Nat := v.csize

/-- StableBlockDeque.hpp:417. -/
def empty (v : Deq) : Bool := v.csize == 0

/-- StableBlockDeque.hpp:432-442 and 457-468. -/
def end? (N : Nat) (v : Deq) : Option Iter :=
  if v.bsize = blockSize N then
    match v.dataptr with
    | some _ => Iter.make v.dataptr (.slot (v.back + 1)) 0
    | none => Iter.make v.dataptr .static 0
  else Iter.make v.dataptr (.slot v.back) v.bsize

/-- StableBlockDeque.hpp:419-430 and 444-455. -/
def begin? (N : Nat) (v : Deq) : Option Iter :=
  if v.csize = 0 then end? N v
  else if v.fsize = (blockSize N : Int) - 1 then Iter.make v.dataptr (.slot (v.front + 1)) 0
  else Iter.make v.dataptr (.slot v.front) (v.fsize + 1)

/-- What a loop from `begin()` to `end()` sees; it is given one round more than `size()`. -/
def iterate (N : Nat) (v : Deq) (h : Heap X) : Option (List X) :=
  (begin? N v).bind fun b =>
  (end? N v).bind fun e => Iter.collect (blockSize N) v.dataptr h e (v.csize + 1) b

/-- The same with a constant iterator and a non-constant end or conversely (BlockIterator.hpp:58-72), compared in either
order. -/
def iterateMixed (N : Nat) (junk swap : Bool) (v : Deq) (h : Heap X) : Option (List X) :=
  (begin? N v).bind fun b =>
  (end? N v).bind fun e => Iter.collectMixed (blockSize N) v.dataptr h junk swap e (v.csize + 1) b

/-- StableBlockDeque.hpp:261-265 and 294-298, for at most `fuel` rounds (`none` if not finished by then).  Result: heap,
`assignTo`, state of `copyFrom`. -/
def assignLoop (bs : Nat) (arr : SlotPtr) (e : Iter) (R : InRange X) :
    Nat → R.S → Iter → Heap X → Option (Heap X × Iter × R.S)
  | 0, s, it, h => if R.atEnd s = false ∧ it.ne e = true then none else some (h, it, s)
  | fuel + 1, s, it, h =>
    if R.atEnd s = false ∧ it.ne e = true then
      (R.fetch s h).bind fun r =>
      (InRange.put bs r.2 it r.1).bind fun h =>
      (it.incr bs arr).bind fun it =>
      (R.next s).bind fun s => assignLoop bs arr e R fuel s it h
    else some (h, it, s)

/-- StableBlockDeque.hpp:269-273 and 302-306, for at most `fuel` rounds (`none` if not finished by then). -/
def countTo (bs : Nat) (arr : SlotPtr) (e : Iter) : Nat → Iter → Option Nat
  | 0, it => if it.ne e then none else some 0
  | fuel + 1, it =>
    if it.ne e then (it.incr bs arr).bind fun it => (countTo bs arr e fuel it).map (· + 1) else some 0

/-- `n` calls of `pop_back` -/
def popN (P : Pol) (N : Nat) : Nat → Deq → Heap X → Option (Deq × Heap X)
  | 0, v, h => some (v, h)
  | n + 1, v, h => (popBack P N v h).bind fun r => popN P N n r.1 r.2

/-- StableBlockDeque.hpp:280-283 and 313-316, for at most `fuel` rounds. -/
def pushFrom (P : Pol) (N : Nat) (R : InRange X) : Nat → R.S → Deq → Heap X → Option (Deq × Heap X)
  | 0, s, v, h => if R.atEnd s = false then none else some (v, h)
  | fuel + 1, s, v, h =>
    if R.atEnd s = false then
      (R.fetch s h).bind fun r =>
      (pushBack P N v r.2 r.1).bind fun r =>
      (R.next s).bind fun s => pushFrom P N R fuel s r.1 r.2
    else some (v, h)

/-- StableBlockDeque.hpp:257-278 and 290-311: the part for a deque with elements. -/
def assignOver (P : Pol) (N : Nat) (R : InRange X) (fuel : Nat) (v : Deq) (h : Heap X) (s : R.S) :
    Option (Deq × Heap X × R.S) :=
  if v.csize ≠ 0 then
    (begin? N v).bind fun b =>
    (end? N v).bind fun e =>
    (assignLoop (blockSize N) v.dataptr e R fuel s b h).bind fun r =>
    if R.atEnd r.2.2 = true then
      (countTo (blockSize N) v.dataptr e (v.csize + 1) r.2.1).bind fun n =>
      (popN P N n v r.1).map fun q => (q.1, q.2, r.2.2)
    else some (v, r.1, r.2.2)
  else some (v, h, s)

/-- StableBlockDeque.hpp:253-284 (`assign`) and 286-317 (`move_assign`), which differ only in how the range is read. -/
def assignFrom (P : Pol) (N : Nat) (R : InRange X) (fuel : Nat) (v : Deq) (h : Heap X) (s : R.S) :
    Option (Deq × Heap X) :=
  (assignOver P N R fuel v h s).bind fun r => pushFrom P N R fuel r.2.2 r.1 r.2.1

/-- `assign(first, last)` or `move_assign(first, last)` for a range outside of the modelled containers, given by its
values. -/
def assign (P : Pol) (N : Nat) (v : Deq) (h : Heap X) (xs : List X) : Option (Deq × Heap X) :=
  assignFrom P N .list xs.length v h xs

/-- `assign(sbd.begin(), sbd.end())` -/
def assignAll (P : Pol) (N : Nat) (v sbd : Deq) (h : Heap X) : Option (Deq × Heap X) :=
  (begin? N sbd).bind fun b =>
  (end? N sbd).bind fun e =>
  assignFrom P N (.iter (blockSize N) sbd.dataptr e fun _ => none) (sbd.csize + 1) v h (0, b)

/-- `assign(sbd.begin() + lo, sbd.begin() + hi)`, or `move_assign` with the same arguments if `left` says what is left of
the elements moved from (`InRange.iter`). -/
def assignSub (P : Pol) (N : Nat) (v sbd : Deq) (h : Heap X) (lo hi : Nat) (left : Nat → Option X) :
    Option (Deq × Heap X) :=
  (begin? N sbd).bind fun b =>
  (b.add (blockSize N) sbd.dataptr lo).bind fun first =>
  (b.add (blockSize N) sbd.dataptr hi).bind fun last =>
  assignFrom P N (.iter (blockSize N) sbd.dataptr last left) (sbd.csize + 1) v h (0, first)

/-- Destructor calls on cells `hi-1, ..., hi-n` of `p[i]`. -/
def destroyDown (P : Pol) (N : Nat) (p : SlotPtr) (i : Int) : Int → Nat → Heap X → Option (Heap X)
  | _, 0, h => some h
  | hi, n + 1, h => (destroyAt P N p i (hi - 1) h).bind fun h => destroyDown P N p i (hi - 1) n h

/-- StableBlockDeque.hpp:329-335: the blocks `ii, ii-1, ...`, `n` of them. -/
def clearMid (P : Pol) (N : Nat) (p : SlotPtr) : Int → Nat → FreeL → Heap X → Option (FreeL × Heap X)
  | _, 0, f, h => some (f, h)
  | ii, n + 1, f, h =>
    (destroyDown P N p ii (blockSize N) (blockSize N) h).bind fun h =>
    (slotGet p ii).bind fun b => (f.put b).bind fun f => clearMid P N p (ii - 1) n f h

/-- StableBlockDeque.hpp:336-343. -/
def clearFront (P : Pol) (N : Nat) (v : Deq) (f : FreeL) (h : Heap X) : Option (FreeL × Heap X) :=
  if v.front < v.back then
    (slotGet v.dataptr v.back).bind fun b => (f.put b).bind fun f =>
    (destroyDown P N v.dataptr v.front (blockSize N) ((blockSize N : Int) - 1 - v.fsize).toNat h).map fun h => (f, h)
  else some (f, h)

/-- StableBlockDeque.hpp:319-351. -/
def clear (P : Pol) (N : Nat) (v : Deq) (h : Heap X) : Option (Deq × Heap X) :=
  if v.avail = 0 ∨ v.csize = 0 then some (v, h)
  else
    (destroyDown P N v.dataptr v.back v.bsize v.bsize.toNat h).bind fun h =>
    (clearMid P N v.dataptr (v.back - 1) (v.back - 1 - v.front).toNat v.free h).bind fun r =>
    (clearFront P N v r.1 r.2).bind fun r =>
    let nindex : Int := (v.avail / 2 : Nat)
    let fsize : Int := (blockSize N / 2 : Nat)
    (slotGet v.dataptr v.front).bind fun b =>
    (slotSet v.dataptr nindex b).map fun p =>
      (⟨0, p, v.avail, nindex, nindex, fsize + 1, fsize, r.1⟩, r.2)

/-- StableBlockDeque.hpp:353-360. -/
def shrinkToFit (N : Nat) (v : Deq) (h : Heap X) : Option (Deq × Heap X) :=
  (FreeL.freeFrom N v.free.blocks v.free.idx 0 h).map fun h => ({ v with free := { v.free with idx := 0 } }, h)

/-- `a.deallocate(p[i], blockSize)` -/
def deallocSlot (N : Nat) (p : SlotPtr) (i : Int) (h : Heap X) : Option (Heap X) :=
  (slotGet p i).bind fun b => h.dealloc (blockSize N) b

/-- StableBlockDeque.hpp:595-602: the blocks `ii, ii-1, ...`, `n` of them. -/
def freeMid (P : Pol) (N : Nat) (p : SlotPtr) : Int → Nat → Heap X → Option (Heap X)
  | _, 0, h => some h
  | ii, n + 1, h =>
    (destroyDown P N p ii (blockSize N) (blockSize N) h).bind fun h =>
    (deallocSlot N p ii h).bind fun h => freeMid P N p (ii - 1) n h

/-- StableBlockDeque.hpp:578-615.  Deleting the two arrays of pointers is modelled in Arrays.lean. -/
def freeAll (P : Pol) (N : Nat) (v : Deq) (h : Heap X) : Option (Heap X) :=
  match v.dataptr with
  | none => some h
  | some _ =>
    (if v.back = v.front then
      (destroyDown P N v.dataptr v.back v.bsize (v.bsize - 1 - v.fsize).toNat h).bind fun h =>
      deallocSlot N v.dataptr v.front h
    else
      (destroyDown P N v.dataptr v.back v.bsize v.bsize.toNat h).bind fun h =>
      (deallocSlot N v.dataptr v.back h).bind fun h =>
      (freeMid P N v.dataptr (v.back - 1) (v.back - 1 - v.front).toNat h).bind fun h =>
      (destroyDown P N v.dataptr v.front (blockSize N) ((blockSize N : Int) - 1 - v.fsize).toNat h).bind fun h =>
      deallocSlot N v.dataptr v.front h).bind fun h =>
    FreeL.freeFrom N v.free.blocks v.free.idx 0 h

/-- StableBlockDeque.hpp:113-132, copy constructor. -/
def copyCtor (P : Pol) (N : Nat) (sbd : Deq) (h : Heap X) : Option (Deq × Heap X) :=
  let avail := Nat.max sbd.avail 64
  let p : SlotPtr := some (List.replicate avail none)
  match sbd.dataptr with
  | some _ =>
    (slotSet p sbd.front h.alloc.1).bind fun p =>
    assignAll P N ⟨0, p, avail, sbd.front, sbd.front, sbd.fsize + 1, sbd.fsize, ⟨0, 0, none⟩⟩ sbd h.alloc.2
  | none =>
    (slotSet p 30 h.alloc.1).map fun p =>
      (⟨0, p, avail, 30, 30, (blockSize N / 2 : Nat), (blockSize N / 2 : Nat), ⟨0, 0, none⟩⟩, h.alloc.2)

/-- StableBlockDeque.hpp:141-146 and 168-173: what is left of a moved-from deque. -/
def husk (sbd : Deq) : Deq :=
  { sbd with free := { sbd.free with blocks := none, avail := 0 }, avail := 0, dataptr := none, fsize := -1,
             csize := 0 }

/-- StableBlockDeque.hpp:133-147, move constructor: (new object, moved-from object). -/
def moveCtor (sbd : Deq) : Deq × Deq := (sbd, sbd.husk)

/-- StableBlockDeque.hpp:149-153, copy assignment, also of an object to itself: `pop_back` and `emplace_back` are
only called when the range is used up in that case. -/
def copyAssign (P : Pol) (N : Nat) (v sbd : Deq) (h : Heap X) : Option (Deq × Heap X) := assignAll P N v sbd h

/-- StableBlockDeque.hpp:154-175, move assignment of a different object: (target, source, heap). -/
def moveAssign (P : Pol) (N : Nat) (v sbd : Deq) (h : Heap X) : Option (Deq × Deq × Heap X) :=
  (freeAll P N v h).map fun h => (sbd, sbd.husk, h)

end Deq
end Verif.Block.Deque
