import Verif.Block.Range

/-
Model of gmlc/containers/StableBlockVector.hpp.

`none` is undefined behaviour or a broken object lifecycle (see Verif.Block.Heap).
Not modelled here: exceptions thrown by element constructors or the allocator (Throw.lean, CtorThrow.lean); overflow of the `int`
members (IntMembers.lean).
-/
namespace Verif.Block.Vector
open Verif.Block

/-- StableBlockVector.hpp:425-433, the members.  `dataptr` and `freeblocks` are the arrays of
block pointers; `slotIdx` is `dataSlotIndex`, `avail` `dataSlotsAvailable`, `freeAvail`
`freeSlotsAvailable`, `freeIdx` `freeIndex`. -/
structure Vec where
  csize : Nat
  dataptr : SlotPtr
  avail : Nat
  slotIdx : Int
  bsize : Nat
  freeAvail : Nat
  freeIdx : Nat
  freeblocks : SlotPtr

variable {X : Type}

namespace Vec

/-- StableBlockVector.hpp:38. -/
def blockSize (N : Nat) : Nat := 1 <<< N

/-- StableBlockVector.hpp:44. -/
def cntmask (N : Nat) : Nat := blockSize N - 1

/-- StableBlockVector.hpp:48 with the initialisers of 425-433. -/
def default (N : Nat) : Vec := ⟨0, none, 0, 0, blockSize N, 0, 0, none⟩

/-- StableBlockVector.hpp:71 and 75: construct copies of `init` in cells `jj .. jj+n-1` of a
block, in increasing order. -/
def constructUp (N : Nat) (h : Heap X) (b : Nat) (init : X) : Nat → Nat → Option (Heap X)
  | _, 0 => some h
  | jj, n + 1 => (h.construct (blockSize N) b jj init).bind fun h => constructUp N h b init (jj + 1) n

/-- StableBlockVector.hpp:66-78, the loop over `ii` from `ii` for `n` more blocks; the last one
is filled up to `bsize`. -/
def fillBlocks (N : Nat) (init : X) (last bsize : Nat) : Nat → Nat → SlotPtr → Heap X →
    Option (SlotPtr × Heap X)
  | 0, _, arr, h => some (arr, h)
  | n + 1, ii, arr, h =>
    let ab := h.alloc
    (slotSet arr ii ab.1).bind fun arr =>
    (constructUp N ab.2 ab.1 init 0 (if ii < last then blockSize N else bsize)).bind fun h =>
    fillBlocks N init last bsize n (ii + 1) arr h

/-- StableBlockVector.hpp:51-80. -/
def ofSize (N : Nat) (h : Heap X) (startSize : Nat) (init : X) : Option (Vec × Heap X) :=
  let slots := Nat.max ((startSize >>> N) + 1) 64
  let idx := startSize >>> N
  let bsize := startSize &&& cntmask N
  let arr : SlotPtr := some (List.replicate slots none)
  if startSize = 0 then
    let ab := h.alloc
    (slotSet arr 0 ab.1).map fun arr => (⟨startSize, arr, slots, idx, bsize, 0, 0, none⟩, ab.2)
  else
    (fillBlocks N init idx bsize (idx + 1) 0 arr h).map fun r =>
      (⟨startSize, r.1, slots, idx, bsize, 0, 0, none⟩, r.2)

/-- StableBlockVector.hpp:416-423. -/
def getNewBlock (v : Vec) (h : Heap X) : Option (Nat × Vec × Heap X) :=
  if v.freeIdx = 0 then some (h.alloc.1, v, h.alloc.2)
  else (slotGet v.freeblocks ((v.freeIdx : Int) - 1)).map fun b => (b, { v with freeIdx := v.freeIdx - 1 }, h)

/-- StableBlockVector.hpp:381-392: make room in the slot array.  `std::copy` copies the
`dataSlotsAvailable` old entries; the other entries of the new array are indeterminate. -/
def growSlots (v : Vec) : Vec :=
  if v.avail = 0 then { v with dataptr := some (List.replicate 64 none), avail := 64, slotIdx := -1 }
  else if v.slotIdx ≥ (v.avail : Int) - 1 then
    { v with dataptr := v.dataptr.map (fun l => l.take v.avail ++ List.replicate v.avail none),
             avail := v.avail * 2 }
  else v

/-- StableBlockVector.hpp:378-396. -/
def blockCheck (N : Nat) (v : Vec) (h : Heap X) : Option (Vec × Heap X) :=
  if v.bsize ≥ blockSize N then
    (getNewBlock v.growSlots h).bind fun r =>
    (slotSet r.2.1.dataptr (r.2.1.slotIdx + 1) r.1).map fun arr =>
      ({ r.2.1 with dataptr := arr, slotIdx := r.2.1.slotIdx + 1, bsize := 0 }, r.2.2)
  else some (v, h)

/-- StableBlockVector.hpp:135-157 (`emplace_back` and both `push_back`s). -/
def pushBack (N : Nat) (v : Vec) (h : Heap X) (x : X) : Option (Vec × Heap X) :=
  (blockCheck N v h).bind fun r =>
  (slotGet r.1.dataptr r.1.slotIdx).bind fun b =>
  (r.2.construct (blockSize N) b r.1.bsize x).map fun h =>
    ({ r.1 with bsize := r.1.bsize + 1, csize := r.1.csize + 1 }, h)

/-- StableBlockVector.hpp:400-412: make room in the array of free blocks. -/
def growFree (v : Vec) : Vec :=
  if v.freeIdx ≥ v.freeAvail then
    if v.freeAvail = 0 then { v with freeblocks := some (List.replicate 64 none), freeAvail := 64 }
    else { v with freeblocks := v.freeblocks.map (fun l => l.take v.freeAvail ++ List.replicate v.freeAvail none),
                  freeAvail := v.freeAvail * 2 }
  else v

/-- StableBlockVector.hpp:398-414. -/
def moveBlocktoAvailable (v : Vec) (b : Nat) : Option Vec :=
  (slotSet v.growFree.freeblocks v.growFree.freeIdx b).map fun arr =>
    { v.growFree with freeblocks := arr, freeIdx := v.growFree.freeIdx + 1 }

/-- StableBlockVector.hpp:165-170. -/
def popStep (N : Nat) (v : Vec) : Option Vec :=
  if v.bsize > 0 then some { v with bsize := v.bsize - 1 }
  else
    (slotGet v.dataptr v.slotIdx).bind fun b =>
    (moveBlocktoAvailable { v with slotIdx := v.slotIdx - 1 } b).map fun v =>
      { v with bsize := blockSize N - 1 }

/-- StableBlockVector.hpp:159-172. -/
def popBack (N : Nat) (v : Vec) (h : Heap X) : Option (Vec × Heap X) :=
  if v.csize = 0 then some (v, h)
  else
    (popStep N { v with csize := v.csize - 1 }).bind fun v =>
    (slotGet v.dataptr v.slotIdx).bind fun b =>
    (h.destroy (blockSize N) b v.bsize).map fun h => (v, h)

/-- StableBlockVector.hpp:273-278, the cell `operator[](n)` refers to. -/
def cell (N : Nat) (v : Vec) (n : Nat) : Option (Nat × Nat) :=
  (slotGet v.dataptr (n >>> N : Nat)).map fun b => (b, n &&& cntmask N)

/-- StableBlockVector.hpp:273-278, reading through `operator[]`. -/
def get (N : Nat) (v : Vec) (h : Heap X) (n : Nat) : Option X :=
  (cell N v n).bind fun c => h.read (blockSize N) c.1 c.2

/-- `v[n] = x`. -/
def set (N : Nat) (v : Vec) (h : Heap X) (n : Nat) (x : X) : Option (Heap X) :=
  (cell N v n).bind fun c => h.assign (blockSize N) c.1 c.2 x

/-- StableBlockVector.hpp:280-294 (outer `none`: undefined; inner `none`: throws). -/
def at? (N : Nat) (v : Vec) (h : Heap X) (n : Nat) : Option (Option X) :=
  if n ≥ v.csize then some none else (get N v h n).map some

/-- StableBlockVector.hpp:257-267; the index `(csize >> N) - 1` is out of range for `csize < 2^N`
(unsigned wrap-around), which is undefined here. -/
def back (N : Nat) (v : Vec) (h : Heap X) : Option X :=
  if v.bsize = 0 then
    (slotGet v.dataptr (((v.csize >>> N : Nat) : Int) - 1)).bind fun b => h.read (blockSize N) b (blockSize N - 1)
  else (slotGet v.dataptr v.slotIdx).bind fun b => h.read (blockSize N) b (v.bsize - 1)

/-- StableBlockVector.hpp:269-271. -/
def front (N : Nat) (v : Vec) (h : Heap X) : Option X :=
  (slotGet v.dataptr 0).bind fun b => h.read (blockSize N) b 0

/-- StableBlockVector.hpp:295. -/
def size (v : Vec) : Nat := v.csize

/-- StableBlockVector.hpp:297. -/
def empty (v : Vec) : Bool := v.csize == 0

/-- StableBlockVector.hpp:179-182 and 200-203: assign over existing elements, for at most `fuel` rounds (`none` if not
finished by then).  Result: heap, index reached, state of `cur`. -/
def assignOver (N : Nat) (R : InRange X) (v : Vec) : Nat → Nat → R.S → Heap X → Option (Heap X × Nat × R.S)
  | 0, ii, s, h => if ii < v.csize ∧ R.atEnd s = false then none else some (h, ii, s)
  | fuel + 1, ii, s, h =>
    if ii < v.csize ∧ R.atEnd s = false then
      (R.fetch s h).bind fun r =>
      (set N v r.2 ii r.1).bind fun h =>
      (R.next s).bind fun s => assignOver N R v fuel (ii + 1) s h
    else some (h, ii, s)

/-- `n` calls of `pop_back` -/
def popN (N : Nat) : Nat → Vec → Heap X → Option (Vec × Heap X)
  | 0, v, h => some (v, h)
  | n + 1, v, h => (popBack N v h).bind fun r => popN N n r.1 r.2

/-- StableBlockVector.hpp:188-191 and 209-212, for at most `fuel` rounds. -/
def pushFrom (N : Nat) (R : InRange X) : Nat → R.S → Vec → Heap X → Option (Vec × Heap X)
  | 0, s, v, h => if R.atEnd s = false then none else some (v, h)
  | fuel + 1, s, v, h =>
    if R.atEnd s = false then
      (R.fetch s h).bind fun r =>
      (pushBack N v r.2 r.1).bind fun r =>
      (R.next s).bind fun s => pushFrom N R fuel s r.1 r.2
    else some (v, h)

/-- StableBlockVector.hpp:174-193 (`assign`) and 195-214 (`move_assign`), which differ only in how the range is read.
The loops 184-186 and 205-207 call `pop_back` until `csize = ii`; each call lowers `csize` by one (164). -/
def assignFrom (N : Nat) (R : InRange X) (fuel : Nat) (v : Vec) (h : Heap X) (s : R.S) : Option (Vec × Heap X) :=
  (assignOver N R v fuel 0 s h).bind fun r =>
  if R.atEnd r.2.2 = true then popN N (v.csize - r.2.1) v r.1 else pushFrom N R fuel r.2.2 v r.1

/-- `assign(first, last)` or `move_assign(first, last)` for a range outside of the modelled containers, given by its
values. -/
def assign (N : Nat) (v : Vec) (h : Heap X) (xs : List X) : Option (Vec × Heap X) :=
  assignFrom N .list xs.length v h xs

/-- Destructor calls on cells `n-1, ..., 0` of `dataptr[idx]` (e.g. 221-224). The block pointer is
read for each cell. -/
def destroyDown (N : Nat) (p : SlotPtr) (idx : Int) : Nat → Heap X → Option (Heap X)
  | 0, h => some h
  | n + 1, h =>
    (slotGet p idx).bind fun b =>
    (h.destroy (blockSize N) b n).bind fun h => destroyDown N p idx n h

/-- StableBlockVector.hpp:230-236: the middle blocks `n, n-1, ..., 1`. -/
def clearMid (N : Nat) : Nat → Vec → Heap X → Option (Vec × Heap X)
  | 0, v, h => some (v, h)
  | n + 1, v, h =>
    (destroyDown N v.dataptr ((n : Int) + 1) (blockSize N) h).bind fun h =>
    (slotGet v.dataptr ((n : Int) + 1)).bind fun b =>
    (moveBlocktoAvailable v b).bind fun v => clearMid N n v h

/-- StableBlockVector.hpp:216-246. -/
def clear (N : Nat) (v : Vec) (h : Heap X) : Option (Vec × Heap X) :=
  if v.avail = 0 then some (v, h)
  else
    (destroyDown N v.dataptr v.slotIdx v.bsize h).bind fun h =>
    if v.slotIdx > 0 then
      (slotGet v.dataptr v.slotIdx).bind fun b =>
      (moveBlocktoAvailable v b).bind fun v =>
      (clearMid N (v.slotIdx - 1).toNat v h).bind fun r =>
      (destroyDown N r.1.dataptr 0 (blockSize N) r.2).map fun h =>
        ({ r.1 with slotIdx := 0, csize := 0, bsize := 0 }, h)
    else some ({ v with csize := 0, bsize := 0 }, h)

/-- StableBlockVector.hpp:251-253 and 370-372: deallocate `freeblocks[ii]` for `n` entries from
`ii`. -/
def freeList (N : Nat) (p : SlotPtr) : Nat → Nat → Heap X → Option (Heap X)
  | 0, _, h => some h
  | n + 1, ii, h =>
    (slotGet p ii).bind fun b =>
    (h.dealloc (blockSize N) b).bind fun h => freeList N p n (ii + 1) h

/-- StableBlockVector.hpp:248-255. -/
def shrinkToFit (N : Nat) (v : Vec) (h : Heap X) : Option (Vec × Heap X) :=
  (freeList N v.freeblocks v.freeIdx 0 h).map fun h => ({ v with freeIdx := 0 }, h)

/-- StableBlockVector.hpp:359-365: blocks `n-1, ..., 0`. -/
def freeMid (N : Nat) (p : SlotPtr) : Nat → Heap X → Option (Heap X)
  | 0, h => some h
  | n + 1, h =>
    (destroyDown N p n (blockSize N) h).bind fun h =>
    (slotGet p n).bind fun b =>
    (h.dealloc (blockSize N) b).bind fun h => freeMid N p n h

/-- `a.deallocate(dataptr[idx], blockSize)` -/
def deallocSlot (N : Nat) (p : SlotPtr) (idx : Int) (h : Heap X) : Option (Heap X) :=
  (slotGet p idx).bind fun b => h.dealloc (blockSize N) b

/-- StableBlockVector.hpp:347-377.  Deleting the two arrays of pointers is modelled in Arrays.lean. -/
def freeAll (N : Nat) (v : Vec) (h : Heap X) : Option (Heap X) :=
  match v.dataptr with
  | none => some h
  | some _ =>
    (destroyDown N v.dataptr v.slotIdx v.bsize h).bind fun h =>
    (if v.slotIdx > 0 then deallocSlot N v.dataptr v.slotIdx h else some h).bind fun h =>
    (freeMid N v.dataptr v.slotIdx.toNat h).bind fun h =>
    (if v.slotIdx = 0 then deallocSlot N v.dataptr 0 h else some h).bind fun h =>
    freeList N v.freeblocks v.freeIdx 0 h

/-- StableBlockVector.hpp:308-318 and 329-340. -/
def end? (N : Nat) (v : Vec) : Option Iter :=
  if v.bsize = blockSize N then
    match v.dataptr with
    | some _ => Iter.make v.dataptr (.slot (v.slotIdx + 1)) 0
    | none => Iter.make v.dataptr .static 0
  else Iter.make v.dataptr (.slot v.slotIdx) v.bsize

/-- StableBlockVector.hpp:300-306 and 320-327. -/
def begin? (N : Nat) (v : Vec) : Option Iter :=
  if v.csize = 0 then end? N v else Iter.make v.dataptr (.slot 0) 0

/-- What a loop from `begin()` to `end()` sees; it is given one round more than `size()`. -/
def iterate (N : Nat) (v : Vec) (h : Heap X) : Option (List X) :=
  (begin? N v).bind fun b =>
  (end? N v).bind fun e => Iter.collect (blockSize N) v.dataptr h e (v.csize + 1) b

/-- The same with a constant iterator and a non-constant end or conversely (BlockIterator.hpp:58-72), compared in either
order. -/
def iterateMixed (N : Nat) (junk swap : Bool) (v : Vec) (h : Heap X) : Option (List X) :=
  (begin? N v).bind fun b =>
  (end? N v).bind fun e => Iter.collectMixed (blockSize N) v.dataptr h junk swap e (v.csize + 1) b

/-- `assign(sbv.begin(), sbv.end())` -/
def assignAll (N : Nat) (v sbv : Vec) (h : Heap X) : Option (Vec × Heap X) :=
  (begin? N sbv).bind fun b =>
  (end? N sbv).bind fun e =>
  assignFrom N (.iter (blockSize N) sbv.dataptr e fun _ => none) (sbv.csize + 1) v h (0, b)

/-- `assign(sbv.begin() + lo, sbv.begin() + hi)`, or `move_assign` with the same arguments if `left` says what is left of
the elements moved from (`InRange.iter`). -/
def assignSub (N : Nat) (v sbv : Vec) (h : Heap X) (lo hi : Nat) (left : Nat → Option X) : Option (Vec × Heap X) :=
  (begin? N sbv).bind fun b =>
  (b.add (blockSize N) sbv.dataptr lo).bind fun first =>
  (b.add (blockSize N) sbv.dataptr hi).bind fun last =>
  assignFrom N (.iter (blockSize N) sbv.dataptr last left) (sbv.csize + 1) v h (0, first)

/-- StableBlockVector.hpp:82-90, copy constructor. -/
def copyCtor (N : Nat) (sbv : Vec) (h : Heap X) : Option (Vec × Heap X) :=
  match sbv.dataptr with
  | none => some (default N, h)
  | some _ =>
    assignAll N { default N with dataptr := some (List.replicate sbv.avail none), avail := sbv.avail,
                                 slotIdx := -1 } sbv h

/-- StableBlockVector.hpp:92-106, move constructor: (new object, moved-from object). -/
def moveCtor (sbv : Vec) : Vec × Vec :=
  (sbv, ⟨0, none, 0, -1, 0, 0, sbv.freeIdx, none⟩)

/-- StableBlockVector.hpp:108-112, copy assignment, also of an object to itself: `push_back` and `pop_back` do not
change the slot array before the range is used up in that case. -/
def copyAssign (N : Nat) (v sbv : Vec) (h : Heap X) : Option (Vec × Heap X) := assignAll N v sbv h

/-- StableBlockVector.hpp:113-131, move assignment of a different object: (target, source).
`csize`, `dataSlotIndex`, `bsize`, `freeIndex` of the source keep their values. -/
def moveAssign (N : Nat) (v sbv : Vec) (h : Heap X) : Option (Vec × Vec × Heap X) :=
  (freeAll N v h).map fun h =>
    (sbv, { sbv with freeblocks := none, freeAvail := 0, avail := 0, dataptr := none }, h)

end Vec
end Verif.Block.Vector
