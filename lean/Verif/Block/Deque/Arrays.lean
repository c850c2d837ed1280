import Verif.Block.Arrays
import Verif.Block.Deque.Spec

/-
Model of gmlc/containers/StableBlockDeque.hpp with the two arrays of block pointers as objects that are created by
`new X*[n]` and deleted by `delete[]`.  The contents of the arrays and everything else is as in Model.lean; each
function here does what the function of the same name there does and keeps account of the arrays besides.
-/
namespace Verif.Block.Deque
open Verif.Block

/-- StableBlockDeque.hpp:617-627: the members, with the arrays `dataptr` (`d`) and `freeblocks` (`f`) point to;
`none` is the null pointer. -/
structure ADeq where
  v : Deq
  d : Option Nat
  f : Option Nat

/-- StableBlockDeque.hpp:625-627: the list of free blocks and the array it is in. -/
structure AFree where
  l : FreeL
  f : Option Nat

variable {X : Type}

namespace AFree

/-- StableBlockDeque.hpp:553-565. -/
def grow (q : AFree) (L : Ledger) : Option (AFree × Ledger) :=
  if q.l.idx ≥ q.l.avail then
    if q.l.avail = 0 then some (⟨q.l.grow, some L.alloc.1⟩, L.alloc.2)  -- 555
    else (L.alloc.2.delete q.f).map fun L' => (⟨q.l.grow, some L.alloc.1⟩, L')  -- 558-562
  else some (q, L)

/-- StableBlockDeque.hpp:551-567 (moveBlocktoAvailable). -/
def put (q : AFree) (L : Ledger) (b : Nat) : Option (AFree × Ledger) :=
  (q.grow L).bind fun g =>
  (slotSet g.1.l.blocks g.1.l.idx b).map fun p => (⟨{ g.1.l with blocks := p, idx := g.1.l.idx + 1 }, g.1.f⟩, g.2)

end AFree

namespace ADeq

/-- the arrays an object has pointers to -/
def owned (a : ADeq) : List Nat := a.d.toList ++ a.f.toList

/-- StableBlockDeque.hpp:48. -/
def default (N : Nat) : ADeq := ⟨.default N, none, none⟩

/-- StableBlockDeque.hpp:51-111; the array is made at 53. -/
def ofSize (N : Nat) (h : Heap X) (L : Ledger) (startSize : Nat) (init : X) : Option (ADeq × Heap X × Ledger) :=
  (Deq.ofSize N h startSize init).map fun r => (⟨r.1, some L.alloc.1, none⟩, r.2, L.alloc.2)

/-- StableBlockDeque.hpp:478-486 and 513-521: the array is made first. -/
def firstBlock (N : Nat) (a : ADeq) (h : Heap X) (L : Ledger) : Option (ADeq × Heap X × Ledger) :=
  (Deq.firstBlock N a.v h).map fun r => (⟨r.1, some L.alloc.1, a.f⟩, r.2, L.alloc.2)

/-- StableBlockDeque.hpp:487-504: a new array if there is no room before the front either. -/
def roomBack (P : Pol) (a : ADeq) (L : Ledger) : Option (ADeq × Ledger) :=
  (Deq.roomBack P a.v).bind fun v =>
  if a.v.back ≥ (a.v.avail : Int) - 1 then
    if a.v.front > 5 then some (⟨v, a.d, a.f⟩, L)
    else (L.alloc.2.delete a.d).map fun L' => (⟨v, some L.alloc.1, a.f⟩, L')  -- 498-502
  else some (⟨v, a.d, a.f⟩, L)

/-- StableBlockDeque.hpp:475-508. -/
def blockCheck (P : Pol) (N : Nat) (a : ADeq) (h : Heap X) (L : Ledger) : Option (ADeq × Heap X × Ledger) :=
  if a.v.bsize ≥ blockSize N then
    if a.v.avail = 0 then firstBlock N a h L
    else
      (roomBack P a L).bind fun g =>
      (g.1.v.free.get h).bind fun r =>
      (slotSet g.1.v.dataptr (g.1.v.back + 1) r.1).map fun p =>
        (⟨{ g.1.v with dataptr := p, back := g.1.v.back + 1, bsize := 0, free := r.2.1 }, g.1.d, g.1.f⟩, r.2.2, g.2)
  else some (a, h, L)

/-- StableBlockDeque.hpp:522-545: a new array if there is no room after the back either. -/
def roomFront (P : Pol) (a : ADeq) (L : Ledger) : Option (ADeq × Ledger) :=
  (Deq.roomFront P a.v).bind fun v =>
  if a.v.front = 0 then
    if a.v.back < (a.v.avail : Int) - 5 then some (⟨v, a.d, a.f⟩, L)
    else (L.alloc.2.delete a.d).map fun L' => (⟨v, some L.alloc.1, a.f⟩, L')  -- 533-540
  else some (⟨v, a.d, a.f⟩, L)

/-- StableBlockDeque.hpp:510-549. -/
def blockCheckFront (P : Pol) (N : Nat) (a : ADeq) (h : Heap X) (L : Ledger) : Option (ADeq × Heap X × Ledger) :=
  if a.v.fsize < 0 then
    if a.v.avail = 0 then firstBlock N a h L
    else
      (roomFront P a L).bind fun g =>
      (g.1.v.free.get h).bind fun r =>
      (slotSet g.1.v.dataptr (g.1.v.front - 1) r.1).map fun p =>
        (⟨{ g.1.v with dataptr := p, front := g.1.v.front - 1, fsize := (blockSize N : Int) - 1, free := r.2.1 },
          g.1.d, g.1.f⟩, r.2.2, g.2)
  else some (a, h, L)

/-- StableBlockDeque.hpp:179-199. -/
def pushBack (P : Pol) (N : Nat) (a : ADeq) (h : Heap X) (L : Ledger) (x : X) : Option (ADeq × Heap X × Ledger) :=
  (blockCheck P N a h L).bind fun r =>
  (constructAt N r.1.v.dataptr r.1.v.back r.1.v.bsize r.2.1 x).map fun h =>
    (⟨{ r.1.v with bsize := r.1.v.bsize + 1, csize := r.1.v.csize + 1 }, r.1.d, r.1.f⟩, h, r.2.2)

/-- StableBlockDeque.hpp:216-236. -/
def pushFront (P : Pol) (N : Nat) (a : ADeq) (h : Heap X) (L : Ledger) (x : X) : Option (ADeq × Heap X × Ledger) :=
  (blockCheckFront P N a h L).bind fun r =>
  (constructAt N r.1.v.dataptr r.1.v.front r.1.v.fsize r.2.1 x).map fun h =>
    (⟨{ r.1.v with fsize := r.1.v.fsize - 1, csize := r.1.v.csize + 1 }, r.1.d, r.1.f⟩, h, r.2.2)

/-- StableBlockDeque.hpp:207-212. -/
def popBackStep (N : Nat) (a : ADeq) (L : Ledger) : Option (ADeq × Ledger) :=
  if a.v.bsize > 0 then some (⟨{ a.v with bsize := a.v.bsize - 1 }, a.d, a.f⟩, L)
  else
    (slotGet a.v.dataptr a.v.back).bind fun b =>
    (AFree.put ⟨a.v.free, a.f⟩ L b).map fun q =>
      (⟨{ a.v with free := q.1.l, back := a.v.back - 1, bsize := (blockSize N : Int) - 1 }, a.d, q.1.f⟩, q.2)

/-- StableBlockDeque.hpp:201-214. -/
def popBack (P : Pol) (N : Nat) (a : ADeq) (h : Heap X) (L : Ledger) : Option (ADeq × Heap X × Ledger) :=
  if a.v.csize = 0 then some (a, h, L)
  else
    (popBackStep N ⟨{ a.v with csize := a.v.csize - 1 }, a.d, a.f⟩ L).bind fun r =>
    (destroyAt P N r.1.v.dataptr r.1.v.back r.1.v.bsize h).map fun h => (r.1, h, r.2)

/-- StableBlockDeque.hpp:244-249. -/
def popFrontStep (N : Nat) (a : ADeq) (L : Ledger) : Option (ADeq × Ledger) :=
  if a.v.fsize ≠ (blockSize N : Int) - 1 then some (⟨{ a.v with fsize := a.v.fsize + 1 }, a.d, a.f⟩, L)
  else
    (slotGet a.v.dataptr a.v.front).bind fun b =>
    (AFree.put ⟨a.v.free, a.f⟩ L b).map fun q =>
      (⟨{ a.v with free := q.1.l, front := a.v.front + 1, fsize := 0 }, a.d, q.1.f⟩, q.2)

/-- StableBlockDeque.hpp:238-251. -/
def popFront (P : Pol) (N : Nat) (a : ADeq) (h : Heap X) (L : Ledger) : Option (ADeq × Heap X × Ledger) :=
  if a.v.csize = 0 then some (a, h, L)
  else
    (popFrontStep N ⟨{ a.v with csize := a.v.csize - 1 }, a.d, a.f⟩ L).bind fun r =>
    (destroyAt P N r.1.v.dataptr r.1.v.front r.1.v.fsize h).map fun h => (r.1, h, r.2)

/-- `n` calls of `pop_back` -/
def popN (P : Pol) (N : Nat) : Nat → ADeq → Heap X → Ledger → Option (ADeq × Heap X × Ledger)
  | 0, a, h, L => some (a, h, L)
  | n + 1, a, h, L => (popBack P N a h L).bind fun r => popN P N n r.1 r.2.1 r.2.2

/-- StableBlockDeque.hpp:280-283 and 313-316, for at most `fuel` rounds. -/
def pushFrom (P : Pol) (N : Nat) (R : InRange X) :
    Nat → R.S → ADeq → Heap X → Ledger → Option (ADeq × Heap X × Ledger)
  | 0, s, a, h, L => if R.atEnd s = false then none else some (a, h, L)
  | fuel + 1, s, a, h, L =>
    if R.atEnd s = false then
      (R.fetch s h).bind fun q =>
      (pushBack P N a q.2 L q.1).bind fun r =>
      (R.next s).bind fun s => pushFrom P N R fuel s r.1 r.2.1 r.2.2
    else some (a, h, L)

/-- StableBlockDeque.hpp:253-284 (`assign`) and 286-317 (`move_assign`). -/
def assignFrom (P : Pol) (N : Nat) (R : InRange X) (fuel : Nat) (a : ADeq) (h : Heap X) (L : Ledger) (s : R.S) :
    Option (ADeq × Heap X × Ledger) :=
  if a.v.csize ≠ 0 then
    (Deq.begin? N a.v).bind fun b =>
    (Deq.end? N a.v).bind fun e =>
    (Deq.assignLoop (blockSize N) a.v.dataptr e R fuel s b h).bind fun r =>
    if R.atEnd r.2.2 = true then
      (Deq.countTo (blockSize N) a.v.dataptr e (a.v.csize + 1) r.2.1).bind fun n =>
      (popN P N n a r.1 L).bind fun q => pushFrom P N R fuel r.2.2 q.1 q.2.1 q.2.2
    else pushFrom P N R fuel r.2.2 a r.1 L
  else pushFrom P N R fuel s a h L

/-- `assign(first, last)` for a range outside of the modelled containers -/
def assign (P : Pol) (N : Nat) (a : ADeq) (h : Heap X) (L : Ledger) (xs : List X) : Option (ADeq × Heap X × Ledger) :=
  assignFrom P N .list xs.length a h L xs

/-- `assign(sbd.begin(), sbd.end())` -/
def assignAll (P : Pol) (N : Nat) (a : ADeq) (sbd : Deq) (h : Heap X) (L : Ledger) :
    Option (ADeq × Heap X × Ledger) :=
  (Deq.begin? N sbd).bind fun b =>
  (Deq.end? N sbd).bind fun e =>
  assignFrom P N (.iter (blockSize N) sbd.dataptr e fun _ => none) (sbd.csize + 1) a h L (0, b)

/-- `assign(sbd.begin() + lo, sbd.begin() + hi)`, or `move_assign` -/
def assignSub (P : Pol) (N : Nat) (a : ADeq) (sbd : Deq) (h : Heap X) (L : Ledger) (lo hi : Nat)
    (left : Nat → Option X) : Option (ADeq × Heap X × Ledger) :=
  (Deq.begin? N sbd).bind fun b =>
  (b.add (blockSize N) sbd.dataptr lo).bind fun first =>
  (b.add (blockSize N) sbd.dataptr hi).bind fun last =>
  assignFrom P N (.iter (blockSize N) sbd.dataptr last left) (sbd.csize + 1) a h L (0, first)

/-- StableBlockDeque.hpp:329-335. -/
def clearMid (P : Pol) (N : Nat) (p : SlotPtr) :
    Int → Nat → AFree → Heap X → Ledger → Option (AFree × Heap X × Ledger)
  | _, 0, q, h, L => some (q, h, L)
  | ii, n + 1, q, h, L =>
    (Deq.destroyDown P N p ii (blockSize N) (blockSize N) h).bind fun h =>
    (slotGet p ii).bind fun b => (q.put L b).bind fun r => clearMid P N p (ii - 1) n r.1 h r.2

/-- StableBlockDeque.hpp:336-343. -/
def clearFront (P : Pol) (N : Nat) (v : Deq) (q : AFree) (h : Heap X) (L : Ledger) :
    Option (AFree × Heap X × Ledger) :=
  if v.front < v.back then
    (slotGet v.dataptr v.back).bind fun b => (q.put L b).bind fun r =>
    (Deq.destroyDown P N v.dataptr v.front (blockSize N) ((blockSize N : Int) - 1 - v.fsize).toNat h).map fun h =>
      (r.1, h, r.2)
  else some (q, h, L)

/-- StableBlockDeque.hpp:319-351. -/
def clear (P : Pol) (N : Nat) (a : ADeq) (h : Heap X) (L : Ledger) : Option (ADeq × Heap X × Ledger) :=
  if a.v.avail = 0 ∨ a.v.csize = 0 then some (a, h, L)
  else
    (Deq.destroyDown P N a.v.dataptr a.v.back a.v.bsize a.v.bsize.toNat h).bind fun h =>
    (clearMid P N a.v.dataptr (a.v.back - 1) (a.v.back - 1 - a.v.front).toNat ⟨a.v.free, a.f⟩ h L).bind fun r =>
    (clearFront P N a.v r.1 r.2.1 r.2.2).bind fun r =>
    let nindex : Int := (a.v.avail / 2 : Nat)
    let fsize : Int := (blockSize N / 2 : Nat)
    (slotGet a.v.dataptr a.v.front).bind fun b =>
    (slotSet a.v.dataptr nindex b).map fun p =>
      (⟨⟨0, p, a.v.avail, nindex, nindex, fsize + 1, fsize, r.1.l⟩, a.d, r.1.f⟩, r.2.1, r.2.2)

/-- StableBlockDeque.hpp:353-360. -/
def shrinkToFit (N : Nat) (a : ADeq) (h : Heap X) (L : Ledger) : Option (ADeq × Heap X × Ledger) :=
  (FreeL.freeFrom N a.v.free.blocks a.v.free.idx 0 h).map fun h =>
    (⟨{ a.v with free := { a.v.free with idx := 0 } }, a.d, a.f⟩, h, L)

/-- StableBlockDeque.hpp:578-615: both arrays are deleted at the end, if `dataptr` is not null. -/
def freeAll (P : Pol) (N : Nat) (a : ADeq) (h : Heap X) (L : Ledger) : Option (Heap X × Ledger) :=
  match a.v.dataptr with
  | none => some (h, L)
  | some _ =>
    (Deq.freeAll P N a.v h).bind fun h =>
    (L.delete a.f).bind fun L =>  -- 612
    (L.delete a.d).map fun L => (h, L)  -- 613

/-- StableBlockDeque.hpp:113-132, copy constructor; the array is made at 114, in any case. -/
def copyCtor (P : Pol) (N : Nat) (sbd : Deq) (h : Heap X) (L : Ledger) : Option (ADeq × Heap X × Ledger) :=
  let avail := Nat.max sbd.avail 64
  let p : SlotPtr := some (List.replicate avail none)
  match sbd.dataptr with
  | some _ =>
    (slotSet p sbd.front h.alloc.1).bind fun p =>
    assignAll P N ⟨⟨0, p, avail, sbd.front, sbd.front, sbd.fsize + 1, sbd.fsize, ⟨0, 0, none⟩⟩, some L.alloc.1, none⟩
      sbd h.alloc.2 L.alloc.2
  | none =>
    (slotSet p 30 h.alloc.1).map fun p =>
      (⟨⟨0, p, avail, 30, 30, (blockSize N / 2 : Nat), (blockSize N / 2 : Nat), ⟨0, 0, none⟩⟩, some L.alloc.1, none⟩,
        h.alloc.2, L.alloc.2)

/-- StableBlockDeque.hpp:133-147, move constructor: (new object, moved-from object). -/
def moveCtor (b : ADeq) : ADeq × ADeq := (⟨b.v.moveCtor.1, b.d, b.f⟩, ⟨b.v.moveCtor.2, none, none⟩)

/-- StableBlockDeque.hpp:154-175, move assignment: (target, source, heap, arrays). -/
def moveAssign (P : Pol) (N : Nat) (a b : ADeq) (h : Heap X) (L : Ledger) : Option (ADeq × ADeq × Heap X × Ledger) :=
  (freeAll P N a h L).map fun r => (b, ⟨b.v.husk, none, none⟩, r.1, r.2)

end ADeq

/-! ### Programs -/

/-- Objects, the heap of element blocks and the arrays of block pointers. -/
structure TWorld (X : Type) where
  objs : Nat → Option ADeq
  heap : Heap X
  arrays : Ledger

def TWorld.empty : TWorld X := ⟨fun _ => none, Heap.empty, .empty⟩

/-- the same without the arrays -/
def TWorld.erase (w : TWorld X) : World X := ⟨fun i => (w.objs i).map (·.v), w.heap⟩

/-- Run a function on object `i`. -/
def TWorld.on (w : TWorld X) (i : Nat) (f : ADeq → Option (ADeq × Heap X × Ledger)) : Option (TWorld X × Obs X) :=
  (w.objs i).bind fun a => (f a).map fun r => (⟨upd w.objs i (some r.1), r.2.1, r.2.2⟩, .done)

/-- One call; `none` is undefined behaviour, among it `delete[]` of an array that does not exist (any more), or the
declaration of an object whose name is in use. -/
def execT (P : Pol) (N : Nat) (w : TWorld X) : Op X → Option (TWorld X × Obs X)
  | .new i => if (w.objs i).isNone then some (⟨upd w.objs i (some (.default N)), w.heap, w.arrays⟩, .done) else none
  | .newSize i n x => if (w.objs i).isNone then
      (ADeq.ofSize N w.heap w.arrays n x).map fun r => (⟨upd w.objs i (some r.1), r.2.1, r.2.2⟩, .done) else none
  | .copyNew i j => if (w.objs i).isNone then
      (w.objs j).bind fun b => (ADeq.copyCtor P N b.v w.heap w.arrays).map fun r =>
        (⟨upd w.objs i (some r.1), r.2.1, r.2.2⟩, .done) else none
  | .moveNew i j => if (w.objs i).isNone then
      (w.objs j).map fun b =>
        (⟨upd (upd w.objs i (some b.moveCtor.1)) j (some b.moveCtor.2), w.heap, w.arrays⟩, .done) else none
  | .copyAssign i j => w.on i fun a => (w.objs j).bind fun b => ADeq.assignAll P N a b.v w.heap w.arrays
  | .moveAssign i j => (w.objs i).bind fun a => (w.objs j).bind fun b =>
      (ADeq.moveAssign P N a b w.heap w.arrays).map fun r =>
        (⟨upd (upd w.objs i (some r.1)) j (some r.2.1), r.2.2.1, r.2.2.2⟩, .done)
  | .destroy i => (w.objs i).bind fun a => (ADeq.freeAll P N a w.heap w.arrays).map fun r =>
      (⟨upd w.objs i none, r.1, r.2⟩, .done)
  | .push i x => w.on i fun a => ADeq.pushBack P N a w.heap w.arrays x
  | .pushFront i x => w.on i fun a => ADeq.pushFront P N a w.heap w.arrays x
  | .pop i => w.on i fun a => ADeq.popBack P N a w.heap w.arrays
  | .popFront i => w.on i fun a => ADeq.popFront P N a w.heap w.arrays
  | .assign i xs => w.on i fun a => ADeq.assign P N a w.heap w.arrays xs
  | .assignRange i j lo hi => w.on i fun a => (w.objs j).bind fun b =>
      ADeq.assignSub P N a b.v w.heap w.arrays lo hi fun _ => none
  | .moveRange i j lo hi left => w.on i fun a => (w.objs j).bind fun b =>
      ADeq.assignSub P N a b.v w.heap w.arrays lo hi fun k => left[k]?
  | .clear i => w.on i fun a => ADeq.clear P N a w.heap w.arrays
  | .shrink i => w.on i fun a => ADeq.shrinkToFit N a w.heap w.arrays
  -- the other calls have nothing to do with the arrays and change no members
  | .set i k x => (exec P N w.erase (.set i k x)).map fun r => ({ w with heap := r.1.heap }, r.2)
  | .size i => (exec P N w.erase (.size i)).map fun r => (w, r.2)
  | .empty i => (exec P N w.erase (.empty i)).map fun r => (w, r.2)
  | .get i k => (exec P N w.erase (.get i k)).map fun r => (w, r.2)
  | .at i k => (exec P N w.erase (.at i k)).map fun r => (w, r.2)
  | .front i => (exec P N w.erase (.front i)).map fun r => (w, r.2)
  | .back i => (exec P N w.erase (.back i)).map fun r => (w, r.2)
  | .iterate i => (exec P N w.erase (.iterate i)).map fun r => (w, r.2)

/-- A program. -/
def runT (P : Pol) (N : Nat) : TWorld X → List (Op X) → Option (TWorld X × List (Obs X))
  | w, [] => some (w, [])
  | w, op :: ops => (execT P N w op).bind fun r => (runT P N r.1 ops).map fun s => (s.1, r.2 :: s.2)

/-- the object a call declares -/
def Op.declares : Op X → Option Nat
  | .new i | .newSize i _ _ | .copyNew i _ | .moveNew i _ => some i
  | _ => none

/-- No call of the program declares an object whose name is in use; `used` are the names in use at the start. -/
def namesOk : (Nat → Bool) → List (Op X) → Bool
  | _, [] => true
  | used, op :: ops =>
    match op.declares with
    | some i => !used i && namesOk (fun k => k == i || used k) ops
    | none => match op with
      | .destroy i => namesOk (fun k => k != i && used k) ops
      | _ => namesOk used ops

end Verif.Block.Deque
