import Verif.Block.Arrays
import Verif.Block.Vector.Spec

/-
Model of gmlc/containers/StableBlockVector.hpp with the two arrays of block pointers as objects that are created by
`new X*[n]` and deleted by `delete[]`.  The contents of the arrays and everything else is as in Model.lean; each
function here does what the function of the same name there does and keeps account of the arrays besides.
-/
namespace Verif.Block.Vector
open Verif.Block

/-- StableBlockVector.hpp:425-433: the members, with the arrays `dataptr` (`d`) and `freeblocks` (`f`) point to;
`none` is the null pointer. -/
structure AVec where
  v : Vec
  d : Option Nat
  f : Option Nat

namespace AVec
variable {X : Type}

/-- the arrays an object has pointers to -/
def owned (a : AVec) : List Nat := a.d.toList ++ a.f.toList

/-- StableBlockVector.hpp:48. -/
def default (N : Nat) : AVec := ⟨.default N, none, none⟩

/-- StableBlockVector.hpp:51-80; the array is made at 56. -/
def ofSize (N : Nat) (h : Heap X) (L : Ledger) (startSize : Nat) (init : X) : Option (AVec × Heap X × Ledger) :=
  (Vec.ofSize N h startSize init).map fun r => (⟨r.1, some L.alloc.1, none⟩, r.2, L.alloc.2)

/-- StableBlockVector.hpp:381-392. -/
def growSlots (a : AVec) (L : Ledger) : Option (AVec × Ledger) :=
  if a.v.avail = 0 then some (⟨a.v.growSlots, some L.alloc.1, a.f⟩, L.alloc.2)  -- 382
  else if a.v.slotIdx ≥ (a.v.avail : Int) - 1 then
    -- 386-390: the new array is made, then the old one deleted
    (L.alloc.2.delete a.d).map fun L' => (⟨a.v.growSlots, some L.alloc.1, a.f⟩, L')
  else some (a, L)

/-- StableBlockVector.hpp:378-396. -/
def blockCheck (N : Nat) (a : AVec) (h : Heap X) (L : Ledger) : Option (AVec × Heap X × Ledger) :=
  if a.v.bsize ≥ Vec.blockSize N then
    (a.growSlots L).bind fun g =>
    (Vec.getNewBlock g.1.v h).bind fun r =>
    (slotSet r.2.1.dataptr (r.2.1.slotIdx + 1) r.1).map fun arr =>
      (⟨{ r.2.1 with dataptr := arr, slotIdx := r.2.1.slotIdx + 1, bsize := 0 }, g.1.d, g.1.f⟩, r.2.2, g.2)
  else some (a, h, L)

/-- StableBlockVector.hpp:135-157. -/
def pushBack (N : Nat) (a : AVec) (h : Heap X) (L : Ledger) (x : X) : Option (AVec × Heap X × Ledger) :=
  (blockCheck N a h L).bind fun r =>
  (slotGet r.1.v.dataptr r.1.v.slotIdx).bind fun b =>
  (r.2.1.construct (Vec.blockSize N) b r.1.v.bsize x).map fun h =>
    (⟨{ r.1.v with bsize := r.1.v.bsize + 1, csize := r.1.v.csize + 1 }, r.1.d, r.1.f⟩, h, r.2.2)

/-- StableBlockVector.hpp:400-412. -/
def growFree (a : AVec) (L : Ledger) : Option (AVec × Ledger) :=
  if a.v.freeIdx ≥ a.v.freeAvail then
    if a.v.freeAvail = 0 then some (⟨a.v.growFree, a.d, some L.alloc.1⟩, L.alloc.2)  -- 402
    else (L.alloc.2.delete a.f).map fun L' => (⟨a.v.growFree, a.d, some L.alloc.1⟩, L')  -- 405-409
  else some (a, L)

/-- StableBlockVector.hpp:398-414. -/
def moveBlocktoAvailable (a : AVec) (L : Ledger) (b : Nat) : Option (AVec × Ledger) :=
  (a.growFree L).bind fun g =>
  (slotSet g.1.v.freeblocks g.1.v.freeIdx b).map fun arr =>
    (⟨{ g.1.v with freeblocks := arr, freeIdx := g.1.v.freeIdx + 1 }, g.1.d, g.1.f⟩, g.2)

/-- StableBlockVector.hpp:165-170. -/
def popStep (N : Nat) (a : AVec) (L : Ledger) : Option (AVec × Ledger) :=
  if a.v.bsize > 0 then some (⟨{ a.v with bsize := a.v.bsize - 1 }, a.d, a.f⟩, L)
  else
    (slotGet a.v.dataptr a.v.slotIdx).bind fun b =>
    (moveBlocktoAvailable ⟨{ a.v with slotIdx := a.v.slotIdx - 1 }, a.d, a.f⟩ L b).map fun r =>
      (⟨{ r.1.v with bsize := Vec.blockSize N - 1 }, r.1.d, r.1.f⟩, r.2)

/-- StableBlockVector.hpp:159-172. -/
def popBack (N : Nat) (a : AVec) (h : Heap X) (L : Ledger) : Option (AVec × Heap X × Ledger) :=
  if a.v.csize = 0 then some (a, h, L)
  else
    (popStep N ⟨{ a.v with csize := a.v.csize - 1 }, a.d, a.f⟩ L).bind fun r =>
    (slotGet r.1.v.dataptr r.1.v.slotIdx).bind fun b =>
    (h.destroy (Vec.blockSize N) b r.1.v.bsize).map fun h => (r.1, h, r.2)

/-- `n` calls of `pop_back` -/
def popN (N : Nat) : Nat → AVec → Heap X → Ledger → Option (AVec × Heap X × Ledger)
  | 0, a, h, L => some (a, h, L)
  | n + 1, a, h, L => (popBack N a h L).bind fun r => popN N n r.1 r.2.1 r.2.2

/-- StableBlockVector.hpp:188-191 and 209-212, for at most `fuel` rounds. -/
def pushFrom (N : Nat) (R : InRange X) : Nat → R.S → AVec → Heap X → Ledger → Option (AVec × Heap X × Ledger)
  | 0, s, a, h, L => if R.atEnd s = false then none else some (a, h, L)
  | fuel + 1, s, a, h, L =>
    if R.atEnd s = false then
      (R.fetch s h).bind fun q =>
      (pushBack N a q.2 L q.1).bind fun r =>
      (R.next s).bind fun s => pushFrom N R fuel s r.1 r.2.1 r.2.2
    else some (a, h, L)

/-- StableBlockVector.hpp:174-193 (`assign`) and 195-214 (`move_assign`). -/
def assignFrom (N : Nat) (R : InRange X) (fuel : Nat) (a : AVec) (h : Heap X) (L : Ledger) (s : R.S) :
    Option (AVec × Heap X × Ledger) :=
  (Vec.assignOver N R a.v fuel 0 s h).bind fun r =>
  if R.atEnd r.2.2 = true then popN N (a.v.csize - r.2.1) a r.1 L else pushFrom N R fuel r.2.2 a r.1 L

/-- `assign(first, last)` for a range outside of the modelled containers -/
def assign (N : Nat) (a : AVec) (h : Heap X) (L : Ledger) (xs : List X) : Option (AVec × Heap X × Ledger) :=
  assignFrom N .list xs.length a h L xs

/-- `assign(sbv.begin(), sbv.end())` -/
def assignAll (N : Nat) (a : AVec) (sbv : Vec) (h : Heap X) (L : Ledger) : Option (AVec × Heap X × Ledger) :=
  (Vec.begin? N sbv).bind fun b =>
  (Vec.end? N sbv).bind fun e =>
  assignFrom N (.iter (Vec.blockSize N) sbv.dataptr e fun _ => none) (sbv.csize + 1) a h L (0, b)

/-- `assign(sbv.begin() + lo, sbv.begin() + hi)`, or `move_assign` -/
def assignSub (N : Nat) (a : AVec) (sbv : Vec) (h : Heap X) (L : Ledger) (lo hi : Nat) (left : Nat → Option X) :
    Option (AVec × Heap X × Ledger) :=
  (Vec.begin? N sbv).bind fun b =>
  (b.add (Vec.blockSize N) sbv.dataptr lo).bind fun first =>
  (b.add (Vec.blockSize N) sbv.dataptr hi).bind fun last =>
  assignFrom N (.iter (Vec.blockSize N) sbv.dataptr last left) (sbv.csize + 1) a h L (0, first)

/-- StableBlockVector.hpp:230-236. -/
def clearMid (N : Nat) : Nat → AVec → Heap X → Ledger → Option (AVec × Heap X × Ledger)
  | 0, a, h, L => some (a, h, L)
  | n + 1, a, h, L =>
    (Vec.destroyDown N a.v.dataptr ((n : Int) + 1) (Vec.blockSize N) h).bind fun h =>
    (slotGet a.v.dataptr ((n : Int) + 1)).bind fun b =>
    (moveBlocktoAvailable a L b).bind fun r => clearMid N n r.1 h r.2

/-- StableBlockVector.hpp:216-246. -/
def clear (N : Nat) (a : AVec) (h : Heap X) (L : Ledger) : Option (AVec × Heap X × Ledger) :=
  if a.v.avail = 0 then some (a, h, L)
  else
    (Vec.destroyDown N a.v.dataptr a.v.slotIdx a.v.bsize h).bind fun h =>
    if a.v.slotIdx > 0 then
      (slotGet a.v.dataptr a.v.slotIdx).bind fun b =>
      (moveBlocktoAvailable a L b).bind fun q =>
      (clearMid N (q.1.v.slotIdx - 1).toNat q.1 h q.2).bind fun r =>
      (Vec.destroyDown N r.1.v.dataptr 0 (Vec.blockSize N) r.2.1).map fun h =>
        (⟨{ r.1.v with slotIdx := 0, csize := 0, bsize := 0 }, r.1.d, r.1.f⟩, h, r.2.2)
    else some (⟨{ a.v with csize := 0, bsize := 0 }, a.d, a.f⟩, h, L)

/-- StableBlockVector.hpp:248-255. -/
def shrinkToFit (N : Nat) (a : AVec) (h : Heap X) (L : Ledger) : Option (AVec × Heap X × Ledger) :=
  (Vec.freeList N a.v.freeblocks a.v.freeIdx 0 h).map fun h => (⟨{ a.v with freeIdx := 0 }, a.d, a.f⟩, h, L)

/-- StableBlockVector.hpp:347-377: both arrays are deleted at the end, if `dataptr` is not null. -/
def freeAll (N : Nat) (a : AVec) (h : Heap X) (L : Ledger) : Option (Heap X × Ledger) :=
  match a.v.dataptr with
  | none => some (h, L)
  | some _ =>
    (Vec.freeAll N a.v h).bind fun h =>
    (L.delete a.f).bind fun L =>  -- 374
    (L.delete a.d).map fun L => (h, L)  -- 375

/-- StableBlockVector.hpp:82-90, copy constructor; the array is made at 85. -/
def copyCtor (N : Nat) (sbv : Vec) (h : Heap X) (L : Ledger) : Option (AVec × Heap X × Ledger) :=
  match sbv.dataptr with
  | none => some (default N, h, L)
  | some _ =>
    assignAll N ⟨{ Vec.default N with dataptr := some (List.replicate sbv.avail none), avail := sbv.avail,
                                      slotIdx := -1 }, some L.alloc.1, none⟩ sbv h L.alloc.2

/-- StableBlockVector.hpp:92-106, move constructor: (new object, moved-from object). -/
def moveCtor (b : AVec) : AVec × AVec := (⟨b.v.moveCtor.1, b.d, b.f⟩, ⟨b.v.moveCtor.2, none, none⟩)

/-- StableBlockVector.hpp:113-131, move assignment: (target, source, heap, arrays). -/
def moveAssign (N : Nat) (a b : AVec) (h : Heap X) (L : Ledger) : Option (AVec × AVec × Heap X × Ledger) :=
  (freeAll N a h L).map fun r =>
    (b, ⟨{ b.v with freeblocks := none, freeAvail := 0, avail := 0, dataptr := none }, none, none⟩, r.1, r.2)

end AVec

/-! ### Programs -/

/-- Objects, the heap of element blocks and the arrays of block pointers. -/
structure TWorld (X : Type) where
  objs : Nat → Option AVec
  heap : Heap X
  arrays : Ledger

variable {X : Type}

def TWorld.empty : TWorld X := ⟨fun _ => none, Heap.empty, .empty⟩

/-- the same without the arrays -/
def TWorld.erase (w : TWorld X) : World X := ⟨fun i => (w.objs i).map (·.v), w.heap⟩

/-- Run a function on object `i`. -/
def TWorld.on (w : TWorld X) (i : Nat) (f : AVec → Option (AVec × Heap X × Ledger)) : Option (TWorld X × Obs X) :=
  (w.objs i).bind fun a => (f a).map fun r => (⟨upd w.objs i (some r.1), r.2.1, r.2.2⟩, .done)

/-- One call; `none` is undefined behaviour, among it `delete[]` of an array that does not exist (any more), or the
declaration of an object whose name is in use. -/
def execT (N : Nat) (w : TWorld X) : Op X → Option (TWorld X × Obs X)
  | .new i => if (w.objs i).isNone then some (⟨upd w.objs i (some (.default N)), w.heap, w.arrays⟩, .done) else none
  | .newSize i n x => if (w.objs i).isNone then
      (AVec.ofSize N w.heap w.arrays n x).map fun r => (⟨upd w.objs i (some r.1), r.2.1, r.2.2⟩, .done) else none
  | .copyNew i j => if (w.objs i).isNone then
      (w.objs j).bind fun b => (AVec.copyCtor N b.v w.heap w.arrays).map fun r =>
        (⟨upd w.objs i (some r.1), r.2.1, r.2.2⟩, .done) else none
  | .moveNew i j => if (w.objs i).isNone then
      (w.objs j).map fun b =>
        (⟨upd (upd w.objs i (some b.moveCtor.1)) j (some b.moveCtor.2), w.heap, w.arrays⟩, .done) else none
  | .copyAssign i j => w.on i fun a => (w.objs j).bind fun b => AVec.assignAll N a b.v w.heap w.arrays
  | .moveAssign i j => (w.objs i).bind fun a => (w.objs j).bind fun b =>
      (AVec.moveAssign N a b w.heap w.arrays).map fun r =>
        (⟨upd (upd w.objs i (some r.1)) j (some r.2.1), r.2.2.1, r.2.2.2⟩, .done)
  | .destroy i => (w.objs i).bind fun a => (AVec.freeAll N a w.heap w.arrays).map fun r =>
      (⟨upd w.objs i none, r.1, r.2⟩, .done)
  | .push i x => w.on i fun a => AVec.pushBack N a w.heap w.arrays x
  | .pop i => w.on i fun a => AVec.popBack N a w.heap w.arrays
  | .assign i xs => w.on i fun a => AVec.assign N a w.heap w.arrays xs
  | .assignRange i j lo hi => w.on i fun a => (w.objs j).bind fun b =>
      AVec.assignSub N a b.v w.heap w.arrays lo hi fun _ => none
  | .moveRange i j lo hi left => w.on i fun a => (w.objs j).bind fun b =>
      AVec.assignSub N a b.v w.heap w.arrays lo hi fun k => left[k]?
  | .clear i => w.on i fun a => AVec.clear N a w.heap w.arrays
  | .shrink i => w.on i fun a => AVec.shrinkToFit N a w.heap w.arrays
  -- the other calls have nothing to do with the arrays and change no members
  | .set i k x => (exec N w.erase (.set i k x)).map fun r => ({ w with heap := r.1.heap }, r.2)
  | .size i => (exec N w.erase (.size i)).map fun r => (w, r.2)
  | .empty i => (exec N w.erase (.empty i)).map fun r => (w, r.2)
  | .get i k => (exec N w.erase (.get i k)).map fun r => (w, r.2)
  | .at i k => (exec N w.erase (.at i k)).map fun r => (w, r.2)
  | .front i => (exec N w.erase (.front i)).map fun r => (w, r.2)
  | .back i => (exec N w.erase (.back i)).map fun r => (w, r.2)
  | .iterate i => (exec N w.erase (.iterate i)).map fun r => (w, r.2)

/-- A program. -/
def runT (N : Nat) : TWorld X → List (Op X) → Option (TWorld X × List (Obs X))
  | w, [] => some (w, [])
  | w, op :: ops => (execT N w op).bind fun r => (runT N r.1 ops).map fun s => (s.1, r.2 :: s.2)

/-- the object a call declares -/
def Op.declares : Op X → Option Nat
  | .new i | .newSize i _ _ | .copyNew i _ | .moveNew i _ => some i
  | _ => none

/-- No call of the program declares an object whose name is in use; `used` are the names in use at the start. -/
def namesOk : (Nat → Bool) → List (Op X) → Bool
  | _, [] => true
  | used, op :: ops =>
    match op.declares with
    | some i => !used i && namesOk (fun k => k == i || used k) ops
    | none => match op with
      | .destroy i => namesOk (fun k => k != i && used k) ops
      | _ => namesOk used ops

end Verif.Block.Vector
