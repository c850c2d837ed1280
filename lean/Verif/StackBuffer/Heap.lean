import Verif.Common.Heap
import Verif.StackBuffer.Spec

/-
Model of the class StackBuffer (gmlc/containers/StackBuffer.hpp:138-336) with pointers: `data` and `stack.origin` point to blocks
of a heap, so that two objects may point to the same block, blocks can be leaked, deleted twice or used after they were deleted,
and `new` may fail.  `Model.lean` has the same class with the block as a value.
-/
namespace Verif.StackBuffer

/-- StackBuffer.hpp:331-335 and 36-41: the members of StackBuffer and of its member `stack`; `next` and `nextIndex` are offsets
from `origin`. -/
structure Obj where
  data : Option Nat
  statedSize : Int
  actualCapacity : Int
  origin : Option Nat
  next : Int
  ni : Int
  cap : Int
  count : Int

namespace Obj

/-- Lines 144, 36-40. -/
def default : Obj := ⟨none, 0, 0, none, 0, 0, 0, 0⟩

/-- the member `stack` -/
def raw (h : Heap) (o : Obj) : Raw := ⟨h.get o.origin, o.next, o.ni, o.cap, o.count⟩

/-- A call on the member `stack`, lines 269-300. -/
def call (h : Heap) (o : Obj) (op : Op) : Option (Obs × Heap × Obj) :=
  (o.raw h |>.call op).map fun r =>
    (r.1, h.set o.origin r.2.mem, { o with next := r.2.next, ni := r.2.ni, cap := r.2.cap, count := r.2.count })

/-- Lines 145-149.  `fresh` is the content of new memory; for negative sizes see `Buf.ofSize`. -/
def ofSize (fresh : Int → UInt8) (h : Heap) (size : Int) : Option (Heap × Obj) :=
  if size < 0 then none
  else some (h.alloc ⟨size, fresh⟩, ⟨some h.next, size, size, some h.next, 0, size - 8, size, 0⟩)

/-- Line 151. -/
def destroy (h : Heap) (o : Obj) : Option Heap := h.free o.data

/-- Lines 153-165: (new object, source). -/
def moveCtor (sq : Obj) : Obj × Obj :=
  (⟨sq.data, sq.statedSize, sq.actualCapacity, sq.origin, sq.next, sq.ni, sq.cap, sq.count⟩, ⟨none, 0, 0, none, 0, 0, 0, 0⟩)

/-- Lines 166-184. -/
def copyCtor (fresh : Int → UInt8) (h : Heap) (sq : Obj) : Option (Heap × Obj) :=
  if sq.statedSize < 0 then none
  else
    let p := some h.next
    let h1 := h.alloc ⟨sq.statedSize, fresh⟩
    if sq.data.isSome ∧ sq.statedSize > 0 then
      ((h1.get sq.data).read 0 sq.statedSize.toNat).bind fun bs =>
      ((h1.get p).write 0 bs).bind fun m =>
      some (h1.set p m, ⟨p, sq.statedSize, sq.statedSize, p, sq.next, sq.cap - 8 - 8 * sq.count, sq.cap, sq.count⟩)
    else
      (h1.free p).bind fun h2 => some (h2, ⟨none, 0, 0, sq.origin, sq.next, sq.ni, sq.cap, sq.count⟩)

/-- Lines 186-201, assignment from a different object: (heap, target, source). -/
def moveAssign (h : Heap) (b sq : Obj) : Option (Heap × Obj × Obj) :=
  (h.free b.data).bind fun h =>
  some (h, ⟨sq.data, sq.statedSize, sq.actualCapacity, sq.origin, sq.next, sq.ni, sq.cap, sq.count⟩,
    ⟨none, 0, sq.actualCapacity, none, 0, 0, 0, 0⟩)

/-- Lines 186-201 with `&sq == this`. -/
def moveSelf (h : Heap) (b : Obj) : Option (Heap × Obj) :=
  (h.free b.data).bind fun h => some (h, ⟨none, 0, b.actualCapacity, none, 0, 0, 0, 0⟩)

/-- Lines 313-317: resizeMemory calls `new`. -/
def allocates (o : Obj) (newsize : Int) : Bool := decide (newsize ≠ o.statedSize ∧ newsize > o.actualCapacity)

/-- Lines 311-329, if `new` does not fail. -/
def resizeMemory (fresh : Int → UInt8) (h : Heap) (o : Obj) (newsize : Int) (copyData : Bool) : Option (Heap × Obj) :=
  if newsize = o.statedSize then some (h, o)
  else if newsize > o.actualCapacity then
    let p := some h.next
    let h1 := h.alloc ⟨newsize, fresh⟩
    let h2 := if o.actualCapacity > 0 then
        (if copyData then
          if o.statedSize < 0 then none
          else ((h1.get o.data).read 0 o.statedSize.toNat).bind fun bs => ((h1.get p).write 0 bs).map fun m => h1.set p m
        else some h1).bind fun h => h.free o.data
      else some h1
    h2.map fun h2 => (h2, { o with data := p, actualCapacity := newsize, statedSize := newsize })
  else some (h, { o with statedSize := newsize })

/-- Lines 202-215, from a different object; `fails`: `new` throws `std::bad_alloc` if it is called.  The result is `.thrown`
then: `stack` has been assigned. -/
def copyAssign (fresh : Int → UInt8) (fails : Bool) (h : Heap) (b sq : Obj) : Option (Outcome (Heap × Obj)) :=
  let b := { b with origin := sq.origin, next := sq.next, ni := sq.ni, cap := sq.cap, count := sq.count }
  if b.allocates sq.statedSize && fails then some (.thrown (h, b))
  else
    (b.resizeMemory fresh h sq.statedSize false).bind fun (h, b) =>
    if sq.statedSize < 0 then none
    else
      ((h.get sq.data).read 0 sq.statedSize.toNat).bind fun bs =>
      ((h.get b.data).write 0 bs).bind fun m =>
      some (.ok true (h.set b.data m, { b with origin := b.data, ni := b.cap - 8 - 8 * b.count }))

/-- Lines 230-243 and 246-262. -/
def relocate (h : Heap) (o : Obj) (newsize : Int) : Option (Heap × Obj) :=
  let indexOffset := o.cap - 8 * o.count
  let newOffset := newsize - 8 * o.count
  ((h.get o.data).move newOffset indexOffset (8 * o.count)).bind fun m =>
  some (h.set o.data m, { o with cap := newsize, origin := o.data, next := newsize, ni := newsize - 8 - 8 * o.count })

/-- Lines 217-267; `fails` as in `copyAssign`. -/
def resize (fresh : Int → UInt8) (fails : Bool) (h : Heap) (o : Obj) (newsize : Int) : Option (Outcome (Heap × Obj)) :=
  if newsize < 0 then some (.ok false (h, o))
  else if newsize = o.cap then some (.ok true (h, o))
  else if o.count = 0 then
    if o.allocates newsize && fails then some (.thrown (h, o))
    else
      (o.resizeMemory fresh h newsize true).bind fun (h, o) =>
      some (.ok (o.statedSize == newsize) (h, { o with origin := o.data, next := 0, ni := newsize - 8, cap := newsize, count := 0 }))
  else if newsize > o.statedSize then
    if o.allocates newsize && fails then some (.thrown (h, o))
    else
      (o.resizeMemory fresh h newsize true).bind fun (h, o) =>
      (o.relocate h newsize).bind fun (h, o) =>
      some (.ok (o.statedSize == newsize) (h, o))
  else if newsize < o.next + 8 * o.count then some (.thrown (h, o))
  else
    (o.relocate h newsize).bind fun (h, o) =>
    some (.ok true (h, { o with statedSize := newsize }))

end Obj

/-- the objects of a program and the heap -/
structure Store where
  heap : Heap
  objs : Nat → Option Obj

namespace Store

/-- no objects, no memory -/
def init : Store := ⟨Heap.init, fun _ => none⟩

/-- A call; `fresh` is the content of memory it allocates, `fails` says that `new` throws if it is called.  `none` is undefined
behaviour.  An object whose constructor throws does not exist. -/
def exec (fresh : Int → UInt8) (fails : Bool) (s : Store) : OOp → Option (OObs × Store)
  | .new i size => if fails then some (.threw, s) else
      (Obj.ofSize fresh s.heap size).map fun r => (.done, ⟨r.1, upd s.objs i (some r.2)⟩)
  | .newDefault i => some (.done, ⟨s.heap, upd s.objs i (some Obj.default)⟩)
  | .copyNew i j => (s.objs j).bind fun b => if fails then some (.threw, s) else
      (Obj.copyCtor fresh s.heap b).map fun r => (.done, ⟨r.1, upd s.objs i (some r.2)⟩)
  | .moveNew i j => (s.objs j).map fun b => (.done, ⟨s.heap, upd (upd s.objs i (some b.moveCtor.1)) j (some b.moveCtor.2)⟩)
  | .copyAssign i j => (s.objs i).bind fun a => (s.objs j).bind fun b => (Obj.copyAssign fresh fails s.heap a b).map fun r =>
      match r with
      | .ok _ r => (.done, ⟨r.1, upd s.objs i (some r.2)⟩)
      | .thrown r => (.threw, ⟨r.1, upd s.objs i (some r.2)⟩)
  | .moveAssign i j =>
      if i = j then (s.objs i).bind fun a => (a.moveSelf s.heap).map fun r => (.done, ⟨r.1, upd s.objs i (some r.2)⟩)
      else (s.objs i).bind fun a => (s.objs j).bind fun b => (Obj.moveAssign s.heap a b).map fun r =>
        (.done, ⟨r.1, upd (upd s.objs i (some r.2.1)) j (some r.2.2)⟩)
  | .swap i j => (s.objs i).bind fun a => (s.objs j).map fun b => (.done, ⟨s.heap, upd (upd s.objs i (some b)) j (some a)⟩)
  | .resize i n => (s.objs i).bind fun o => (o.resize fresh fails s.heap n).map fun r =>
      match r with
      | .ok ret r => (.returned ret, ⟨r.1, upd s.objs i (some r.2)⟩)
      | .thrown r => (.threw, ⟨r.1, upd s.objs i (some r.2)⟩)
  | .capacity i => (s.objs i).map fun o => (.cap o.cap, s)
  | .call i op => (s.objs i).bind fun o => (o.call s.heap op).map fun r => (.obs r.1, ⟨r.2.1, upd s.objs i (some r.2.2)⟩)
  | .destroy i => (s.objs i).bind fun o => (o.destroy s.heap).map fun h => (.done, ⟨h, upd s.objs i none⟩)

end Store
end Verif.StackBuffer
