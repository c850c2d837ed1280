import Verif.Common.Heap
import Verif.CircularBuffer.OwnerSpec

/-
Model of the class CircularBuffer (gmlc/containers/CircularBuffer.hpp:138-336) with pointers: `data` and `buffer.origin` point to
blocks of a heap, so that two objects may point to the same block, blocks can be leaked, deleted twice or used after they were
deleted, and `new` may fail.  `Model.lean` has the same class with the block as a value.
-/
namespace Verif.CircularBuffer

/-- CircularBuffer.hpp:332-335 and 128-131: the members of CircularBuffer and of its member `buffer`; `next_write` and `next_read` are
offsets from `origin`. -/
structure Obj where
  data : Option Nat
  actualSize : Int
  actualCapacity : Int
  origin : Option Nat
  cap : Int
  nw : Int
  nr : Int

namespace Obj

/-- Line 140. -/
def default : Obj := ⟨none, 0, 0, none, 0, 0, 0⟩

/-- the member `buffer` -/
def raw (h : Heap) (o : Obj) : Raw := ⟨h.get o.origin, o.cap, o.nw, o.nr⟩

/-- A call on the member `buffer`, lines 293-311. -/
def call (h : Heap) (o : Obj) (op : Op) : Option (Obs × Heap × Obj) :=
  (o.raw h |>.call op).map fun r => (r.1, h.set o.origin r.2.mem, { o with cap := r.2.cap, nw := r.2.nw, nr := r.2.nr })

/-- Lines 141-145.  `fresh` is the content of new memory; for negative sizes see `Buf.ofSize`. -/
def ofSize (fresh : Int → UInt8) (h : Heap) (size : Int) : Option (Heap × Obj) :=
  if size < 0 then none else some (h.alloc ⟨size, fresh⟩, ⟨some h.next, size, size, some h.next, size, 0, 0⟩)

/-- Lines 146-151. -/
def destroy (h : Heap) (o : Obj) : Option Heap := if o.actualCapacity > 0 then h.free o.data else some h

/-- Lines 152-163: (new object, source). -/
def moveCtor (cb : Obj) : Obj × Obj :=
  (⟨cb.data, cb.actualSize, cb.actualCapacity, cb.origin, cb.cap, cb.nw, cb.nr⟩, ⟨none, 0, 0, none, 0, 0, 0⟩)

/-- Lines 164-180.  In the `else` branch `data` keeps pointing to the deleted block. -/
def copyCtor (fresh : Int → UInt8) (h : Heap) (cb : Obj) : Option (Heap × Obj) :=
  if cb.actualSize < 0 then none
  else
    let p := some h.next
    let h1 := h.alloc ⟨cb.actualSize, fresh⟩
    if cb.data.isSome then
      ((h1.get cb.data).read 0 cb.actualSize.toNat).bind fun bs =>
      ((h1.get p).write 0 bs).bind fun m =>
      some (h1.set p m, ⟨p, cb.actualSize, cb.actualSize, p, cb.cap, cb.nw, cb.nr⟩)
    else (h1.free p).bind fun h2 => some (h2, ⟨p, 0, 0, cb.origin, cb.cap, cb.nw, cb.nr⟩)

/-- Lines 182-201, assignment from a different object: (heap, target, source). -/
def moveAssign (h : Heap) (b cb : Obj) : Option (Heap × Obj × Obj) :=
  (h.free b.data).bind fun h =>
  some (h, ⟨cb.data, cb.actualSize, cb.actualCapacity, cb.origin, cb.cap, cb.nw, cb.nr⟩, ⟨none, 0, 0, none, 0, 0, 0⟩)

/-- Lines 182-201 with `&cb == this`. -/
def moveSelf (h : Heap) (b : Obj) : Option (Heap × Obj) :=
  (h.free b.data).bind fun h => some (h, ⟨none, 0, 0, none, 0, 0, 0⟩)

/-- Line 316: resizeMemory calls `new`. -/
def allocates (o : Obj) (newsize : Int) : Bool := decide (newsize > o.actualCapacity)

/-- Lines 314-329, if `new` does not fail. -/
def resizeMemory (fresh : Int → UInt8) (h : Heap) (o : Obj) (newsize : Int) (copyData : Bool) : Option (Heap × Obj) :=
  if newsize > o.actualCapacity then
    let p := some h.next
    let h1 := h.alloc ⟨newsize, fresh⟩
    let h2 := if o.actualCapacity > 0 then
        (if copyData then
          if o.actualSize < 0 then none
          else ((h1.get o.data).read 0 o.actualSize.toNat).bind fun bs => ((h1.get p).write 0 bs).map fun m => h1.set p m
        else some h1).bind fun h => h.free o.data
      else some h1
    h2.map fun h2 => (h2, { o with data := p, actualCapacity := newsize, actualSize := newsize })
  else some (h, { o with actualSize := newsize })

/-- Lines 202-214, from a different object; `fails`: `new` throws `std::bad_alloc` if it is called.  The result is `.thrown` then:
`buffer` has been assigned.  `memcpy` of no bytes has no effect. -/
def copyAssign (fresh : Int → UInt8) (fails : Bool) (h : Heap) (b cb : Obj) : Option (Outcome (Heap × Obj)) :=
  let b := { b with origin := cb.origin, cap := cb.cap, nw := cb.nw, nr := cb.nr }
  if b.allocates cb.actualSize && fails then some (.thrown (h, b))
  else
    (b.resizeMemory fresh h cb.actualSize false).bind fun (h, b) =>
    if cb.actualSize < 0 then none
    else if cb.actualSize = 0 then some (.ok (h, { b with origin := b.data }))
    else
      ((h.get cb.data).read 0 cb.actualSize.toNat).bind fun bs =>
      ((h.get b.data).write 0 bs).bind fun m =>
      some (.ok (h.set b.data m, { b with origin := b.data }))

/-- `memmove` between offsets of the block `data`. -/
def moveBytes (h : Heap) (o : Obj) (dst src n : Int) : Option Heap :=
  ((h.get o.data).move dst src n).map fun m => h.set o.data m

/-- Lines 216-291; `fails` as in `copyAssign`.  The `memmove` in lines 255-259 is within `origin`.  Simplification: after the block has been
deleted in resizeMemory, pointers into it can still be compared and subtracted (lines 226-230). -/
def resize (fresh : Int → UInt8) (fails : Bool) (h : Heap) (o : Obj) (newsize : Int) : Option (Outcome (Heap × Obj)) :=
  if newsize = o.cap then some (.ok (h, o))
  else if o.nw = o.nr then
    if o.allocates newsize && fails then some (.thrown (h, o))
    else
      (o.resizeMemory fresh h newsize true).bind fun (h, o) =>
      some (.ok (h, { o with origin := o.data, cap := newsize, nw := 0, nr := 0 }))
  else if newsize > o.actualSize then
    if o.allocates newsize && fails then some (.thrown (h, o))
    else
      (o.resizeMemory fresh h newsize true).bind fun (h, o) =>
      if o.nr < o.nw then some (.ok (h, { o with cap := newsize, origin := o.data }))
      else
        let readDiff := o.cap - o.nr
        (o.moveBytes h (newsize - readDiff) o.nr (o.cap - o.nr)).map fun h =>
        .ok (h, { o with origin := o.data, nr := newsize - readDiff, cap := newsize })
  else if o.nr < o.nw then
    if o.nw ≤ newsize then some (.ok (h, { o with cap := newsize, actualSize := newsize }))
    else if o.nw - o.nr < newsize then
      ((h.get o.origin).move 0 o.nr (o.nw - o.nr)).map fun m =>
      .ok (h.set o.origin m, { o with nr := 0, nw := o.nw - o.nr, cap := newsize, actualSize := newsize })
    else some (.thrown (h, o))
  else
    let readDiff := o.cap - o.nr
    if readDiff + o.nw < newsize then
      (o.moveBytes h (newsize - readDiff) o.nr (o.cap - o.nr)).map fun h =>
      .ok (h, { o with origin := o.data, nr := newsize - readDiff, cap := newsize, actualSize := newsize })
    else some (.thrown (h, o))

/-- the object with its memory as a value -/
def buf (h : Heap) (o : Obj) : Buf :=
  ⟨match o.data with | none => .null | some p => (match h.blk p with | some m => .owned m | none => .dangling),
   o.actualSize, o.actualCapacity, o.cap, o.nw, o.nr⟩

end Obj

/-- the objects of a program and the heap -/
structure Store where
  heap : Heap
  objs : Nat → Option Obj

namespace Store

/-- no objects, no memory -/
def init : Store := ⟨Heap.init, fun _ => none⟩

/-- A call; `fresh` is the content of memory it allocates, `fails` says that `new` throws if it is called.  `none` is undefined
behaviour.  An object whose constructor throws does not exist. -/
def exec (fresh : Int → UInt8) (fails : Bool) (s : Store) : OOp → Option (OObs × Store)
  | .new i size => if fails then some (.threw, s) else
      (Obj.ofSize fresh s.heap size).map fun r => (.done, ⟨r.1, upd s.objs i (some r.2)⟩)
  | .newDefault i => some (.done, ⟨s.heap, upd s.objs i (some Obj.default)⟩)
  | .copyNew i j => (s.objs j).bind fun b => if fails then some (.threw, s) else
      (Obj.copyCtor fresh s.heap b).map fun r => (.done, ⟨r.1, upd s.objs i (some r.2)⟩)
  | .moveNew i j => (s.objs j).map fun b => (.done, ⟨s.heap, upd (upd s.objs i (some b.moveCtor.1)) j (some b.moveCtor.2)⟩)
  | .copyAssign i j => (s.objs i).bind fun a => (s.objs j).bind fun b => (Obj.copyAssign fresh fails s.heap a b).map fun r =>
      match r with
      | .ok r => (.done, ⟨r.1, upd s.objs i (some r.2)⟩)
      | .thrown r => (.threw, ⟨r.1, upd s.objs i (some r.2)⟩)
  | .moveAssign i j =>
      if i = j then (s.objs i).bind fun a => (a.moveSelf s.heap).map fun r => (.done, ⟨r.1, upd s.objs i (some r.2)⟩)
      else (s.objs i).bind fun a => (s.objs j).bind fun b => (Obj.moveAssign s.heap a b).map fun r =>
        (.done, ⟨r.1, upd (upd s.objs i (some r.2.1)) j (some r.2.2)⟩)
  | .resize i n => (s.objs i).bind fun o => (o.resize fresh fails s.heap n).map fun r =>
      match r with
      | .ok r => (.done, ⟨r.1, upd s.objs i (some r.2)⟩)
      | .thrown r => (.threw, ⟨r.1, upd s.objs i (some r.2)⟩)
  | .capacity i => (s.objs i).map fun o => (.cap o.cap, s)
  | .call i op => (s.objs i).bind fun o => (o.call s.heap op).map fun r => (.obs r.1, ⟨r.2.1, upd s.objs i (some r.2.2)⟩)
  | .destroy i => (s.objs i).bind fun o => (o.destroy s.heap).map fun h => (.done, ⟨h, upd s.objs i none⟩)

/-- the objects with their memory as values -/
def view (s : Store) : Nat → Option Buf := fun i => (s.objs i).map (Obj.buf s.heap)

end Store
end Verif.CircularBuffer
