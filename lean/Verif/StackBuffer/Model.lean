import Verif.Common.Bytes

/-
Model of gmlc/containers/StackBuffer.hpp (classes StackBufferRaw, StackBuffer).

`Option` results: `none` is undefined behaviour (an access outside the memory block).
Not modelled: alignment of the index entries (the code stores `dataIndex` structs at
`origin + dataSize - 8`, which is misaligned for some sizes) and forming, without
dereferencing, a pointer before the block when the size is below 8.
-/
namespace Verif.StackBuffer

abbrev Msg := List UInt8

/-- StackBuffer.hpp:35-41 (`StackBufferRaw`).  `next` and `nextIndex` are represented by
their offsets from `origin`; `mem` is the block `origin` points to. -/
structure Raw where
  mem : Mem
  next : Int
  ni : Int
  cap : Int
  count : Int

namespace Raw

/-- StackBuffer.hpp:44: everything null or zero. -/
def default : Raw := ⟨Mem.null, 0, 0, 0, 0⟩

/-- StackBuffer.hpp:45-50. -/
def init (mem : Mem) (blockSize : Int) : Raw := ⟨mem, 0, blockSize - 8, blockSize, 0⟩

/-- StackBuffer.hpp:61. -/
def capacity (b : Raw) : Int := b.cap

/-- StackBuffer.hpp:62. -/
def getCurrentCount (b : Raw) : Int := b.count

/-- StackBuffer.hpp:63-68. -/
def isSpaceAvailable (b : Raw) (sz : Int) : Bool :=
  decide (b.cap - b.next - (b.count + 1) * 8 ≥ sz)

/-- StackBuffer.hpp:69. -/
def empty (b : Raw) : Bool := b.count == 0

/-- StackBuffer.hpp:71-86.  `data = none` is a null pointer; copying more bytes than the
caller's array has is undefined behaviour. -/
def push (b : Raw) (data : Option (List UInt8)) (blockSize : Int) : Option (Bool × Raw) :=
  match data with
  | none => some (false, b)
  | some d =>
    if blockSize ≤ 0 then some (false, b)
    else if b.isSpaceAvailable blockSize = false then some (false, b)
    else if (d.length : Int) < blockSize then none
    else
      (b.mem.write b.next (d.take blockSize.toNat)).bind fun m1 =>
      (m1.writeI32 b.ni b.next).bind fun m2 =>
      (m2.writeI32 (b.ni + 4) blockSize).bind fun m3 =>
      some (true, { b with mem := m3, next := b.next + blockSize, ni := b.ni - 8,
                           count := b.count + 1 })

/-- StackBuffer.hpp:88-91; `nextIndex[1].dataSize` is at offset `ni + 8 + 4`. -/
def nextDataSize (b : Raw) : Option Int :=
  if b.count > 0 then b.mem.readI32 (b.ni + 12) else some 0

/-- StackBuffer.hpp:98-110: after the block has been copied out, release it. -/
def release (b : Raw) (off blkSize : Int) : Raw :=
  let next := if off + blkSize = b.next then b.next - blkSize else b.next
  if b.count - 1 = 0 then { b with next := 0, ni := b.cap - 8, count := b.count - 1 }
  else { b with next := next, ni := b.ni + 8, count := b.count - 1 }

/-- StackBuffer.hpp:93-118.  Result: returned `int`, bytes written to the caller's block,
new state.  A negative `memcpy` count is undefined behaviour. -/
def pop (b : Raw) (maxSize : Int) : Option (Int × Option (List UInt8) × Raw) :=
  if b.count > 0 then
    (b.mem.readI32 (b.ni + 12)).bind fun blkSize =>
    if maxSize ≥ blkSize then
      if blkSize < 0 then none
      else
        (b.mem.readI32 (b.ni + 8)).bind fun off =>
        (b.mem.read off blkSize.toNat).bind fun d =>
        some (blkSize, some d, b.release off blkSize)
    else some (-blkSize, none, b)
  else some (0, none, b)

/-- The 8-byte `dataIndex` elements of an index area. -/
def chunks8 : Nat → List UInt8 → List (List UInt8)
  | 0, _ => []
  | k + 1, l => l.take 8 :: chunks8 k (l.drop 8)

/-- StackBuffer.hpp:121-126.  `std::reverse` on the range of 8-byte elements is modelled by
its effect: the range is read, its elements are written back in reverse order. -/
def reverse (b : Raw) : Option Raw :=
  if b.count > 1 then
    (b.mem.read (b.ni + 8) (8 * b.count.toNat)).bind fun bs =>
    (b.mem.write (b.ni + 8) (chunks8 b.count.toNat bs).reverse.flatten).bind fun m =>
    some { b with mem := m }
  else some b

/-- StackBuffer.hpp:128-134. -/
def clear (b : Raw) : Raw := { b with next := 0, count := 0, ni := b.cap - 8 }

end Raw

/-- StackBuffer.hpp:331-335 (`StackBuffer`).  `data = none` is the null pointer.  `own` says
whether `stack.origin` is known to equal `data`; when it is false nothing can be accessed
through `stack.origin`.  `next`, `ni`, `cap`, `count` are the other members of `stack`. -/
structure Buf where
  data : Option Mem
  own : Bool
  statedSize : Int
  actualCapacity : Int
  next : Int
  ni : Int
  cap : Int
  count : Int

/-- Outcome of a member function that may throw; the state after the throw is kept. -/
inductive Outcome (α : Type) where
  | ok (ret : Bool) (a : α)
  | thrown (a : α)

namespace Buf

/-- the bytes reachable through `data` -/
def dmem (b : Buf) : Mem := b.data.getD Mem.null

/-- the member `stack` together with the memory reachable through its `origin` -/
def raw (b : Buf) : Raw := ⟨if b.own then b.dmem else Mem.null, b.next, b.ni, b.cap, b.count⟩

/-- put back the result of an operation on the member `stack` -/
def setRaw (b : Buf) (r : Raw) : Buf :=
  { b with data := if b.own then b.data.map (fun _ => r.mem) else b.data,
           next := r.next, ni := r.ni, cap := r.cap, count := r.count }

/-- StackBuffer.hpp:144. -/
def default : Buf := ⟨none, true, 0, 0, 0, 0, 0, 0⟩

/-- StackBuffer.hpp:145-149; `new unsigned char[size]` yields arbitrary bytes `fresh`. A
negative size makes `new[]` throw; it is excluded by returning `none`. -/
def ofSize (fresh : Int → UInt8) (size : Int) : Option Buf :=
  if size < 0 then none else some ⟨some ⟨size, fresh⟩, true, size, size, 0, size - 8, size, 0⟩

/-- StackBuffer.hpp:153-165, move constructor: (new object, moved-from object). -/
def moveCtor (sq : Buf) : Buf × Buf := (sq, default)

/-- StackBuffer.hpp:166-184, copy constructor. In the `else` branch `stack.origin` is
whatever the source's was. -/
def copyCtor (fresh : Int → UInt8) (sq : Buf) : Option Buf :=
  if sq.statedSize < 0 then none
  else match sq.data with
    | none => some ⟨none, false, 0, 0, sq.next, sq.ni, sq.cap, sq.count⟩
    | some m =>
      if sq.statedSize > 0 then
        (m.read 0 sq.statedSize.toNat).bind fun bs =>
        (Mem.write ⟨sq.statedSize, fresh⟩ 0 bs).bind fun m' =>
        some ⟨some m', true, sq.statedSize, sq.statedSize, sq.next,
              sq.cap - 8 - 8 * sq.count, sq.cap, sq.count⟩
      else some ⟨none, false, 0, 0, sq.next, sq.ni, sq.cap, sq.count⟩

/-- StackBuffer.hpp:186-201, move assignment of a different object: (target, source). The
source's `actualCapacity` is not reset. -/
def moveAssign (_b sq : Buf) : Buf × Buf :=
  (sq, ⟨none, true, 0, sq.actualCapacity, 0, 0, 0, 0⟩)

/-- StackBuffer.hpp:318-323: `memcpy(buf, data, statedSize)` into the new block. -/
def copyOld (b : Buf) (buf : Mem) (copyData : Bool) : Option Mem :=
  if b.actualCapacity > 0 ∧ copyData = true then
    if b.statedSize < 0 then none
    else (b.dmem.read 0 b.statedSize.toNat).bind fun bs => buf.write 0 bs
  else some buf

/-- StackBuffer.hpp:311-329. -/
def resizeMemory (fresh : Int → UInt8) (b : Buf) (newsize : Int) (copyData : Bool) :
    Option Buf :=
  if newsize = b.statedSize then some b
  else if newsize > b.actualCapacity then
    (b.copyOld ⟨newsize, fresh⟩ copyData).bind fun m =>
    some { b with data := some m, own := false, actualCapacity := newsize, statedSize := newsize }
  else some { b with statedSize := newsize }

/-- `memcpy`/`memmove` into the block `data` -/
def withData (b : Buf) (f : Mem → Option Mem) : Option Buf :=
  match b.data with
  | some m => (f m).map fun m' => { b with data := some m' }
  | none => (f Mem.null).map fun _ => b

/-- StackBuffer.hpp:202-215, copy assignment from a different object. -/
def copyAssign (fresh : Int → UInt8) (b sq : Buf) : Option Buf :=
  (resizeMemory fresh { b with own := false, next := sq.next, ni := sq.ni, cap := sq.cap,
                               count := sq.count } sq.statedSize false).bind fun b =>
  if sq.statedSize < 0 then none
  else
    (sq.dmem.read 0 sq.statedSize.toNat).bind fun bs =>
    (b.withData fun m => m.write 0 bs).bind fun b =>
    some { b with own := true, ni := b.cap - 8 - 8 * b.count }

/-- StackBuffer.hpp:230-243 and 246-262: relocation of the index area to the end of the
resized block. -/
def relocate (b : Buf) (newsize : Int) : Option Buf :=
  let indexOffset := b.cap - 8 * b.count
  let newOffset := newsize - 8 * b.count
  (b.withData fun m => m.move newOffset indexOffset (8 * b.count)).bind fun b =>
  some { b with cap := newsize, own := true, next := newsize,
                ni := newsize - 8 - 8 * b.count }

/-- StackBuffer.hpp:217-267. -/
def resize (fresh : Int → UInt8) (b : Buf) (newsize : Int) : Option (Outcome Buf) :=
  if newsize < 0 then some (.ok false b)
  else if newsize = b.cap then some (.ok true b)
  else if b.count = 0 then
    (resizeMemory fresh b newsize true).bind fun b =>
    some (.ok (b.statedSize == newsize)
      { b with own := true, next := 0, ni := newsize - 8, cap := newsize, count := 0 })
  else if newsize > b.statedSize then
    (resizeMemory fresh b newsize true).bind fun b =>
    (b.relocate newsize).bind fun b =>
    some (.ok (b.statedSize == newsize) b)
  else if newsize < b.next + 8 * b.count then some (.thrown b)
  else
    (b.relocate newsize).bind fun b =>
    some (.ok true { b with statedSize := newsize })

/-- StackBuffer.hpp:269. -/
def getCurrentCount (b : Buf) : Int := b.raw.getCurrentCount

/-- StackBuffer.hpp:271. -/
def capacity (b : Buf) : Int := b.raw.capacity

/-- StackBuffer.hpp:275. -/
def rawBlockCapacity (b : Buf) : Int := b.actualCapacity

/-- StackBuffer.hpp:277-280. -/
def isSpaceAvailable (b : Buf) (sz : Int) : Bool := b.raw.isSpaceAvailable sz

/-- StackBuffer.hpp:282. -/
def empty (b : Buf) : Bool := b.raw.empty

/-- StackBuffer.hpp:284-287. -/
def push (b : Buf) (data : Option (List UInt8)) (blockSize : Int) : Option (Bool × Buf) :=
  (b.raw.push data blockSize).map fun r => (r.1, b.setRaw r.2)

/-- StackBuffer.hpp:289. -/
def nextDataSize (b : Buf) : Option Int := b.raw.nextDataSize

/-- StackBuffer.hpp:293-296. -/
def pop (b : Buf) (maxSize : Int) : Option (Int × Option (List UInt8) × Buf) :=
  (b.raw.pop maxSize).map fun r => (r.1, r.2.1, b.setRaw r.2.2)

/-- StackBuffer.hpp:298. -/
def reverse (b : Buf) : Option Buf := b.raw.reverse.map b.setRaw

/-- StackBuffer.hpp:300. -/
def clear (b : Buf) : Buf := b.setRaw b.raw.clear

/-- StackBuffer.hpp:302-308. -/
def swap (a b : Buf) : Buf × Buf := (b, a)

end Buf
end Verif.StackBuffer
