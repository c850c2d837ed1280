import Verif.Common.Bytes

/-
Model of gmlc/containers/CircularBuffer.hpp (classes CircularBufferRaw, CircularBuffer).

`Option` results: `none` is undefined behaviour (an access outside the memory block, a use
of freed memory, a double free).
-/
namespace Verif.CircularBuffer

abbrev Msg := List UInt8

/-- CircularBuffer.hpp:21-27,127-131 (`CircularBufferRaw`).  The pointers `next_write` and
`next_read` are represented by their offsets from `origin`; `mem` is the block `origin`
points to.  Simplification: pointer comparison is comparison of offsets (both pointers
always point into the same block). -/
structure Raw where
  mem : Mem
  cap : Int
  nw : Int
  nr : Int

namespace Raw

/-- CircularBuffer.hpp:23-27, constructor on a given block. -/
def init (mem : Mem) (blockSize : Int) : Raw := ⟨mem, blockSize, 0, 0⟩

/-- CircularBuffer.hpp:29. -/
def capacity (b : Raw) : Int := b.cap

/-- CircularBuffer.hpp:30-46. -/
def isSpaceAvailable (b : Raw) (sz : Int) : Bool :=
  if b.nw ≥ b.nr then
    if b.cap - b.nw ≥ sz + 4 then true
    else if b.nr ≥ sz + 4 then true
    else false
  else if b.nr - b.nw ≥ sz + 4 then true
  else false

/-- CircularBuffer.hpp:56-58, 72-73, 80-81: header then payload stored at offset `pos`.
`d` is the caller's data; copying more bytes than it has is undefined behaviour. -/
def storeMsg (m : Mem) (pos : Int) (d : List UInt8) (blockSize : Int) : Option Mem := do
  let m1 ← m.writeI32 pos blockSize
  if (d.length : Int) < blockSize then none
  else m1.write (pos + 4) (d.take blockSize.toNat)

/-- CircularBuffer.hpp:48-86.  `data = none` is a null pointer. -/
def push (b : Raw) (data : Option (List UInt8)) (blockSize : Int) : Option (Bool × Raw) :=
  match data with
  | none => some (false, b)
  | some d =>
    if blockSize ≤ 0 then some (false, b)
    else if b.nw ≥ b.nr then
      if b.cap - b.nw ≥ blockSize + 4 then do
        let m ← storeMsg b.mem b.nw d blockSize
        let nw := b.nw + (blockSize + 4)
        let nw := if b.cap - nw < 8 ∧ b.nr > 0 then 0 else nw
        some (true, { b with mem := m, nw := nw })
      else if b.nr ≥ blockSize + 4 then do
        let m0 ← b.mem.writeI32 b.nw (-1)
        let m ← storeMsg m0 0 d blockSize
        some (true, { b with mem := m, nw := blockSize + 4 })
      else some (false, b)
    else if b.nr - b.nw ≥ blockSize + 4 then do
      let m ← storeMsg b.mem b.nw d blockSize
      some (true, { b with mem := m, nw := b.nw + (blockSize + 4) })
    else some (false, b)

/-- CircularBuffer.hpp:87-98. -/
def nextDataSize (b : Raw) : Option Int :=
  if b.nw = b.nr then some 0
  else do
    let size ← b.mem.readI32 b.nr
    if size < 0 then b.mem.readI32 0 else some size

/-- CircularBuffer.hpp:101-121.  Result: returned `int`, bytes written to the caller's
`data` (`none` if nothing was written), new state.  A negative size converted to the
`size_t` count of the `memcpy` is undefined behaviour. -/
def pop (b : Raw) (maxSize : Int) : Option (Int × Option (List UInt8) × Raw) :=
  if b.nw = b.nr then some (0, none, b)
  else do
    let size0 ← b.mem.readI32 b.nr
    let nr := if size0 < 0 then 0 else b.nr
    let size ← if size0 < 0 then b.mem.readI32 nr else some size0
    if size ≤ maxSize then
      if size < 0 then none
      else do
        let d ← b.mem.read (nr + 4) size.toNat
        let nr := nr + (size + 4)
        let nr := if b.cap - nr < 8 then 0 else nr
        some (size, some d, { b with nr := nr })
    else some (-size, none, { b with nr := nr })

/-- CircularBuffer.hpp:123. -/
def empty (b : Raw) : Bool := b.nw == b.nr

/-- CircularBuffer.hpp:125. -/
def clear (b : Raw) : Raw := { b with nw := 0, nr := 0 }

end Raw

/-- What the member `data` of `CircularBuffer` can hold: a null pointer, a pointer to memory
that has been freed, or an owned block. -/
inductive Blk where
  | null
  | dangling
  | owned (m : Mem)

/-- The bytes reachable through a pointer; none for a null or dangling one. -/
def Blk.mem : Blk → Mem
  | .owned m => m
  | _ => Mem.null

/-- CircularBuffer.hpp:138-336 (`CircularBuffer`).  The member `buffer` is represented by
`cap`, `nw`, `nr`; `buffer.origin` always equals `data` except after copying a buffer that
owns no memory, where `origin` is null and `data` dangles: no byte is accessible through
either. -/
structure Buf where
  data : Blk
  actualSize : Int
  actualCapacity : Int
  cap : Int
  nw : Int
  nr : Int

/-- Outcome of a member function that may throw; the state after the throw is kept. -/
inductive Outcome (α : Type) where
  | ok (a : α)
  | thrown (a : α)

namespace Buf

/-- the member `buffer` together with the memory it points to -/
def raw (b : Buf) : Raw := ⟨b.data.mem, b.cap, b.nw, b.nr⟩

/-- put back the result of an operation on the member `buffer` -/
def setRaw (b : Buf) (r : Raw) : Buf :=
  { b with data := (match b.data with | .owned _ => .owned r.mem | x => x),
           cap := r.cap, nw := r.nw, nr := r.nr }

/-- CircularBuffer.hpp:140. -/
def default : Buf := ⟨.null, 0, 0, 0, 0, 0⟩

/-- CircularBuffer.hpp:141-145; `new unsigned char[size]` yields arbitrary bytes `fresh`. A
negative size makes `new[]` throw; it is excluded by returning `none`. -/
def ofSize (fresh : Int → UInt8) (size : Int) : Option Buf :=
  if size < 0 then none else some ⟨.owned ⟨size, fresh⟩, size, size, size, 0, 0⟩

/-- `delete[] data`: the dangling pointer is a double free. `delete[] nullptr` is fine. -/
def free : Blk → Option Unit
  | .dangling => none
  | _ => some ()

/-- CircularBuffer.hpp:146-151, the destructor. -/
def destroy (b : Buf) : Option Unit :=
  if b.actualCapacity > 0 then free b.data else some ()

/-- CircularBuffer.hpp:152-163, move constructor: (new object, moved-from object). -/
def moveCtor (cb : Buf) : Buf × Buf :=
  (⟨cb.data, cb.actualSize, cb.actualCapacity, cb.cap, cb.nw, cb.nr⟩, default)

/-- CircularBuffer.hpp:164-180, copy constructor.  When the source has no memory the fresh
block is deleted and `data` keeps the dangling pointer. -/
def copyCtor (fresh : Int → UInt8) (cb : Buf) : Option Buf :=
  if cb.actualSize < 0 then none
  else match cb.data with
    | .null => some ⟨.dangling, 0, 0, cb.cap, cb.nw, cb.nr⟩
    | .dangling =>
      -- `cb.data != nullptr`: `memcpy` from freed memory, harmless only for size 0
      if cb.actualSize = 0 then some ⟨.owned ⟨0, fresh⟩, 0, 0, cb.cap, cb.nw, cb.nr⟩ else none
    | .owned m => do
      let bs ← m.read 0 cb.actualSize.toNat
      let m' ← Mem.write ⟨cb.actualSize, fresh⟩ 0 bs
      some ⟨.owned m', cb.actualSize, cb.actualSize, cb.cap, cb.nw, cb.nr⟩

/-- CircularBuffer.hpp:182-201, move assignment of a different object: (target, source). -/
def moveAssign (b cb : Buf) : Option (Buf × Buf) := do
  free b.data
  some (⟨cb.data, cb.actualSize, cb.actualCapacity, cb.cap, cb.nw, cb.nr⟩, default)

/-- CircularBuffer.hpp:318-321: `memcpy(buf, data, actualSize)` into the new block. -/
def copyOld (b : Buf) (buf : Mem) (copyData : Bool) : Option Mem :=
  if b.actualCapacity > 0 ∧ copyData = true then
    if b.actualSize < 0 then none
    else (b.data.mem.read 0 b.actualSize.toNat).bind fun bs => buf.write 0 bs
  else some buf

/-- CircularBuffer.hpp:314-329. -/
def resizeMemory (fresh : Int → UInt8) (b : Buf) (newsize : Int) (copyData : Bool) :
    Option Buf :=
  if newsize > b.actualCapacity then
    (b.copyOld ⟨newsize, fresh⟩ copyData).bind fun m =>
    (if b.actualCapacity > 0 then free b.data else some ()).bind fun _ =>
    some { b with data := .owned m, actualCapacity := newsize, actualSize := newsize }
  else some { b with actualSize := newsize }

/-- CircularBuffer.hpp:202-214, copy assignment from a different object. -/
def copyAssign (fresh : Int → UInt8) (b cb : Buf) : Option Buf := do
  let b := { b with cap := cb.cap, nw := cb.nw, nr := cb.nr }
  let b ← resizeMemory fresh b cb.actualSize false
  if cb.actualSize < 0 then none
  else if cb.actualSize = 0 then some b
  else do
    let bs ← cb.data.mem.read 0 cb.actualSize.toNat
    let m ← b.data.mem.write 0 bs
    match b.data with
    | .owned _ => some { b with data := .owned m }
    | _ => none

/-- `memmove` inside the owned block. -/
def moveBytes (b : Buf) (dst src n : Int) : Option Buf :=
  match b.data with
  | .owned m => (m.move dst src n).map fun m' => { b with data := .owned m' }
  | _ => none

/-- CircularBuffer.hpp:216-291.  On the throwing paths the function leaves before
`actualSize = newsize` (line 289) is executed. -/
def resize (fresh : Int → UInt8) (b : Buf) (newsize : Int) : Option (Outcome Buf) :=
  if newsize = b.cap then some (.ok b)
  else if b.nw = b.nr then do
    -- 221-223
    let b ← resizeMemory fresh b newsize true
    some (.ok { b with cap := newsize, nw := 0, nr := 0 })
  else if newsize > b.actualSize then do
    -- 224-245
    let b ← resizeMemory fresh b newsize true
    if b.nr < b.nw then
      some (.ok { b with cap := newsize })
    else do
      let readDiff := b.cap - b.nr
      let b' ← moveBytes b (newsize - readDiff) b.nr (b.cap - b.nr)
      some (.ok { b' with nr := newsize - readDiff, cap := newsize })
  else if b.nr < b.nw then
    -- 246-268
    if b.nw ≤ newsize then
      some (.ok { b with cap := newsize, actualSize := newsize })
    else if b.nw - b.nr < newsize then do
      let b' ← moveBytes b 0 b.nr (b.nw - b.nr)
      some (.ok { b' with nr := 0, nw := b.nw - b.nr, cap := newsize, actualSize := newsize })
    else some (.thrown b)
  else
    -- 246-248, 269-288
    let readDiff := b.cap - b.nr
    if readDiff + b.nw < newsize then do
      let b' ← moveBytes b (newsize - readDiff) b.nr (b.cap - b.nr)
      some (.ok { b' with nr := newsize - readDiff, cap := newsize, actualSize := newsize })
    else some (.thrown b)

/-- CircularBuffer.hpp:292. -/
def capacity (b : Buf) : Int := b.raw.capacity

/-- CircularBuffer.hpp:293-296. -/
def isSpaceAvailable (b : Buf) (sz : Int) : Bool := b.raw.isSpaceAvailable sz

/-- CircularBuffer.hpp:297. -/
def empty (b : Buf) : Bool := b.raw.empty

/-- CircularBuffer.hpp:299-302. -/
def push (b : Buf) (data : Option (List UInt8)) (blockSize : Int) : Option (Bool × Buf) :=
  (b.raw.push data blockSize).map fun r => (r.1, b.setRaw r.2)

/-- CircularBuffer.hpp:304. -/
def nextDataSize (b : Buf) : Option Int := b.raw.nextDataSize

/-- CircularBuffer.hpp:306-309. -/
def pop (b : Buf) (maxSize : Int) : Option (Int × Option (List UInt8) × Buf) :=
  (b.raw.pop maxSize).map fun r => (r.1, r.2.1, b.setRaw r.2.2)

/-- CircularBuffer.hpp:311. -/
def clear (b : Buf) : Buf := b.setRaw b.raw.clear

end Buf
end Verif.CircularBuffer
