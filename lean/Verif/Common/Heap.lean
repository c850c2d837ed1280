import Verif.Common.Bytes

/-
The memory blocks that `new unsigned char[n]` and `delete[]` manage, used by the models of the owning buffer classes with
pointers (`StackBuffer/Heap.lean`, `CircularBuffer/Heap.lean`).
-/
namespace Verif

/-- Allocated blocks by number.  A pointer is a block number or null (`none`); pointers into a block are offsets. -/
structure Heap where
  blk : Nat → Option Mem
  next : Nat

namespace Heap

/-- nothing has been allocated -/
def init : Heap := ⟨fun _ => none, 0⟩

/-- `new unsigned char[n]`: a block that has never been used before. -/
def alloc (h : Heap) (m : Mem) : Heap := ⟨fun p => if p = h.next then some m else h.blk p, h.next + 1⟩

/-- `delete[]`: nothing for the null pointer, undefined (`none`) for a block that is not allocated (any more). -/
def free (h : Heap) : Option Nat → Option Heap
  | none => some h
  | some p => if (h.blk p).isSome then some { h with blk := fun q => if q = p then none else h.blk q } else none

/-- the bytes that can be accessed through a pointer: none through the null pointer or after `delete[]` -/
def get (h : Heap) : Option Nat → Mem
  | none => Mem.null
  | some p => (h.blk p).getD Mem.null

/-- the bytes of an allocated block change -/
def set (h : Heap) : Option Nat → Mem → Heap
  | none, _ => h
  | some p, m => { h with blk := fun q => if q = p then (h.blk p).map fun _ => m else h.blk q }

end Heap
end Verif
