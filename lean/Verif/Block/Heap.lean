/-
Heap of element blocks used by the StableBlockVector and StableBlockDeque models.

A block is what `Allocator::allocate(blockSize)` returns: `blockSize` cells, each of which
either contains a living object of the element type or does not.  Every operation returns
`none` when the C++ program would have undefined behaviour or would break the object
lifecycle: using or freeing a block that is not allocated, touching a cell outside the
block, reading, assigning or destroying a cell without a living object, constructing over a
living object, freeing a block that still contains living objects.
-/
namespace Verif.Block

/-- `cells b j` is the object living in cell `j` of block `b`; `live b` says that block `b`
is allocated; ids from `next` on have never been allocated. -/
structure Heap (X : Type) where
  cells : Nat → Nat → Option X
  live : Nat → Bool
  next : Nat

namespace Heap
variable {X : Type}

/-- the heap before anything is allocated -/
def empty : Heap X := ⟨fun _ _ => none, fun _ => false, 0⟩

/-- change one cell -/
def setCell (h : Heap X) (b j : Nat) (x : Option X) : Heap X :=
  { h with cells := fun b' j' => if b' = b ∧ j' = j then x else h.cells b' j' }

/-- `a.allocate(blockSize)`; a new block is a block never returned before (the model does not
reuse ids; real allocators reuse addresses only after deallocation). -/
def alloc (h : Heap X) : Nat × Heap X :=
  (h.next, { h with live := fun b => if b = h.next then true else h.live b, next := h.next + 1 })

/-- `a.deallocate(ptr, blockSize)`. -/
def dealloc (bs : Nat) (h : Heap X) (b : Nat) : Option (Heap X) :=
  if h.live b = true ∧ ((List.range bs).all fun j => (h.cells b j).isNone) = true then
    some { h with live := fun b' => if b' = b then false else h.live b' }
  else none

/-- placement new of `x` in a cell -/
def construct (bs : Nat) (h : Heap X) (b j : Nat) (x : X) : Option (Heap X) :=
  if h.live b = true ∧ j < bs ∧ (h.cells b j).isNone = true then some (h.setCell b j (some x)) else none

/-- destructor call on a cell -/
def destroy (bs : Nat) (h : Heap X) (b j : Nat) : Option (Heap X) :=
  if h.live b = true ∧ j < bs ∧ (h.cells b j).isSome = true then some (h.setCell b j none) else none

/-- reading the object in a cell -/
def read (bs : Nat) (h : Heap X) (b j : Nat) : Option X :=
  if h.live b = true ∧ j < bs then h.cells b j else none

/-- assignment to the object in a cell -/
def assign (bs : Nat) (h : Heap X) (b j : Nat) (x : X) : Option (Heap X) :=
  if h.live b = true ∧ j < bs ∧ (h.cells b j).isSome = true then some (h.setCell b j (some x)) else none

end Heap

/-- An array of block pointers (`X**`) obtained from `new X*[n]`: its entries start out
indeterminate (`none`). -/
abbrev Slots := List (Option Nat)

/-- A possibly null `X**`. -/
abbrev SlotPtr := Option Slots

/-- Reading the block pointer `p[i]` in order to use the block: undefined for a null array, an
index outside the array, or an indeterminate entry. -/
def slotGet (p : SlotPtr) (i : Int) : Option Nat :=
  match p with
  | none => none
  | some l => if 0 ≤ i then (l[i.toNat]?).join else none

/-- `p[i] = b`. -/
def slotSet (p : SlotPtr) (i : Int) (b : Nat) : Option SlotPtr :=
  match p with
  | none => none
  | some l => if 0 ≤ i ∧ i < l.length then some (some (l.set i.toNat (some b))) else none

end Verif.Block
