import Verif.Block.Vector.Spec
import Verif.Block.Deque.Spec

/-
Programs using StableBlockVector and StableBlockDeque objects of all block sizes together: the calls of
Vector/Spec.lean and Deque/Spec.lean, and `assign` and `move_assign` with a range of an object of another type.
Simplification: all objects have the same element type.
-/
namespace Verif.Block.Mixed
open Verif.Block

/-- An object: `vec N i` is a StableBlockVector and `deq N i` a StableBlockDeque with blocks of 2^N elements. -/
inductive Name where
  | vec (N i : Nat)
  | deq (N i : Nat)
deriving DecidableEq

/-- Calls of a client. -/
inductive Op (X : Type) where
  | vec (N : Nat) (op : Vector.Op X)              -- a call on vectors with blocks of 2^N elements
  | deq (N : Nat) (op : Deque.Op X)               -- a call on deques with blocks of 2^N elements
  | assign (dst src : Name) (lo hi : Nat)         -- dst.assign(src.begin() + lo, src.begin() + hi)
  | move (dst src : Name) (lo hi : Nat) (left : List X) -- dst.move_assign(src.begin() + lo, src.begin() + hi);
                                                  -- moving from the elements leaves the values `left` in them
deriving DecidableEq

/-- What the client sees. -/
inductive Obs (X : Type) where
  | vec (o : Vector.Obs X)
  | deq (o : Deque.Obs X)
  | done
deriving DecidableEq

/-- update of the objects of one type -/
def put {α : Type} (f : Nat → α) (N : Nat) (a : α) : Nat → α := fun M => if M = N then a else f M

variable {X : Type}

/-- The ideal objects are sequences (for vectors with the bookkeeping of Vector/Spec.lean). -/
structure AWorld (X : Type) where
  vecs : Nat → Vector.AWorld X
  deqs : Nat → Deque.AWorld X

/-- no objects -/
abbrev noObjs : AWorld X := ⟨fun _ _ => none, fun _ _ => none⟩

/-- The sequence an object is, if there is such an object. -/
def AWorld.elems (w : AWorld X) : Name → Option (List X)
  | .vec N i => (w.vecs N i).map fun a => a.elems
  | .deq N i => w.deqs N i

/-- An existing object becomes the sequence `xs`. -/
def AWorld.become (w : AWorld X) (n : Name) (xs : List X) : AWorld X :=
  match n with
  | .vec N i => { w with vecs := put w.vecs N (Vector.upd (w.vecs N) i ((w.vecs N i).map fun a =>
      ⟨xs, Vector.reservePushes N a.reserved a.elems.length (xs.length - a.elems.length), a.moved⟩)) }
  | .deq N i => { w with deqs := put w.deqs N (Deque.upd (w.deqs N) i (some xs)) }

/-- One call on ideal sequences: the whole intended behaviour.  `none`: the client breaks a precondition. -/
def ideal (w : AWorld X) : Op X → Option (AWorld X × Obs X)
  | .vec N op => (Vector.ideal N (w.vecs N) op).map fun r => ({ w with vecs := put w.vecs N r.1 }, .vec r.2)
  | .deq N op => (Deque.ideal (w.deqs N) op).map fun r => ({ w with deqs := put w.deqs N r.1 }, .deq r.2)
  | .assign dst src lo hi => (w.elems dst).bind fun _ => (w.elems src).bind fun b =>
      if dst ≠ src ∧ lo ≤ hi ∧ hi ≤ b.length then some (w.become dst ((b.take hi).drop lo), .done) else none
  | .move dst src lo hi left => (w.elems dst).bind fun _ => (w.elems src).bind fun b =>
      if dst ≠ src ∧ lo ≤ hi ∧ hi ≤ b.length ∧ left.length = hi - lo then
        some ((w.become dst ((b.take hi).drop lo)).become src (b.take lo ++ left ++ b.drop hi), .done)
      else none

/-- The specification's run of a program. -/
def idealRun : AWorld X → List (Op X) → Option (AWorld X × List (Obs X))
  | w, [] => some (w, [])
  | w, op :: ops => (ideal w op).bind fun r => (idealRun r.1 ops).map fun s => (s.1, r.2 :: s.2)

/-! ### Execution of the model -/

/-- Objects and the heap of element blocks, which they share. -/
structure World (X : Type) where
  vecs : Nat → Nat → Option Vector.Vec
  deqs : Nat → Nat → Option Deque.Deq
  heap : Heap X

def World.empty : World X := ⟨fun _ _ => none, fun _ _ => none, Heap.empty⟩

/-- `obj.begin() + lo` and `obj.begin() + hi` with the object's block size, slot array and number of elements
(StableBlockVector.hpp:300-306, StableBlockDeque.hpp:419-430, BlockIterator.hpp:74-80 and 94-99). -/
def World.range (w : World X) (lo hi : Nat) : Name → Option (Nat × SlotPtr × Nat × Iter × Iter)
  | .vec N i => (w.vecs N i).bind fun v =>
      (v.begin? N).bind fun b =>
      (b.add (Vector.Vec.blockSize N) v.dataptr lo).bind fun first =>
      (b.add (Vector.Vec.blockSize N) v.dataptr hi).map fun last =>
        (Vector.Vec.blockSize N, v.dataptr, v.csize, first, last)
  | .deq N i => (w.deqs N i).bind fun v =>
      (v.begin? N).bind fun b =>
      (b.add (Deque.blockSize N) v.dataptr lo).bind fun first =>
      (b.add (Deque.blockSize N) v.dataptr hi).map fun last =>
        (Deque.blockSize N, v.dataptr, v.csize, first, last)

/-- `obj.assign(cur, last)` or `obj.move_assign(cur, last)` (StableBlockVector.hpp:174-214,
StableBlockDeque.hpp:253-317) for at most `fuel` rounds of each loop. -/
def World.assignFrom (P : Deque.Pol) (w : World X) (R : InRange X) (fuel : Nat) (s : R.S) : Name → Option (World X)
  | .vec N i => (w.vecs N i).bind fun v => (Vector.Vec.assignFrom N R fuel v w.heap s).map fun r =>
      { w with vecs := put w.vecs N (Vector.upd (w.vecs N) i (some r.1)), heap := r.2 }
  | .deq N i => (w.deqs N i).bind fun v => (Deque.Deq.assignFrom P N R fuel v w.heap s).map fun r =>
      { w with deqs := put w.deqs N (Deque.upd (w.deqs N) i (some r.1)), heap := r.2 }

/-- One call on the modelled code; `none` is undefined behaviour (or a leaked or doubly destroyed element). -/
def exec (P : Deque.Pol) (w : World X) : Op X → Option (World X × Obs X)
  | .vec N op => (Vector.exec N ⟨w.vecs N, w.heap⟩ op).map fun r =>
      ({ w with vecs := put w.vecs N r.1.objs, heap := r.1.heap }, .vec r.2)
  | .deq N op => (Deque.exec P N ⟨w.deqs N, w.heap⟩ op).map fun r =>
      ({ w with deqs := put w.deqs N r.1.objs, heap := r.1.heap }, .deq r.2)
  | .assign dst src lo hi => (w.range lo hi src).bind fun r =>
      (w.assignFrom P (.iter r.1 r.2.1 r.2.2.2.2 fun _ => none) (r.2.2.1 + 1) (0, r.2.2.2.1) dst).map fun w => (w, .done)
  | .move dst src lo hi left => (w.range lo hi src).bind fun r =>
      (w.assignFrom P (.iter r.1 r.2.1 r.2.2.2.2 fun k => left[k]?) (r.2.2.1 + 1) (0, r.2.2.2.1) dst).map fun w => (w, .done)

/-- A program run on the modelled code. -/
def run (P : Deque.Pol) : World X → List (Op X) → Option (World X × List (Obs X))
  | w, [] => some (w, [])
  | w, op :: ops => (exec P w op).bind fun r => (run P r.1 ops).map fun s => (s.1, r.2 :: s.2)

/-! ### Calls the code handles -/

/-- The object can be assigned to: not a moved-from one, and of a deque with elements `end()` can be formed. -/
def target (w : World X) (aw : AWorld X) : Name → Bool
  | .vec N i => (aw.vecs N i).any fun a => !a.moved
  | .deq N i => (w.deqs N i).all fun v => v.usable N && (v.csize == 0 || v.iterable N)

/-- The iterators of the range can be formed: not a moved-from object, and not the end of one that exactly fills its
block slots. -/
def source (w : World X) (aw : AWorld X) (hi : Nat) : Name → Bool
  | .vec N i => (aw.vecs N i).any fun a => !a.moved && decide (a.reserved = 0 ∨ hi < a.reserved * 2 ^ N)
  | .deq N i => (w.deqs N i).all fun v => decide (hi < v.csize) || v.iterable N

/-- As in Vector/Spec.lean and Deque/Spec.lean. -/
def careful (P : Deque.Pol) (w : World X) (aw : AWorld X) : Op X → Bool
  | .vec N op => Vector.careful N (aw.vecs N) op
  | .deq N op => Deque.careful P N ⟨w.deqs N, w.heap⟩ op
  | .assign dst src _ hi => target w aw dst && source w aw hi src
  | .move dst src _ hi _ => target w aw dst && source w aw hi src

/-- Every call of the program is careful when it is made. -/
def carefulRun (P : Deque.Pol) : World X → AWorld X → List (Op X) → Bool
  | _, _, [] => true
  | w, aw, op :: ops => careful P w aw op && (match exec P w op, ideal aw op with
      | some r, some a => carefulRun P r.1 a.1 ops
      | _, _ => true)

end Verif.Block.Mixed
