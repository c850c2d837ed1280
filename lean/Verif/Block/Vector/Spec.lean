import Verif.Block.Vector.Model

/-
Specification of programs using several StableBlockVector objects: an object is a plain sequence.
-/
namespace Verif.Block.Vector
open Verif.Block

/-- Calls of a client; `i` and `j` name objects. -/
inductive Op (X : Type) where
  | new (i : Nat)                       -- StableBlockVector v
  | newSize (i n : Nat) (x : X)         -- StableBlockVector v(n, x)
  | copyNew (i j : Nat)                 -- StableBlockVector vi(vj)
  | moveNew (i j : Nat)                 -- StableBlockVector vi(std::move(vj))
  | copyAssign (i j : Nat)              -- vi = vj
  | moveAssign (i j : Nat)              -- vi = std::move(vj)
  | destroy (i : Nat)                   -- end of life
  | push (i : Nat) (x : X)              -- push_back / emplace_back
  | pop (i : Nat)                       -- pop_back
  | assign (i : Nat) (xs : List X)      -- assign(first, last)
  | assignRange (i j lo hi : Nat)       -- vi.assign(vj.begin() + lo, vj.begin() + hi)
  | moveRange (i j lo hi : Nat) (left : List X) -- vi.move_assign(vj.begin() + lo, vj.begin() + hi); moving from
                                        -- the elements leaves the values `left` in them
  | clear (i : Nat)
  | shrink (i : Nat)                    -- shrink_to_fit
  | set (i k : Nat) (x : X)             -- v[k] = x
  | size (i : Nat)
  | empty (i : Nat)
  | get (i k : Nat)                     -- v[k]
  | at (i k : Nat)
  | front (i : Nat)
  | back (i : Nat)
  | iterate (i : Nat)                   -- collect *it for it from begin() to end()
deriving DecidableEq

/-- What the client sees. -/
inductive Obs (X : Type) where
  | done
  | num (n : Nat)
  | bool (b : Bool)
  | val (x : X)
  | vals (xs : List X)
  | threw
deriving DecidableEq

/-- An ideal object: its elements; `moved` records that it has been moved from; `reserved` is the
number of blocks whose pointers fit in the memory it has reserved (0, then 64 or what the
sized constructor needs, then doubled each time it is exhausted). `reserved` and `moved`
influence no ideal result, they only serve to say which calls are excluded in `careful`. -/
structure AObj (X : Type) where
  elems : List X
  reserved : Nat
  moved : Bool
deriving DecidableEq

/-- reserved block slots after one push on an object with `len` elements -/
def reservePush (N reserved len : Nat) : Nat :=
  if len = reserved * 2 ^ N then (if reserved = 0 then 64 else reserved * 2) else reserved

/-- ... after `n` pushes -/
def reservePushes (N reserved len : Nat) : Nat → Nat
  | 0 => reserved
  | n + 1 => reservePushes N (reservePush N reserved len) (len + 1) n

abbrev AWorld (X : Type) := Nat → Option (AObj X)

/-- update of one object -/
def upd {α : Type} (w : Nat → Option α) (i : Nat) (a : Option α) : Nat → Option α :=
  fun k => if k = i then a else w k

variable {X : Type}

/-- One call on ideal sequences: the whole intended behaviour.  `none`: the client breaks a
precondition every C++ sequence has (no such object, index or range out of range, front of an empty
sequence, moving an object or element to itself). A moved-from object is an empty sequence. -/
def ideal (N : Nat) (w : AWorld X) : Op X → Option (AWorld X × Obs X)
  | .new i => if (w i).isNone then some (upd w i (some ⟨[], 0, false⟩), .done) else none
  | .newSize i n x => if (w i).isNone then
      some (upd w i (some ⟨List.replicate n x, max (n / 2 ^ N + 1) 64, false⟩), .done) else none
  | .copyNew i j => if (w i).isNone then (w j).map fun a => (upd w i (some { a with moved := false }), .done) else none
  | .moveNew i j => if (w i).isNone then
      (w j).map fun a => (upd (upd w i (some a)) j (some ⟨[], 0, true⟩), .done) else none
  | .copyAssign i j => (w i).bind fun a => (w j).map fun b =>
      (upd w i (some ⟨b.elems, reservePushes N a.reserved a.elems.length (b.elems.length - a.elems.length),
        a.moved⟩), .done)
  | .moveAssign i j => if i = j then none else (w i).bind fun _ => (w j).map fun b =>
      (upd (upd w i (some b)) j (some ⟨[], 0, true⟩), .done)
  | .destroy i => (w i).map fun _ => (upd w i none, .done)
  | .push i x => (w i).map fun a =>
      (upd w i (some ⟨a.elems ++ [x], reservePush N a.reserved a.elems.length, a.moved⟩), .done)
  | .pop i => (w i).map fun a => (upd w i (some { a with elems := a.elems.dropLast }), .done)
  | .assign i xs => (w i).map fun a =>
      (upd w i (some ⟨xs, reservePushes N a.reserved a.elems.length (xs.length - a.elems.length), a.moved⟩), .done)
  | .assignRange i j lo hi => (w i).bind fun a => (w j).bind fun b =>
      if lo ≤ hi ∧ hi ≤ b.elems.length then
        some (upd w i (some ⟨(b.elems.take hi).drop lo,
          reservePushes N a.reserved a.elems.length (hi - lo - a.elems.length), a.moved⟩), .done)
      else none
  | .moveRange i j lo hi left => (w i).bind fun a => (w j).bind fun b =>
      if lo ≤ hi ∧ hi ≤ b.elems.length ∧ left.length = hi - lo then
        if i = j then
          if 0 < lo then some (upd w i (some { a with elems := (a.elems.take hi).drop lo }), .done) else none
        else
          some (upd (upd w i (some ⟨(b.elems.take hi).drop lo,
            reservePushes N a.reserved a.elems.length (hi - lo - a.elems.length), a.moved⟩))
            j (some { b with elems := b.elems.take lo ++ left ++ b.elems.drop hi }), .done)
      else none
  | .clear i => (w i).map fun a => (upd w i (some { a with elems := [] }), .done)
  | .shrink i => (w i).map fun _ => (w, .done)
  | .set i k x => (w i).bind fun a =>
      if k < a.elems.length then some (upd w i (some { a with elems := a.elems.set k x }), .done) else none
  | .size i => (w i).map fun a => (w, .num a.elems.length)
  | .empty i => (w i).map fun a => (w, .bool a.elems.isEmpty)
  | .get i k => (w i).bind fun a => (a.elems[k]?).map fun x => (w, .val x)
  | .at i k => (w i).map fun a => (w, match a.elems[k]? with | some x => .val x | none => .threw)
  | .front i => (w i).bind fun a => a.elems.head?.map fun x => (w, .val x)
  | .back i => (w i).bind fun a => a.elems.getLast?.map fun x => (w, .val x)
  | .iterate i => (w i).map fun a => (w, .vals a.elems)

/-- `begin()`/`end()` are well behaved: not all reserved block slots are completely full. -/
def AObj.iterable (N : Nat) (a : AObj X) : Bool :=
  decide (a.reserved = 0 ∨ a.elems.length < a.reserved * 2 ^ N)

/-- Calls the code handles: excluded are (1) any call but destruction and being the target of a
move assignment on a moved-from object, (2) iterating over or copying from an object whose
reserved block slots are exactly full, or assigning from a range that ends at the end of such an object,
(3) copy-constructing from an empty object that has reserved memory.  Each exclusion is witnessed in Props. -/
def careful (N : Nat) (w : AWorld X) : Op X → Bool
  | .new _ => true
  | .newSize _ _ _ => true
  | .copyNew _ j => (w j).any fun a => !a.moved && a.iterable N && (decide (a.elems ≠ []) || decide (a.reserved = 0))
  | .moveNew _ j => (w j).any fun a => !a.moved
  | .copyAssign i j => ((w i).any fun a => !a.moved) && ((w j).any fun a => !a.moved && a.iterable N)
  | .moveAssign _ j => (w j).any fun a => !a.moved
  | .assignRange i j _ hi | .moveRange i j _ hi _ => ((w i).any fun a => !a.moved) &&
      ((w j).any fun a => !a.moved && decide (a.reserved = 0 ∨ hi < a.reserved * 2 ^ N))
  | .destroy _ => true
  | .iterate i => (w i).any fun a => !a.moved && a.iterable N
  | .push i _ | .pop i | .assign i _ | .clear i | .shrink i | .set i _ _ | .size i | .empty i | .get i _
  | .at i _ | .front i | .back i => (w i).any fun a => !a.moved

/-- The specification's run of a program: final objects and observations. -/
def idealRun (N : Nat) : AWorld X → List (Op X) → Option (AWorld X × List (Obs X))
  | w, [] => some (w, [])
  | w, op :: ops => (ideal N w op).bind fun r => (idealRun N r.1 ops).map fun s => (s.1, r.2 :: s.2)

/-- All calls of the program are careful ones. -/
def carefulRun (N : Nat) : AWorld X → List (Op X) → Bool
  | _, [] => true
  | w, op :: ops => careful N w op && (match ideal N w op with | some r => carefulRun N r.1 ops | none => false)

/-! ### Execution of the model -/

/-- Objects and the heap of element blocks. -/
structure World (X : Type) where
  objs : Nat → Option Vec
  heap : Heap X

def World.empty : World X := ⟨fun _ => none, Heap.empty⟩

/-- One call on the modelled code; `none` is undefined behaviour (or a leaked or doubly destroyed
element). -/
def exec (N : Nat) (w : World X) : Op X → Option (World X × Obs X)
  | .new i => some (⟨upd w.objs i (some (Vec.default N)), w.heap⟩, .done)
  | .newSize i n x => (Vec.ofSize N w.heap n x).map fun r => (⟨upd w.objs i (some r.1), r.2⟩, .done)
  | .copyNew i j => (w.objs j).bind fun v => (v.copyCtor N w.heap).map fun r =>
      (⟨upd w.objs i (some r.1), r.2⟩, .done)
  | .moveNew i j => (w.objs j).map fun v =>
      (⟨upd (upd w.objs i (some v.moveCtor.1)) j (some v.moveCtor.2), w.heap⟩, .done)
  | .copyAssign i j => (w.objs i).bind fun a => (w.objs j).bind fun b => (Vec.copyAssign N a b w.heap).map fun r =>
      (⟨upd w.objs i (some r.1), r.2⟩, .done)
  | .moveAssign i j => (w.objs i).bind fun a => (w.objs j).bind fun b => (Vec.moveAssign N a b w.heap).map fun r =>
      (⟨upd (upd w.objs i (some r.1)) j (some r.2.1), r.2.2⟩, .done)
  | .destroy i => (w.objs i).bind fun v => (v.freeAll N w.heap).map fun h => (⟨upd w.objs i none, h⟩, .done)
  | .push i x => (w.objs i).bind fun v => (v.pushBack N w.heap x).map fun r => (⟨upd w.objs i (some r.1), r.2⟩, .done)
  | .pop i => (w.objs i).bind fun v => (v.popBack N w.heap).map fun r => (⟨upd w.objs i (some r.1), r.2⟩, .done)
  | .assign i xs => (w.objs i).bind fun v => (v.assign N w.heap xs).map fun r => (⟨upd w.objs i (some r.1), r.2⟩, .done)
  | .assignRange i j lo hi => (w.objs i).bind fun a => (w.objs j).bind fun b =>
      (Vec.assignSub N a b w.heap lo hi fun _ => none).map fun r => (⟨upd w.objs i (some r.1), r.2⟩, .done)
  | .moveRange i j lo hi left => (w.objs i).bind fun a => (w.objs j).bind fun b =>
      (Vec.assignSub N a b w.heap lo hi fun k => left[k]?).map fun r => (⟨upd w.objs i (some r.1), r.2⟩, .done)
  | .clear i => (w.objs i).bind fun v => (v.clear N w.heap).map fun r => (⟨upd w.objs i (some r.1), r.2⟩, .done)
  | .shrink i => (w.objs i).bind fun v => (v.shrinkToFit N w.heap).map fun r => (⟨upd w.objs i (some r.1), r.2⟩, .done)
  | .set i k x => (w.objs i).bind fun v => (v.set N w.heap k x).map fun h => (⟨w.objs, h⟩, .done)
  | .size i => (w.objs i).map fun v => (w, .num v.size)
  | .empty i => (w.objs i).map fun v => (w, .bool v.empty)
  | .get i k => (w.objs i).bind fun v => (v.get N w.heap k).map fun x => (w, .val x)
  | .at i k => (w.objs i).bind fun v => (v.at? N w.heap k).map fun
      | some x => (w, .val x)
      | none => (w, .threw)
  | .front i => (w.objs i).bind fun v => (v.front N w.heap).map fun x => (w, .val x)
  | .back i => (w.objs i).bind fun v => (v.back N w.heap).map fun x => (w, .val x)
  | .iterate i => (w.objs i).bind fun v => (v.iterate N w.heap).map fun xs => (w, .vals xs)

/-- A program run on the modelled code. -/
def run (N : Nat) : World X → List (Op X) → Option (World X × List (Obs X))
  | w, [] => some (w, [])
  | w, op :: ops => (exec N w op).bind fun r => (run N r.1 ops).map fun s => (s.1, r.2 :: s.2)

/-- The address (block, cell) of element `k` of object `i`, i.e. `&v[k]`. -/
def World.addr (N : Nat) (w : World X) (i k : Nat) : Option (Nat × Nat) :=
  (w.objs i).bind fun v => v.cell N k

end Verif.Block.Vector
