import Verif.Block.Deque.Model

/-
Specification of programs using several StableBlockDeque objects: an object is a plain sequence.
-/
namespace Verif.Block.Deque
open Verif.Block

/-- Calls of a client; `i` and `j` name objects. -/
inductive Op (X : Type) where
  | new (i : Nat)                       -- StableBlockDeque v
  | newSize (i n : Nat) (x : X)         -- StableBlockDeque v(n, x)
  | copyNew (i j : Nat)                 -- StableBlockDeque vi(vj)
  | moveNew (i j : Nat)                 -- StableBlockDeque vi(std::move(vj))
  | copyAssign (i j : Nat)              -- vi = vj
  | moveAssign (i j : Nat)              -- vi = std::move(vj)
  | destroy (i : Nat)                   -- end of life
  | push (i : Nat) (x : X)              -- push_back / emplace_back
  | pushFront (i : Nat) (x : X)         -- push_front / emplace_front
  | pop (i : Nat)                       -- pop_back
  | popFront (i : Nat)                  -- pop_front
  | assign (i : Nat) (xs : List X)      -- assign(first, last)
  | assignRange (i j lo hi : Nat)       -- vi.assign(vj.begin() + lo, vj.begin() + hi)
  | moveRange (i j lo hi : Nat) (left : List X) -- vi.move_assign(vj.begin() + lo, vj.begin() + hi); moving from
                                        -- the elements of the range leaves the values `left` in them
  | clear (i : Nat)
  | shrink (i : Nat)                    -- shrink_to_fit
  | set (i k : Nat) (x : X)             -- v[k] = x
  | size (i : Nat)
  | empty (i : Nat)
  | get (i k : Nat)                     -- v[k]
  | at (i k : Nat)
  | front (i : Nat)
  | back (i : Nat)
  | iterate (i : Nat)                   -- collect *it for it from begin() to end()
deriving DecidableEq

/-- What the client sees. -/
inductive Obs (X : Type) where
  | done
  | num (n : Nat)
  | bool (b : Bool)
  | val (x : X)
  | vals (xs : List X)
  | threw
deriving DecidableEq

/-- The ideal objects are sequences. -/
abbrev AWorld (X : Type) := Nat → Option (List X)

/-- update of one object -/
def upd {α : Type} (w : Nat → Option α) (i : Nat) (a : Option α) : Nat → Option α :=
  fun k => if k = i then a else w k

variable {X : Type}

/-- One call on ideal sequences: the whole intended behaviour.  `none`: the client breaks a
precondition every C++ sequence has (no such object, index out of range, front of an empty
sequence, self move, moving a range of a deque onto the same place in it).  A moved-from object is an empty sequence; `pop` on an empty deque does nothing. -/
def ideal (w : AWorld X) : Op X → Option (AWorld X × Obs X)
  | .new i => if (w i).isNone then some (upd w i (some []), .done) else none
  | .newSize i n x => if (w i).isNone then some (upd w i (some (List.replicate n x)), .done) else none
  | .copyNew i j => if (w i).isNone then (w j).map fun a => (upd w i (some a), .done) else none
  | .moveNew i j => if (w i).isNone then
      (w j).map fun a => (upd (upd w i (some a)) j (some []), .done) else none
  | .copyAssign i j => (w i).bind fun _ => (w j).map fun b => (upd w i (some b), .done)
  | .moveAssign i j => if i = j then none else (w i).bind fun _ => (w j).map fun b =>
      (upd (upd w i (some b)) j (some []), .done)
  | .destroy i => (w i).map fun _ => (upd w i none, .done)
  | .push i x => (w i).map fun a => (upd w i (some (a ++ [x])), .done)
  | .pushFront i x => (w i).map fun a => (upd w i (some (x :: a)), .done)
  | .pop i => (w i).map fun a => (upd w i (some a.dropLast), .done)
  | .popFront i => (w i).map fun a => (upd w i (some a.tail), .done)
  | .assign i xs => (w i).map fun _ => (upd w i (some xs), .done)
  | .assignRange i j lo hi => (w i).bind fun _ => (w j).bind fun b =>
      if lo ≤ hi ∧ hi ≤ b.length then some (upd w i (some ((b.take hi).drop lo)), .done) else none
  | .moveRange i j lo hi left => (w i).bind fun _ => (w j).bind fun b =>
      if lo ≤ hi ∧ hi ≤ b.length ∧ left.length = hi - lo then
        if i = j then
          if 0 < lo then some (upd w i (some ((b.take hi).drop lo)), .done) else none
        else some (upd (upd w i (some ((b.take hi).drop lo))) j (some (b.take lo ++ left ++ b.drop hi)), .done)
      else none
  | .clear i => (w i).map fun _ => (upd w i (some []), .done)
  | .shrink i => (w i).map fun _ => (w, .done)
  | .set i k x => (w i).bind fun a => if k < a.length then some (upd w i (some (a.set k x)), .done) else none
  | .size i => (w i).map fun a => (w, .num a.length)
  | .empty i => (w i).map fun a => (w, .bool a.isEmpty)
  | .get i k => (w i).bind fun a => (a[k]?).map fun x => (w, .val x)
  | .at i k => (w i).map fun a => (w, match a[k]? with | some x => .val x | none => .threw)
  | .front i => (w i).bind fun a => a.head?.map fun x => (w, .val x)
  | .back i => (w i).bind fun a => a.getLast?.map fun x => (w, .val x)
  | .iterate i => (w i).map fun a => (w, .vals a)

/-- The specification's run of a program: final objects and observations. -/
def idealRun : AWorld X → List (Op X) → Option (AWorld X × List (Obs X))
  | w, [] => some (w, [])
  | w, op :: ops => (ideal w op).bind fun r => (idealRun r.1 ops).map fun s => (s.1, r.2 :: s.2)

/-- Where element `n` of object `k` is found after the call, if it is not removed by it. -/
def Op.newIdx (k n : Nat) : Op X → Option Nat
  | .pushFront i _ => some (if i = k then n + 1 else n)
  | .popFront i => if i = k then (if n = 0 then none else some (n - 1)) else some n
  | _ => some n

/-- Calls after which object `i` is a different object (created, moved or destroyed). -/
def Op.rebinds (i : Nat) : Op X → Prop
  | .new k => k = i
  | .newSize k _ _ => k = i
  | .copyNew k _ => k = i
  | .moveNew k l => k = i ∨ l = i
  | .moveAssign k l => k = i ∨ l = i
  | .destroy k => k = i
  | _ => False

/-! ### Execution of the model -/

/-- Objects and the heap of element blocks. -/
structure World (X : Type) where
  objs : Nat → Option Deq
  heap : Heap X

def World.empty : World X := ⟨fun _ => none, Heap.empty⟩

/-- One call on the modelled code; `none` is undefined behaviour (or a leaked or doubly destroyed
element). -/
def exec (P : Pol) (N : Nat) (w : World X) : Op X → Option (World X × Obs X)
  | .new i => some (⟨upd w.objs i (some (Deq.default N)), w.heap⟩, .done)
  | .newSize i n x => (Deq.ofSize N w.heap n x).map fun r => (⟨upd w.objs i (some r.1), r.2⟩, .done)
  | .copyNew i j => (w.objs j).bind fun v => (Deq.copyCtor P N v w.heap).map fun r =>
      (⟨upd w.objs i (some r.1), r.2⟩, .done)
  | .moveNew i j => (w.objs j).map fun v =>
      (⟨upd (upd w.objs i (some v.moveCtor.1)) j (some v.moveCtor.2), w.heap⟩, .done)
  | .copyAssign i j => (w.objs i).bind fun a => (w.objs j).bind fun b => (Deq.copyAssign P N a b w.heap).map fun r =>
      (⟨upd w.objs i (some r.1), r.2⟩, .done)
  | .moveAssign i j => (w.objs i).bind fun a => (w.objs j).bind fun b => (Deq.moveAssign P N a b w.heap).map fun r =>
      (⟨upd (upd w.objs i (some r.1)) j (some r.2.1), r.2.2⟩, .done)
  | .destroy i => (w.objs i).bind fun v => (v.freeAll P N w.heap).map fun h => (⟨upd w.objs i none, h⟩, .done)
  | .push i x => (w.objs i).bind fun v => (v.pushBack P N w.heap x).map fun r => (⟨upd w.objs i (some r.1), r.2⟩, .done)
  | .pushFront i x => (w.objs i).bind fun v => (v.pushFront P N w.heap x).map fun r => (⟨upd w.objs i (some r.1), r.2⟩, .done)
  | .pop i => (w.objs i).bind fun v => (v.popBack P N w.heap).map fun r => (⟨upd w.objs i (some r.1), r.2⟩, .done)
  | .popFront i => (w.objs i).bind fun v => (v.popFront P N w.heap).map fun r => (⟨upd w.objs i (some r.1), r.2⟩, .done)
  | .assign i xs => (w.objs i).bind fun v => (v.assign P N w.heap xs).map fun r => (⟨upd w.objs i (some r.1), r.2⟩, .done)
  | .assignRange i j lo hi => (w.objs i).bind fun a => (w.objs j).bind fun b =>
      (a.assignSub P N b w.heap lo hi fun _ => none).map fun r => (⟨upd w.objs i (some r.1), r.2⟩, .done)
  | .moveRange i j lo hi left => (w.objs i).bind fun a => (w.objs j).bind fun b =>
      (a.assignSub P N b w.heap lo hi fun k => left[k]?).map fun r => (⟨upd w.objs i (some r.1), r.2⟩, .done)
  | .clear i => (w.objs i).bind fun v => (v.clear P N w.heap).map fun r => (⟨upd w.objs i (some r.1), r.2⟩, .done)
  | .shrink i => (w.objs i).bind fun v => (v.shrinkToFit N w.heap).map fun r => (⟨upd w.objs i (some r.1), r.2⟩, .done)
  | .set i k x => (w.objs i).bind fun v => (v.set N w.heap k x).map fun h => (⟨w.objs, h⟩, .done)
  | .size i => (w.objs i).map fun v => (w, .num v.size)
  | .empty i => (w.objs i).map fun v => (w, .bool v.empty)
  | .get i k => (w.objs i).bind fun v => (v.get N w.heap k).map fun x => (w, .val x)
  | .at i k => (w.objs i).bind fun v => (v.at? N w.heap k).map fun
      | some x => (w, .val x)
      | none => (w, .threw)
  | .front i => (w.objs i).bind fun v => (v.frontVal N w.heap).map fun x => (w, .val x)
  | .back i => (w.objs i).bind fun v => (v.backVal N w.heap).map fun x => (w, .val x)
  | .iterate i => (w.objs i).bind fun v => (v.iterate N w.heap).map fun xs => (w, .vals xs)

/-- A program run on the modelled code. -/
def run (P : Pol) (N : Nat) : World X → List (Op X) → Option (World X × List (Obs X))
  | w, [] => some (w, [])
  | w, op :: ops => (exec P N w op).bind fun r => (run P N r.1 ops).map fun s => (s.1, r.2 :: s.2)

/-- The address (block, cell) of element `k` of object `i`, i.e. `&v[k]`. -/
def World.addr (N : Nat) (w : World X) (i k : Nat) : Option (Nat × Nat) :=
  (w.objs i).bind fun v => v.cell N k

/-! ### Calls the code handles

The conditions are on the state of the modelled object; each of them is witnessed to be needed in
Props.lean. -/

/-- not a moved-from object with stale members -/
def Deq.usable (N : Nat) (v : Deq) : Bool :=
  v.dataptr.isSome || (v.bsize == (blockSize N : Int) && v.free.idx == 0)

/-- `end()` can be formed: not a moved-from object, and not the last slot of the pointer array with a
full block. -/
def Deq.iterable (N : Nat) (v : Deq) : Bool :=
  if v.dataptr.isSome then !(v.bsize == (blockSize N : Int) && v.back + 1 == (v.avail : Int))
  else v.bsize == (blockSize N : Int)

/-- The pointer shift in `push_front` copies a range onto a later overlapping one. -/
def Deq.overlap (v : Deq) : Bool :=
  decide (v.fsize < 0 ∧ v.front = 0 ∧ v.back < (v.avail : Int) - 5 ∧ ((v.avail : Int) - v.back) / 2 ≤ v.back)

def careful (P : Pol) (N : Nat) (w : World X) : Op X → Bool
  | .newSize _ n _ => n != 0
  | .copyNew _ j => (w.objs j).all fun v => v.dataptr.isSome && v.iterable N
  | .copyAssign i j => ((w.objs i).all fun v => v.usable N && (v.csize == 0 || v.iterable N)) &&
      ((w.objs j).all fun v => v.iterable N)
  | .push i _ => (w.objs i).all fun v => v.usable N
  | .pushFront i _ => (w.objs i).all fun v =>
      (v.dataptr.isSome || (v.free.idx == 0 && decide (1 ≤ N))) && (P.memmove || !v.overlap)
  | .assign i _ => (w.objs i).all fun v => v.usable N && (v.csize == 0 || v.iterable N)
  | .assignRange i j _ hi | .moveRange i j _ hi _ => ((w.objs i).all fun v => v.usable N && (v.csize == 0 || v.iterable N)) &&
      ((w.objs j).all fun v => decide (hi < v.csize) || v.iterable N)
  | .clear i => (w.objs i).all fun v => v.csize == 0 || P.triv || decide (v.front < v.back) || v.fsize == -1
  | .shrink i => (w.objs i).all fun v => v.dataptr.isSome || v.free.idx == 0
  | .iterate i => (w.objs i).all fun v => v.iterable N
  | _ => true

/-- Every call of the program is careful when it is made. -/
def carefulRun (P : Pol) (N : Nat) : World X → List (Op X) → Bool
  | _, [] => true
  | w, op :: ops => careful P N w op && (match exec P N w op with | some r => carefulRun P N r.1 ops | none => true)

end Verif.Block.Deque
