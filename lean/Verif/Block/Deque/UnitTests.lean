import Verif.Block.Deque.Model

/-
The repository's unit tests of StableBlockDeque (tests/StableBlockDequeTests.cpp) run on the model.  These are tests of the
model, not proofs: `#guard` evaluates them.  A test that reaches undefined behaviour or an expectation that fails yields `none`.
Numbers of elements above 60 are made smaller to keep the evaluation short.  Every test ends with the destructor of its deques and
the check that no block is left (`ok`).
Element types with a destructor (std::string) are used with `PS`, the others with `PN`.
-/
namespace Verif.Block.Deque.UnitTests
open Verif.Block Deq

/-- std::string: the destructor has an effect -/
def PS : Pol := ⟨true, false⟩
/-- size_t -/
def PN : Pol := ⟨true, true⟩

/-- a test acts on the heap -/
abbrev M (X : Type) := StateT (Heap X) Option

variable {X : Type}

/-- EXPECT_TRUE -/
def expect (b : Bool) : M X Unit := if b then pure () else failure

/-- a member function that changes the deque -/
def upd (f : Heap X → Option (Deq × Heap X)) : M X Deq := fun h => f h

/-- a member function that reads -/
def look {α : Type} (f : Heap X → Option α) : M X α := fun h => (f h).map fun a => (a, h)

/-- an assignment through a reference -/
def write (f : Heap X → Option (Heap X)) : M X Unit := fun h => (f h).map fun h => ((), h)

/-- the number of allocated blocks -/
def open_allocs : M X Nat := fun h => some (((List.range h.next).filter fun b => h.live b).length, h)

def pushes (P : Pol) (N : Nat) (v : Deq) (xs : List X) : M X Deq := xs.foldlM (fun v x => upd fun h => pushBack P N v h x) v

def pushesFront (P : Pol) (N : Nat) (v : Deq) (xs : List X) : M X Deq := xs.foldlM (fun v x => upd fun h => pushFront P N v h x) v

def pops (P : Pol) (N : Nat) (v : Deq) (n : Nat) : M X Deq := upd fun h => popN P N n v h

/-- EXPECT_EQ(v[i], x) -/
def expAt [BEq X] (N : Nat) (v : Deq) (i : Nat) (x : X) : M X Unit := do
  expect ((← look fun h => get N v h i) == x)

/-- the test succeeds and all blocks have been deallocated -/
def ok (t : M X Unit) : Bool :=
  match (do t; expect ((← open_allocs) == 0) : M X Unit) Heap.empty with
  | some _ => true
  | none => false

/-- the destructor -/
def del (P : Pol) (N : Nat) (v : Deq) : M X Unit := write fun h => freeAll P N v h

def bob5 : List String := ["bob", "bob2", "bob3", "bob4", "bob5"]

/-- test_lookup, test_lookup_front and test_const_lookup -/
def test_lookup : M String Unit := do
  let v ← pushes PS 2 (default 2) bob5
  let w ← pushesFront PS 2 (default 2) bob5.reverse
  for v in [v, w] do
    expect (v.size == 5)
    for i in List.range 5 do expAt 2 v i (bob5.getD i "")
    write fun h => set 2 v h 1 "bob2_mod"
    expAt 2 v 1 "bob2_mod"
    expAt 2 v 2 "bob3"
    expect !v.empty
    del PS 2 v

#guard ok test_lookup

/-- the steps and expectations of the iterator tests -/
def walk (v : Deq) (it : Iter) : List (Iter → Option Iter × String) → M String Iter
  | [] => pure it
  | s :: ss => do
    let it' ← look fun _ => (s it).1
    expect ((← look fun h => it'.deref 4 h) == (s it).2)
    walk v it' ss

def inc (v : Deq) (x : String) (it : Iter) : Option Iter × String := (it.incr 4 v.dataptr, x)
def dec (v : Deq) (x : String) (it : Iter) : Option Iter × String := (it.decr 4 v.dataptr, x)
def plus (v : Deq) (n : Int) (x : String) (it : Iter) : Option Iter × String := (it.addAssign 4 v.dataptr n, x)
def minus (v : Deq) (n : Int) (x : String) (it : Iter) : Option Iter × String := (it.subAssign 4 v.dataptr n, x)

/-- test_iterator and test_const_iterator -/
def test_iterator : M String Unit := do
  let v ← pushes PS 2 (default 2) bob5
  let it ← look fun _ => begin? 2 v
  expect ((← look fun h => it.deref 4 h) == "bob")
  let it ← walk v it [inc v "bob2", inc v "bob3", dec v "bob2", plus v 1 "bob3", plus v 2 "bob5", minus v 1 "bob4", dec v "bob3",
    minus v 2 "bob"]
  let e ← look fun _ => end? 2 v
  expect ((← look fun h => Iter.collect 4 v.dataptr h e 6 it).length == 5)
  del PS 2 v

#guard ok test_iterator

/-- test_iterator2 and test_const_iterator2 -/
def test_iterator2 : M String Unit := do
  let v ← pushes PS 2 (default 2) (bob5.take 4)
  expect ((← look fun h => backVal 2 v h) == "bob4")
  let it ← look fun _ => begin? 2 v
  let it ← walk v it [inc v "bob2", inc v "bob3", dec v "bob2", plus v 2 "bob4", dec v "bob3", minus v 2 "bob"]
  let e ← look fun _ => end? 2 v
  expect ((← look fun h => Iter.collect 4 v.dataptr h e 5 it).length == 4)
  del PS 2 v

#guard ok test_iterator2

/-- test_simple -/
def test_simple : M String Unit := do
  let v ← pushes PS 2 (default 2) (bob5 ++ ["bob6", "bob7", "bob8", "bob9", "bob10", "bob11", "bob12", "bob13", "bob14"])
  expect ((← look fun h => iterate 2 v h).length == 14)
  expect (v.size == 14)
  let v ← pops PS 2 v 4
  expect ((← look fun h => iterate 2 v h).length == 10)
  expect (v.size == 10)
  del PS 2 v

#guard ok test_simple

/-- assign 0, 1, 2, ... through an iterator -/
def number (bs : Nat) (arr : SlotPtr) (e : Iter) : Nat → Iter → Nat → M Nat Nat
  | 0, _, _ => failure
  | fuel + 1, it, i =>
    if it.ne e then do
      let b ← look fun _ => it.blk
      write fun h => h.assign bs b it.pos.toNat i
      number bs arr e fuel (← look fun _ => it.incr bs arr) (i + 1)
    else pure i

def numbered (N n : Nat) : M Nat Deq := do
  let v ← upd fun h => ofSize N h n 0
  let b ← look fun _ => begin? N v
  let e ← look fun _ => end? N v
  expect ((← number (blockSize N) v.dataptr e (n + 1) b 0) == n)
  return v

/-- iterator_check -/
def iterator_check : M Nat Unit := do
  for sz in (List.range 24).drop 1 do
    let v ← numbered 4 sz
    for i in List.range sz do expAt 4 v i i
    del PN 4 v

#guard ok iterator_check

/-- test_start -/
def test_start : M String Unit := do
  let v ← upd fun h => ofSize 4 h 67 "frog"
  expect (v.size == 67)
  expAt 4 v 31 "frog"
  expAt 4 v 0 "frog"
  expAt 4 v 66 "frog"
  del PS 4 v
  let v3 ← upd fun h => ofSize 2 h 20 ""
  expect (v3.size == 20)
  expAt 2 v3 19 ""
  expAt 2 v3 0 ""
  del PS 2 v3
  let v2 ← upd fun h => ofSize 2 h 0 "frog"
  expect (v2.size == 0)
  del PS 2 v2

#guard ok test_start

/-- front and back values are popped together: test_front_back and the ends of the following tests -/
def drain (n : Nat) (v : Deq) : M Nat Deq := do
  let mut v := v
  for k in List.range (n / 2) do
    expect ((← look fun h => backVal 4 v h) == n - 1 - k)
    expect ((← look fun h => frontVal 4 v h) == k)
    expAt 4 v 0 k
    let b ← look fun _ => begin? 4 v
    expect ((← look fun h => b.deref 16 h) == k)
    v ← upd fun h => popFront PN 4 v h
    v ← pops PN 4 v 1
  return v

/-- test_front_back -/
def test_front_back : M Nat Unit := do
  let v ← drain 60 (← numbered 4 60)
  let v ← upd fun h => popFront PN 4 v h
  let v ← pops PN 4 v 1
  del PN 4 v

#guard ok test_front_back

/-- move_construct, copy_construct -/
def construct : M Nat Unit := do
  let v ← numbered 4 60
  let v2 ← upd fun h => copyCtor PN 4 v h
  expect (v2.size == 60)
  del PN 4 (← drain 60 v2)
  let (m, v) := moveCtor v
  del PN 4 v
  expect (m.size == 60)
  del PN 4 (← drain 60 m)

#guard ok construct

/-- copy_construct_empty -/
def copy_construct_empty : M Nat Unit := do
  let v := default 4
  expect v.empty
  let v ← upd fun h => clear PN 4 v h
  expect v.empty
  let v2 ← upd fun h => copyCtor PN 4 v h
  expect (v2.size == v.size && v2.size == 0)
  let v2 ← upd fun h => clear PN 4 v2 h
  expect (v2.size == v.size && v2.size == 0)
  del PN 4 v2
  del PN 4 v

#guard ok copy_construct_empty

/-- move_assign -/
def move_assign : M Nat Unit := do
  let v2 ← upd fun h => ofSize 4 h 30 0
  let v ← numbered 4 60
  let (v2, v) ← fun h => (moveAssign PN 4 v2 v h).map fun r => ((r.1, r.2.1), r.2.2)
  del PN 4 v
  expect (v2.size == 60)
  del PN 4 (← drain 60 v2)

#guard ok move_assign

/-- assign_move, assign_move_to_empty, assign_move_to_bigger -/
def assign_move : M String Unit := do
  for n in [some 30, none, some 90] do
    let v ← match n with
      | some n => upd fun h => ofSize 5 h n "b"
      | none => pure (default 5)
    let v ← upd fun h => assign PS 5 v h (List.replicate 60 "a")
    expect (v.size == 60)
    let mut w := v
    for _ in List.range 30 do
      expect ((← look fun h => backVal 5 w h) == "a")
      expect ((← look fun h => frontVal 5 w h) == "a")
      w ← upd fun h => popFront PS 5 w h
      w ← pops PS 5 w 1
    del PS 5 w

#guard ok assign_move

/-- copy_assign, copy_assign_from_empty, copy_assign_to_bigger -/
def copy_assign : M Nat Unit := do
  for n in [some 30, none, some 90] do
    let v2 ← match n with
      | some n => upd fun h => ofSize 4 h n 5
      | none => pure (default 4)
    let v ← numbered 4 60
    let v2 ← upd fun h => copyAssign PN 4 v2 v h
    expect (v2.size == 60)
    del PN 4 (← drain 60 v2)
    del PN 4 v

#guard ok copy_assign

/-- clear_and_fill, fill_large_back, fill_large_front, iterators -/
def fill : M Nat Unit := do
  let v ← upd fun h => ofSize 4 h 50 0
  expect (v.size == 50)
  let v ← upd fun h => clear PN 4 v h
  expect (v.size == 0)
  let mut f := v
  for i in List.range 50 do
    f ← pushes PN 4 f [i]
    f ← pushesFront PN 4 f [i]
  expect (f.size == 100)
  del PN 4 f
  let v ← upd fun h => ofSize 4 h 50 999999999
  let v ← pushes PN 4 v (List.range 100)
  expect (v.size == 150)
  let v ← pops PN 4 v 100
  expect (v.size == 50)
  del PN 4 v
  let v ← upd fun h => ofSize 4 h 50 999999999
  let v ← pushesFront PN 4 v (List.range 100)
  expect (v.size == 150)
  let mut g := v
  for _ in List.range 100 do g ← upd fun h => popFront PN 4 g h
  expect (g.size == 50)
  del PN 4 g
  let mut w := default 3
  expect ((← look fun _ => begin? 3 w).eq (← look fun _ => end? 3 w))
  for i in List.range 20 do
    w ← pushes PN 3 w [i]
    expect ((← look fun h => iterate 3 w h).length == i + 1)
  del PN 3 w

#guard ok fill

/-- shrink_to_fit -/
def shrink_to_fit : M Nat Unit := do
  let v ← upd fun h => ofSize 3 h 90 999999
  let current ← open_allocs
  expect (current > 90 / 8)
  let v ← upd fun h => clear PN 3 v h
  expect ((← open_allocs) == current)
  let v ← upd fun h => shrinkToFit 3 v h
  expect ((← open_allocs) == 1)
  del PN 3 v

#guard ok shrink_to_fit

end Verif.Block.Deque.UnitTests
