import Verif.Block.Vector.Model

/-
The repository's unit tests of StableBlockVector (tests/StableBlockVectorTests.cpp) run on the model.  These are tests of the
model, not proofs: `#guard` evaluates them.  A test that reaches undefined behaviour or an expectation that fails yields `none`.
Numbers of elements above 60 are made smaller to keep the evaluation short.  Every test ends with the destructor of its vectors and the check that no block is left (`leak`).
-/
namespace Verif.Block.Vector.UnitTests
open Verif.Block Vec

/-- a test acts on the heap -/
abbrev M (X : Type) := StateT (Heap X) Option

variable {X : Type}

/-- EXPECT_TRUE -/
def expect (b : Bool) : M X Unit := if b then pure () else failure

/-- a member function that changes the vector -/
def upd (f : Heap X → Option (Vec × Heap X)) : M X Vec := fun h => f h

/-- a member function that reads -/
def look {α : Type} (f : Heap X → Option α) : M X α := fun h => (f h).map fun a => (a, h)

/-- an assignment through a reference -/
def write (f : Heap X → Option (Heap X)) : M X Unit := fun h => (f h).map fun h => ((), h)

/-- the number of allocated blocks -/
def open_allocs : M X Nat := fun h => some (((List.range h.next).filter fun b => h.live b).length, h)

def push (N : Nat) (v : Vec) (x : X) : M X Vec := upd fun h => pushBack N v h x

def pushes (N : Nat) (v : Vec) (xs : List X) : M X Vec := xs.foldlM (push N) v

def pops (N : Nat) (v : Vec) (n : Nat) : M X Vec := upd fun h => popN N n v h

/-- EXPECT_EQ(v[i], x) -/
def expAt [BEq X] (N : Nat) (v : Vec) (i : Nat) (x : X) : M X Unit := do
  expect ((← look fun h => get N v h i) == x)

/-- the test succeeds and all blocks have been deallocated -/
def ok (t : M X Unit) : Bool :=
  match (do t; expect ((← open_allocs) == 0) : M X Unit) Heap.empty with
  | some _ => true
  | none => false

/-- the destructor -/
def del (N : Nat) (v : Vec) : M X Unit := write fun h => freeAll N v h

def bob5 : List String := ["bob", "bob2", "bob3", "bob4", "bob5"]

/-- test_lookup and test_const_lookup -/
def test_lookup : M String Unit := do
  let v := default 2
  expect v.empty
  let v ← pushes 2 v bob5
  expect (v.size == 5)
  expAt 2 v 0 "bob"
  expAt 2 v 1 "bob2"
  write fun h => set 2 v h 1 "bob2_mod"
  expAt 2 v 1 "bob2_mod"
  expAt 2 v 2 "bob3"
  expAt 2 v 3 "bob4"
  expAt 2 v 4 "bob5"
  expect ((← look fun h => at? 2 v h 1) == some "bob2_mod")
  expect ((← look fun h => at? 2 v h 4) == some "bob5")
  expect !v.empty
  expect ((← look fun h => at? 2 v h 10) == none)
  del 2 v

#guard ok test_lookup

/-- the steps and expectations of the iterator tests -/
def walk (v : Vec) (it : Iter) : List (Iter → Option Iter × String) → M String Iter
  | [] => pure it
  | s :: ss => do
    let it' ← look fun _ => (s it).1
    expect ((← look fun h => it'.deref 4 h) == (s it).2)
    walk v it' ss

def inc (v : Vec) (x : String) (it : Iter) : Option Iter × String := (it.incr 4 v.dataptr, x)
def dec (v : Vec) (x : String) (it : Iter) : Option Iter × String := (it.decr 4 v.dataptr, x)
def plus (v : Vec) (n : Int) (x : String) (it : Iter) : Option Iter × String := (it.addAssign 4 v.dataptr n, x)
def minus (v : Vec) (n : Int) (x : String) (it : Iter) : Option Iter × String := (it.subAssign 4 v.dataptr n, x)

/-- test_iterator and test_const_iterator -/
def test_iterator : M String Unit := do
  let v ← pushes 2 (default 2) bob5
  let it ← look fun _ => begin? 2 v
  expect ((← look fun h => it.deref 4 h) == "bob")
  let it ← walk v it [inc v "bob2", inc v "bob3", dec v "bob2", plus v 1 "bob3", plus v 2 "bob5", minus v 1 "bob4", dec v "bob3",
    minus v 2 "bob"]
  let e ← look fun _ => end? 2 v
  expect ((← look fun h => Iter.collect 4 v.dataptr h e 6 it).length == 5)
  del 2 v

#guard ok test_iterator

/-- test_iterator2 and test_const_iterator2 -/
def test_iterator2 : M String Unit := do
  let v ← pushes 2 (default 2) (bob5.take 4)
  expect ((← look fun h => back 2 v h) == "bob4")
  let it ← look fun _ => begin? 2 v
  let it ← walk v it [inc v "bob2", inc v "bob3", dec v "bob2", plus v 2 "bob4", dec v "bob3", minus v 2 "bob"]
  let e ← look fun _ => end? 2 v
  expect ((← look fun h => Iter.collect 4 v.dataptr h e 5 it).length == 4)
  del 2 v

#guard ok test_iterator2

/-- test_simple -/
def test_simple : M String Unit := do
  let v ← pushes 2 (default 2) (bob5 ++ ["bob6", "bob7"])
  expect ((← look fun h => back 2 v h) == "bob7")
  let v ← pushes 2 v ["bob8", "bob9", "bob10", "bob11", "bob12", "bob13", "bob14"]
  expect ((← look fun h => iterate 2 v h).length == 14)
  expect (v.size == 14)
  let v ← pops 2 v 4
  expect ((← look fun h => iterate 2 v h).length == 10)
  expect (v.size == 10)
  del 2 v

#guard ok test_simple

/-- assign 0, 1, 2, ... through an iterator -/
def number (bs : Nat) (arr : SlotPtr) (e : Iter) : Nat → Iter → Nat → M Nat Nat
  | 0, _, _ => failure
  | fuel + 1, it, i =>
    if it.ne e then do
      let b ← look fun _ => it.blk
      write fun h => h.assign bs b it.pos.toNat i
      number bs arr e fuel (← look fun _ => it.incr bs arr) (i + 1)
    else pure i

def numbered (N n : Nat) : M Nat Vec := do
  let v ← upd fun h => ofSize N h n 0
  let b ← look fun _ => begin? N v
  let e ← look fun _ => end? N v
  expect ((← number (blockSize N) v.dataptr e (n + 1) b 0) == n)
  return v

/-- iterator_check -/
def iterator_check : M Nat Unit := do
  for sz in (List.range 24).drop 1 do
    let v ← numbered 4 sz
    for i in List.range sz do expAt 4 v i i
    del 4 v

#guard ok iterator_check

/-- the values come out in reverse order -/
def drain (N n : Nat) (v : Vec) (first : Bool) : M Nat Vec := do
  let mut v := v
  for k in List.range n do
    expect ((← look fun h => back N v h) == n - 1 - k)
    if first then expect ((← look fun h => front N v h) == 0)
    v ← pops N v 1
  return v

/-- test_back -/
def test_back : M Nat Unit := do
  let v ← drain 4 50 (← numbered 4 50) true
  let v ← pops 4 v 1
  del 4 v

#guard ok test_back

/-- constructor1, constructor0, copy_constructor, copy_construct_empty, move_constructor -/
def constructors : M String Unit := do
  let v ← upd fun h => ofSize 7 h 15 "s"
  expect (v.size == 15)
  for i in List.range 15 do expAt 7 v i "s"
  let v0 ← upd fun h => ofSize 7 h 0 "s"
  expect (v0.empty && v0.size == 0)
  del 7 v0
  let v2 ← upd fun h => copyCtor 7 v h
  expect (v2.size == 15)
  for i in List.range 15 do expAt 7 v2 i "s"
  del 7 v2
  let d ← upd fun h => copyCtor 4 (default 4) h
  expect d.empty
  let c ← upd fun h => clear 4 d h
  expect (c.size == 0)
  del 4 c
  let (m, v) := moveCtor v
  expect (m.size == 15)
  for i in List.range 15 do expAt 7 m i "s"
  expect v.empty
  del 7 m
  del 7 v

#guard ok constructors

/-- move_assign -/
def move_assign : M Nat Unit := do
  let v2 ← upd fun h => ofSize 4 h 30 0
  let v ← numbered 4 60
  let (v2, v) ← fun h => (moveAssign 4 v2 v h).map fun r => ((r.1, r.2.1), r.2.2)
  del 4 v
  expect (v2.size == 60)
  del 4 (← drain 4 60 v2 true)

#guard ok move_assign

/-- assign_move, assign_move_to_empty, assign_move_to_bigger -/
def assign_move : M String Unit := do
  for n in [some 30, none, some 90] do
    let v ← match n with
      | some n => upd fun h => ofSize 5 h n "b"
      | none => pure (default 5)
    let v ← upd fun h => assign 5 v h (List.replicate 60 "a")
    expect (v.size == 60)
    let mut w := v
    for _ in List.range 60 do
      expect ((← look fun h => back 5 w h) == "a")
      w ← pops 5 w 1
    del 5 w

#guard ok assign_move

/-- copy_assign, copy_assign_from_empty, copy_assign_to_bigger -/
def copy_assign : M Nat Unit := do
  for n in [some 30, none, some 90] do
    let v2 ← match n with
      | some n => upd fun h => ofSize 4 h n 5
      | none => pure (default 4)
    let v ← numbered 4 60
    let v2 ← upd fun h => copyAssign 4 v2 v h
    expect (v2.size == 60)
    del 4 (← drain 4 60 v2 true)
    del 4 v

#guard ok copy_assign

/-- clear_and_fill, fill_large_back, iterators -/
def fill : M Nat Unit := do
  let v ← upd fun h => ofSize 4 h 50 0
  expect (v.size == 50)
  let v ← upd fun h => clear 4 v h
  expect (v.size == 0)
  let v ← pushes 4 v (List.range 100)
  expect (v.size == 100)
  del 4 v
  let v ← upd fun h => ofSize 4 h 50 999999999
  let v ← pushes 4 v (List.range 100)
  expect (v.size == 150)
  let v ← pops 4 v 100
  expect (v.size == 50)
  del 4 v
  let mut w := default 3
  expect ((← look fun _ => begin? 3 w).eq (← look fun _ => end? 3 w))
  for i in List.range 20 do
    w ← push 3 w i
    expect ((← look fun h => iterate 3 w h).length == i + 1)
  del 3 w

#guard ok fill

/-- shrink_to_fit -/
def shrink_to_fit : M Nat Unit := do
  let v ← upd fun h => ofSize 3 h 90 999999
  let current ← open_allocs
  expect (current > 90 / 8)
  let v ← upd fun h => clear 3 v h
  expect ((← open_allocs) == current)
  let v ← upd fun h => shrinkToFit 3 v h
  expect ((← open_allocs) == 1)
  del 3 v

#guard ok shrink_to_fit

/-- iterator_tests -/
def iterator_tests : M String Unit := do
  let v ← upd fun h => ofSize 3 h 20 ""
  for i in List.range 20 do
    write fun h => set 3 v h i (String.singleton (Char.ofNat (97 + i)))
  let it ← look fun _ => begin? 3 v
  let it ← look fun _ => it.add 8 v.dataptr 2
  expect ((← look fun h => it.deref 8 h) == "c")
  let it ← look fun _ => it.addAssign 8 v.dataptr 7
  expect ((← look fun h => it.deref 8 h) == "j")
  let it ← look fun _ => it.sub 8 v.dataptr 4
  expect ((← look fun h => it.deref 8 h) == "f")
  del 3 v

#guard ok iterator_tests

end Verif.Block.Vector.UnitTests
