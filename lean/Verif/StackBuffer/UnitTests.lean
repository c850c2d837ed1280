import Verif.StackBuffer.Model

/-
The repository's unit tests of StackBuffer (tests/StackBufferTests.cpp) run on the model.  These are tests of the model, not
proofs: `#guard` evaluates them.  A test that reaches undefined behaviour or an expectation that fails yields `none`.
-/
namespace Verif.StackBuffer.UnitTests

/-- EXPECT_TRUE -/
def expect (b : Bool) : Option Unit := if b then some () else none

def fresh : Int → UInt8 := fun _ => 205

/-- std::vector testData(1024, c) -/
def vec (c : UInt8) : List UInt8 := List.replicate 1024 c

def a : UInt8 := 97
def b : UInt8 := 98
def c : UInt8 := 99

/-- the caller's array after a pop wrote `d` to it -/
def over (td : List UInt8) : Option (List UInt8) → List UInt8
  | none => td
  | some d => d ++ td.drop d.length

/-- push that must return `r` -/
def rpush (s : Raw) (td : List UInt8) (n : Int) (r : Bool) : Option Raw := do
  let (r', s) ← s.push (some td) n
  expect (r' == r)
  return s

/-- pop that must return `r`; also yields the caller's array -/
def rpop (s : Raw) (td : List UInt8) (max r : Int) : Option (List UInt8 × Raw) := do
  let (r', d, s) ← s.pop max
  expect (r' == r)
  return (over td d, s)

def push (s : Buf) (td : List UInt8) (n : Int) (r : Bool) : Option Buf := do
  let (r', s) ← s.push (some td) n
  expect (r' == r)
  return s

def pop (s : Buf) (td : List UInt8) (max r : Int) : Option (List UInt8 × Buf) := do
  let (r', d, s) ← s.pop max
  expect (r' == r)
  return (over td d, s)

/-- resize that must return `r` -/
def resize (s : Buf) (n : Int) (r : Bool) : Option Buf :=
  match s.resize fresh n with
  | some (.ok r' s) => if r' == r then some s else none
  | _ => none

/-- resize that must throw -/
def resizeThrows (s : Buf) (n : Int) : Option Buf :=
  match s.resize fresh n with
  | some (.thrown s) => some s
  | _ => none

/-- EXPECT_EQ(testData[i], c) for all i of the list -/
def at_ (td : List UInt8) (is : List Nat) (c : UInt8) : Option Unit := expect (is.all fun i => td.getD i 0 == c)

/-- lines 15-37 -/
def raw_simple : Option Unit := do
  let s := Raw.init ⟨4096, fresh⟩ 4096
  let (td, s) ← rpop s (vec a) 1024 0
  let s ← rpush s td 571 true
  let td := vec 0
  let (td, s) ← rpop s td 265 (-571)
  let (td, _) ← rpop s td 1024 571
  at_ td [0, 236, 570] a
  at_ td [1023] 0

#guard raw_simple == some ()

/-- lines 39-77 -/
def raw_3_push : Option Unit := do
  let s := Raw.init ⟨4096, fresh⟩ 4096
  let (td, s) ← rpop s (vec a) 1024 0
  let s ← rpush s td 571 true
  let s ← rpush s (vec b) 249 true
  let s ← rpush s (vec c) 393 true
  let (td, s) ← rpop s (vec c) 1024 393
  at_ td [0, 236] c
  let (td, s) ← rpop s td 1024 249
  at_ td [0, 236] b
  expect !s.empty
  let (td, s) ← rpop s td 1024 571
  at_ td [0, 236, 570] a
  expect s.empty
  let (r, _) ← s.push none 0
  expect !r

#guard raw_3_push == some ()

/-- lines 79-134 -/
def raw_push_full : Option Unit := do
  let s := Raw.init ⟨1024, fresh⟩ 1024
  let (td, s) ← rpop s (vec a) 1024 0
  let s ← rpush s td 571 true
  let s ← rpush s (vec b) 249 true
  let s ← rpush s (vec c) 393 false
  expect !(s.isSpaceAvailable 393)
  expect !(s.isSpaceAvailable 200)
  expect (s.isSpaceAvailable 180)
  expect (s.getCurrentCount == 2)
  let s ← rpush s (vec c) 180 true
  let td := vec 100
  expect (s.getCurrentCount == 3)
  let (td, s) ← rpop s td 1024 180
  at_ td [0, 179] c
  at_ td [180] 100
  let (td, s) ← rpop s td 1024 249
  at_ td [0, 236] b
  expect !s.empty
  let (td, s) ← rpop s td 1024 571
  at_ td [0, 236, 570] a
  let (td, s) ← rpop s td 1024 0
  at_ td [0, 236, 570] a
  expect s.empty
  expect (s.nextDataSize == some 0)

#guard raw_push_full == some ()

/-- lines 136-176 -/
def raw_reverse : Option Unit := do
  let s := Raw.init ⟨4096, fresh⟩ 4096
  let s ← rpush s (vec a) 571 true
  let s ← rpush s (vec b) 249 true
  let s ← rpush s (vec c) 393 true
  let s ← s.reverse
  expect (s.nextDataSize == some 571)
  let (td, s) ← rpop s (vec c) 1024 571
  at_ td [0, 236, 570] a
  let (td, s) ← rpop s td 1024 249
  at_ td [0, 236] b
  expect !s.empty
  let (td, s) ← rpop s td 1024 393
  at_ td [0, 236] c
  expect s.empty

#guard raw_reverse == some ()

/-- lines 178-192 -/
def clear : Option Unit := do
  let s ← Buf.ofSize fresh 4096
  let s ← push s (vec a) 571 true
  let s ← push s (vec 0) 245 true
  expect !s.empty
  expect s.clear.empty

#guard clear == some ()

/-- lines 194-215 -/
def swap : Option Unit := do
  let s ← Buf.ofSize fresh 4096
  let s2 ← Buf.ofSize fresh 1092
  let s ← push s (vec a) 571 true
  let s ← push s (vec 0) 245 true
  let s2 ← push s2 (vec 0) 125 true
  let (s, s2) := s.swap s2
  expect (s.getCurrentCount == 1)
  expect (s.nextDataSize == some 125)
  expect (s2.getCurrentCount == 2)
  expect (s2.nextDataSize == some 245)

#guard swap == some ()

/-- lines 217-235 -/
def simple : Option Unit := do
  let s ← Buf.ofSize fresh 4096
  let (td, s) ← pop s (vec a) 1024 0
  let s ← push s td 571 true
  let (td, _) ← pop s (vec 0) 1024 571
  at_ td [0, 236, 570] a
  at_ td [1023] 0

#guard simple == some ()

/-- the three pushes of the tests in lines 237-546 -/
def three (size : Int) : Option Buf := do
  let s ← Buf.ofSize fresh size
  let (td, s) ← pop s (vec a) 1024 0
  let s ← push s td 571 true
  let s ← push s (vec b) 249 true
  push s (vec c) 393 true

/-- the three messages come out, the last one first -/
def pops (s : Buf) : Option Buf := do
  let (td, s) ← pop s (vec c) 1024 393
  at_ td [0, 236] c
  let (td, s) ← pop s td 1024 249
  at_ td [0, 236] b
  expect !s.empty
  let (td, s) ← pop s td 1024 571
  at_ td [0, 236, 570] a
  expect s.empty
  return s

/-- lines 237-271 -/
def push3 : Option Unit := do
  let _ ← pops (← three 4096)

#guard push3 == some ()

/-- lines 273-325 -/
def push_full : Option Unit := do
  let s ← Buf.ofSize fresh 1024
  let s ← push s (vec a) 571 true
  let s ← push s (vec b) 249 true
  let s ← push s (vec c) 393 false
  expect !(s.isSpaceAvailable 393)
  expect !(s.isSpaceAvailable 200)
  expect (s.isSpaceAvailable 180)
  expect (s.getCurrentCount == 2)
  let s ← push s (vec c) 180 true
  expect (s.getCurrentCount == 3)
  let (td, s) ← pop s (vec 100) 1024 180
  at_ td [0, 179] c
  at_ td [180] 100
  let (td, s) ← pop s td 1024 249
  at_ td [0, 236] b
  expect !s.empty
  let (td, s) ← pop s td 1024 571
  at_ td [0, 236, 570] a
  let (td, s) ← pop s td 1024 0
  at_ td [0, 236, 570] a
  expect s.empty

#guard push_full == some ()

/-- lines 327-364 -/
def reverse : Option Unit := do
  let s ← three 4096
  let s ← s.reverse
  let (td, s) ← pop s (vec c) 1024 571
  at_ td [0, 236, 570] a
  let (td, s) ← pop s td 1024 249
  at_ td [0, 236] b
  expect !s.empty
  let (td, s) ← pop s td 1024 393
  at_ td [0, 236] c
  expect s.empty

#guard reverse == some ()

/-- lines 366-385 -/
def move : Option Unit := do
  let s ← Buf.ofSize fresh 2048
  let s ← push s (vec a) 571 true
  let (m, _) := Buf.moveCtor s
  expect (m.getCurrentCount == 1)
  let (td, _) ← pop m (vec 0) 1024 571
  at_ td [0, 236, 570] a
  at_ td [1023] 0

#guard move == some ()

/-- lines 387-442 -/
def copy : Option Unit := do
  let s ← three 4096
  let cs ← Buf.copyCtor fresh s
  let s ← s.reverse
  let cs ← pops cs
  expect cs.empty
  expect !s.empty
  let (td, s) ← pop s (vec a) 1024 571
  at_ td [0, 236, 570] a
  let cs ← Buf.copyAssign fresh cs s
  let (td, _) ← pop cs td 1024 249
  at_ td [0, 236] b
  expect !s.empty

#guard copy == some ()

/-- lines 444-466 -/
def move_assignment : Option Unit := do
  let s ← Buf.ofSize fresh 2048
  let s2 ← Buf.ofSize fresh 1024
  let s ← push s (vec a) 571 true
  let s2 ← push s2 (vec b) 397 true
  let (s2, _) := Buf.moveAssign s2 s
  expect (s2.getCurrentCount == 1)
  let (td, _) ← pop s2 (vec 0) 1024 571
  at_ td [0, 236, 570] a
  at_ td [1023] 0

#guard move_assignment == some ()

/-- lines 468-504 -/
def push3_resize : Option Unit := do
  let s ← three 2048
  let _ ← pops (← resize s 100000 true)

#guard push3_resize == some ()

/-- lines 506-546 -/
def push3_resize_shrink : Option Unit := do
  let s ← three 2048
  let s ← resize s 1400 true
  expect (s.capacity == 1400)
  let s ← resizeThrows s 95
  let _ ← pops s

#guard push3_resize_shrink == some ()

/-- lines 548-563 -/
def resizes : Option Unit := do
  let s ← Buf.ofSize fresh 2048
  expect (s.capacity == 2048)
  let s ← resize s 4096 true
  expect (s.capacity == 4096)
  let s ← resize s 4096 true
  expect (s.capacity == 4096)
  let s ← resize s 2048 true
  expect (s.capacity == 2048)
  expect (s.rawBlockCapacity == 4096)
  let _ ← resize s (-262354) false

#guard resizes == some ()

/-- lines 565-596 -/
def odd_conditions : Option Unit := do
  let s ← Buf.ofSize fresh 1024
  let s ← push s (vec a) 0 false
  let s ← push s (vec a) (-15) false
  let (r, s) ← s.push none 10
  expect !r
  let s ← push s (vec a) 200 true
  expect (s.nextDataSize == some 200)
  let (b3, _) := Buf.moveCtor Buf.default
  let b3 ← resize b3 1024 true
  expect (b3.capacity == 1024)
  let b3 ← resize b3 1024 true
  expect (b3.capacity == 1024)
  let b3 ← resize b3 512 true
  expect (b3.capacity == 512)
  let b3 ← resize b3 512 true
  expect (b3.capacity == 512)
  let b3 ← resize b3 1024 true
  expect (b3.capacity == 1024)
  expect Buf.default.empty
  let b5 ← Buf.copyCtor fresh Buf.default
  expect b5.empty

#guard odd_conditions == some ()

end Verif.StackBuffer.UnitTests
