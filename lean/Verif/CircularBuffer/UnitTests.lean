import Verif.CircularBuffer.Model

/-
The repository's unit tests of CircularBuffer (tests/CircularBufferTests.cpp) run on the model.  These are tests of the model, not
proofs: `#guard` evaluates them.  A test that reaches undefined behaviour or an expectation that fails yields `none`.
-/
namespace Verif.CircularBuffer.UnitTests

/-- EXPECT_TRUE -/
def expect (b : Bool) : Option Unit := if b then some () else none

def fresh : Int → UInt8 := fun _ => 205

def a : UInt8 := 97

/-- std::vector testData(n, c) -/
def vec (n : Nat) (c : UInt8) : List UInt8 := List.replicate n c

/-- the caller's array after a pop wrote `d` to it -/
def over (td : List UInt8) : Option (List UInt8) → List UInt8
  | none => td
  | some d => d ++ td.drop d.length

/-- the result of a resize that must not throw -/
def ok : Outcome Buf → Option Buf
  | .ok b => some b
  | .thrown _ => none

/-- the buffer after a resize that must throw -/
def thrown : Outcome Buf → Option Buf
  | .ok _ => none
  | .thrown b => some b

/-- push that must return `r` -/
def Raw.pushE (b : Raw) (td : List UInt8) (n : Int) (r : Bool) : Option Raw := do
  let (r', b) ← b.push (some td) n
  expect (r' == r)
  return b

/-- pop that must return `r`; also yields the caller's array -/
def Raw.popE (b : Raw) (td : List UInt8) (max r : Int) : Option (List UInt8 × Raw) := do
  let (r', d, b) ← b.pop max
  expect (r' == r)
  return (over td d, b)

def Buf.pushE (b : Buf) (td : List UInt8) (n : Int) (r : Bool) : Option Buf := do
  let (r', b) ← b.push (some td) n
  expect (r' == r)
  return b

def Buf.popE (b : Buf) (td : List UInt8) (max r : Int) : Option (List UInt8 × Buf) := do
  let (r', d, b) ← b.pop max
  expect (r' == r)
  return (over td d, b)

/-- lines 17-46 -/
def raw_simple : Option Unit := do
  let buf := Raw.init ⟨1024, fresh⟩ 1024
  expect (buf.isSpaceAvailable 256)
  let td := vec 256 a
  let (_, buf) ← Raw.popE buf td 256 0
  expect buf.empty
  let buf ← Raw.pushE buf td 200 true
  let td := vec 256 0
  expect !buf.empty
  let (td, buf) ← Raw.popE buf td 10 (-200)
  let (td, buf) ← Raw.popE buf td 1024 200
  expect (td.getD 0 0 == a && td.getD 126 0 == a && td.getD 199 0 == a && td.getD 200 0 == 0)
  expect buf.empty
  expect (buf.nextDataSize == some 0)

#guard raw_simple == some ()

/-- lines 48-74 -/
def raw_loop_around : Option Unit := do
  let buf := Raw.init ⟨1024, fresh⟩ 1024
  let td := vec 256 a
  let buf ← Raw.pushE buf td 200 true
  let buf ← Raw.pushE buf td 200 true
  let buf ← Raw.pushE buf td 200 true
  let buf ← Raw.pushE buf td 200 true
  let buf ← Raw.pushE buf td 200 true
  let buf ← Raw.pushE buf td 200 false
  expect !(buf.isSpaceAvailable 20)
  let (td, buf) ← Raw.popE buf td 1024 200
  expect (buf.isSpaceAvailable 20)
  let buf ← Raw.pushE buf td 200 true
  expect buf.clear.empty

#guard raw_loop_around == some ()

/-- lines 76-100, with 60 rounds of sizes 1, 9, 17, ... instead of 500 (to keep the evaluation short) -/
def raw_repeat : Option Unit := do
  let td := vec 500 a
  let mut buf := Raw.init ⟨1520, fresh⟩ 1520
  for k in List.range 60 do
    let ii : Int := 8 * k + 1
    buf ← Raw.pushE buf td ii true
    buf ← Raw.pushE buf td ii true
    let (_, b) ← Raw.popE buf td 500 ii
    let nds := b.nextDataSize
    let (_, b) ← Raw.popE b td 500 ii
    expect (nds == some ii)
    expect b.empty
    buf := b

#guard raw_repeat == some ()

/-- lines 102-149: the same with the owning class -/
def simple : Option Unit := do
  let buf ← Buf.ofSize fresh 1024
  let td := vec 256 a
  let (_, buf) ← Buf.popE buf td 256 0
  expect buf.empty
  let buf ← Buf.pushE buf td 200 true
  let td := vec 256 0
  expect !buf.empty
  let (td, buf) ← Buf.popE buf td 1024 200
  expect (td.getD 0 0 == a && td.getD 126 0 == a && td.getD 199 0 == a && td.getD 200 0 == 0)
  expect buf.empty
  let buf ← Buf.ofSize fresh 1024
  let td := vec 256 a
  let buf ← Buf.pushE buf td 200 true
  let buf ← Buf.pushE buf td 200 true
  let buf ← Buf.pushE buf td 200 true
  let buf ← Buf.pushE buf td 200 true
  let buf ← Buf.pushE buf td 200 true
  let buf ← Buf.pushE buf td 200 false
  expect !(buf.isSpaceAvailable 20)
  let (td, buf) ← Buf.popE buf td 1024 200
  expect (buf.isSpaceAvailable 20)
  let buf ← Buf.pushE buf td 200 true
  expect buf.clear.empty

#guard simple == some ()

/-- a buffer of size 1024 with one message of 200 bytes (beginning of the tests in lines 169-289) -/
def start : Option Buf := do
  let buf ← Buf.ofSize fresh 1024
  let (_, buf) ← Buf.popE buf (vec 256 a) 256 0
  expect buf.empty
  let buf ← Buf.pushE buf (vec 256 a) 200 true
  expect !buf.empty
  return buf

/-- the message comes out -/
def finish (buf : Buf) : Option Unit := do
  let (td, buf) ← Buf.popE buf (vec 256 0) 1024 200
  expect (td.getD 0 0 == a && td.getD 126 0 == a && td.getD 199 0 == a && td.getD 200 0 == 0)
  expect buf.empty

/-- lines 169-192 -/
def move : Option Unit := do finish (Buf.moveCtor (← start)).1

#guard move == some ()

/-- lines 194-227 -/
def copy : Option Unit := do
  let buf ← start
  let buf2 ← Buf.copyCtor fresh buf
  finish buf
  expect !buf2.empty
  finish buf2

#guard copy == some ()

/-- lines 229-256 -/
def move_assignment : Option Unit := do
  let buf ← start
  let buf2 ← Buf.ofSize fresh 200
  let buf2 ← Buf.pushE buf2 (vec 256 0) 10 true
  let (buf2, _) ← Buf.moveAssign buf2 buf
  finish buf2

#guard move_assignment == some ()

/-- lines 258-289 -/
def copy_assignment : Option Unit := do
  let buf ← start
  let buf2 ← Buf.ofSize fresh 200
  let buf2 ← Buf.pushE buf2 (vec 256 0) 10 true
  let buf2 ← Buf.copyAssign fresh buf2 buf
  expect (buf2.capacity == 1024)
  finish buf2
  expect !buf.empty

#guard copy_assignment == some ()

/-- lines 291-309 -/
def resize : Option Unit := do
  let td := vec 256 a
  let buf ← Buf.ofSize fresh 1024
  let buf ← Buf.pushE buf td 200 true
  let buf ← Buf.pushE buf td 200 true
  let buf ← Buf.pushE buf td 200 true
  let buf ← Buf.pushE buf td 200 true
  let buf ← ok (← buf.resize fresh 2048)
  let buf ← Buf.pushE buf td 200 true
  let buf ← Buf.pushE buf td 200 true
  expect (buf.capacity == 2048)

#guard resize == some ()

/-- lines 311-329 -/
def resize_smaller : Option Unit := do
  let td := vec 256 a
  let buf ← Buf.ofSize fresh 1024
  let buf ← Buf.pushE buf td 200 true
  let buf ← Buf.pushE buf td 200 true
  let buf ← ok (← buf.resize fresh 450)
  let buf ← Buf.pushE buf td 200 false
  let (td, buf) ← Buf.popE buf td 256 200
  let buf ← Buf.pushE buf td 200 true
  expect (buf.capacity == 450)

#guard resize_smaller == some ()

/-- the four pushes of the tests in lines 331-404 -/
def four : Option Buf := do
  let td := vec 256 a
  let buf ← Buf.ofSize fresh 1024
  let buf ← Buf.pushE buf td 200 true
  let buf ← Buf.pushE buf td 201 true
  let buf ← Buf.pushE buf td 202 true
  Buf.pushE buf td 203 true

/-- lines 331-358 -/
def resize_bigger_wrap : Option Unit := do
  let td := vec 256 a
  let buf ← four
  let (_, buf) ← Buf.popE buf td 256 200
  let (_, buf) ← Buf.popE buf td 256 201
  let buf ← Buf.pushE buf td 204 true
  expect !(buf.isSpaceAvailable 200)
  let buf ← ok (← buf.resize fresh 2048)
  let buf ← Buf.pushE buf td 205 true
  let buf ← Buf.pushE buf td 206 true
  let (_, buf) ← Buf.popE buf td 256 202
  let (_, buf) ← Buf.popE buf td 256 203
  let (_, buf) ← Buf.popE buf td 256 204
  let (_, buf) ← Buf.popE buf td 256 205
  let (_, buf) ← Buf.popE buf td 256 206
  expect (buf.capacity == 2048)

#guard resize_bigger_wrap == some ()

/-- lines 360-385 -/
def resize_smaller_wrap : Option Unit := do
  let td := vec 256 a
  let buf ← four
  let (_, buf) ← Buf.popE buf td 256 200
  let (_, buf) ← Buf.popE buf td 256 201
  let buf ← Buf.pushE buf td 204 true
  let (_, buf) ← Buf.popE buf td 256 202
  expect (buf.isSpaceAvailable 205)
  let buf ← ok (← buf.resize fresh 620)
  expect !(buf.isSpaceAvailable 205)
  let buf ← Buf.pushE buf td 205 false
  let buf ← thrown (← buf.resize fresh 200)
  let (_, buf) ← Buf.popE buf td 256 203
  let (_, buf) ← Buf.popE buf td 256 204
  expect (buf.capacity == 620)

#guard resize_smaller_wrap == some ()

/-- lines 387-404 -/
def resize_wrap : Option Unit := do
  let td := vec 256 a
  let buf ← four
  let buf ← thrown (← buf.resize fresh 512)
  let (_, buf) ← Buf.popE buf td 256 200
  let (_, buf) ← Buf.popE buf td 256 201
  let buf ← ok (← buf.resize fresh 512)
  let (_, buf) ← Buf.popE buf td 256 202
  let (_, buf) ← Buf.popE buf td 256 203
  expect (buf.capacity == 512)

#guard resize_wrap == some ()

/-- lines 406-427, with 40 rounds instead of 10000 -/
def repeat_resize : Option Unit := do
  let td := vec 100 a
  let mut buf ← Buf.ofSize fresh 45
  for k in List.range 40 do
    let ii : Int := k + 1
    let b ← ok (← buf.resize fresh (3 * (ii + 8)))
    let (_, b) ← Buf.popE b td 10000 (ii - 1)
    let b ← Buf.pushE b td ii true
    let b ← Buf.pushE b td ii true
    let (_, b) ← Buf.popE b td 10000 ii
    let (_, b) ← Buf.popE b td 10000 ii
    expect b.empty
    buf ← Buf.pushE b td ii true

#guard repeat_resize == some ()

/-- lines 429-460 -/
def odd_conditions : Option Unit := do
  let td := vec 256 a
  let buf ← Buf.ofSize fresh 1024
  let buf ← Buf.pushE buf td 0 false
  let buf ← Buf.pushE buf td (-15) false
  let (r, buf) ← buf.push none 10
  expect !r
  let buf ← Buf.pushE buf td 200 true
  expect (buf.nextDataSize == some 200)
  let buf3 := (Buf.moveCtor Buf.default).1
  let buf3 ← ok (← buf3.resize fresh 1024)
  expect (buf3.capacity == 1024)
  let buf3 ← ok (← buf3.resize fresh 1024)
  expect (buf3.capacity == 1024)
  let buf3 ← ok (← buf3.resize fresh 512)
  expect (buf3.capacity == 512)
  let buf3 ← ok (← buf3.resize fresh 512)
  expect (buf3.capacity == 512)
  let buf3 ← ok (← buf3.resize fresh 1024)
  expect (buf3.capacity == 1024)
  expect Buf.default.empty
  let buf5 ← Buf.copyCtor fresh Buf.default
  expect buf5.empty

#guard odd_conditions == some ()

end Verif.CircularBuffer.UnitTests
