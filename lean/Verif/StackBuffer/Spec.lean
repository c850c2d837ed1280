import Verif.StackBuffer.Model

/-
Specification of a message stack and of client programs, used to state the StackBuffer
properties.  Nothing in the specification depends on how the buffer stores messages.
-/
namespace Verif.StackBuffer

/-- Calls a client can make on one buffer. `push d` is `push(d.data(), d.size())`. -/
inductive Op where
  | push (d : Msg)
  | pop (max : Int)
  | nextDataSize
  | count
  | empty
  | reverse
  | clear
deriving DecidableEq

/-- What the client sees. -/
inductive Obs where
  | pushed (ok : Bool)
  | popped (ret : Int) (bytes : Option Msg)
  | num (n : Int)
  | isEmpty (b : Bool)
  | done
deriving DecidableEq

/-- One call on an ideal message stack holding `q` (top first). A push may be refused (the
buffer is bounded), in which case nothing changes. -/
inductive Lifo : List Msg → Op → Obs → List Msg → Prop
  | push (q d) (h : d ≠ []) : Lifo q (.push d) (.pushed true) (d :: q)
  | refused (q d) : Lifo q (.push d) (.pushed false) q
  | popEmpty (max) : Lifo [] (.pop max) (.popped 0 none) []
  | pop (d q max) (h : (d.length : Int) ≤ max) :
      Lifo (d :: q) (.pop max) (.popped d.length (some d)) q
  | popTooSmall (d q max) (h : max < (d.length : Int)) :
      Lifo (d :: q) (.pop max) (.popped (-(d.length : Int)) none) (d :: q)
  | sizeEmpty : Lifo [] .nextDataSize (.num 0) []
  | size (d q) : Lifo (d :: q) .nextDataSize (.num d.length) (d :: q)
  | count (q) : Lifo q .count (.num q.length) q
  | empty (q) : Lifo q .empty (.isEmpty q.isEmpty) q
  | reverse (q) : Lifo q .reverse .done q.reverse
  | clear (q) : Lifo q .clear .done []

/-- A whole session on the ideal stack. -/
inductive Session : List Msg → List Op → List Obs → List Msg → Prop
  | nil (q) : Session q [] [] q
  | cons {q op o q' ops os q''} : Lifo q op o q' → Session q' ops os q'' →
      Session q (op :: ops) (o :: os) q''

/-- One call on the modelled raw buffer; `none` is undefined behaviour. -/
def Raw.call (b : Raw) : Op → Option (Obs × Raw)
  | .push d => (b.push (some d) d.length).map fun r => (.pushed r.1, r.2)
  | .pop max => (b.pop max).map fun r => (.popped r.1 r.2.1, r.2.2)
  | .nextDataSize => b.nextDataSize.map fun n => (.num n, b)
  | .count => some (.num b.getCurrentCount, b)
  | .empty => some (.isEmpty b.empty, b)
  | .reverse => b.reverse.map fun r => (.done, r)
  | .clear => some (.done, b.clear)

/-- Running a list of calls. -/
def Raw.run : Raw → List Op → Option (List Obs × Raw)
  | b, [] => some ([], b)
  | b, op :: ops =>
    match b.call op with
    | none => none
    | some (o, b') =>
      match Raw.run b' ops with
      | none => none
      | some (os, b'') => some (o :: os, b'')

/-- One call on the modelled owning buffer. -/
def Buf.call (b : Buf) : Op → Option (Obs × Buf)
  | .push d => (b.push (some d) d.length).map fun r => (.pushed r.1, r.2)
  | .pop max => (b.pop max).map fun r => (.popped r.1 r.2.1, r.2.2)
  | .nextDataSize => b.nextDataSize.map fun n => (.num n, b)
  | .count => some (.num b.getCurrentCount, b)
  | .empty => some (.isEmpty b.empty, b)
  | .reverse => b.reverse.map fun r => (.done, r)
  | .clear => some (.done, b.clear)

/-! ### Sessions over several owning objects -/

/-- Calls on objects named by numbers. -/
inductive OOp where
  | new (i : Nat) (size : Int)
  | newDefault (i : Nat)
  | copyNew (i j : Nat)
  | moveNew (i j : Nat)
  | copyAssign (i j : Nat)
  | moveAssign (i j : Nat)
  | swap (i j : Nat)
  | resize (i : Nat) (n : Int)
  | capacity (i : Nat)
  | call (i : Nat) (op : Op)
  | destroy (i : Nat)
deriving DecidableEq

/-- What the client sees; `skipped` means the client did not make the call. -/
inductive OObs where
  | done
  | returned (b : Bool)
  | obs (o : Obs)
  | cap (n : Int)
  | threw
  | skipped
deriving DecidableEq

/-- update of one object -/
def upd {α : Type} (w : Nat → Option α) (i : Nat) (a : Option α) : Nat → Option α :=
  fun k => if k = i then a else w k

/-- The specification state of one object: its capacity and its messages, top first. -/
abbrev SObj := Int × List Msg

/-- One call on ideal objects. Copies duplicate the stack, moves transfer it and leave an
empty buffer of capacity 0, swap exchanges, resize keeps the messages; a resize may throw
only when it shrinks a non-empty buffer, and then changes nothing. -/
inductive OStep : (Nat → Option SObj) → OOp → OObs → (Nat → Option SObj) → Prop
  | skipped (w op) : OStep w op .skipped w
  | new (w i size) (h : w i = none) : OStep w (.new i size) .done (upd w i (some (size, [])))
  | newDefault (w i) (h : w i = none) : OStep w (.newDefault i) .done (upd w i (some (0, [])))
  | copyNew (w i j c) (h : w i = none) (hj : w j = some c) :
      OStep w (.copyNew i j) .done (upd w i (some c))
  | moveNew (w i j c) (h : w i = none) (hj : w j = some c) :
      OStep w (.moveNew i j) .done (upd (upd w i (some c)) j (some (0, [])))
  | copyAssign (w i j c0 c) (hne : i ≠ j) (h : w i = some c0) (hj : w j = some c) :
      OStep w (.copyAssign i j) .done (upd w i (some c))
  | moveAssign (w i j c0 c) (hne : i ≠ j) (h : w i = some c0) (hj : w j = some c) :
      OStep w (.moveAssign i j) .done (upd (upd w i (some c)) j (some (0, [])))
  | swap (w i j c0 c) (h : w i = some c0) (hj : w j = some c) :
      OStep w (.swap i j) .done (upd (upd w i (some c)) j (some c0))
  | resize (w i n c q) (h : w i = some (c, q)) (hn : 0 ≤ n) :
      OStep w (.resize i n) (.returned true) (upd w i (some (n, q)))
  | resizeNegative (w i n c) (h : w i = some c) (hn : n < 0) :
      OStep w (.resize i n) (.returned false) w
  | resizeThrows (w i n c q) (h : w i = some (c, q)) (hn : 0 ≤ n) (hq : q ≠ []) (hc : n < c) :
      OStep w (.resize i n) .threw w
  | capacity (w i c q) (h : w i = some (c, q)) : OStep w (.capacity i) (.cap c) w
  | call (w i op o c q q') (h : w i = some (c, q)) (hs : Lifo q op o q') :
      OStep w (.call i op) (.obs o) (upd w i (some (c, q')))
  | destroy (w i c) (h : w i = some c) : OStep w (.destroy i) .done (upd w i none)

inductive OSession : (Nat → Option SObj) → List OOp → List OObs → (Nat → Option SObj) → Prop
  | nil (w) : OSession w [] [] w
  | cons {w op o w' ops os w''} : OStep w op o w' → OSession w' ops os w'' →
      OSession w (op :: ops) (o :: os) w''

/-- A moved-from buffer left by a move assignment: it has no memory but
`rawBlockCapacity()` still reports the old value. -/
def Buf.stale (b : Buf) : Bool := b.data.isNone && decide (b.rawBlockCapacity > 0)

/-- Which calls the careful client makes: sensible object names, sizes that fit an `int`, no
self-assignment, and a buffer left by a move assignment is not resized or copy-assigned to
a size within its old `rawBlockCapacity()`. Everything else is unrestricted. -/
def OOp.careful (w : Nat → Option Buf) : OOp → Bool
  | .new i size => (w i).isNone && decide (0 ≤ size ∧ size < 2147483648)
  | .newDefault i => (w i).isNone
  | .copyNew i j => (w i).isNone && (w j).isSome
  | .moveNew i j => (w i).isNone && (w j).isSome
  | .copyAssign i j => decide (i ≠ j) &&
      (match w i, w j with
       | some a, some b => !a.stale || decide (b.capacity > a.rawBlockCapacity) || decide (b.capacity = 0)
       | _, _ => false)
  | .moveAssign i j => decide (i ≠ j) && (w i).isSome && (w j).isSome
  | .swap i j => (w i).isSome && (w j).isSome
  | .resize i n => (match w i with
      | some b => decide (n < 2147483648) && (!b.stale || decide (n > b.rawBlockCapacity) || decide (n ≤ 0))
      | none => false)
  | .capacity i => (w i).isSome
  | .call i _ => (w i).isSome
  | .destroy i => (w i).isSome

/-- Execution of one call of the model on the objects; `none` = undefined behaviour.
`fresh` is the content of newly allocated memory. -/
def OOp.exec (fresh : Int → UInt8) (w : Nat → Option Buf) : OOp → Option (OObs × (Nat → Option Buf))
  | .new i size => (Buf.ofSize fresh size).map fun b => (.done, upd w i (some b))
  | .newDefault i => some (.done, upd w i (some Buf.default))
  | .copyNew i j => (w j).bind fun b => (Buf.copyCtor fresh b).map fun c => (.done, upd w i (some c))
  | .moveNew i j => (w j).map fun b => (.done, upd (upd w i (some b.moveCtor.1)) j (some b.moveCtor.2))
  | .copyAssign i j => (w i).bind fun a => (w j).bind fun b =>
      (Buf.copyAssign fresh a b).map fun c => (.done, upd w i (some c))
  | .moveAssign i j => (w i).bind fun a => (w j).map fun b =>
      (.done, upd (upd w i (some (Buf.moveAssign a b).1)) j (some (Buf.moveAssign a b).2))
  | .swap i j => (w i).bind fun a => (w j).map fun b =>
      (.done, upd (upd w i (some (Buf.swap a b).1)) j (some (Buf.swap a b).2))
  | .resize i n => (w i).bind fun b => (b.resize fresh n).map fun r =>
      match r with
      | .ok ret b' => (.returned ret, upd w i (some b'))
      | .thrown b' => (.threw, upd w i (some b'))
  | .capacity i => (w i).map fun b => (.cap b.capacity, w)
  | .call i op => (w i).bind fun b => (b.call op).map fun r => (.obs r.1, upd w i (some r.2))
  | .destroy i => (w i).map fun _ => (.done, upd w i none)

/-- The careful client makes a call or skips it. -/
def OOp.step (fresh : Int → UInt8) (w : Nat → Option Buf) (op : OOp) :
    Option (OObs × (Nat → Option Buf)) :=
  if op.careful w then op.exec fresh w else some (.skipped, w)

/-- A whole session; the `k`-th remaining call allocates memory with content
`fresh k`. -/
def runWorld (fresh : Nat → Int → UInt8) : (Nat → Option Buf) → List OOp →
    Option (List OObs × (Nat → Option Buf))
  | w, [] => some ([], w)
  | w, op :: ops =>
    match op.step (fresh ops.length) w with
    | none => none
    | some (o, w') =>
      match runWorld fresh w' ops with
      | none => none
      | some (os, w'') => some (o :: os, w'')

end Verif.StackBuffer
