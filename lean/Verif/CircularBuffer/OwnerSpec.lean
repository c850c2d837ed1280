import Verif.CircularBuffer.Spec

/-
Client programs over several owning CircularBuffer objects and their specification:
independent ideal FIFOs with a capacity.
-/
namespace Verif.CircularBuffer

/-- Calls on objects named by numbers. -/
inductive OOp where
  | new (i : Nat) (size : Int)
  | newDefault (i : Nat)
  | copyNew (i j : Nat)
  | moveNew (i j : Nat)
  | copyAssign (i j : Nat)
  | moveAssign (i j : Nat)
  | resize (i : Nat) (n : Int)
  | capacity (i : Nat)
  | call (i : Nat) (op : Op)
  | destroy (i : Nat)
deriving DecidableEq

/-- What the client sees; `skipped` means the client did not make the call. -/
inductive OObs where
  | done
  | obs (o : Obs)
  | cap (n : Int)
  | threw
  | skipped
deriving DecidableEq

/-- update of one object -/
def upd {α : Type} (w : Nat → Option α) (i : Nat) (a : Option α) : Nat → Option α :=
  fun k => if k = i then a else w k

/-- The specification state of one object: its capacity and its queued messages. -/
abbrev SObj := Int × List Msg

/-- One call on ideal objects. Copies duplicate the queue, moves transfer it and leave an
empty buffer of capacity 0, resize sets the capacity and keeps the queue; shrinking a
buffer that is not empty may throw. -/
inductive OStep : (Nat → Option SObj) → OOp → OObs → (Nat → Option SObj) → Prop
  | skipped (w op) : OStep w op .skipped w
  | new (w i size) (h : w i = none) : OStep w (.new i size) .done (upd w i (some (size, [])))
  | newDefault (w i) (h : w i = none) : OStep w (.newDefault i) .done (upd w i (some (0, [])))
  | copyNew (w i j c) (h : w i = none) (hj : w j = some c) :
      OStep w (.copyNew i j) .done (upd w i (some c))
  | moveNew (w i j c) (h : w i = none) (hj : w j = some c) :
      OStep w (.moveNew i j) .done (upd (upd w i (some c)) j (some (0, [])))
  | copyAssign (w i j c0 c) (hne : i ≠ j) (h : w i = some c0) (hj : w j = some c) :
      OStep w (.copyAssign i j) .done (upd w i (some c))
  | moveAssign (w i j c0 c) (hne : i ≠ j) (h : w i = some c0) (hj : w j = some c) :
      OStep w (.moveAssign i j) .done (upd (upd w i (some c)) j (some (0, [])))
  | resize (w i n c q) (h : w i = some (c, q)) :
      OStep w (.resize i n) .done (upd w i (some (n, q)))
  | resizeThrows (w i n c q) (h : w i = some (c, q)) (hn : n < c) (hq : q ≠ []) : OStep w (.resize i n) .threw w
  | capacity (w i c q) (h : w i = some (c, q)) : OStep w (.capacity i) (.cap c) w
  | call (w i op o c q q') (h : w i = some (c, q)) (hs : Fifo q op o q') :
      OStep w (.call i op) (.obs o) (upd w i (some (c, q')))
  | destroy (w i c) (h : w i = some c) : OStep w (.destroy i) .done (upd w i none)

inductive OSession : (Nat → Option SObj) → List OOp → List OObs → (Nat → Option SObj) → Prop
  | nil (w) : OSession w [] [] w
  | cons {w op o w' ops os w''} : OStep w op o w' → OSession w' ops os w'' →
      OSession w (op :: ops) (o :: os) w''

/-- One call on a modelled object. -/
def Buf.call (b : Buf) : Op → Option (Obs × Buf)
  | .push d => (b.push (some d) d.length).map fun r => (.pushed r.1, r.2)
  | .pop max => (b.pop max).map fun r => (.popped r.1 r.2.1, r.2.2)
  | .nextDataSize => b.nextDataSize.map fun n => (.size n, b)
  | .empty => some (.isEmpty b.empty, b)
  | .clear => some (.done, b.clear)

/-- The messages that popping (with a large enough destination) delivers, at most `k`. -/
def Buf.drain : Nat → Buf → Option (List Msg)
  | 0, _ => some []
  | k + 1, b =>
    match b.pop 2147483647 with
    | none => none
    | some (_, none, _) => some []
    | some (_, some d, b') => (Buf.drain k b').map (d :: ·)

/-- Resizing the buffer to `n` bytes would jam it: the resize succeeds and leaves less than 8 bytes between the end of the newest
message and the end of the block. -/
def Buf.jams (b : Buf) (n : Int) : Bool :=
  decide (b.nr < b.nw ∧ n < b.cap ∧ ((b.nw ≤ n ∧ n < b.nw + 8) ∨ (n < b.nw ∧ b.nw - b.nr < n ∧ n < b.nw - b.nr + 8)))

/-- Which calls the careful client makes: sensible object names, sizes that fit an `int`,
pushes that do not overfill the buffer, resizes that do not jam it, copy construction only
from buffers with positive capacity. -/
def OOp.careful (w : Nat → Option Buf) : OOp → Bool
  | .new i size => (w i).isNone && decide (0 ≤ size ∧ size < 2147483648)
  | .newDefault i => (w i).isNone
  | .copyNew i j => (w i).isNone && (match w j with | some b => decide (0 < b.capacity) | none => false)
  | .moveNew i j => (w i).isNone && (w j).isSome
  | .copyAssign i j => decide (i ≠ j) && (w i).isSome && (w j).isSome
  | .moveAssign i j => decide (i ≠ j) && (w i).isSome && (w j).isSome
  | .resize i n => (match w i with
      | some b => decide (0 ≤ n ∧ n < 2147483648) && !b.jams n
      | none => false)
  | .capacity i => (w i).isSome
  | .call i (.push d) => (match w i with
      | some b => !b.raw.overfills d.length
      | none => false)
  | .call i _ => (w i).isSome
  | .destroy i => (w i).isSome

/-- Execution of one call of the model on the objects; `none` = undefined behaviour.
`fresh k` is the content of memory allocated by the `k`-th call. -/
def OOp.exec (fresh : Int → UInt8) (w : Nat → Option Buf) : OOp → Option (OObs × (Nat → Option Buf))
  | .new i size => (Buf.ofSize fresh size).map fun b => (.done, upd w i (some b))
  | .newDefault i => some (.done, upd w i (some Buf.default))
  | .copyNew i j => (w j).bind fun b => (Buf.copyCtor fresh b).map fun c => (.done, upd w i (some c))
  | .moveNew i j => (w j).map fun b => (.done, upd (upd w i (some b.moveCtor.1)) j (some b.moveCtor.2))
  | .copyAssign i j => (w i).bind fun a => (w j).bind fun b =>
      (Buf.copyAssign fresh a b).map fun c => (.done, upd w i (some c))
  | .moveAssign i j => (w i).bind fun a => (w j).bind fun b =>
      (Buf.moveAssign a b).map fun c => (.done, upd (upd w i (some c.1)) j (some c.2))
  | .resize i n => (w i).bind fun b => (b.resize fresh n).map fun r =>
      match r with
      | .ok b' => (.done, upd w i (some b'))
      | .thrown b' => (.threw, upd w i (some b'))
  | .capacity i => (w i).map fun b => (.cap b.capacity, w)
  | .call i op => (w i).bind fun b => (b.call op).map fun r => (.obs r.1, upd w i (some r.2))
  | .destroy i => (w i).bind fun b => b.destroy.map fun _ => (.done, upd w i none)

/-- The careful client makes a call or skips it. -/
def OOp.step (fresh : Int → UInt8) (w : Nat → Option Buf) (op : OOp) :
    Option (OObs × (Nat → Option Buf)) :=
  if op.careful w then op.exec fresh w else some (.skipped, w)

/-- A whole session; the `k`-th remaining call allocates memory with content
`fresh k`. -/
def runWorld (fresh : Nat → Int → UInt8) : (Nat → Option Buf) → List OOp →
    Option (List OObs × (Nat → Option Buf))
  | w, [] => some ([], w)
  | w, op :: ops =>
    match op.step (fresh ops.length) w with
    | none => none
    | some (o, w') =>
      match runWorld fresh w' ops with
      | none => none
      | some (os, w'') => some (o :: os, w'')

end Verif.CircularBuffer
