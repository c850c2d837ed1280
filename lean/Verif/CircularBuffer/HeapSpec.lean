import Verif.CircularBuffer.Heap

/-
What a client of several CircularBuffer objects sees when memory is limited: calls come with a flag that says whether `new` fails.
-/
namespace Verif.CircularBuffer

/-- Which calls the careful client makes: those of `OOp.careful`, and self move assignments.  A copy assignment for which there is no
memory is left out. -/
def OOp.allowed (fails : Bool) (s : Store) (op : OOp) : Bool :=
  match op with
  | .moveAssign i j => (s.objs i).isSome && (s.objs j).isSome
  | .copyAssign i j => op.careful s.view &&
      (match s.objs i, s.objs j with
       | some a, some b => !fails || decide (b.cap ≤ a.actualCapacity)
       | _, _ => false)
  | op => op.careful s.view

/-- The careful client makes a call or skips it. -/
def Store.step (fresh : Int → UInt8) (s : Store) (op : OOp) (fails : Bool) : Option (OObs × Store) :=
  if op.allowed fails s then s.exec fresh fails op else some (.skipped, s)

/-- A whole session; the `k`-th remaining call allocates memory with content `fresh k`. -/
def Store.run (fresh : Nat → Int → UInt8) : Store → List (OOp × Bool) → Option (List OObs × Store)
  | s, [] => some ([], s)
  | s, (op, fails) :: ops =>
    match s.step (fresh ops.length) op fails with
    | none => none
    | some (o, s') =>
      match Store.run fresh s' ops with
      | none => none
      | some (os, s'') => some (o :: os, s'')

/-- The calls of any client, careful or not. -/
def Store.calls (fresh : Nat → Int → UInt8) : Store → List (OOp × Bool) → Option (List OObs × Store)
  | s, [] => some ([], s)
  | s, (op, fails) :: ops =>
    (s.exec (fresh ops.length) fails op).bind fun (o, s') => (Store.calls fresh s' ops).map fun (os, s'') => (o :: os, s'')

/-- calls that construct a buffer with memory -/
def OOp.constructs : OOp → Bool
  | .new _ _ => true
  | .copyNew _ _ => true
  | _ => false

/-- The ideal objects (a capacity and a queue of messages each) if memory may run out: as `OStep`, but a constructor or a resize for
which there is no memory throws and changes nothing.  A constructor that allocates always needs memory. -/
inductive MStep : (Nat → Option SObj) → OOp → Bool → OObs → (Nat → Option SObj) → Prop
  | ok {w op fails o w'} (h : OStep w op o w') (hf : fails = false ∨ op.constructs = false ∨ o = .skipped) : MStep w op fails o w'
  | noConstruct (w op) (hc : op.constructs = true) : MStep w op true .threw w
  | noResize (w i n c q) (h : w i = some (c, q)) (hn : n > c) : MStep w (.resize i n) true .threw w
  | moveSelf (w i fails c) (h : w i = some c) : MStep w (.moveAssign i i) fails .done (upd w i (some (0, [])))

inductive MSession : (Nat → Option SObj) → List (OOp × Bool) → List OObs → (Nat → Option SObj) → Prop
  | nil (w) : MSession w [] [] w
  | cons {w op fails o w' ops os w''} : MStep w op fails o w' → MSession w' ops os w'' →
      MSession w ((op, fails) :: ops) (o :: os) w''

end Verif.CircularBuffer
