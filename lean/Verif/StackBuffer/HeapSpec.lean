import Verif.StackBuffer.Heap

/-
What a client of several StackBuffer objects sees when memory is limited: calls come with a flag that says whether `new` fails.
-/
namespace Verif.StackBuffer

/-- a buffer without memory whose `rawBlockCapacity()` is positive: the source of a move assignment -/
def Obj.stale (o : Obj) : Bool := o.data.isNone && decide (o.actualCapacity > 0)

/-- Which calls the careful client makes: as `OOp.careful`, but self move assignment is allowed.  A copy assignment for which there
is no memory is left out. -/
def OOp.allowed (fails : Bool) (w : Nat → Option Obj) : OOp → Bool
  | .new i size => (w i).isNone && decide (0 ≤ size ∧ size < 2147483648)
  | .newDefault i => (w i).isNone
  | .copyNew i j => (w i).isNone && (w j).isSome
  | .moveNew i j => (w i).isNone && (w j).isSome
  | .copyAssign i j => decide (i ≠ j) &&
      (match w i, w j with
       | some a, some b => (!a.stale || decide (b.cap > a.actualCapacity) || decide (b.cap = 0)) &&
          (!fails || decide (b.cap ≤ a.actualCapacity))
       | _, _ => false)
  | .moveAssign i j => (w i).isSome && (w j).isSome
  | .swap i j => (w i).isSome && (w j).isSome
  | .resize i n => (match w i with
      | some b => decide (n < 2147483648) && (!b.stale || decide (n > b.actualCapacity) || decide (n ≤ 0))
      | none => false)
  | .capacity i => (w i).isSome
  | .call i _ => (w i).isSome
  | .destroy i => (w i).isSome

/-- The careful client makes a call or skips it. -/
def Store.step (fresh : Int → UInt8) (s : Store) (op : OOp) (fails : Bool) : Option (OObs × Store) :=
  if op.allowed fails s.objs then s.exec fresh fails op else some (.skipped, s)

/-- A whole session; the `k`-th remaining call allocates memory with content `fresh k`. -/
def Store.run (fresh : Nat → Int → UInt8) : Store → List (OOp × Bool) → Option (List OObs × Store)
  | s, [] => some ([], s)
  | s, (op, fails) :: ops =>
    match s.step (fresh ops.length) op fails with
    | none => none
    | some (o, s') =>
      match Store.run fresh s' ops with
      | none => none
      | some (os, s'') => some (o :: os, s'')

/-- The calls of any client, careful or not. -/
def Store.calls (fresh : Nat → Int → UInt8) : Store → List (OOp × Bool) → Option (List OObs × Store)
  | s, [] => some ([], s)
  | s, (op, fails) :: ops =>
    (s.exec (fresh ops.length) fails op).bind fun (o, s') => (Store.calls fresh s' ops).map fun (os, s'') => (o :: os, s'')

/-- calls that construct a buffer with memory -/
def OOp.constructs : OOp → Bool
  | .new _ _ => true
  | .copyNew _ _ => true
  | _ => false

/-- The ideal objects (a capacity and a stack of messages each) if memory may run out: as `OStep`, but a constructor or a resize
for which there is no memory throws and changes nothing.  A constructor that allocates always needs memory. -/
inductive MStep : (Nat → Option SObj) → OOp → Bool → OObs → (Nat → Option SObj) → Prop
  | ok {w op fails o w'} (h : OStep w op o w') (hf : fails = false ∨ op.constructs = false ∨ o = .skipped) : MStep w op fails o w'
  | noConstruct (w op) (hc : op.constructs = true) : MStep w op true .threw w
  | noResize (w i n c q) (h : w i = some (c, q)) (hn : 0 ≤ n ∧ n > c) : MStep w (.resize i n) true .threw w
  | moveSelf (w i fails c) (h : w i = some c) : MStep w (.moveAssign i i) fails .done (upd w i (some (0, [])))

inductive MSession : (Nat → Option SObj) → List (OOp × Bool) → List OObs → (Nat → Option SObj) → Prop
  | nil (w) : MSession w [] [] w
  | cons {w op fails o w' ops os w''} : MStep w op fails o w' → MSession w' ops os w'' →
      MSession w ((op, fails) :: ops) (o :: os) w''

end Verif.StackBuffer
