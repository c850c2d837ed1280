import Verif.Mapped.SeveralStr.Model

/-
Specification of programs using several StringMappedVector (or several DualStringMappedVector) objects: that of
Verif/Mapped/Several/Spec.lean, every object is an independent ideal container.  `careful` says which programs the code
handles.  The keys of a copy are views of strings that belong to the original; the loans say whose strings the keys of an
object may refer to.
-/
namespace Verif.Mapped.SeveralStr
open Verif.Mapped
open Verif.Mapped.Vector (Obs Ideal)
open Verif.Mapped.Several (Op AWorld AObj)
open Verif.Block.Vector (Vec)

/-- StringMappedVector -/
def specMapped {V : Type} (kind : Kind) : Several.Spec String V (Str.Op V) := ⟨Str.ideal kind, Str.careful kind⟩

/-- DualStringMappedVector -/
def specDual {K2 V : Type} [DecidableEq K2] (N : Nat) (kind : Kind) : Several.Spec (String ⊕ K2) V (DualStr.Op K2 V) :=
  ⟨Dual.ideal kind, DualStr.careful N kind⟩

/-- `(k, i)`: keys of object `k` may refer to strings of object `i`. -/
abbrev Loans := List (Nat × Nat)

/-- Another object may refer to strings of object `i`. -/
def lent (ls : Loans) (i : Nat) : Bool := ls.any fun p => decide (p.2 = i) && decide (p.1 ≠ i)

/-- Object `i` has no keys (any more). -/
def repay (ls : Loans) (i : Nat) : Loans := ls.filter fun p => decide (p.1 ≠ i)

/-- Object `i` gets the keys of object `j`. -/
def borrow (ls : Loans) (i j : Nat) : Loans :=
  (i, j) :: ((ls.filter fun p => decide (p.1 = j)).map fun p => (i, p.2)) ++ repay ls i

/-- What belonged to object `j` belongs to object `i`. -/
def rename (i j k : Nat) : Nat := if k = j then i else k

variable {K V C T M H : Type}

/-- The loans after a call; `aw` are the ideal objects after it. -/
def loansAfter (aw : AWorld K V) (ls : Loans) : Op C → Loans
  | .new _ => ls
  | .copyNew i j => borrow ls i j
  | .copyAssign i j => if i = j then ls else borrow ls i j
  | .moveNew i j | .moveAssign i j => (repay ls i).map fun p => (rename i j p.1, rename i j p.2)
  | .destroy i => repay ls i
  | .call i _ => if (aw i).any fun a => a.val.entries.all fun e => e.keys.isEmpty then repay ls i else ls

/-- A StableBlockVector whose `end()` is well behaved: its reserved block slots are not exactly full. -/
def iterable (N : Nat) (v : Vec) : Bool := decide (v.avail = 0 ∨ v.csize < v.avail * 2 ^ N)

/-- Calls the code handles.  Excluded are (1) what is excluded for MappedVector objects (Verif/Mapped/Several/Spec.lean),
(2) destroying, or assigning to, an object while keys of another object may refer to its strings, (3) copies while the
strings stored in the original exactly fill their block slots, or all memory for strings is reserved but unused, (4) copy
assignment to a moved-from object. -/
def careful (N : Nat) (kind : Kind) (sp : Several.Spec K V C) (w : World T M H) (aw : AWorld K V) (ls : Loans)
    (op : Op C) : Bool :=
  Several.careful kind sp aw op && match op with
    | .copyNew _ j => (w.names j).any fun n => iterable N n && (decide (n.csize ≠ 0) || decide (n.avail = 0))
    | .copyAssign i j => (decide (i = j) || !lent ls i) && ((aw i).any fun a => !a.moved) && (w.names j).any fun n => iterable N n
    | .moveAssign i _ => !lent ls i
    | .destroy i => !lent ls i
    | _ => true

/-- All calls of the program, up to one with undefined behaviour if there is one, are careful ones. -/
def carefulRun {S : Type} (μ : Several.Multi S T H) (N : Nat) (code : Code S M C V) (left : M → M) (kind : Kind)
    (sp : Several.Spec K V C) : World T M H → AWorld K V → Loans → List (Op C) → Bool
  | _, _, _, [] => true
  | w, aw, ls, op :: ops => careful N kind sp w aw ls op &&
      (match Several.ideal kind sp aw op, exec μ N code left w op with
        | some q, some r => carefulRun μ N code left kind sp r.1 q.1 (loansAfter q.1 ls op) ops
        | some _, none => true
        | none, _ => false)

end Verif.Mapped.SeveralStr
