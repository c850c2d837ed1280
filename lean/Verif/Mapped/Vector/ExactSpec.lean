import Verif.Mapped.Vector.Spec

/-
What MappedVector does in every history, also with several search terms per element and elements without search term: a
sequence of values, and for every search term the position it refers to.
-/
namespace Verif.Mapped.Vector
open Verif.Mapped

/-- The values in order, and the position every search term refers to (`none`: the term is not known). -/
structure Actual (K V : Type) where
  values : List V
  index : K → Option Nat
  reserved : Nat

variable {K V : Type} [DecidableEq K]

omit [DecidableEq K] in
/-- A new container. -/
def Actual.empty : Actual K V := ⟨[], fun _ => none, 0⟩

omit [DecidableEq K] in
/-- a new value at the end -/
def Actual.append (kind : Kind) (a : Actual K V) (x : V) : Actual K V :=
  { a with values := a.values ++ [x], reserved := kind.reserve a.reserved a.values.length }

/-- the term `k` refers to position `i` -/
def Actual.bind (a : Actual K V) (k : K) (i : Nat) : Actual K V :=
  { a with index := fun k' => if k' = k then some i else a.index k' }

/-- the term `k` is not known any more -/
def Actual.forget (a : Actual K V) (k : K) : Actual K V :=
  { a with index := fun k' => if k' = k then none else a.index k' }

omit [DecidableEq K] in
/-- Does removal at position `i` take the value out?  Stable storage only takes out the last one. -/
def Actual.takes (kind : Kind) (a : Actual K V) (i : Nat) : Bool := !kind.isStable || decide (i + 1 = a.values.length)

omit [DecidableEq K] in
/-- The value at position `i` is taken out: the following ones, and the terms that refer to them, move down.  Terms that
refer to position `i` itself stay as they are. -/
def Actual.takeOut (kind : Kind) (a : Actual K V) (i : Nat) : Actual K V :=
  if a.takes kind i = true then
    { a with values := a.values.eraseIdx i, index := fun k => (a.index k).map fun j => if j > i then j - 1 else j }
  else a

/-- One call: what the container and the result may be afterwards.  Only for `removeIndex` of an element with several
terms there is more than one possibility: the map's iteration order decides which term is forgotten. -/
def Step (kind : Kind) (unset : Option K) (a : Actual K V) (op : Op K V) (a' : Actual K V) (o : Obs V) : Prop :=
  match op with
  | .insert k x => match a.index k with
    | some _ => a' = a ∧ o = .index none
    | none => a' = (a.append kind x).bind k a.values.length ∧ o = .index (some a.values.length)
  | .insertNoKey x => a' = a.append kind x ∧ o = .index (some a.values.length)
  | .insertOrAssign k x => match a.index k with
    | some i => a' = { a with values := a.values.set i x } ∧ o = .index (some i)
    | none => a' = (a.append kind x).bind k a.values.length ∧ o = .index (some a.values.length)
  | .find k => a' = a ∧ o = .found ((a.index k).bind fun i => a.values[i]?)
  | .get i => a' = a ∧ (a.values[i]?).map .val = some o
  | .set i x => a' = { a with values := a.values.set i x } ∧ o = .done
  | .at i => a' = a ∧ o = (match a.values[i]? with | some x => .val x | none => .threw)
  | .back => a' = a ∧ a.values.getLast?.map .val = some o
  | .addTerm k i =>
    if i < a.values.length ∧ a.index k = none then a' = a.bind k i ∧ o = .bool true else a' = a ∧ o = .bool false
  | .removeIndex i =>
    if i < a.values.length then
      ∃ k, ((∃ k', a.index k' = some i) → a.index k = some i) ∧ ((∀ k', a.index k' ≠ some i) → unset = some k) ∧
        a' = (a.takeOut kind i).forget k ∧ o = .done
    else a' = a ∧ o = .done
  | .remove k => match a.index k with
    | some i => a' = (a.takeOut kind i).forget k ∧ o = .done
    | none => a' = a ∧ o = .done
  | .apply => a' = a ∧ o = .vals a.values
  | .modify f => a' = { a with values := a.values.map f } ∧ o = .done
  | .transform f => a' = { a with values := a.values.map f } ∧ o = .done
  | .size => a' = a ∧ o = .num a.values.length
  | .clear => a' = { a with values := [], index := fun _ => none } ∧ o = .done

omit [DecidableEq K] in
/-- Calls with defined behaviour.  Not safe are (1) unchecked accesses by an index beyond the end, (2) assigning to, and
with vector storage removing, by a term that refers one past the end, (3) removing by index an element without term if a
default constructed term has no determinate value, (4) with stable storage: traversals, and searches that end at `end()`,
while the reserved block slots are exactly full. -/
def safe (kind : Kind) (unset : Option K) (a : Actual K V) : Op K V → Prop
  | .get i | .set i _ => i < a.values.length
  | .back => a.values ≠ []
  | .insertOrAssign k _ => ∀ i, a.index k = some i → i < a.values.length
  | .remove k => ∀ i, a.index k = some i → i < a.values.length ∨ kind.isStable = true
  | .removeIndex i => i < a.values.length → (∃ k, a.index k = some i) ∨ unset ≠ none
  | .find k => (∃ i, a.index k = some i ∧ i < a.values.length) ∨ kind.iterable a.reserved a.values.length = true
  | .apply | .modify _ | .transform _ => kind.iterable a.reserved a.values.length = true
  | _ => True

omit [DecidableEq K] in
/-- Unchecked accesses beyond the end: by index, or by a term that refers one past the end. -/
def beyond (a : Actual K V) : Op K V → Prop
  | .get i | .set i _ => a.values.length ≤ i
  | .insertOrAssign k _ => ∃ i, a.index k = some i ∧ a.values.length ≤ i
  | _ => False

/-- The calls of a program, one after the other. -/
def Runs (kind : Kind) (unset : Option K) : Actual K V → List (Op K V) → Actual K V → List (Obs V) → Prop
  | a, [], a', os => a' = a ∧ os = []
  | a, op :: ops, a', os => ∃ a1 o os1, Step kind unset a op a1 o ∧ Runs kind unset a1 ops a' os1 ∧ os = o :: os1

end Verif.Mapped.Vector
