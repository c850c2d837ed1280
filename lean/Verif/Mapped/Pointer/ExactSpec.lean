import Verif.Mapped.Pointer.Spec

/-
What MappedPointerVector does in every history, also with several search terms per element and elements without search
term: a sequence of objects (or null pointers), and for every search term the position it refers to.
-/
namespace Verif.Mapped.Pointer
open Verif.Mapped

/-- The objects in order (name and value, or null), the position every search term refers to, and how many objects have
been made, which is the name of the next one. -/
structure Actual (K V : Type) where
  objs : List (Option (Nat × V))
  index : K → Option Nat
  made : Nat

variable {K V : Type} [DecidableEq K]

omit [DecidableEq K] in
/-- A new container. -/
def Actual.empty : Actual K V := ⟨[], fun _ => none, 0⟩

omit [DecidableEq K] in
/-- a new object (or null) at the end -/
def Actual.append (a : Actual K V) (x : Option V) : Actual K V :=
  { a with objs := a.objs ++ [x.map fun x => (a.made, x)], made := a.made + count x }

omit [DecidableEq K] in
/-- a new object (or null) at position `i` -/
def Actual.assign (a : Actual K V) (i : Nat) (x : Option V) : Actual K V :=
  { a with objs := a.objs.set i (x.map fun x => (a.made, x)), made := a.made + count x }

/-- the term `k` refers to position `i` -/
def Actual.bind (a : Actual K V) (k : K) (i : Nat) : Actual K V :=
  { a with index := fun k' => if k' = k then some i else a.index k' }

/-- the term `k` is not known any more -/
def Actual.forget (a : Actual K V) (k : K) : Actual K V :=
  { a with index := fun k' => if k' = k then none else a.index k' }

omit [DecidableEq K] in
/-- The object at position `i` is taken out: the following ones, and the terms that refer to them, move down.  Terms that
refer to position `i` itself stay as they are. -/
def Actual.takeOut (a : Actual K V) (i : Nat) : Actual K V :=
  { a with objs := a.objs.eraseIdx i, index := fun k => (a.index k).map fun j => if j > i then j - 1 else j }

/-- One call: what the container and the result may be afterwards.  Only for `removeIndex` of an element with several
terms there is more than one possibility: the map's iteration order decides which term is forgotten. -/
def Step (unset : Option K) (a : Actual K V) (op : Op K V) (a' : Actual K V) (o : Obs V) : Prop :=
  match op with
  | .insertPtr k x => match a.index k with
    | some _ => a' = { a with made := a.made + count x } ∧ o = .index none
    | none => a' = (a.append x).bind k a.objs.length ∧ o = .index (some a.objs.length)
  | .insert k x => match a.index k with
    | some _ => a' = a ∧ o = .index none
    | none => a' = (a.append (some x)).bind k a.objs.length ∧ o = .index (some a.objs.length)
  | .insertNoKey x => a' = a.append (some x) ∧ o = .index (some a.objs.length)
  | .assignPtr k x => match a.index k with
    | some i => a' = a.assign i x ∧ o = .index (some i)
    | none => a' = (a.append x).bind k a.objs.length ∧ o = .index (some a.objs.length)
  | .assign k x => match a.index k with
    | some i => a' = a.assign i (some x) ∧ o = .index (some i)
    | none => a' = (a.append (some x)).bind k a.objs.length ∧ o = .index (some a.objs.length)
  | .find k => a' = a ∧ (match a.index k with
    | some i => (a.objs[i]?).map .ptr = some o
    | none => o = .ptr none)
  | .get i => a' = a ∧ o = .ptr ((a.objs[i]?).bind id)
  | .write i x => ∃ p, (a.objs[i]?).bind id = some p ∧ a' = { a with objs := a.objs.set i (some (p.1, x)) } ∧ o = .done
  | .back => a' = a ∧ a.objs.getLast?.map .ptr = some o
  | .addTerm k i =>
    if i < a.objs.length ∧ a.index k = none then a' = a.bind k i ∧ o = .bool true else a' = a ∧ o = .bool false
  | .removeIndex i =>
    if i < a.objs.length then
      ∃ k, ((∃ k', a.index k' = some i) → a.index k = some i) ∧ ((∀ k', a.index k' ≠ some i) → unset = some k) ∧
        a' = (a.takeOut i).forget k ∧ o = .done
    else a' = a ∧ o = .done
  | .remove k => match a.index k with
    | some i => a' = (a.takeOut i).forget k ∧ o = .done
    | none => a' = a ∧ o = .done
  | .apply => a' = a ∧ o = .ptrs a.objs
  | .size => a' = a ∧ o = .num a.objs.length
  | .clear => a' = { a with objs := [], index := fun _ => none } ∧ o = .done

omit [DecidableEq K] in
/-- Calls with defined behaviour.  Not safe are (1) writing through a null pointer and `back()` of an empty container,
(2) searching, assigning and removing by a term that refers one past the end, (3) removing by index an element without
term if a default constructed term has no determinate value. -/
def safe (unset : Option K) (a : Actual K V) : Op K V → Prop
  | .write i _ => ((a.objs[i]?).bind id).isSome = true
  | .back => a.objs ≠ []
  | .assignPtr k _ | .assign k _ | .find k | .remove k => ∀ i, a.index k = some i → i < a.objs.length
  | .removeIndex i => i < a.objs.length → (∃ k, a.index k = some i) ∨ unset ≠ none
  | _ => True

/-- The calls of a program, one after the other. -/
def Runs (unset : Option K) : Actual K V → List (Op K V) → Actual K V → List (Obs V) → Prop
  | a, [], a', os => a' = a ∧ os = []
  | a, op :: ops, a', os => ∃ a1 o os1, Step unset a op a1 o ∧ Runs unset a1 ops a' os1 ∧ os = o :: os1

end Verif.Mapped.Pointer
