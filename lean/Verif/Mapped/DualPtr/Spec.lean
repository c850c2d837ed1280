import Verif.Mapped.Pointer.Spec
import Verif.Mapped.DualPtr.Model

/-
Specification of DualMappedPointerVector: a sequence of owned objects, each with its search terms of both types.
-/
namespace Verif.Mapped.DualPtr
open Verif.Mapped
open Verif.Mapped.Pointer (Objs Obs Entry Ideal count readAll)

/-- Calls of a client.  `.inl k` is a term of the first type, `.inr k` of the second. -/
inductive Op (K1 K2 V : Type) where
  | insertPtr (k1 : K1) (k2 : K2) (x : Option V)    -- insert(k1, k2, std::make_unique<V>(x)) or with a null pointer
  | insert (k1 : K1) (k2 : K2) (x : V)              -- insert(k1, k2, x)
  | insertOne (k : K1 ⊕ K2) (x : V)                 -- insert(k1, nullptr, x) or insert(no_search, k2, x)
  | assignPtr (k1 : K1) (k2 : K2) (x : Option V)    -- insert_or_assign(k1, k2, pointer)
  | assign (k1 : K1) (k2 : K2) (x : V)              -- insert_or_assign(k1, k2, x)
  | assignOne (k : K1 ⊕ K2) (x : V)                 -- insert_or_assign(k1, nullptr, x) or (nullptr, k2, x)
  | find (k : K1 ⊕ K2)
  | get (i : Nat)                                   -- mpv[i]
  | write (i : Nat) (x : V)                         -- *mpv[i] = x
  | back
  | removeIndex (i : Nat)
  | remove (k : K1 ⊕ K2)
  | apply                                           -- the pointers passed to F
  | size
  | clear

/-- Attach `k` to element `i`; if it was attached to another element, it no longer is. -/
def attach {K V : Type} [DecidableEq K] (a : Ideal K V) (i : Nat) (k : K) : Ideal K V :=
  let stripped := a.entries.map fun e => { e with keys := e.keys.filter (· ≠ k) }
  { a with entries := stripped.modify i fun e => { e with keys := k :: e.keys } }

/-- the object of the element to which `k` is attached -/
def objOf {K V : Type} [DecidableEq K] (a : Ideal K V) (k : K) : Option (Nat × V) :=
  (a.entries.find? fun e => decide (k ∈ e.keys)).bind (·.obj)

variable {K1 K2 V : Type} [DecidableEq K1] [DecidableEq K2]

/-- a new element with both terms -/
def both (a : Ideal (K1 ⊕ K2) V) (k1 : K1) (k2 : K2) (x : Option V) : Ideal (K1 ⊕ K2) V :=
  attach (attach (a.append x []) a.entries.length (.inl k1)) a.entries.length (.inr k2)

/-- One call: the whole intended behaviour.  `none`: the client writes through a null pointer, or takes `back()` of an
empty container. -/
def ideal (a : Ideal (K1 ⊕ K2) V) : Op K1 K2 V → Option (Ideal (K1 ⊕ K2) V × Obs V)
  | .insertPtr k1 k2 x =>
    if (a.lookup (.inl k1)).isSome ∧ (a.lookup (.inr k2)).isSome then some ({ a with made := a.made + count x }, .index none)
    else some (both a k1 k2 x, .index (some a.entries.length))
  | .insert k1 k2 x =>
    if (a.lookup (.inl k1)).isSome ∧ (a.lookup (.inr k2)).isSome then some (a, .index none)
    else some (both a k1 k2 (some x), .index (some a.entries.length))
  | .insertOne k x => match a.lookup k with
    | some _ => some (a, .index none)
    | none => some (a.append (some x) [k], .index (some a.entries.length))
  | .assignPtr k1 k2 x => match a.lookup (.inl k1) with
    | some i => if a.lookup (.inr k2) = some i then some (a.assign i x, .index (some i))
      else some (both a k1 k2 x, .index (some a.entries.length))
    | none => some (both a k1 k2 x, .index (some a.entries.length))
  | .assign k1 k2 x => match a.lookup (.inl k1) with
    | some i => if a.lookup (.inr k2) = some i then some (a.assign i (some x), .index (some i))
      else some (both a k1 k2 (some x), .index (some a.entries.length))
    | none => some (both a k1 k2 (some x), .index (some a.entries.length))
  | .assignOne k x => match a.lookup k with
    | some i => some (a.assign i (some x), .index (some i))
    | none => some (a.append (some x) [k], .index (some a.entries.length))
  | .find k => some (a, .ptr (objOf a k))
  | .get i => some (a, .ptr ((a.entries[i]?).bind (·.obj)))
  | .write i x => ((a.entries[i]?).bind (·.obj)).map fun p =>
      ({ a with entries := a.entries.modify i fun e => { e with obj := some (p.1, x) } }, .done)
  | .back => a.entries.getLast?.map fun e => (a, .ptr e.obj)
  | .removeIndex i => some ({ a with entries := a.entries.eraseIdx i }, .done)
  | .remove k => match a.lookup k with
    | some i => some ({ a with entries := a.entries.eraseIdx i }, .done)
    | none => some (a, .done)
  | .apply => some (a, .ptrs (a.entries.map (·.obj)))
  | .size => some (a, .num a.entries.length)
  | .clear => some ({ a with entries := [] }, .done)

/-- a default constructed search term has a determinate value that is not in use -/
def free {K : Type} (a : Ideal (K1 ⊕ K2) V) (f : K → K1 ⊕ K2) : Option K → Bool
  | some d => (a.lookup (f d)).isNone
  | none => false

/-- Calls the code handles; excluded are (1) `insert` with exactly one of the terms in use, (2) removing an element that
lacks a term of a type (other than that by which it is removed), unless a default constructed term of that type has a
determinate value that is not in use.  Each exclusion is witnessed in Props. -/
def careful (E : Env K1 K2) (a : Ideal (K1 ⊕ K2) V) : Op K1 K2 V → Bool
  | .insertPtr k1 k2 _ | .insert k1 k2 _ => (a.lookup (.inl k1)).isSome == (a.lookup (.inr k2)).isSome
  | .remove k => match (a.lookup k).bind fun i => a.entries[i]? with
    | some e => match k with
      | .inl _ => e.keys.any Sum.isRight || free a Sum.inr E.unset2
      | .inr _ => e.keys.any Sum.isLeft || free a Sum.inl E.unset1
    | none => true
  | .removeIndex i => match a.entries[i]? with
    | some e => (e.keys.any Sum.isLeft || free a Sum.inl E.unset1) && (e.keys.any Sum.isRight || free a Sum.inr E.unset2)
    | none => true
  | _ => true

/-- The specification's run of a program. -/
def idealRun : Ideal (K1 ⊕ K2) V → List (Op K1 K2 V) → Option (Ideal (K1 ⊕ K2) V × List (Obs V))
  | a, [] => some (a, [])
  | a, op :: ops => (ideal a op).bind fun r => (idealRun r.1 ops).map fun s => (s.1, r.2 :: s.2)

/-- All calls of the program are careful ones. -/
def carefulRun (E : Env K1 K2) : Ideal (K1 ⊕ K2) V → List (Op K1 K2 V) → Bool
  | _, [] => true
  | a, op :: ops => careful E a op && (match ideal a op with | some r => carefulRun E r.1 ops | none => false)

/-! ### Execution of the model -/

/-- The container and the heap. -/
structure World (K1 K2 V : Type) where
  pv : DPV K1 K2
  heap : Objs V

omit [DecidableEq K1] [DecidableEq K2] in
def World.init : World K1 K2 V := ⟨⟨[], [], []⟩, Objs.empty⟩

/-- One call on the modelled code; `none` is undefined behaviour. -/
def exec (E : Env K1 K2) (w : World K1 K2 V) : Op K1 K2 V → Option (World K1 K2 V × Obs V)
  | .insertPtr k1 k2 x =>
    let o := w.heap.makeOpt x
    let r := w.pv.insertPtr E k1 k2 o.2
    -- after a failure the client's temporary still owns the object and is destroyed
    (if r.2.isSome then some o.1 else o.1.delete o.2).map fun h => (⟨r.1, h⟩, .index r.2)
  | .insert k1 k2 x =>
    let r := w.pv.insert E w.heap k1 k2 x
    some (⟨r.1, r.2.1⟩, .index r.2.2)
  | .insertOne (.inl k) x =>
    let r := w.pv.insert1 E w.heap k x
    some (⟨r.1, r.2.1⟩, .index r.2.2)
  | .insertOne (.inr k) x =>
    let r := w.pv.insert2 E w.heap k x
    some (⟨r.1, r.2.1⟩, .index r.2.2)
  | .assignPtr k1 k2 x =>
    let o := w.heap.makeOpt x
    (w.pv.insertOrAssignPtr E o.1 k1 k2 o.2).map fun r => (⟨r.1, r.2.1⟩, .index (some r.2.2))
  | .assign k1 k2 x => (w.pv.insertOrAssign E w.heap k1 k2 x).map fun r => (⟨r.1, r.2.1⟩, .index (some r.2.2))
  | .assignOne (.inl k) x => (w.pv.insertOrAssign1 E w.heap k x).map fun r => (⟨r.1, r.2.1⟩, .index (some r.2.2))
  | .assignOne (.inr k) x => (w.pv.insertOrAssign2 E w.heap k x).map fun r => (⟨r.1, r.2.1⟩, .index (some r.2.2))
  | .find (.inl k) => (w.pv.find1 k).bind fun p => (w.heap.read p).map fun x => (w, .ptr x)
  | .find (.inr k) => (w.pv.find2 k).bind fun p => (w.heap.read p).map fun x => (w, .ptr x)
  | .get i => (w.pv.get i).bind fun p => (w.heap.read p).map fun x => (w, .ptr x)
  | .write i x => (w.pv.get i).bind fun p => p.bind fun p => (w.heap.write p x).map fun h => (⟨w.pv, h⟩, .done)
  | .back => w.pv.back.bind fun p => (w.heap.read p).map fun x => (w, .ptr x)
  | .removeIndex i => (w.pv.removeIndex E w.heap i).map fun r => (⟨r.1, r.2⟩, .done)
  | .remove (.inl k) => (w.pv.remove1 E w.heap k).map fun r => (⟨r.1, r.2⟩, .done)
  | .remove (.inr k) => (w.pv.remove2 E w.heap k).map fun r => (⟨r.1, r.2⟩, .done)
  | .apply => (readAll w.heap w.pv.apply).map fun xs => (w, .ptrs xs)
  | .size => some (w, .num w.pv.size)
  | .clear => (w.pv.clear w.heap).map fun r => (⟨r.1, r.2⟩, .done)

/-- Execution of a program. -/
def run (E : Env K1 K2) : World K1 K2 V → List (Op K1 K2 V) → Option (World K1 K2 V × List (Obs V))
  | w, [] => some (w, [])
  | w, op :: ops => (exec E w op).bind fun r => (run E r.1 ops).map fun s => (s.1, r.2 :: s.2)

end Verif.Mapped.DualPtr
