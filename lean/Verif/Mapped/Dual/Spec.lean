import Verif.Mapped.Vector.Spec
import Verif.Mapped.Dual.Model

/-
Specification of DualMappedVector: a sequence of elements, each with the search terms of both types attached to it.
-/
namespace Verif.Mapped.Dual
open Verif.Mapped
open Verif.Mapped.Vector (Obs Ideal Entry)

/-- Calls of a client.  `.inl k` is a term of the first type, `.inr k` of the second; `none` stands for `no_search`. -/
inductive Op (K1 K2 V : Type) where
  | insert (k1 : Option K1) (k2 : Option K2) (x : V)
  | insertOrAssign (k1 : K1) (k2 : K2) (x : V)
  | insertOrAssignOne (k : K1 ⊕ K2) (x : V)           -- with no_search for the other term
  | addTermForIndex (k : K1 ⊕ K2) (i : Nat)
  | addTerm (k existing : K1 ⊕ K2)
  | find (k : K1 ⊕ K2)                 -- compare the result with end(), then dereference it
  | removeIndex (i : Nat)
  | remove (k : K1 ⊕ K2)
  | get (i : Nat)
  | set (i : Nat) (x : V)              -- mv[i] = x
  | at (i : Nat)
  | back
  | apply
  | modify (f : V → V)
  | transform (f : V → V)
  | size
  | clear

variable {K V : Type} [DecidableEq K]

/-- the value of the element to which `k` is attached -/
def valueOf (a : Ideal K V) (k : K) : Option V := (a.entries.find? fun e => decide (k ∈ e.keys)).map (·.value)

/-- Attach `k` to element `i`; if it was attached to another element, it no longer is. -/
def attach (a : Ideal K V) (i : Nat) (k : K) : Ideal K V :=
  let stripped := a.entries.map fun e => { e with keys := e.keys.filter (· ≠ k) }
  { a with entries := stripped.modify i fun e => { e with keys := k :: e.keys } }

omit [DecidableEq K] in
/-- change the value of element `i` -/
def assign (a : Ideal K V) (i : Nat) (x : V) : Ideal K V :=
  { a with entries := a.entries.modify i fun e => { e with value := x } }

variable {K1 K2 : Type} [DecidableEq K1] [DecidableEq K2]

/-- One call: the whole intended behaviour.  `none`: the client breaks the precondition of an unchecked access. -/
def ideal (kind : Kind) (a : Ideal (K1 ⊕ K2) V) : Op K1 K2 V → Option (Ideal (K1 ⊕ K2) V × Obs V)
  | .insert (some k1) (some k2) x =>
    if (a.lookup (.inl k1)).isSome ∧ (a.lookup (.inr k2)).isSome then some (a, .index none)
    else some (attach (attach (a.append kind x []) a.entries.length (.inl k1)) a.entries.length (.inr k2),
      .index (some a.entries.length))
  | .insert (some k1) none x =>
    if (a.lookup (.inl k1)).isSome then some (a, .index none)
    else some (a.append kind x [.inl k1], .index (some a.entries.length))
  | .insert none (some k2) x =>
    if (a.lookup (.inr k2)).isSome then some (a, .index none)
    else some (a.append kind x [.inr k2], .index (some a.entries.length))
  | .insert none none x => some (a.append kind x [], .index (some a.entries.length))
  | .insertOrAssign k1 k2 x => match a.lookup (.inl k1) with
    | some i => some (attach (assign a i x) i (.inr k2), .index (some i))
    | none => some (attach (attach (a.append kind x []) a.entries.length (.inl k1)) a.entries.length (.inr k2),
        .index (some a.entries.length))
  | .insertOrAssignOne k x => match a.lookup k with
    | some i => some (assign a i x, .index (some i))
    | none => some (a.append kind x [k], .index (some a.entries.length))
  | .addTermForIndex k i =>
    if i < a.entries.length ∧ a.lookup k = none then some (attach a i k, .bool true) else some (a, .bool false)
  | .addTerm k existing => match a.lookup existing with
    | some i => if a.lookup k = none then some (attach a i k, .bool true) else some (a, .bool false)
    | none => some (a, .bool false)
  | .find k => some (a, .found (valueOf a k))
  | .removeIndex i => if i < a.entries.length then some (a.drop kind i, .done) else some (a, .done)
  | .remove k => match a.lookup k with
    | some i => some (a.drop kind i, .done)
    | none => some (a, .done)
  | .get i => (a.entries[i]?).map fun e => (a, .val e.value)
  | .set i x => if i < a.entries.length then some (assign a i x, .done) else none
  | .at i => some (a, match a.entries[i]? with | some e => .val e.value | none => .threw)
  | .back => a.entries.getLast?.map fun e => (a, .val e.value)
  | .apply => some (a, .vals (a.entries.map (·.value)))
  | .modify f => some ({ a with entries := a.entries.map fun e => { e with value := f e.value } }, .done)
  | .transform f => some ({ a with entries := a.entries.map fun e => { e with value := f e.value } }, .done)
  | .size => some (a, .num a.entries.length)
  | .clear => some ({ a with entries := [] }, .done)

/-- Calls the code handles; excluded are only, with stable storage, traversals and unsuccessful searches while the
reserved block slots are exactly full. -/
def careful (kind : Kind) (a : Ideal (K1 ⊕ K2) V) : Op K1 K2 V → Bool
  | .find k => (a.lookup k).isSome || kind.iterable a.reserved a.entries.length
  | .apply | .modify _ | .transform _ => kind.iterable a.reserved a.entries.length
  | _ => true

/-- The specification's run of a program. -/
def idealRun (kind : Kind) : Ideal (K1 ⊕ K2) V → List (Op K1 K2 V) → Option (Ideal (K1 ⊕ K2) V × List (Obs V))
  | a, [] => some (a, [])
  | a, op :: ops => (ideal kind a op).bind fun r => (idealRun kind r.1 ops).map fun s => (s.1, r.2 :: s.2)

/-- All calls of the program are careful ones. -/
def carefulRun (kind : Kind) : Ideal (K1 ⊕ K2) V → List (Op K1 K2 V) → Bool
  | _, [] => true
  | a, op :: ops => careful kind a op && (match ideal kind a op with | some r => carefulRun kind r.1 ops | none => false)

/-! ### Execution of the model -/

variable {S : Type}

/-- One call on the modelled code; `none` is undefined behaviour. -/
def exec (E : Env S K1 K2 V) (m : DMV S K1 K2) : Op K1 K2 V → Option (DMV S K1 K2 × Obs V)
  | .insert (some k1) (some k2) x => (m.insert E k1 k2 x).map fun r => (r.1, .index r.2)
  | .insert (some k1) none x => (m.insert1 E k1 x).map fun r => (r.1, .index r.2)
  | .insert none (some k2) x => (m.insert2 E k2 x).map fun r => (r.1, .index r.2)
  | .insert none none x => (m.insertNoKey E x).map fun r => (r.1, .index r.2)
  | .insertOrAssign k1 k2 x => (m.insertOrAssign E k1 k2 x).map fun r => (r.1, .index (some r.2))
  | .insertOrAssignOne (.inl k) x => (m.insertOrAssign1 E k x).map fun r => (r.1, .index (some r.2))
  | .insertOrAssignOne (.inr k) x => (m.insertOrAssign2 E k x).map fun r => (r.1, .index (some r.2))
  | .addTermForIndex (.inl k) i => some ((m.addTermForIndex1 E k i).1, .bool (m.addTermForIndex1 E k i).2)
  | .addTermForIndex (.inr k) i => some ((m.addTermForIndex2 E k i).1, .bool (m.addTermForIndex2 E k i).2)
  | .addTerm (.inl k) (.inl e) => some ((m.addTerm11 E k e).1, .bool (m.addTerm11 E k e).2)
  | .addTerm (.inl k) (.inr e) => some ((m.addTerm12 E k e).1, .bool (m.addTerm12 E k e).2)
  | .addTerm (.inr k) (.inl e) => some ((m.addTerm21 E k e).1, .bool (m.addTerm21 E k e).2)
  | .addTerm (.inr k) (.inr e) => some ((m.addTerm22 E k e).1, .bool (m.addTerm22 E k e).2)
  | .find (.inl k) => (m.find1 E k).map fun r => (m, .found r)
  | .find (.inr k) => (m.find2 E k).map fun r => (m, .found r)
  | .removeIndex i => (m.removeIndex E i).map fun m => (m, .done)
  | .remove (.inl k) => (m.remove1 E k).map fun m => (m, .done)
  | .remove (.inr k) => (m.remove2 E k).map fun m => (m, .done)
  | .get i => (m.get E i).map fun x => (m, .val x)
  | .set i x => (m.set E i x).map fun m => (m, .done)
  | .at i => (m.at? E i).map fun r => (m, match r with | some x => .val x | none => .threw)
  | .back => (m.back E).map fun x => (m, .val x)
  | .apply => (m.apply E).map fun xs => (m, .vals xs)
  | .modify f => (m.modify E (fun (_ : Unit) x => ((), f x)) ()).map fun r => (r.2, .done)
  | .transform f => (m.transform E (fun (_ : Unit) x => ((), f x)) ()).map fun r => (r.2, .done)
  | .size => some (m, .num (m.size E))
  | .clear => (m.clear E).map fun m => (m, .done)

/-- Execution of a program. -/
def run (E : Env S K1 K2 V) : DMV S K1 K2 → List (Op K1 K2 V) → Option (DMV S K1 K2 × List (Obs V))
  | m, [] => some (m, [])
  | m, op :: ops => (exec E m op).bind fun r => (run E r.1 ops).map fun s => (s.1, r.2 :: s.2)

end Verif.Mapped.Dual
