import Verif.Mapped.Vector.Model

/-
Specification of MappedVector: a sequence of elements, each with the search terms attached to it.
-/
namespace Verif.Mapped.Vector
open Verif.Mapped

/-- Calls of a client. -/
inductive Op (K V : Type) where
  | insert (k : K) (x : V)
  | insertNoKey (x : V)                -- insert(no_search, x)
  | insertOrAssign (k : K) (x : V)
  | find (k : K)                       -- compare the result with end(), then dereference it
  | get (i : Nat)                      -- mv[i]
  | set (i : Nat) (x : V)              -- mv[i] = x
  | at (i : Nat)
  | back
  | addTerm (k : K) (i : Nat)          -- addSearchTermForIndex
  | removeIndex (i : Nat)
  | remove (k : K)
  | apply                              -- the elements passed to F, or seen by a loop from begin() to end()
  | modify (f : V → V)
  | transform (f : V → V)
  | size
  | clear

/-- What the client sees. -/
inductive Obs (V : Type) where
  | done
  | index (i : Option Nat)
  | bool (b : Bool)
  | found (x : Option V)
  | val (x : V)
  | threw
  | vals (xs : List V)
  | num (n : Nat)
deriving DecidableEq

/-- An element and its search terms. -/
structure Entry (K V : Type) where
  value : V
  keys : List K
deriving DecidableEq

/-- The ideal container.  `reserved` (stable storage: number of block slots reserved so far) influences no result, it
only serves to say which calls are excluded in `careful`. -/
structure Ideal (K V : Type) where
  entries : List (Entry K V)
  reserved : Nat
deriving DecidableEq

variable {K V : Type} [DecidableEq K]

/-- position of the element to which `k` is attached -/
def Ideal.lookup (a : Ideal K V) (k : K) : Option Nat := a.entries.findIdx? fun e => decide (k ∈ e.keys)

omit [DecidableEq K] in
/-- a new element at the end -/
def Ideal.append (kind : Kind) (a : Ideal K V) (x : V) (ks : List K) : Ideal K V :=
  ⟨a.entries ++ [⟨x, ks⟩], kind.reserve a.reserved a.entries.length⟩

omit [DecidableEq K] in
/-- Removal of element `i`: it disappears and the following ones move down.  With stable storage this happens only for
the last element; another element stays in place and just loses its search terms. -/
def Ideal.drop (kind : Kind) (a : Ideal K V) (i : Nat) : Ideal K V :=
  if kind.isStable = true ∧ i + 1 ≠ a.entries.length then
    { a with entries := a.entries.modify i fun e => { e with keys := [] } }
  else { a with entries := a.entries.eraseIdx i }

/-- One call: the whole intended behaviour.  `none`: the client breaks the precondition of an unchecked access. -/
def ideal (kind : Kind) (a : Ideal K V) : Op K V → Option (Ideal K V × Obs V)
  | .insert k x => match a.lookup k with
    | some _ => some (a, .index none)
    | none => some (a.append kind x [k], .index (some a.entries.length))
  | .insertNoKey x => some (a.append kind x [], .index (some a.entries.length))
  | .insertOrAssign k x => match a.lookup k with
    | some i => some ({ a with entries := a.entries.modify i fun e => { e with value := x } }, .index (some i))
    | none => some (a.append kind x [k], .index (some a.entries.length))
  | .find k => some (a, .found ((a.entries.find? fun e => decide (k ∈ e.keys)).map (·.value)))
  | .get i => (a.entries[i]?).map fun e => (a, .val e.value)
  | .set i x => if i < a.entries.length then
      some ({ a with entries := a.entries.modify i fun e => { e with value := x } }, .done) else none
  | .at i => some (a, match a.entries[i]? with | some e => .val e.value | none => .threw)
  | .back => a.entries.getLast?.map fun e => (a, .val e.value)
  | .addTerm k i =>
    if i < a.entries.length ∧ a.lookup k = none then
      some ({ a with entries := a.entries.modify i fun e => { e with keys := k :: e.keys } }, .bool true)
    else some (a, .bool false)
  | .removeIndex i => if i < a.entries.length then some (a.drop kind i, .done) else some (a, .done)
  | .remove k => match a.lookup k with
    | some i => some (a.drop kind i, .done)
    | none => some (a, .done)
  | .apply => some (a, .vals (a.entries.map (·.value)))
  | .modify f => some ({ a with entries := a.entries.map fun e => { e with value := f e.value } }, .done)
  | .transform f => some ({ a with entries := a.entries.map fun e => { e with value := f e.value } }, .done)
  | .size => some (a, .num a.entries.length)
  | .clear => some ({ a with entries := [] }, .done)

/-- Calls the code handles; excluded are (1) removing an element that has several search terms, (2) removing by index an
element without search term, unless a default constructed search term has a determinate value that is not in use,
(3) with stable storage: traversals and unsuccessful searches while the reserved block slots are exactly full.
Each exclusion is witnessed in Props. -/
def careful (kind : Kind) (unset : Option K) (a : Ideal K V) : Op K V → Bool
  | .remove k => match a.entries.find? fun e => decide (k ∈ e.keys) with
    | some e => decide (e.keys.length = 1)
    | none => true
  | .removeIndex i => match a.entries[i]? with
    | some e => decide (e.keys.length = 1) ||
        (e.keys.isEmpty && (match unset with | some d => (a.lookup d).isNone | none => false))
    | none => true
  | .find k => (a.lookup k).isSome || kind.iterable a.reserved a.entries.length
  | .apply | .modify _ | .transform _ => kind.iterable a.reserved a.entries.length
  | _ => true

/-- The specification's run of a program. -/
def idealRun (kind : Kind) : Ideal K V → List (Op K V) → Option (Ideal K V × List (Obs V))
  | a, [] => some (a, [])
  | a, op :: ops => (ideal kind a op).bind fun r => (idealRun kind r.1 ops).map fun s => (s.1, r.2 :: s.2)

/-- All calls of the program are careful ones. -/
def carefulRun (kind : Kind) (unset : Option K) : Ideal K V → List (Op K V) → Bool
  | _, [] => true
  | a, op :: ops => careful kind unset a op &&
      (match ideal kind a op with | some r => carefulRun kind unset r.1 ops | none => false)

/-! ### Execution of the model -/

variable {S : Type}

/-- One call on the modelled code; `none` is undefined behaviour. -/
def exec (E : Env S K V) (m : MV S K) : Op K V → Option (MV S K × Obs V)
  | .insert k x => (m.insert E k x).map fun r => (r.1, .index r.2)
  | .insertNoKey x => (m.insertNoKey E x).map fun r => (r.1, .index r.2)
  | .insertOrAssign k x => (m.insertOrAssign E k x).map fun r => (r.1, .index (some r.2))
  | .find k => (m.find E k).map fun r => (m, .found r)
  | .get i => (m.get E i).map fun x => (m, .val x)
  | .set i x => (m.set E i x).map fun m => (m, .done)
  | .at i => (m.at? E i).map fun r => (m, match r with | some x => .val x | none => .threw)
  | .back => (m.back E).map fun x => (m, .val x)
  | .addTerm k i => some ((m.addSearchTermForIndex E k i).1, .bool (m.addSearchTermForIndex E k i).2)
  | .removeIndex i => (m.removeIndex E i).map fun m => (m, .done)
  | .remove k => (m.remove E k).map fun m => (m, .done)
  | .apply => (m.apply E).map fun xs => (m, .vals xs)
  | .modify f => (m.modify E (fun (_ : Unit) x => ((), f x)) ()).map fun r => (r.2, .done)
  | .transform f => (m.transform E (fun (_ : Unit) x => ((), f x)) ()).map fun r => (r.2, .done)
  | .size => some (m, .num (m.size E))
  | .clear => (m.clear E).map fun m => (m, .done)

/-- Execution of a program. -/
def run (E : Env S K V) : MV S K → List (Op K V) → Option (MV S K × List (Obs V))
  | m, [] => some (m, [])
  | m, op :: ops => (exec E m op).bind fun r => (run E r.1 ops).map fun s => (s.1, r.2 :: s.2)

end Verif.Mapped.Vector
