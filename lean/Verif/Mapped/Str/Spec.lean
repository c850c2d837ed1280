import Verif.Mapped.Vector.Spec
import Verif.Mapped.Str.Model

/-
Specification of StringMappedVector: that of MappedVector with strings as search terms, where an element has at most one
search term.
-/
namespace Verif.Mapped.Str
open Verif.Mapped Verif.Block
open Verif.Mapped.Vector (Obs Ideal)

/-- Calls of a client. -/
inductive Op (V : Type) where
  | insert (k : String) (x : V)
  | insertNoKey (x : V)
  | insertOrAssign (k : String) (x : V)
  | find (k : String)
  | get (i : Nat)
  | set (i : Nat) (x : V)
  | at (i : Nat)
  | back
  | removeIndex (i : Nat)
  | remove (k : String)
  | apply
  | modify (f : V → V)
  | transform (f : V → V)
  | size
  | clear

variable {V : Type}

/-- the corresponding call of MappedVector -/
def Op.base : Op V → Vector.Op String V
  | .insert k x => .insert k x
  | .insertNoKey x => .insertNoKey x
  | .insertOrAssign k x => .insertOrAssign k x
  | .find k => .find k
  | .get i => .get i
  | .set i x => .set i x
  | .at i => .at i
  | .back => .back
  | .removeIndex i => .removeIndex i
  | .remove k => .remove k
  | .apply => .apply
  | .modify f => .modify f
  | .transform f => .transform f
  | .size => .size
  | .clear => .clear

/-- The intended behaviour: that of MappedVector (Verif.Mapped.Vector.Spec). -/
def ideal (kind : Kind) (a : Ideal String V) (op : Op V) : Option (Ideal String V × Obs V) := Vector.ideal kind a op.base

/-- Calls the code handles; excluded are (1) removing by index an element without search term while the empty string is
a search term of another element, (2) with stable storage: traversals and unsuccessful searches while the reserved
block slots are exactly full. -/
def careful (kind : Kind) (a : Ideal String V) : Op V → Bool
  | .removeIndex i => match a.entries[i]? with
    | some e => !e.keys.isEmpty || (a.lookup "").isNone
    | none => true
  | .find k => (a.lookup k).isSome || kind.iterable a.reserved a.entries.length
  | .apply | .modify _ | .transform _ => kind.iterable a.reserved a.entries.length
  | _ => true

/-- The specification's run of a program. -/
def idealRun (kind : Kind) (a : Ideal String V) (ops : List (Op V)) : Option (Ideal String V × List (Obs V)) :=
  Vector.idealRun kind a (ops.map Op.base)

/-- All calls of the program are careful ones. -/
def carefulRun (kind : Kind) : Ideal String V → List (Op V) → Bool
  | _, [] => true
  | a, op :: ops => careful kind a op && (match ideal kind a op with | some r => carefulRun kind r.1 ops | none => false)

/-! ### Execution of the model -/

variable {S : Type}

/-- One call on the modelled code; `none` is undefined behaviour. -/
def exec (E : Env S V) (m : SMV S) (h : Heap String) : Op V → Option (SMV S × Heap String × Obs V)
  | .insert k x => (m.insert E h k x).map fun r => (r.1, r.2.1, .index r.2.2)
  | .insertNoKey x => (m.insertNoKey E x).map fun r => (r.1, h, .index r.2)
  | .insertOrAssign k x => (m.insertOrAssign E h k x).map fun r => (r.1, r.2.1, .index (some r.2.2))
  | .find k => (m.find E h k).map fun r => (m, h, .found r)
  | .get i => (m.get E i).map fun x => (m, h, .val x)
  | .set i x => (m.set E i x).map fun m => (m, h, .done)
  | .at i => (m.at? E i).map fun r => (m, h, match r with | some x => .val x | none => .threw)
  | .back => (m.back E).map fun x => (m, h, .val x)
  | .removeIndex i => (m.removeIndex E h i).map fun m => (m, h, .done)
  | .remove k => (m.remove E h k).map fun m => (m, h, .done)
  | .apply => (m.apply E).map fun xs => (m, h, .vals xs)
  | .modify f => (m.modify E (fun (_ : Unit) x => ((), f x)) ()).map fun r => (r.2, h, .done)
  | .transform f => (m.transform E (fun (_ : Unit) x => ((), f x)) ()).map fun r => (r.2, h, .done)
  | .size => some (m, h, .num (m.size E))
  | .clear => (m.clear E).map fun m => (m, h, .done)

/-- Execution of a program. -/
def run (E : Env S V) : SMV S → Heap String → List (Op V) → Option (SMV S × Heap String × List (Obs V))
  | m, h, [] => some (m, h, [])
  | m, h, op :: ops => (exec E m h op).bind fun r => (run E r.1 r.2.1 ops).map fun s => (s.1, s.2.1, r.2.2 :: s.2.2)

end Verif.Mapped.Str
