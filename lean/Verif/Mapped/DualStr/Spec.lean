import Verif.Mapped.Dual.Spec
import Verif.Mapped.DualStr.Model

/-
Specification of DualStringMappedVector: that of DualMappedVector (Verif.Mapped.Dual.Spec) with strings as terms of the
first type.
-/
namespace Verif.Mapped.DualStr
open Verif.Mapped Verif.Block
open Verif.Mapped.Vector (Obs Ideal Entry)
open Verif.Mapped.Dual (ideal idealRun)

/-- Calls of a client: those of DualMappedVector. -/
abbrev Op (K2 V : Type) := Dual.Op String K2 V

variable {K2 V : Type} [DecidableEq K2]

/-- Block slots reserved by a new StableBlockVector to which `n` elements were added. -/
def reservedFor (N : Nat) : Nat → Nat
  | 0 => 0
  | n + 1 => Kind.reserve (.stable N) (reservedFor N n) n

omit [DecidableEq K2] in
/-- The search terms of an element of each type do not exactly fill the block slots that a StableBlockVector reserves
for them (64 blocks, or 128, 256, ...). -/
def fits (N : Nat) (e : Entry (String ⊕ K2) V) : Bool :=
  let n1 := (e.keys.filterMap Sum.getLeft?).length
  let n2 := (e.keys.filterMap Sum.getRight?).length
  Kind.iterable (.stable N) (reservedFor N n1) n1 && Kind.iterable (.stable N) (reservedFor N n2) n2

/-- Calls the code handles, for block order `N`; excluded are (1) insertions with a name already present and a second
term not present, (2) removal of elements whose search terms exactly fill the reserved slots of the temporary vectors,
(3) with stable storage: traversals and unsuccessful searches while the reserved block slots are exactly full. -/
def careful (N : Nat) (kind : Kind) (a : Ideal (String ⊕ K2) V) : Op K2 V → Bool
  | .insert (some k1) (some k2) _ => (a.lookup (.inl k1)).isNone || (a.lookup (.inr k2)).isSome
  | .removeIndex i => match a.entries[i]? with
    | some e => fits N e
    | none => true
  | .remove k => match (a.lookup k).bind fun i => a.entries[i]? with
    | some e => fits N e
    | none => true
  | op => Dual.careful kind a op

/-- All calls of the program are careful ones. -/
def carefulRun (N : Nat) (kind : Kind) : Ideal (String ⊕ K2) V → List (Op K2 V) → Bool
  | _, [] => true
  | a, op :: ops => careful N kind a op && (match ideal kind a op with | some r => carefulRun N kind r.1 ops | none => false)

/-! ### Execution of the model -/

variable {S : Type}

/-- One call on the modelled code; `none` is undefined behaviour. -/
def exec (E : Env S K2 V) (m : DSV S K2) (h : Heap String) : Op K2 V → Option (DSV S K2 × Heap String × Obs V)
  | .insert (some k1) (some k2) x => (m.insert E h k1 k2 x).map fun r => (r.1, r.2.1, .index r.2.2)
  | .insert (some k1) none x => (m.insert1 E h k1 x).map fun r => (r.1, r.2.1, .index r.2.2)
  | .insert none (some k2) x => (m.insert2 E k2 x).map fun r => (r.1, h, .index r.2)
  | .insert none none x => (m.insertNoKey E x).map fun r => (r.1, h, .index r.2)
  | .insertOrAssign k1 k2 x => (m.insertOrAssign E h k1 k2 x).map fun r => (r.1, r.2.1, .index (some r.2.2))
  | .insertOrAssignOne (.inl k) x => (m.insertOrAssign1 E h k x).map fun r => (r.1, r.2.1, .index (some r.2.2))
  | .insertOrAssignOne (.inr k) x => (m.insertOrAssign2 E k x).map fun r => (r.1, h, .index (some r.2))
  | .addTermForIndex (.inl k) i => (m.addTermForIndex1 E h k i).map fun r => (r.1, r.2.1, .bool r.2.2)
  | .addTermForIndex (.inr k) i => some ((m.addTermForIndex2 E k i).1, h, .bool (m.addTermForIndex2 E k i).2)
  | .addTerm (.inl k) (.inl e) => (m.addTerm11 E h k e).map fun r => (r.1, r.2.1, .bool r.2.2)
  | .addTerm (.inl k) (.inr e) => (m.addTerm12 E h k e).map fun r => (r.1, r.2.1, .bool r.2.2)
  | .addTerm (.inr k) (.inl e) => (m.addTerm21 E h k e).map fun r => (r.1, h, .bool r.2)
  | .addTerm (.inr k) (.inr e) => some ((m.addTerm22 E k e).1, h, .bool (m.addTerm22 E k e).2)
  | .find (.inl k) => (m.find1 E h k).map fun r => (m, h, .found r)
  | .find (.inr k) => (m.find2 E k).map fun r => (m, h, .found r)
  | .removeIndex i => (m.removeIndex E h i).map fun m => (m, h, .done)
  | .remove (.inl k) => (m.remove1 E h k).map fun m => (m, h, .done)
  | .remove (.inr k) => (m.remove2 E h k).map fun m => (m, h, .done)
  | .get i => (m.get E i).map fun x => (m, h, .val x)
  | .set i x => (m.set E i x).map fun m => (m, h, .done)
  | .at i => (m.at? E i).map fun r => (m, h, match r with | some x => .val x | none => .threw)
  | .back => (m.back E).map fun x => (m, h, .val x)
  | .apply => (m.apply E).map fun xs => (m, h, .vals xs)
  | .modify f => (m.modify E (fun (_ : Unit) x => ((), f x)) ()).map fun r => (r.2, h, .done)
  | .transform f => (m.transform E (fun (_ : Unit) x => ((), f x)) ()).map fun r => (r.2, h, .done)
  | .size => some (m, h, .num (m.size E))
  | .clear => (m.clear E).map fun m => (m, h, .done)

/-- Execution of a program. -/
def run (E : Env S K2 V) : DSV S K2 → Heap String → List (Op K2 V) → Option (DSV S K2 × Heap String × List (Obs V))
  | m, h, [] => some (m, h, [])
  | m, h, op :: ops => (exec E m h op).bind fun r => (run E r.1 r.2.1 ops).map fun s => (s.1, s.2.1, r.2.2 :: s.2.2)

end Verif.Mapped.DualStr
