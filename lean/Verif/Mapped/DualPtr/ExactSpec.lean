import Verif.Mapped.DualPtr.Spec

/-
What DualMappedPointerVector does in every history, also where that is not what one wants: a second specification, to be
compared with `ideal` of Spec.lean.  The sequence of elements is described as there; `none` is undefined behaviour.
-/
namespace Verif.Mapped.DualPtr
open Verif.Mapped
open Verif.Mapped.Pointer (Objs Obs Entry Ideal count)

variable {K1 K2 V : Type} [DecidableEq K1] [DecidableEq K2]

/-- the element to which `k` is attached loses it -/
def detach {K V : Type} [DecidableEq K] (a : Ideal K V) (k : K) : Ideal K V :=
  { a with entries := a.entries.map fun e => { e with keys := e.keys.filter (· ≠ k) } }

/-- a new element with those of the two terms that are not in use; the other one stays where it is -/
def added (a : Ideal (K1 ⊕ K2) V) (k1 : K1) (k2 : K2) (x : Option V) : Ideal (K1 ⊕ K2) V :=
  match a.lookup (.inl k1), a.lookup (.inr k2) with
  | none, none => both a k1 k2 x
  | some _, none => a.append x [.inr k2]
  | none, some _ => a.append x [.inl k1]
  | some _, some _ => a.append x []

/-- Element `e` has been removed.  If it had no term of the first type, the element that has the default constructed one
loses it; undefined if that term has no determinate value. -/
def forget1 (E : Env K1 K2) (e : Entry (K1 ⊕ K2) V) (a : Ideal (K1 ⊕ K2) V) : Option (Ideal (K1 ⊕ K2) V) :=
  if e.keys.any Sum.isLeft then some a else E.unset1.map fun d => detach a (.inl d)

/-- The same for the second type. -/
def forget2 (E : Env K1 K2) (e : Entry (K1 ⊕ K2) V) (a : Ideal (K1 ⊕ K2) V) : Option (Ideal (K1 ⊕ K2) V) :=
  if e.keys.any Sum.isRight then some a else E.unset2.map fun d => detach a (.inr d)

/-- One call: what happens.  All other calls do what they should. -/
def actual (E : Env K1 K2) (a : Ideal (K1 ⊕ K2) V) : Op K1 K2 V → Option (Ideal (K1 ⊕ K2) V × Obs V)
  | .insertPtr k1 k2 x =>
    if (a.lookup (.inl k1)).isSome ∧ (a.lookup (.inr k2)).isSome then some ({ a with made := a.made + count x }, .index none)
    else some (added a k1 k2 x, .index (some a.entries.length))
  | .insert k1 k2 x =>
    if (a.lookup (.inl k1)).isSome ∧ (a.lookup (.inr k2)).isSome then some (a, .index none)
    else some (added a k1 k2 (some x), .index (some a.entries.length))
  | .removeIndex i => match a.entries[i]? with
    | some e => ((forget1 E e { a with entries := a.entries.eraseIdx i }).bind (forget2 E e)).map (·, .done)
    | none => some (a, .done)
  | .remove k => match a.lookup k with
    | some i => match a.entries[i]?, k with
      | some e, .inl _ => (forget2 E e { a with entries := a.entries.eraseIdx i }).map (·, .done)
      | some e, .inr _ => (forget1 E e { a with entries := a.entries.eraseIdx i }).map (·, .done)
      | none, _ => none
    | none => some (a, .done)
  | op => ideal a op

/-- A program: what happens. -/
def actualRun (E : Env K1 K2) : Ideal (K1 ⊕ K2) V → List (Op K1 K2 V) → Option (Ideal (K1 ⊕ K2) V × List (Obs V))
  | a, [] => some (a, [])
  | a, op :: ops => (actual E a op).bind fun r => (actualRun E r.1 ops).map fun s => (s.1, r.2 :: s.2)

end Verif.Mapped.DualPtr
