import Verif.Mapped.Vector.Exact
import Verif.Mapped.Dual.ExactSpec
import Verif.Mapped.Dual.Lemmas

/-
DualMappedVector in every history: property C132.
-/
namespace Verif.Mapped.Dual
open Verif.Mapped
open Verif.Mapped.Vector (Obs Ideal Entry Undef)

variable {S K1 K2 V : Type} [DecidableEq K1] [DecidableEq K2]

/-- the specification leaves open only accesses beyond the end and `back()` of an empty container -/
theorem ideal_none {kind : Kind} {a : Ideal (K1 ⊕ K2) V} {op : Op K1 K2 V} (h : ideal kind a op = none) :
    beyond a op ∨ (op = .back ∧ a.entries = []) := by
  cases op with
  | insert o1 o2 x => cases o1 <;> cases o2 <;> simp only [ideal] at h <;> first | cases h | (split at h <;> cases h)
  | insertOrAssign k1 k2 x => simp only [ideal] at h; split at h <;> cases h
  | insertOrAssignOne k x => simp only [ideal] at h; split at h <;> cases h
  | addTermForIndex k i => simp only [ideal] at h; split at h <;> cases h
  | addTerm k e =>
    simp only [ideal] at h
    split at h
    · split at h <;> cases h
    · cases h
  | removeIndex i => simp only [ideal] at h; split at h <;> cases h
  | remove k => simp only [ideal] at h; split at h <;> cases h
  | get i => exact .inl (by simpa [ideal, beyond] using h)
  | set i x => exact .inl (by simpa [ideal, beyond] using h)
  | back => exact .inr ⟨rfl, by simpa [ideal] using h⟩
  | _ => cases h

variable {E : Env S K1 K2 V} {kind : Kind} {L : Lawful E.st kind} {m : DMV S K1 K2} {a : Ideal (K1 ⊕ K2) V}

theorem exact_step (v : Inv L m a) {op : Op K1 K2 V} {a' : Ideal (K1 ⊕ K2) V} {o : Obs V}
    (hd : described kind a op = some (a', o)) : ∃ m', exec E m op = some (m', o) ∧ Inv L m' a' := by
  rw [described] at hd
  split at hd
  · rename_i hc
    obtain ⟨m', e, w, _⟩ := step v hc hd
    exact ⟨m', e, w⟩
  · cases hd

/-- what is not described is undefined, or an unchecked access beyond the end -/
theorem undef_step (hu : Undef L) (v : Inv L m a) {op : Op K1 K2 V} (hd : described kind a op = none) :
    beyond a op ∨ exec E m op = none := by
  have hlen : (a.entries.map (·.value)).length = a.entries.length := List.length_map _
  have hrep : L.Rep m.data (a.entries.map (·.value)) a.reserved := v.rep
  rw [described] at hd
  split at hd
  · rcases ideal_none hd with h | ⟨rfl, h⟩
    · exact .inl h
    · refine .inr ?_
      rw [h] at hrep
      simp only [exec, DMV.back, hu.back hrep, Option.map_none]
  · rename_i hc
    refine .inr ?_
    cases op with
    | find k =>
      simp only [careful, Bool.or_eq_true, not_or, Bool.not_eq_true, Option.isSome_eq_false_iff, Option.isNone_iff_eq_none] at hc
      have he : E.st.endOk m.data = none := hu.endOk hrep (by rw [hlen]; exact hc.2)
      cases k with
      | inl k => simp only [exec, DMV.find1, ← lookup_inl v, hc.1, he, Option.map_none]
      | inr k => simp only [exec, DMV.find2, ← lookup_inr v, hc.1, he, Option.map_none]
    | apply =>
      simp only [careful, Bool.not_eq_true] at hc
      simp only [exec, DMV.apply, hu.all hrep (by rw [hlen]; exact hc), Option.map_none]
    | modify f =>
      simp only [careful, Bool.not_eq_true] at hc
      simp only [exec, DMV.modify, hu.visit _ _ hrep (by rw [hlen]; exact hc), Option.map_none]
    | transform f =>
      simp only [careful, Bool.not_eq_true] at hc
      simp only [exec, DMV.transform, hu.visit _ _ hrep (by rw [hlen]; exact hc), Option.map_none]
    | _ => exact absurd rfl hc

theorem run_append (E : Env S K1 K2 V) : ∀ (pre post : List (Op K1 K2 V)) (m : DMV S K1 K2),
    run E m (pre ++ post) = (run E m pre).bind fun r => (run E r.1 post).map fun s => (s.1, r.2 ++ s.2)
  | [], post, m => by simp [run]
  | op :: pre, post, m => by
    simp only [List.cons_append, run]
    cases exec E m op with
    | none => rfl
    | some r =>
      simp only [Option.bind_some, run_append E pre post r.1]
      cases run E r.1 pre with
      | none => rfl
      | some s =>
        simp only [Option.bind_some, Option.map_some, Option.map_map]
        rfl

/-- every program does what the description says, up to the first call that is not described -/
theorem exact_core : ∀ (ops : List (Op K1 K2 V)) (m : DMV S K1 K2) (a : Ideal (K1 ⊕ K2) V), Inv L m a →
    (∃ m' a' os, run E m ops = some (m', os) ∧ describedRun kind a ops = some (a', os) ∧ Inv L m' a') ∨
    (∃ pre op post m' a' os, ops = pre ++ op :: post ∧ run E m pre = some (m', os) ∧ describedRun kind a pre = some (a', os) ∧
      Inv L m' a' ∧ described kind a' op = none ∧ describedRun kind a ops = none)
  | [], m, a, v => .inl ⟨m, a, [], rfl, rfl, v⟩
  | op :: ops, m, a, v => by
    cases hd : described kind a op with
    | none => exact .inr ⟨[], op, ops, m, a, [], rfl, rfl, rfl, v, hd, by simp only [describedRun, hd, Option.bind_none]⟩
    | some r =>
      obtain ⟨a1, o⟩ := r
      obtain ⟨m1, e1, v1⟩ := exact_step v hd
      rcases exact_core ops m1 a1 v1 with ⟨m', a', os, e, r, w⟩ | ⟨pre, op', post, m', a', os, h, e, r, w, n, q⟩
      · exact .inl ⟨m', a', o :: os, by simp [run, e1, e], by simp [describedRun, hd, r], w⟩
      · exact .inr ⟨op :: pre, op', post, m', a', o :: os, by rw [h]; rfl, by simp [run, e1, e], by simp [describedRun, hd, r],
          w, n, by simp [describedRun, hd, q]⟩

end Verif.Mapped.Dual
