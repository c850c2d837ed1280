import Verif.Mapped.Dual.Exact
import Verif.Mapped.DualStr.ExactSpec
import Verif.Mapped.DualStr.Own

/-
DualStringMappedVector in every history: property C133.
-/
namespace Verif.Mapped.DualStr
open Verif.Mapped Verif.Block Verif.Block.Vector
open Verif.Mapped.Vector (Obs Ideal Entry Undef stableUndef)
open Verif.Mapped.Dual (ideal attach beyond collect)
open Verif.Mapped.Str (View text nameOf strings SRepC)

variable {S K2 V : Type} [DecidableEq K2] {E : Env S K2 V} {kind : Kind} {L : Lawful E.st kind} {m : DSV S K2}
  {h : Heap String} {a : Ideal (String ⊕ K2) V}

theorem exact_step (v : Inv L m h a) {op : Op K2 V} {a' : Ideal (String ⊕ K2) V} {o : Obs V}
    (hd : described E.order kind a op = some (a', o)) : ∃ m' h', exec E m h op = some (m', h', o) ∧ Inv L m' h' a' := by
  rw [described] at hd
  split at hd
  · rename_i hp
    by_cases hc : careful E.order kind a op = true
    · refine step v hc ?_
      cases op with
      | insert o1 o2 x =>
        cases o1 with
        | none => exact hd
        | some k1 =>
          cases o2 with
          | none => exact hd
          | some k2 =>
            simp only [actual] at hd
            rw [if_neg] at hd
            · exact hd
            · rintro ⟨h1, h2⟩
              simp only [careful, h2, Bool.or_eq_true] at hc
              rcases hc with hc | hc
              · cases hf : a.lookup (.inl k1) <;> simp [hf] at h1 hc
              · cases hc
      | _ => exact hd
    · cases op with
      | insert o1 o2 x =>
        cases o1 with
        | none => exact absurd rfl hc
        | some k1 =>
          cases o2 with
          | none => exact absurd rfl hc
          | some k2 =>
            simp only [careful, Bool.or_eq_true, not_or, Bool.not_eq_true, Option.isNone_eq_false_iff,
              Option.isSome_eq_false_iff, Option.isNone_iff_eq_none] at hc
            simp only [actual] at hd
            have h1 : (a.lookup (.inl k1)).isSome = true := Option.isSome_iff_ne_none.2 hc.1
            rw [if_pos ⟨h1, hc.2⟩] at hd
            cases hd
            obtain ⟨m', h', e, ok, w⟩ := insert_present v (k1 := k1) (k2 := k2) x h1 hc.2
            refine ⟨m', h', by simp only [exec, e, Option.map_some], ok, w, ?_⟩
            refine attach_nodup ?_ _ _
            intro e he
            simp only [Vector.Ideal.append, List.mem_append, List.mem_singleton] at he
            rcases he with he | rfl
            · exact v.nodup e he
            · exact List.nodup_nil
      | _ => exact absurd hp hc
  · cases hd

theorem traverse_none {K : Type} (N : Nat) (ks : List K)
    (h : Kind.iterable (.stable N) (reservedFor N ks.length) ks.length = false) : traverse N ks = none := by
  obtain ⟨s, e, rep⟩ := fold_push N ks [] _ 0 (stableStarts N K).start rfl
  rw [traverse, e]
  exact (stableUndef N K).all rep h

/-- the keys collected in a removal are those of the element -/
theorem collected (v : Inv L m h a) {i : Nat} {e : Entry (String ⊕ K2) V} (hi : a.entries[i]? = some e) (er : Bool) :
    (collect er i m.lookup1).2.length = (e.keys.filterMap Sum.getLeft?).length ∧
    (collect er i m.lookup2).2.length = (e.keys.filterMap Sum.getRight?).length := by
  have hn := v.nodup e (List.mem_of_getElem? hi)
  have w := Dual.join_wf.1 v.base.binds.wf
  have hlk : ∀ k, a.lookup k = some i ↔ k ∈ e.keys := by
    intro k
    rw [Dual.lookup_iff v.base k i]
    constructor
    · rintro ⟨e', h1, h2⟩; rw [hi] at h1; cases h1; exact h2
    · exact fun h => ⟨e, hi, h⟩
  constructor
  · have := collect_length w.1 er i (ks := e.keys.filterMap Sum.getLeft?)
      (hn.filterMap (by intro x y z hx hy; cases x <;> cases y <;> simp_all)) (by
        intro k
        rw [← Dual.lookup_inl v.base, hlk]
        simp only [List.mem_filterMap]
        constructor
        · rintro ⟨x, h1, h2⟩; cases x <;> simp_all
        · exact fun h => ⟨_, h, rfl⟩)
    rw [← this, collect_strings, List.length_map]
  · exact collect_length w.2 er i (ks := e.keys.filterMap Sum.getRight?)
      (hn.filterMap (by intro x y z hx hy; cases x <;> cases y <;> simp_all)) (by
        intro k
        rw [← Dual.lookup_inr v.base, hlk]
        simp only [List.mem_filterMap]
        constructor
        · rintro ⟨x, h1, h2⟩; cases x <;> simp_all
        · exact fun h => ⟨_, h, rfl⟩)

theorem removeIndex_none (v : Inv L m h a) {i : Nat} {e : Entry (String ⊕ K2) V} (hi : a.entries[i]? = some e)
    (hf : fits E.order e = false) : m.removeIndex E h i = none := by
  have hsz : E.st.size m.data = a.entries.length := v.base.size_eq
  have hl := (List.getElem?_eq_some_iff.1 hi).1
  simp only [DSV.removeIndex]
  rw [if_neg (by omega)]
  cases he : E.st.erase m.data i with
  | none => rfl
  | some r =>
    obtain ⟨c1, c2⟩ := collected v hi r.2
    simp only [Option.bind_some]
    simp only [fits, Bool.and_eq_false_iff] at hf
    rcases hf with hf | hf
    · rw [traverse_none _ (collect r.2 i m.lookup1).2 (by rw [c1]; exact hf)]; rfl
    · rw [traverse_none _ (collect r.2 i m.lookup2).2 (by rw [c2]; exact hf)]
      cases traverse E.order (collect r.2 i m.lookup1).2 with
      | none => rfl
      | some ind1 =>
        simp only [Option.bind_some, Option.map_none]
        cases eraseViews E.hash E.order h ind1 (collect r.2 i m.lookup1).1 <;> rfl

/-- a removal whose temporary vectors cannot be traversed is undefined -/
theorem remove_undef (v : Inv L m h a) {op : Op K2 V} (hop : (∃ i, op = .removeIndex i) ∨ ∃ k, op = .remove k)
    (hp : ¬ possible E.order kind a op = true) : exec E m h op = none := by
  rcases hop with ⟨i, rfl⟩ | ⟨k, rfl⟩
  · simp only [possible, Bool.not_eq_true] at hp
    split at hp
    · rename_i e he
      simp only [exec, removeIndex_none v he hp, Option.map_none]
    · cases hp
  · simp only [possible, Bool.not_eq_true] at hp
    split at hp
    · rename_i e he
      obtain ⟨i, h1, h2⟩ := Option.bind_eq_some_iff.1 he
      cases k with
      | inl k =>
        rw [Dual.lookup_inl v.base, Str.find_strings] at h1
        obtain ⟨x, h3, h4⟩ := Option.map_eq_some_iff.1 h1
        have hf := SRepC.find_eq v.ok k
        rw [h3] at hf
        simp only [exec, DSV.remove1, hf, Option.bind_some, h4, removeIndex_none v h2 hp, Option.map_none]
      | inr k =>
        rw [Dual.lookup_inr v.base] at h1
        have h1 : FMap.find m.lookup2 k = some i := h1
        simp only [exec, DSV.remove2, h1, removeIndex_none v h2 hp, Option.map_none]
    · cases hp

theorem actual_none {op : Op K2 V} (hd : actual kind a op = none) : beyond a op ∨ (op = .back ∧ a.entries = []) := by
  cases op with
  | insert o1 o2 x =>
    cases o1 with
    | none => exact Dual.ideal_none (kind := kind) hd
    | some k1 =>
      cases o2 with
      | none => exact Dual.ideal_none (kind := kind) hd
      | some k2 =>
        simp only [actual] at hd
        split at hd
        · cases hd
        · exact Dual.ideal_none (kind := kind) hd
  | _ => exact Dual.ideal_none (kind := kind) hd

/-- what is not described is undefined, or an unchecked access beyond the end -/
theorem undef_step (hu : Undef L) (v : Inv L m h a) {op : Op K2 V} (hd : described E.order kind a op = none) :
    beyond a op ∨ exec E m h op = none := by
  have hlen : (a.entries.map (·.value)).length = a.entries.length := List.length_map _
  have hrep : L.Rep m.data (a.entries.map (·.value)) a.reserved := v.base.rep
  rw [described] at hd
  split at hd
  · rcases actual_none hd with h | ⟨rfl, h⟩
    · exact .inl h
    · refine .inr ?_
      rw [h] at hrep
      simp only [exec, DSV.back, hu.back hrep, Option.map_none]
  · rename_i hc
    refine .inr ?_
    cases op with
    | find k =>
      simp only [possible, Dual.careful, Bool.or_eq_true, not_or, Bool.not_eq_true, Option.isSome_eq_false_iff,
        Option.isNone_iff_eq_none] at hc
      have he : E.st.endOk m.data = none := hu.endOk hrep (by rw [hlen]; exact hc.2)
      cases k with
      | inl k =>
        have h1 := hc.1
        rw [Dual.lookup_inl v.base, Str.find_strings, Option.map_eq_none_iff] at h1
        have hf := SRepC.find_eq v.ok k
        rw [h1] at hf
        simp only [exec, DSV.find1, hf, Option.bind_some, he, Option.map_none]
      | inr k =>
        have h1 : FMap.find m.lookup2 k = none := (Dual.lookup_inr v.base k).symm.trans hc.1
        simp only [exec, DSV.find2, h1, he, Option.map_none]
    | apply =>
      simp only [possible, Dual.careful, Bool.not_eq_true] at hc
      simp only [exec, DSV.apply, hu.all hrep (by rw [hlen]; exact hc), Option.map_none]
    | modify f =>
      simp only [possible, Dual.careful, Bool.not_eq_true] at hc
      simp only [exec, DSV.modify, hu.visit _ _ hrep (by rw [hlen]; exact hc), Option.map_none]
    | transform f =>
      simp only [possible, Dual.careful, Bool.not_eq_true] at hc
      simp only [exec, DSV.transform, hu.visit _ _ hrep (by rw [hlen]; exact hc), Option.map_none]
    | removeIndex i => exact remove_undef v (.inl ⟨i, rfl⟩) hc
    | remove k => exact remove_undef v (.inr ⟨k, rfl⟩) hc
    | _ => exact absurd rfl hc

theorem run_append (E : Env S K2 V) : ∀ (pre post : List (Op K2 V)) (m : DSV S K2) (h : Heap String),
    run E m h (pre ++ post) = (run E m h pre).bind fun r => (run E r.1 r.2.1 post).map fun s => (s.1, s.2.1, r.2.2 ++ s.2.2)
  | [], post, m, h => by simp [run]
  | op :: pre, post, m, h => by
    simp only [List.cons_append, run]
    cases exec E m h op with
    | none => rfl
    | some r =>
      simp only [Option.bind_some, run_append E pre post r.1 r.2.1]
      cases run E r.1 r.2.1 pre with
      | none => rfl
      | some s =>
        simp only [Option.bind_some, Option.map_some, Option.map_map]
        rfl

/-- every program does what the description says, up to the first call that is not described -/
theorem exact_core : ∀ (ops : List (Op K2 V)) (m : DSV S K2) (h : Heap String) (a : Ideal (String ⊕ K2) V), Inv L m h a →
    (∃ m' h' a' os, run E m h ops = some (m', h', os) ∧ describedRun E.order kind a ops = some (a', os) ∧ Inv L m' h' a') ∨
    (∃ pre op post m' h' a' os, ops = pre ++ op :: post ∧ run E m h pre = some (m', h', os) ∧
      describedRun E.order kind a pre = some (a', os) ∧ Inv L m' h' a' ∧ described E.order kind a' op = none ∧
      describedRun E.order kind a ops = none)
  | [], m, h, a, v => .inl ⟨m, h, a, [], rfl, rfl, v⟩
  | op :: ops, m, h, a, v => by
    cases hd : described E.order kind a op with
    | none => exact .inr ⟨[], op, ops, m, h, a, [], rfl, rfl, rfl, v, hd, by simp only [describedRun, hd, Option.bind_none]⟩
    | some r =>
      obtain ⟨a1, o⟩ := r
      obtain ⟨m1, h1, e1, v1⟩ := exact_step v hd
      rcases exact_core ops m1 h1 a1 v1 with ⟨m', h', a', os, e, r, w⟩ | ⟨pre, op', post, m', h', a', os, hh, e, r, w, n, q⟩
      · exact .inl ⟨m', h', a', o :: os, by simp [run, e1, e], by simp [describedRun, hd, r], w⟩
      · exact .inr ⟨op :: pre, op', post, m', h', a', o :: os, by rw [hh]; rfl, by simp [run, e1, e], by simp [describedRun, hd, r],
          w, n, by simp [describedRun, hd, q]⟩

end Verif.Mapped.DualStr
