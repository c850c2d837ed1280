import Verif.Mapped.DualPtr.Lemmas
import Verif.Mapped.DualPtr.ExactSpec
import Verif.Mapped.Vector.Exact

/-
Helper lemmas for C130: the code does what `actual` says.
-/
namespace Verif.Mapped.DualPtr
open Verif.Mapped
open Verif.Mapped.Pointer (Objs Obs Entry Ideal count readAll Own)
open Verif.Mapped.Dual (join join_wf find_join_inl find_join_inr put1 put2 emplace_new)

section
variable {K V : Type} [DecidableEq K]

/-- the loop over a map in which the removed element has no term -/
theorem dropIndex_none {l : FMap K} (w : FMap.WF l) {i : Nat} (hno : ∀ k, FMap.find l k ≠ some i) (unset : Option K) :
    (unset = none ∧ DPV.dropIndex unset i l = none) ∨
    ∃ d l0 l', unset = some d ∧ DPV.dropIndex unset i l = some l' ∧ Dropped i l l0 ∧ FMap.WF l' ∧
      ∀ k, FMap.find l' k = if k = d then none else FMap.find l0 k := by
  have hs := (Vector.shiftLoop_pick true i l unset).2 fun e he h =>
    hno e.1 (by rw [FMap.find_eq_some w, ← h]; exact he)
  cases unset with
  | none => exact .inl ⟨rfl, by simp only [DPV.dropIndex, hs, Option.map_none]⟩
  | some d =>
    have w0 := FMap.mapVal_wf w (Binds.shift i)
    refine .inr ⟨d, l.map fun e => (e.1, Binds.shift i e.2), FMap.erase (l.map fun e => (e.1, Binds.shift i e.2)) d, rfl,
      ?_, ⟨w0, fun k => ?_⟩, FMap.erase_wf w0 d, FMap.find_erase w0 d⟩
    · simp only [DPV.dropIndex, hs, Option.map_some, Vector.shiftLoop_fst, if_true]
      rw [Vector.erase_if_present]
    · rw [FMap.find_mapVal w (Binds.shift i), if_neg (hno k)]

theorem detach_inv {d : List (Option Nat)} {l l' : FMap K} {h : Objs V} {a : Ideal K V} (v : Pointer.Inv ⟨⟨d, l⟩, h⟩ a)
    {k : K} (w : FMap.WF l') (hf : ∀ k', FMap.find l' k' = if k' = k then none else FMap.find l k') :
    Pointer.Inv ⟨⟨d, l'⟩, h⟩ (detach a k) := by
  refine ⟨?_, ⟨w, fun k' i => ?_⟩, ?_, v.next⟩
  · rw [detach, List.map_map]; exact v.data
  · rw [hf, detach, List.map_map, List.getElem?_map]
    have := v.binds.iff k' i
    rw [List.getElem?_map] at this
    by_cases hk : k' = k
    · rw [if_pos hk]
      subst hk
      simp only [reduceCtorEq, Option.map_eq_some_iff, Function.comp, false_iff]
      rintro ⟨ks, ⟨e, _, rfl⟩, h2⟩
      simp at h2
    · rw [if_neg hk, this]
      simp only [Option.map_eq_some_iff, Function.comp]
      constructor
      · rintro ⟨ks, ⟨e, h1, rfl⟩, h2⟩
        exact ⟨_, ⟨e, h1, rfl⟩, by simp [h2, hk]⟩
      · rintro ⟨ks, ⟨e, h1, rfl⟩, h2⟩
        exact ⟨_, ⟨e, h1, rfl⟩, (List.mem_filter.1 h2).1⟩
  · rw [detach, List.map_map]; exact v.own

end

variable {K1 K2 V : Type} [DecidableEq K1] [DecidableEq K2] {E : Env K1 K2}
variable {w : World K1 K2 V} {a : Ideal (K1 ⊕ K2) V}

theorem detach_one (o : OneEach a) (k : K1 ⊕ K2) : OneEach (detach a k) := by
  intro e he
  simp only [detach, List.mem_map] at he
  obtain ⟨e0, h0, rfl⟩ := he
  exact ⟨fun x y hx hy => (o e0 h0).1 x y (List.mem_filter.1 hx).1 (List.mem_filter.1 hy).1,
    fun x y hx hy => (o e0 h0).2 x y (List.mem_filter.1 hx).1 (List.mem_filter.1 hy).1⟩

/-- the first map's part of a removal -/
theorem forget1_step (v : Inv w a) {i : Nat} {e : Entry (K1 ⊕ K2) V} (he : a.entries[i]? = some e) :
    (DPV.dropIndex E.unset1 i w.pv.lookup1 = none ∧ ∀ b : Ideal (K1 ⊕ K2) V, forget1 E e b = none) ∨
    ∃ l0 l1, DPV.dropIndex E.unset1 i w.pv.lookup1 = some l1 ∧ Dropped i w.pv.lookup1 l0 ∧
      ∀ (d : List (Option Nat)) (l2 : FMap K2) (h : Objs V) (b : Ideal (K1 ⊕ K2) V), Inv ⟨⟨d, l0, l2⟩, h⟩ b →
        ∃ b', forget1 E e b = some b' ∧ Inv ⟨⟨d, l1, l2⟩, h⟩ b' := by
  have hw := (join_wf.1 v.base.binds.wf).1
  have hl : ∀ k, FMap.find w.pv.lookup1 k = some i ↔ Sum.inl k ∈ e.keys := by
    intro k
    rw [← lookup_inl v.base, lookup_iff v.base]
    exact ⟨fun ⟨e', h1, h2⟩ => by rw [he] at h1; cases h1; exact h2, fun h => ⟨e, he, h⟩⟩
  cases hc : e.keys.any Sum.isLeft with
  | true =>
    obtain ⟨l', e1, d1⟩ := drop1 (E := E) v he (by rw [hc]; rfl)
    exact .inr ⟨l', l', e1, d1, fun d l2 h b hb => ⟨b, by rw [forget1, hc]; rfl, hb⟩⟩
  | false =>
    have hno : ∀ k, FMap.find w.pv.lookup1 k ≠ some i := by
      intro k hk
      have : e.keys.any Sum.isLeft = true := List.any_eq_true.2 ⟨_, (hl k).1 hk, rfl⟩
      rw [hc] at this; cases this
    rcases dropIndex_none hw hno E.unset1 with ⟨h1, h2⟩ | ⟨d, l0, l', h1, h2, h3, h4, h5⟩
    · exact .inl ⟨h2, fun b => by simp [forget1, hc, h1]⟩
    · refine .inr ⟨l0, l', h2, h3, fun d' l2 h b hb => ⟨detach b (.inl d), by simp [forget1, hc, h1], ?_⟩⟩
      have hj := (join_wf.1 hb.base.binds.wf).2
      have w' : FMap.WF (join l' l2) := join_wf.2 ⟨h4, hj⟩
      refine ⟨detach_inv hb.base w' fun k => ?_, detach_one hb.one _⟩
      cases k with
      | inl k => rw [find_join_inl w', find_join_inl hb.base.binds.wf, h5]; simp
      | inr k => rw [find_join_inr w', find_join_inr hb.base.binds.wf]; simp

/-- the second map's part of a removal -/
theorem forget2_step (v : Inv w a) {i : Nat} {e : Entry (K1 ⊕ K2) V} (he : a.entries[i]? = some e) :
    (DPV.dropIndex E.unset2 i w.pv.lookup2 = none ∧ ∀ b : Ideal (K1 ⊕ K2) V, forget2 E e b = none) ∨
    ∃ l0 l2, DPV.dropIndex E.unset2 i w.pv.lookup2 = some l2 ∧ Dropped i w.pv.lookup2 l0 ∧
      ∀ (d : List (Option Nat)) (l1 : FMap K1) (h : Objs V) (b : Ideal (K1 ⊕ K2) V), Inv ⟨⟨d, l1, l0⟩, h⟩ b →
        ∃ b', forget2 E e b = some b' ∧ Inv ⟨⟨d, l1, l2⟩, h⟩ b' := by
  have hw := (join_wf.1 v.base.binds.wf).2
  have hl : ∀ k, FMap.find w.pv.lookup2 k = some i ↔ Sum.inr k ∈ e.keys := by
    intro k
    rw [← lookup_inr v.base, lookup_iff v.base]
    exact ⟨fun ⟨e', h1, h2⟩ => by rw [he] at h1; cases h1; exact h2, fun h => ⟨e, he, h⟩⟩
  cases hc : e.keys.any Sum.isRight with
  | true =>
    obtain ⟨l', e1, d1⟩ := drop2 (E := E) v he (by rw [hc]; rfl)
    exact .inr ⟨l', l', e1, d1, fun d l2 h b hb => ⟨b, by rw [forget2, hc]; rfl, hb⟩⟩
  | false =>
    have hno : ∀ k, FMap.find w.pv.lookup2 k ≠ some i := by
      intro k hk
      have : e.keys.any Sum.isRight = true := List.any_eq_true.2 ⟨_, (hl k).1 hk, rfl⟩
      rw [hc] at this; cases this
    rcases dropIndex_none hw hno E.unset2 with ⟨h1, h2⟩ | ⟨d, l0, l', h1, h2, h3, h4, h5⟩
    · exact .inl ⟨h2, fun b => by simp [forget2, hc, h1]⟩
    · refine .inr ⟨l0, l', h2, h3, fun d' l1 h b hb => ⟨detach b (.inr d), by simp [forget2, hc, h1], ?_⟩⟩
      have hj := (join_wf.1 hb.base.binds.wf).1
      have w' : FMap.WF (join l1 l') := join_wf.2 ⟨hj, h4⟩
      refine ⟨detach_inv hb.base w' fun k => ?_, detach_one hb.one _⟩
      cases k with
      | inl k => rw [find_join_inl w', find_join_inl hb.base.binds.wf]; simp
      | inr k => rw [find_join_inr w', find_join_inr hb.base.binds.wf, h5]; simp

/-- `insert` with at least one term not in use -/
theorem added_inv (v : Inv w a) (k1 : K1) (k2 : K2) (x : Option V)
    (hf : ¬ ((FMap.find w.pv.lookup1 k1).isSome = true ∧ (FMap.find w.pv.lookup2 k2).isSome = true)) :
    Inv ⟨w.pv.addNew E k1 k2 (w.heap.makeOpt x).2, (w.heap.makeOpt x).1⟩ (added a k1 k2 x) := by
  have hsz : w.pv.data.length = a.entries.length := v.base.size_eq
  have v1 := v.base.append x v.base.binds.append_nil
  have hw := v.base.binds.wf
  have hw1 := (join_wf.1 hw).1
  have hw2 := (join_wf.1 hw).2
  unfold added
  rw [lookup_inl v.base, lookup_inr v.base]
  cases h1 : FMap.find w.pv.lookup1 k1 with
  | none =>
    cases h2 : FMap.find w.pv.lookup2 k2 with
    | none => exact ⟨new_inv (E := E) v.base k1 k2 x h1 h2, both_one v.one k1 k2 x⟩
    | some j =>
      obtain ⟨wa, fa⟩ := put1 hw k1 a.entries.length (FMap.emplace_wf hw1 k1 _) (emplace_new (I := E.impl1) hw1 _ h1)
      have v2 := attach_inv v1 (by rw [append_length]; omega) wa fa
      rw [strip_none _ _ _ (by rw [lookup_inl v.base]; exact h1)] at v2
      refine ⟨?_, append_one v.one _ (.inr ⟨_, rfl⟩)⟩
      have e2 : (FMap.emplace E.impl2 w.pv.lookup2 k2 w.pv.data.length).1 = w.pv.lookup2 := by
        simp [FMap.emplace, h2]
      simp only [DPV.addNew, World.base, e2]
      rw [hsz]; exact v2
  | some i =>
    cases h2 : FMap.find w.pv.lookup2 k2 with
    | none =>
      obtain ⟨wa, fa⟩ := put2 hw k2 a.entries.length (FMap.emplace_wf hw2 k2 _) (emplace_new (I := E.impl2) hw2 _ h2)
      have v2 := attach_inv v1 (by rw [append_length]; omega) wa fa
      rw [strip_none _ _ _ (by rw [lookup_inr v.base]; exact h2)] at v2
      refine ⟨?_, append_one v.one _ (.inr ⟨_, rfl⟩)⟩
      have e1 : (FMap.emplace E.impl1 w.pv.lookup1 k1 w.pv.data.length).1 = w.pv.lookup1 := by
        simp [FMap.emplace, h1]
      simp only [DPV.addNew, World.base, e1]
      rw [hsz]; exact v2
    | some j => exact absurd ⟨by rw [h1]; rfl, by rw [h2]; rfl⟩ hf

/-- the code does what the description says -/
def Agrees (E : Env K1 K2) (w : World K1 K2 V) (op : Op K1 K2 V) (r : Option (Ideal (K1 ⊕ K2) V × Obs V)) : Prop :=
  (r = none ∧ exec E w op = none) ∨ ∃ a' o w', r = some (a', o) ∧ exec E w op = some (w', o) ∧ Inv w' a'

theorem agrees_of_ideal (v : Inv w a) {op : Op K1 K2 V} (hc : careful E a op = true) (hd : ideal a op = none → exec E w op = none) :
    Agrees E w op (ideal a op) := by
  cases h : ideal a op with
  | none => exact .inl ⟨rfl, hd h⟩
  | some r =>
    obtain ⟨w', e, v'⟩ := step v hc (o := r.2) (a' := r.1) h
    exact .inr ⟨r.1, r.2, w', rfl, e, v'⟩

theorem exact_step (v : Inv w a) (op : Op K1 K2 V) : Agrees E w op (actual E a op) := by
  have hsz : w.pv.data.length = a.entries.length := v.base.size_eq
  cases op with
  | insertPtr k1 k2 x =>
    simp only [actual, lookup_inl v.base, lookup_inr v.base]
    by_cases hf : (FMap.find w.pv.lookup1 k1).isSome = true ∧ (FMap.find w.pv.lookup2 k2).isSome = true
    · have e1 : w.pv.insertPtr E k1 k2 (w.heap.makeOpt x).2 = _ := if_pos hf
      rw [if_pos hf]
      obtain ⟨h', e, o, n⟩ := v.base.own.makeDelete x
      refine .inr ⟨_, _, ⟨w.pv, h'⟩, rfl, ?_, ⟨v.base.data, v.base.binds, o, by rw [n, v.base.next]⟩, v.one⟩
      have e : (w.heap.makeOpt x).1.delete (w.heap.makeOpt x).2 = some h' := e
      simp [exec, e1, e]
    · have e1 : w.pv.insertPtr E k1 k2 (w.heap.makeOpt x).2 = _ := if_neg hf
      rw [if_neg hf]
      exact .inr ⟨_, _, _, rfl, by simp [exec, e1, hsz], added_inv (E := E) v k1 k2 x hf⟩
  | insert k1 k2 x =>
    simp only [actual, lookup_inl v.base, lookup_inr v.base]
    by_cases hf : (FMap.find w.pv.lookup1 k1).isSome = true ∧ (FMap.find w.pv.lookup2 k2).isSome = true
    · rw [if_pos hf]
      exact .inr ⟨_, _, w, rfl, by simp only [exec, DPV.insert, if_pos hf], v⟩
    · rw [if_neg hf]
      exact .inr ⟨_, _, ⟨w.pv.addNew E k1 k2 (some (w.heap.make x).2), (w.heap.make x).1⟩, rfl,
        by simp only [exec, DPV.insert, if_neg hf, hsz], added_inv (E := E) v k1 k2 (some x) hf⟩
  | removeIndex i =>
    simp only [actual]
    cases he : a.entries[i]? with
    | none =>
      have hl : a.entries.length ≤ i := List.getElem?_eq_none_iff.1 he
      exact .inr ⟨_, _, w, rfl, by simp only [exec, DPV.removeIndex, hsz, if_pos hl, Option.map_some], v⟩
    | some e =>
      have hl : i < a.entries.length := (List.getElem?_eq_some_iff.1 he).1
      rcases forget1_step (E := E) v he with ⟨h1, h2⟩ | ⟨l0, l1, h1, d1, h2⟩
      · refine .inl ⟨by simp [h2], ?_⟩
        simp only [exec, DPV.removeIndex, h1, hsz, if_neg (show ¬ i ≥ a.entries.length by omega)]
        cases w.pv.eraseAt w.heap i <;> rfl
      · rcases forget2_step (E := E) v he with ⟨h3, h4⟩ | ⟨m0, l2, h3, d2, h4⟩
        · refine .inl ⟨?_, ?_⟩
          · cases forget1 E e { a with entries := a.entries.eraseIdx i } <;> simp [h4]
          · simp only [exec, DPV.removeIndex, h1, h3, hsz, if_neg (show ¬ i ≥ a.entries.length by omega)]
            cases w.pv.eraseAt w.heap i <;> rfl
        · obtain ⟨h', e3, r⟩ := erase_inv v.base hl d1 d2
          obtain ⟨b, e4, v4⟩ := h2 _ _ _ _ ⟨r, erase_one v.one i⟩
          obtain ⟨c, e5, v5⟩ := h4 _ _ _ _ v4
          exact .inr ⟨c, .done, _, by simp [e4, e5],
            by simp only [exec, DPV.removeIndex, h1, h3, hsz, e3, if_neg (show ¬ i ≥ a.entries.length by omega),
              Option.bind_some, Option.map_some], v5⟩
  | remove k =>
    cases k with
    | inl k =>
      simp only [actual, lookup_inl v.base]
      cases hf : FMap.find w.pv.lookup1 k with
      | none => exact .inr ⟨_, _, w, rfl, by simp [exec, DPV.remove1, hf], v⟩
      | some i =>
        have hl := lookup_lt v.base ((lookup_inl v.base k).trans hf)
        have he := List.getElem?_eq_getElem hl
        simp only [he]
        have d1 := dropKey_eq (join_wf.1 v.base.binds.wf).1 (only1 v hf)
        rcases forget2_step (E := E) v he with ⟨h3, h4⟩ | ⟨m0, l2, h3, d2, h4⟩
        · refine .inl ⟨by simp [h4], ?_⟩
          simp only [exec, DPV.remove1, hf, h3]
          cases w.pv.eraseAt w.heap i <;> rfl
        · obtain ⟨h', e3, r⟩ := erase_inv v.base hl d1 d2
          obtain ⟨b, e4, v4⟩ := h4 _ _ _ _ ⟨r, erase_one v.one i⟩
          exact .inr ⟨b, .done, _, by simp [e4],
            by simp only [exec, DPV.remove1, hf, h3, e3, Option.bind_some, Option.map_some], v4⟩
    | inr k =>
      simp only [actual, lookup_inr v.base]
      cases hf : FMap.find w.pv.lookup2 k with
      | none => exact .inr ⟨_, _, w, rfl, by simp [exec, DPV.remove2, hf], v⟩
      | some i =>
        have hl := lookup_lt v.base ((lookup_inr v.base k).trans hf)
        have he := List.getElem?_eq_getElem hl
        simp only [he]
        have d2 := dropKey_eq (join_wf.1 v.base.binds.wf).2 (only2 v hf)
        rcases forget1_step (E := E) v he with ⟨h3, h4⟩ | ⟨m0, l1, h3, d1, h4⟩
        · refine .inl ⟨by simp [h4], ?_⟩
          simp only [exec, DPV.remove2, hf, h3]
          cases w.pv.eraseAt w.heap i <;> rfl
        · obtain ⟨h', e3, r⟩ := erase_inv v.base hl d1 d2
          obtain ⟨b, e4, v4⟩ := h4 _ _ _ _ ⟨r, erase_one v.one i⟩
          exact .inr ⟨b, .done, _, by simp [e4],
            by simp only [exec, DPV.remove2, hf, h3, e3, Option.bind_some, Option.map_some], v4⟩
  | write i x =>
    refine agrees_of_ideal v rfl fun h => ?_
    simp only [ideal, Option.map_eq_none_iff] at h
    simp only [exec, DPV.get, hsz]
    by_cases hl : i < a.entries.length
    · have := v.base.obj_at hl
      rw [List.getElem?_eq_getElem hl, Option.bind_some] at h
      rw [if_pos hl, this.1, h]; rfl
    · rw [if_neg hl]; rfl
  | back =>
    refine agrees_of_ideal v rfl fun h => ?_
    simp only [ideal, Option.map_eq_none_iff, List.getLast?_eq_none_iff] at h
    have : w.pv.data = [] := by rw [← List.length_eq_zero_iff, hsz, h]; rfl
    simp [exec, DPV.back, this]
  | insertOne k x =>
    refine agrees_of_ideal v rfl fun h => ?_
    simp only [ideal] at h; split at h <;> cases h
  | assignPtr k1 k2 x =>
    refine agrees_of_ideal v rfl fun h => ?_
    simp only [ideal] at h; split at h <;> (try split at h) <;> cases h
  | assign k1 k2 x =>
    refine agrees_of_ideal v rfl fun h => ?_
    simp only [ideal] at h; split at h <;> (try split at h) <;> cases h
  | assignOne k x =>
    refine agrees_of_ideal v rfl fun h => ?_
    simp only [ideal] at h; split at h <;> cases h
  | find k => exact agrees_of_ideal v rfl fun h => by cases h
  | get i => exact agrees_of_ideal v rfl fun h => by cases h
  | apply => exact agrees_of_ideal v rfl fun h => by cases h
  | size => exact agrees_of_ideal v rfl fun h => by cases h
  | clear => exact agrees_of_ideal v rfl fun h => by cases h

theorem exact_run (ops : List (Op K1 K2 V)) : ∀ {w : World K1 K2 V} {a : Ideal (K1 ⊕ K2) V}, Inv w a →
    (actualRun E a ops = none ∧ run E w ops = none) ∨
    ∃ a' os w', actualRun E a ops = some (a', os) ∧ run E w ops = some (w', os) ∧ Inv w' a' := by
  induction ops with
  | nil => intro w a v; exact .inr ⟨a, [], w, rfl, rfl, v⟩
  | cons op ops ih =>
    intro w a v
    rcases exact_step (E := E) v op with ⟨h1, h2⟩ | ⟨a1, o, w1, h1, h2, v1⟩
    · exact .inl ⟨by simp [actualRun, h1], by simp [run, h2]⟩
    · rcases ih v1 with ⟨h3, h4⟩ | ⟨a', os, w', h3, h4, v'⟩
      · exact .inl ⟨by simp [actualRun, h1, h3], by simp [run, h2, h4]⟩
      · exact .inr ⟨a', o :: os, w', by simp [actualRun, h1, h3], by simp [run, h2, h4], v'⟩

end Verif.Mapped.DualPtr
