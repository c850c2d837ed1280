import Verif.Mapped.Pointer.Lemmas
import Verif.Mapped.Dual.Lemmas
import Verif.Mapped.DualPtr.Spec

/-
Helper lemmas for DualMappedPointerVector: the code simulates the specification.
-/
namespace Verif.Mapped.DualPtr
open Verif.Mapped
open Verif.Mapped.Pointer (Objs Obs Entry Ideal count readAll Own)
open Verif.Mapped.Dual (join join_wf find_join_inl find_join_inr put1 put2 emplace_new)

/-! ### removal from one map -/

section
variable {K : Type} [DecidableEq K]

/-- the effect on a map of removing element `i` -/
def Dropped (i : Nat) (l l' : FMap K) : Prop :=
  FMap.WF l' ∧ ∀ k, FMap.find l' k = if FMap.find l k = some i then none else (FMap.find l k).map (Binds.shift i)

theorem dropKey_eq {l : FMap K} (w : FMap.WF l) {i : Nat} {k0 : K} (h : ∀ k, FMap.find l k = some i ↔ k = k0) :
    Dropped i l (DPV.dropKey i k0 l) := by
  refine ⟨FMap.erase_wf (FMap.mapVal_wf w (Binds.shift i)) k0, fun k => ?_⟩
  show FMap.find (FMap.erase (l.map fun e => (e.1, Binds.shift i e.2)) k0) k = _
  rw [FMap.find_erase (FMap.mapVal_wf w (Binds.shift i)), FMap.find_mapVal w (Binds.shift i)]
  exact if_congr (h k).symm rfl rfl

theorem dropIndex_eq {l : FMap K} (w : FMap.WF l) {i : Nat} {unset : Option K}
    (h : (∃ k0, ∀ k, FMap.find l k = some i ↔ k = k0) ∨
      ((∀ k, FMap.find l k ≠ some i) ∧ ∃ d, unset = some d ∧ FMap.find l d = none)) :
    ∃ l', DPV.dropIndex unset i l = some l' ∧ Dropped i l l' := by
  simp only [DPV.dropIndex, Vector.shiftLoop_fst, if_true]
  rcases h with ⟨k0, h⟩ | ⟨hno, d, rfl, hd⟩
  · have hs := Vector.shiftLoop_snd true i (k := k0) l unset
      (fun e he h' => (h e.1).1 (by rw [FMap.find_eq_some w, ← h']; exact he))
    rw [if_pos ⟨(k0, i), (FMap.find_eq_some w).1 ((h k0).2 rfl), rfl⟩] at hs
    rw [hs]
    refine ⟨_, rfl, ?_⟩
    beta_reduce
    rw [if_pos (by rw [FMap.find_mapVal w (Binds.shift i), (h k0).2 rfl]; rfl)]
    exact dropKey_eq w h
  · have hs := Vector.shiftLoop_snd true i (k := d) l (some d)
      (fun e he h => absurd (by rw [FMap.find_eq_some w, ← h]; exact he) (hno e.1))
    rw [ite_self] at hs
    rw [hs]
    refine ⟨_, rfl, ?_⟩
    beta_reduce
    rw [if_neg (by rw [FMap.find_mapVal w (Binds.shift i), hd]; simp)]
    exact ⟨FMap.mapVal_wf w (Binds.shift i), fun k => by rw [FMap.find_mapVal w (Binds.shift i), if_neg (hno k)]⟩

end

variable {K1 K2 V : Type} [DecidableEq K1] [DecidableEq K2] {E : Env K1 K2}

theorem join_dropped {i : Nat} {l1 l1' : FMap K1} {l2 l2' : FMap K2} (w : FMap.WF (join l1 l2)) (h1 : Dropped i l1 l1')
    (h2 : Dropped i l2 l2') : Dropped i (join l1 l2) (join l1' l2') := by
  have w' : FMap.WF (join l1' l2') := join_wf.2 ⟨h1.1, h2.1⟩
  refine ⟨w', fun k => ?_⟩
  cases k with
  | inl k => rw [find_join_inl w', find_join_inl w, h1.2]
  | inr k => rw [find_join_inr w', find_join_inr w, h2.2]

/-! ### the invariant -/

/-- the container with both maps as one -/
abbrev World.base (w : World K1 K2 V) : Pointer.World (K1 ⊕ K2) V := ⟨⟨w.pv.data, join w.pv.lookup1 w.pv.lookup2⟩, w.heap⟩

/-- no element has two terms of the same type -/
def OneEach (a : Ideal (K1 ⊕ K2) V) : Prop := ∀ e ∈ a.entries,
  (∀ k k', Sum.inl k ∈ e.keys → Sum.inl k' ∈ e.keys → k = k') ∧ (∀ k k', Sum.inr k ∈ e.keys → Sum.inr k' ∈ e.keys → k = k')

/-- the container represents the ideal one -/
structure Inv (w : World K1 K2 V) (a : Ideal (K1 ⊕ K2) V) : Prop where
  base : Pointer.Inv w.base a
  one : OneEach a

variable {w : World K1 K2 V} {a : Ideal (K1 ⊕ K2) V}

theorem Inv.init : Inv (World.init : World K1 K2 V) ⟨[], 0⟩ := ⟨⟨rfl, .nil, .nil, rfl⟩, by intro e he; simp at he⟩

theorem lookup_inl (v : Pointer.Inv w.base a) (k : K1) : a.lookup (.inl k) = FMap.find w.pv.lookup1 k := by
  rw [v.lookup_eq, find_join_inl v.binds.wf]

theorem lookup_inr (v : Pointer.Inv w.base a) (k : K2) : a.lookup (.inr k) = FMap.find w.pv.lookup2 k := by
  rw [v.lookup_eq, find_join_inr v.binds.wf]

theorem lookup_iff (v : Pointer.Inv w.base a) (k : K1 ⊕ K2) (i : Nat) :
    a.lookup k = some i ↔ ∃ e, a.entries[i]? = some e ∧ k ∈ e.keys := by
  rw [v.lookup_eq, v.binds.iff]
  simp only [List.getElem?_map, Option.map_eq_some_iff]
  constructor
  · rintro ⟨ks, ⟨e, h1, rfl⟩, h2⟩; exact ⟨e, h1, h2⟩
  · rintro ⟨e, h1, h2⟩; exact ⟨_, ⟨e, h1, rfl⟩, h2⟩

theorem lookup_lt (v : Pointer.Inv w.base a) {k : K1 ⊕ K2} {i : Nat} (h : a.lookup k = some i) : i < a.entries.length := by
  obtain ⟨e, h1, _⟩ := (lookup_iff v k i).1 h
  exact (List.getElem?_eq_some_iff.1 h1).1

section
variable {K : Type} [DecidableEq K]

theorem attach_keys (a : Ideal K V) (i : Nat) (k : K) :
    (attach a i k).entries.map (·.keys) = ((a.entries.map (·.keys)).map fun ks => ks.filter (· ≠ k)).modify i (k :: ·) := by
  unfold attach
  rw [Pointer.modify_keys_keys _ _ (k :: ·), List.map_map, List.map_map]
  rfl

theorem attach_objs (a : Ideal K V) (i : Nat) (k : K) : (attach a i k).entries.map (·.obj) = a.entries.map (·.obj) := by
  unfold attach
  rw [Pointer.modify_keys_obj _ _ (k :: ·), List.map_map]
  rfl

theorem attach_length (a : Ideal K V) (i : Nat) (k : K) : (attach a i k).entries.length = a.entries.length := by
  simp [attach]

theorem attach_obj (a : Ideal K V) (i j : Nat) (k : K) :
    ((attach a i k).entries[j]?).map (·.obj) = (a.entries[j]?).map (·.obj) := by
  have := congrArg (·[j]?) (attach_objs a i k)
  simpa using this

theorem attach_inv {d : List (Option Nat)} {l l' : FMap K} {h : Objs V} {a : Ideal K V} (v : Pointer.Inv ⟨⟨d, l⟩, h⟩ a)
    {i : Nat} (hi : i < a.entries.length) {k : K} (w : FMap.WF l')
    (hf : ∀ k', FMap.find l' k' = if k' = k then some i else FMap.find l k') :
    Pointer.Inv ⟨⟨d, l'⟩, h⟩ (attach a i k) := by
  refine ⟨?_, ?_, ?_, v.next⟩
  · have h1 := congrArg (List.map fun o : Option (Nat × V) => o.map (·.1)) (attach_objs a i k)
    rw [List.map_map, List.map_map] at h1
    exact v.data.trans h1.symm
  · rw [attach_keys]; exact v.binds.rebind w (by simpa using hi) hf
  · rw [attach_objs]; exact v.own

end

theorem attach_one {a : Ideal (K1 ⊕ K2) V} (o : OneEach a) {i : Nat} {k : K1 ⊕ K2}
    (h : ∀ e, a.entries[i]? = some e → ∀ k' ∈ e.keys, k'.isLeft ≠ k.isLeft) : OneEach (attach a i k) := by
  intro e he
  obtain ⟨j, hj⟩ := List.mem_iff_getElem?.1 he
  unfold attach at hj
  rw [List.getElem?_modify, List.getElem?_map] at hj
  cases h0 : a.entries[j]? with
  | none => rw [h0] at hj; cases hj
  | some e0 =>
    have hn := o e0 (List.mem_of_getElem? h0)
    rw [h0] at hj
    by_cases hij : i = j
    · subst hij
      have h1 := h e0 h0
      simp only [Option.map_some, if_true, Option.map_eq_map, Option.some.injEq] at hj
      subst hj
      constructor
      · intro x y hx hy
        simp only [List.mem_cons, List.mem_filter] at hx hy
        rcases hx with rfl | hx
        · rcases hy with hy | hy
          · cases hy; rfl
          · exact (h1 _ hy.1 rfl).elim
        · rcases hy with rfl | hy
          · exact (h1 _ hx.1 rfl).elim
          · exact hn.1 x y hx.1 hy.1
      · intro x y hx hy
        simp only [List.mem_cons, List.mem_filter] at hx hy
        rcases hx with rfl | hx
        · rcases hy with hy | hy
          · cases hy; rfl
          · exact (h1 _ hy.1 rfl).elim
        · rcases hy with rfl | hy
          · exact (h1 _ hx.1 rfl).elim
          · exact hn.2 x y hx.1 hy.1
    · simp only [Option.map_some, if_neg hij, Option.map_eq_map, Option.some.injEq] at hj
      subst hj
      exact ⟨fun x y hx hy => hn.1 x y (List.mem_filter.1 hx).1 (List.mem_filter.1 hy).1,
        fun x y hx hy => hn.2 x y (List.mem_filter.1 hx).1 (List.mem_filter.1 hy).1⟩

omit [DecidableEq K1] [DecidableEq K2] in
theorem append_one {a : Ideal (K1 ⊕ K2) V} (o : OneEach a) (x : Option V) {ks : List (K1 ⊕ K2)}
    (h : ks = [] ∨ ∃ k, ks = [k]) : OneEach (a.append x ks) := by
  intro e he
  simp only [Ideal.append, List.mem_append, List.mem_singleton] at he
  rcases he with he | rfl
  · exact o e he
  · rcases h with rfl | ⟨k, rfl⟩
    · simp
    · simp only [List.mem_singleton]
      exact ⟨fun x y hx hy => by rw [← hx] at hy; cases hy; rfl, fun x y hx hy => by rw [← hx] at hy; cases hy; rfl⟩

omit [DecidableEq K1] [DecidableEq K2] in
theorem append_last (a : Ideal (K1 ⊕ K2) V) (x : Option V) :
    (a.append x []).entries[a.entries.length]? = some ⟨x.map fun x => (a.made, x), []⟩ := by
  simp [Ideal.append]

omit [DecidableEq K1] [DecidableEq K2] in
theorem append_length (a : Ideal (K1 ⊕ K2) V) (x : Option V) : (a.append x []).entries.length = a.entries.length + 1 := by
  simp [Ideal.append]

theorem both_one (o : OneEach a) (k1 : K1) (k2 : K2) (x : Option V) : OneEach (both a k1 k2 x) := by
  have h1 : OneEach (attach (a.append x []) a.entries.length (.inl k1)) := by
    refine attach_one (append_one o x (.inl rfl)) ?_
    intro e he
    rw [append_last] at he; cases he; simp
  refine attach_one h1 ?_
  intro e he k' hk'
  have := congrArg (·[a.entries.length]?) (attach_keys (a.append x []) a.entries.length (.inl k1))
  simp only [List.getElem?_map, List.getElem?_modify, he, append_last] at this
  simp only [Option.map_some, if_true, Option.map_eq_map, Option.some.injEq] at this
  rw [this] at hk'
  simp at hk'
  subst hk'
  simp

omit [DecidableEq K1] [DecidableEq K2] in
theorem sub_one {a a' : Ideal (K1 ⊕ K2) V} (o : OneEach a) (h : ∀ e ∈ a'.entries, ∃ e0 ∈ a.entries, e.keys = e0.keys) :
    OneEach a' := by
  intro e he
  obtain ⟨e0, h1, h2⟩ := h e he
  rw [h2]; exact o e0 h1

omit [DecidableEq K1] [DecidableEq K2] in
theorem assign_one (o : OneEach a) (i : Nat) (x : Option V) : OneEach (a.assign i x) := by
  refine sub_one o fun e he => ?_
  have : e.keys ∈ (a.assign i x).entries.map (·.keys) := List.mem_map.2 ⟨e, he, rfl⟩
  simp only [Ideal.assign, Pointer.map_modify_keys] at this
  obtain ⟨e0, h1, h2⟩ := List.mem_map.1 this
  exact ⟨e0, h1, h2.symm⟩

omit [DecidableEq K1] [DecidableEq K2] in
theorem write_one (o : OneEach a) (i : Nat) (ob : Option (Nat × V)) :
    OneEach { a with entries := a.entries.modify i fun e => { e with obj := ob } } := by
  refine sub_one o fun e he => ?_
  have : e.keys ∈ (a.entries.modify i fun e => { e with obj := ob }).map (·.keys) := List.mem_map.2 ⟨e, he, rfl⟩
  rw [Pointer.map_modify_keys] at this
  obtain ⟨e0, h1, h2⟩ := List.mem_map.1 this
  exact ⟨e0, h1, h2.symm⟩

omit [DecidableEq K1] [DecidableEq K2] in
theorem erase_one (o : OneEach a) (i : Nat) : OneEach { a with entries := a.entries.eraseIdx i } :=
  sub_one o fun e he => ⟨e, List.mem_of_mem_eraseIdx he, rfl⟩

/-- both maps get new entries for the new element -/
theorem both_inv (v : Pointer.Inv w.base a) (k1 : K1) (k2 : K2) (x : Option V) {l1 : FMap K1} {l2 : FMap K2}
    (w1 : FMap.WF l1) (f1 : ∀ k, FMap.find l1 k = if k = k1 then some a.entries.length else FMap.find w.pv.lookup1 k)
    (w2 : FMap.WF l2) (f2 : ∀ k, FMap.find l2 k = if k = k2 then some a.entries.length else FMap.find w.pv.lookup2 k) :
    Pointer.Inv (World.base ⟨⟨w.pv.data ++ [(w.heap.makeOpt x).2], l1, l2⟩, (w.heap.makeOpt x).1⟩) (both a k1 k2 x) := by
  have v1 := v.append x v.binds.append_nil
  have hw := v.binds.wf
  obtain ⟨wa, fa⟩ := put1 hw k1 a.entries.length w1 f1
  have v2 := attach_inv v1 (by rw [append_length]; omega) wa fa
  obtain ⟨wb, fb⟩ := put2 wa k2 a.entries.length w2 f2
  exact attach_inv v2 (by rw [attach_length, append_length]; omega) wb fb

theorem put_inv (v : Pointer.Inv w.base a) (k1 : K1) (k2 : K2) (x : Option V) :
    Pointer.Inv (World.base ⟨w.pv.addPut E k1 k2 (w.heap.makeOpt x).2, (w.heap.makeOpt x).1⟩) (both a k1 k2 x) := by
  have hw := join_wf.1 v.binds.wf
  have hsz : w.pv.data.length = a.entries.length := v.size_eq
  simp only [DPV.addPut, hsz]
  exact both_inv v k1 k2 x (FMap.put_wf hw.1 k1 _) (FMap.find_put (I := E.impl1) hw.1 k1 _)
    (FMap.put_wf hw.2 k2 _) (FMap.find_put (I := E.impl2) hw.2 k2 _)

theorem new_inv (v : Pointer.Inv w.base a) (k1 : K1) (k2 : K2) (x : Option V) (h1 : FMap.find w.pv.lookup1 k1 = none)
    (h2 : FMap.find w.pv.lookup2 k2 = none) :
    Pointer.Inv (World.base ⟨w.pv.addNew E k1 k2 (w.heap.makeOpt x).2, (w.heap.makeOpt x).1⟩) (both a k1 k2 x) := by
  have hw := join_wf.1 v.binds.wf
  have hsz : w.pv.data.length = a.entries.length := v.size_eq
  simp only [DPV.addNew, hsz]
  exact both_inv v k1 k2 x (FMap.emplace_wf hw.1 k1 _) (emplace_new (I := E.impl1) hw.1 _ h1)
    (FMap.emplace_wf hw.2 k2 _) (emplace_new (I := E.impl2) hw.2 _ h2)

theorem modify_last {α : Type} (f : α → α) (x : α) : ∀ l : List α, (l ++ [x]).modify l.length f = l ++ [f x]
  | [] => rfl
  | y :: l => by simp [modify_last f x l]

theorem strip_none {K : Type} [DecidableEq K] (a : Ideal K V) (x : Option V) (k : K) (h : a.lookup k = none) :
    attach (a.append x []) a.entries.length k = a.append x [k] := by
  have hn : ∀ e ∈ a.entries, k ∉ e.keys := by
    intro e he
    have := List.findIdx?_eq_none_iff.1 h e he
    simpa using this
  have hid : a.entries.map (fun e => ({ e with keys := e.keys.filter (· ≠ k) } : Entry K V)) = a.entries := by
    conv_rhs => rw [← List.map_id a.entries]
    apply List.map_congr_left
    intro e he
    have : e.keys.filter (· ≠ k) = e.keys := by
      rw [List.filter_eq_self]
      intro k' hk'
      simp only [decide_eq_true_eq, ne_eq]
      rintro rfl; exact hn e he hk'
    rw [this]; rfl
  unfold attach
  simp only [Ideal.append, List.map_append, List.map_cons, List.map_nil]
  rw [hid]
  congr 1
  exact modify_last _ _ _

theorem one1_inv (v : Pointer.Inv w.base a) (k : K1) (x : V) (h : FMap.find w.pv.lookup1 k = none) :
    Pointer.Inv (World.base ⟨⟨w.pv.data ++ [some (w.heap.make x).2],
      (FMap.emplace E.impl1 w.pv.lookup1 k a.entries.length).1, w.pv.lookup2⟩, (w.heap.make x).1⟩) (a.append (some x) [.inl k]) := by
  have v1 := v.append (some x) v.binds.append_nil
  have hw := v.binds.wf
  have hw1 := (join_wf.1 hw).1
  obtain ⟨wa, fa⟩ := put1 hw k a.entries.length (FMap.emplace_wf hw1 k _) (emplace_new (I := E.impl1) hw1 _ h)
  have v2 := attach_inv v1 (by rw [append_length]; omega) wa fa
  rw [strip_none _ _ _ (by rw [lookup_inl v]; exact h)] at v2
  exact v2

theorem one2_inv (v : Pointer.Inv w.base a) (k : K2) (x : V) (h : FMap.find w.pv.lookup2 k = none) :
    Pointer.Inv (World.base ⟨⟨w.pv.data ++ [some (w.heap.make x).2], w.pv.lookup1,
      (FMap.emplace E.impl2 w.pv.lookup2 k a.entries.length).1⟩, (w.heap.make x).1⟩) (a.append (some x) [.inr k]) := by
  have v1 := v.append (some x) v.binds.append_nil
  have hw := v.binds.wf
  have hw2 := (join_wf.1 hw).2
  obtain ⟨wa, fa⟩ := put2 hw k a.entries.length (FMap.emplace_wf hw2 k _) (emplace_new (I := E.impl2) hw2 _ h)
  have v2 := attach_inv v1 (by rw [append_length]; omega) wa fa
  rw [strip_none _ _ _ (by rw [lookup_inr v]; exact h)] at v2
  exact v2

theorem assign_inv (v : Pointer.Inv w.base a) {i : Nat} (hi : i < a.entries.length) (x : Option V) :
    ∃ w', w.pv.assignAt (w.heap.makeOpt x).1 i (w.heap.makeOpt x).2 = some (w'.pv, w'.heap) ∧
      Pointer.Inv (World.base w') (a.assign i x) := by
  obtain ⟨h', e, r⟩ := v.assign hi x
  refine ⟨⟨⟨w.pv.data.set i (w.heap.makeOpt x).2, w.pv.lookup1, w.pv.lookup2⟩, h'⟩, ?_, r⟩
  simp only [Pointer.PV.assignAt, Option.bind_eq_some_iff, Option.map_eq_some_iff] at e
  obtain ⟨old, e1, h2, e2, e3⟩ := e
  cases e3
  simp only [DPV.assignAt, e1, Option.bind_some, e2, Option.map_some]

theorem erase_inv (v : Pointer.Inv w.base a) {i : Nat} (hi : i < a.entries.length) {l1 : FMap K1} {l2 : FMap K2}
    (h1 : Dropped i w.pv.lookup1 l1) (h2 : Dropped i w.pv.lookup2 l2) :
    ∃ h', w.pv.eraseAt w.heap i = some (w.pv.data.eraseIdx i, h') ∧
      Pointer.Inv (World.base ⟨⟨w.pv.data.eraseIdx i, l1, l2⟩, h'⟩) { a with entries := a.entries.eraseIdx i } := by
  obtain ⟨wf, f⟩ := join_dropped v.binds.wf h1 h2
  obtain ⟨h', e, r⟩ := v.erase hi wf f
  exact ⟨h', e, r⟩

/-- one map's part, from the specification's point of view -/
theorem drop1 (v : Inv w a) {i : Nat} {e : Entry (K1 ⊕ K2) V} (he : a.entries[i]? = some e)
    (hc : (e.keys.any Sum.isLeft || free a Sum.inl E.unset1) = true) :
    ∃ l', DPV.dropIndex E.unset1 i w.pv.lookup1 = some l' ∧ Dropped i w.pv.lookup1 l' := by
  have hw := (join_wf.1 v.base.binds.wf).1
  have hl : ∀ k, FMap.find w.pv.lookup1 k = some i ↔ Sum.inl k ∈ e.keys := by
    intro k
    rw [← lookup_inl v.base, lookup_iff v.base]
    exact ⟨fun ⟨e', h1, h2⟩ => by rw [he] at h1; cases h1; exact h2, fun h => ⟨e, he, h⟩⟩
  by_cases hk : ∃ k0, Sum.inl k0 ∈ e.keys
  · obtain ⟨k0, hk⟩ := hk
    refine dropIndex_eq hw (.inl ⟨k0, fun k => ?_⟩)
    rw [hl]
    exact ⟨fun h => (v.one e (List.mem_of_getElem? he)).1 _ _ h hk, fun h => h ▸ hk⟩
  · have hno : ¬ e.keys.any Sum.isLeft = true := by
      rw [List.any_eq_true]
      rintro ⟨k, h1, h2⟩
      cases k with
      | inl k => exact hk ⟨k, h1⟩
      | inr k => cases h2
    have hf : free a Sum.inl E.unset1 = true := by
      cases h : e.keys.any Sum.isLeft
      · simpa [h] using hc
      · exact absurd h hno
    cases hu : E.unset1 with
    | none => rw [hu] at hf; cases hf
    | some d =>
      rw [hu] at hf
      refine dropIndex_eq hw (.inr ⟨fun k h => hk ⟨k, (hl k).1 h⟩, d, rfl, ?_⟩)
      rw [← lookup_inl v.base]
      simpa [free] using hf

theorem drop2 (v : Inv w a) {i : Nat} {e : Entry (K1 ⊕ K2) V} (he : a.entries[i]? = some e)
    (hc : (e.keys.any Sum.isRight || free a Sum.inr E.unset2) = true) :
    ∃ l', DPV.dropIndex E.unset2 i w.pv.lookup2 = some l' ∧ Dropped i w.pv.lookup2 l' := by
  have hw := (join_wf.1 v.base.binds.wf).2
  have hl : ∀ k, FMap.find w.pv.lookup2 k = some i ↔ Sum.inr k ∈ e.keys := by
    intro k
    rw [← lookup_inr v.base, lookup_iff v.base]
    exact ⟨fun ⟨e', h1, h2⟩ => by rw [he] at h1; cases h1; exact h2, fun h => ⟨e, he, h⟩⟩
  by_cases hk : ∃ k0, Sum.inr k0 ∈ e.keys
  · obtain ⟨k0, hk⟩ := hk
    refine dropIndex_eq hw (.inl ⟨k0, fun k => ?_⟩)
    rw [hl]
    exact ⟨fun h => (v.one e (List.mem_of_getElem? he)).2 _ _ h hk, fun h => h ▸ hk⟩
  · have hno : ¬ e.keys.any Sum.isRight = true := by
      rw [List.any_eq_true]
      rintro ⟨k, h1, h2⟩
      cases k with
      | inr k => exact hk ⟨k, h1⟩
      | inl k => cases h2
    have hf : free a Sum.inr E.unset2 = true := by
      cases h : e.keys.any Sum.isRight
      · simpa [h] using hc
      · exact absurd h hno
    cases hu : E.unset2 with
    | none => rw [hu] at hf; cases hf
    | some d =>
      rw [hu] at hf
      refine dropIndex_eq hw (.inr ⟨fun k h => hk ⟨k, (hl k).1 h⟩, d, rfl, ?_⟩)
      rw [← lookup_inr v.base]
      simpa [free] using hf

/-- a key belongs to one element only, which has no other of its type -/
theorem only1 (v : Inv w a) {k0 : K1} {i : Nat} (h : FMap.find w.pv.lookup1 k0 = some i) (k : K1) :
    FMap.find w.pv.lookup1 k = some i ↔ k = k0 := by
  constructor
  · intro hk
    rw [← lookup_inl v.base, lookup_iff v.base] at h hk
    obtain ⟨e, h1, h2⟩ := h
    obtain ⟨e', h3, h4⟩ := hk
    rw [h1] at h3; cases h3
    exact (v.one e (List.mem_of_getElem? h1)).1 _ _ h4 h2
  · rintro rfl; exact h

theorem only2 (v : Inv w a) {k0 : K2} {i : Nat} (h : FMap.find w.pv.lookup2 k0 = some i) (k : K2) :
    FMap.find w.pv.lookup2 k = some i ↔ k = k0 := by
  constructor
  · intro hk
    rw [← lookup_inr v.base, lookup_iff v.base] at h hk
    obtain ⟨e, h1, h2⟩ := h
    obtain ⟨e', h3, h4⟩ := hk
    rw [h1] at h3; cases h3
    exact (v.one e (List.mem_of_getElem? h1)).2 _ _ h4 h2
  · rintro rfl; exact h

theorem obj_of {K : Type} [DecidableEq K] (a : Ideal K V) (k : K) :
    objOf a k = (a.lookup k).bind fun i => (a.entries[i]?).bind (·.obj) := by
  unfold objOf
  rw [Pointer.find_of_lookup]
  cases a.lookup k <;> rfl

/-- reading what a key finds -/
theorem find_inv (v : Pointer.Inv w.base a) (k : K1 ⊕ K2) :
    ((match a.lookup k with
      | some i => w.pv.data[i]?
      | none => some none).bind fun p => w.heap.read p) = some (objOf a k) := by
  rw [obj_of]
  cases hf : a.lookup k with
  | none => rfl
  | some i =>
    have hl := lookup_lt v hf
    have := v.obj_at hl
    simp only [this.1, Option.bind_some, this.2, List.getElem?_eq_getElem hl]

/-- the calls that are those of MappedPointerVector -/
theorem step_base (v : Inv w a) {op : Pointer.Op (K1 ⊕ K2) V} {o : Obs V}
    (hc : Pointer.careful none a op = true) {a' : Ideal (K1 ⊕ K2) V} (hi : Pointer.ideal a op = some (a', o)) :
    ∃ w', Pointer.exec MapImpl.atEnd none w.base op = some (w', o) ∧ Pointer.Inv w' a' := Pointer.step v.base hc hi

theorem step (v : Inv w a) {op : Op K1 K2 V} (hc : careful E a op = true) {a' : Ideal (K1 ⊕ K2) V} {o : Obs V}
    (hi : ideal a op = some (a', o)) : ∃ w', exec E w op = some (w', o) ∧ Inv w' a' := by
  have hsz : w.pv.data.length = a.entries.length := v.base.size_eq
  cases op with
  | insertPtr k1 k2 x =>
    simp only [ideal, lookup_inl v.base, lookup_inr v.base] at hi
    simp only [careful, lookup_inl v.base, lookup_inr v.base] at hc
    by_cases hf : (FMap.find w.pv.lookup1 k1).isSome = true ∧ (FMap.find w.pv.lookup2 k2).isSome = true
    · have e1 : w.pv.insertPtr E k1 k2 (w.heap.makeOpt x).2 = _ := if_pos hf
      rw [if_pos hf] at hi; cases hi
      obtain ⟨h', e, o, n⟩ := v.base.own.makeDelete x
      refine ⟨⟨w.pv, h'⟩, ?_, ⟨v.base.data, v.base.binds, o, by rw [n, v.base.next]⟩, v.one⟩
      have e : (w.heap.makeOpt x).1.delete (w.heap.makeOpt x).2 = some h' := e
      simp [exec, e1, e]
    · have e1 : w.pv.insertPtr E k1 k2 (w.heap.makeOpt x).2 = _ := if_neg hf
      rw [if_neg hf] at hi; cases hi
      have hn : FMap.find w.pv.lookup1 k1 = none ∧ FMap.find w.pv.lookup2 k2 = none := by
        cases h1 : FMap.find w.pv.lookup1 k1 <;> cases h2 : FMap.find w.pv.lookup2 k2 <;> simp_all
      exact ⟨_, by simp [exec, e1, hsz], new_inv (E := E) v.base k1 k2 x hn.1 hn.2, both_one v.one k1 k2 x⟩
  | insert k1 k2 x =>
    simp only [ideal, lookup_inl v.base, lookup_inr v.base] at hi
    simp only [careful, lookup_inl v.base, lookup_inr v.base] at hc
    simp only [exec, DPV.insert]
    by_cases hf : (FMap.find w.pv.lookup1 k1).isSome = true ∧ (FMap.find w.pv.lookup2 k2).isSome = true
    · rw [if_pos hf] at hi ⊢; cases hi
      exact ⟨w, rfl, v⟩
    · rw [if_neg hf] at hi ⊢; cases hi
      have hn : FMap.find w.pv.lookup1 k1 = none ∧ FMap.find w.pv.lookup2 k2 = none := by
        cases h1 : FMap.find w.pv.lookup1 k1 <;> cases h2 : FMap.find w.pv.lookup2 k2 <;> simp_all
      exact ⟨⟨w.pv.addNew E k1 k2 (some (w.heap.make x).2), (w.heap.make x).1⟩, by simp only [hsz],
        new_inv (E := E) v.base k1 k2 (some x) hn.1 hn.2, both_one v.one k1 k2 (some x)⟩
  | insertOne k x =>
    cases k with
    | inl k =>
      simp only [ideal, lookup_inl v.base] at hi
      simp only [exec, DPV.insert1]
      cases hf : FMap.find w.pv.lookup1 k with
      | some i => rw [hf] at hi; cases hi; exact ⟨w, by simp, v⟩
      | none =>
        rw [hf] at hi; cases hi
        exact ⟨_, by simp only [Option.isSome_none, Bool.false_eq_true, if_false, hsz],
          one1_inv (E := E) v.base k x hf, append_one v.one _ (.inr ⟨_, rfl⟩)⟩
    | inr k =>
      simp only [ideal, lookup_inr v.base] at hi
      simp only [exec, DPV.insert2]
      cases hf : FMap.find w.pv.lookup2 k with
      | some i => rw [hf] at hi; cases hi; exact ⟨w, by simp, v⟩
      | none =>
        rw [hf] at hi; cases hi
        exact ⟨_, by simp only [Option.isSome_none, Bool.false_eq_true, if_false, hsz],
          one2_inv (E := E) v.base k x hf, append_one v.one _ (.inr ⟨_, rfl⟩)⟩
  | assignPtr k1 k2 x =>
    simp only [ideal, lookup_inl v.base, lookup_inr v.base] at hi
    simp only [exec, DPV.insertOrAssignPtr]
    have hcase : (∃ i, w.pv.common k1 k2 = some i ∧ i < a.entries.length ∧ (a', o) = (a.assign i x, .index (some i))) ∨
        (w.pv.common k1 k2 = none ∧ (a', o) = (both a k1 k2 x, .index (some a.entries.length))) := by
      simp only [DPV.common]
      cases hf : FMap.find w.pv.lookup1 k1 with
      | none => rw [hf] at hi; cases hi; exact .inr ⟨rfl, rfl⟩
      | some i =>
        rw [hf] at hi
        simp only at hi
        cases hg : FMap.find w.pv.lookup2 k2 with
        | none => rw [hg, if_neg (by simp)] at hi; cases hi; exact .inr ⟨rfl, rfl⟩
        | some j =>
          rw [hg] at hi
          by_cases hij : j = i
          · rw [if_pos (by rw [hij])] at hi; cases hi
            exact .inl ⟨i, by simp only [if_pos hij], lookup_lt v.base ((lookup_inl v.base k1).trans hf), rfl⟩
          · rw [if_neg (by simpa using hij)] at hi; cases hi
            exact .inr ⟨by simp only [if_neg hij], rfl⟩
    rcases hcase with ⟨i, h1, h2, h3⟩ | ⟨h1, h3⟩
    · cases h3
      obtain ⟨w', e, r⟩ := assign_inv v.base h2 x
      exact ⟨w', by simp only [h1, e, Option.map_some], r, assign_one v.one i x⟩
    · cases h3
      exact ⟨_, by simp only [h1, hsz, Option.map_some], put_inv (E := E) v.base k1 k2 x, both_one v.one k1 k2 x⟩
  | assign k1 k2 x =>
    simp only [ideal, lookup_inl v.base, lookup_inr v.base] at hi
    simp only [exec, DPV.insertOrAssign]
    have hcase : (∃ i, w.pv.common k1 k2 = some i ∧ i < a.entries.length ∧ (a', o) = (a.assign i (some x), .index (some i))) ∨
        (w.pv.common k1 k2 = none ∧ (a', o) = (both a k1 k2 (some x), .index (some a.entries.length))) := by
      simp only [DPV.common]
      cases hf : FMap.find w.pv.lookup1 k1 with
      | none => rw [hf] at hi; cases hi; exact .inr ⟨rfl, rfl⟩
      | some i =>
        rw [hf] at hi
        simp only at hi
        cases hg : FMap.find w.pv.lookup2 k2 with
        | none => rw [hg, if_neg (by simp)] at hi; cases hi; exact .inr ⟨rfl, rfl⟩
        | some j =>
          rw [hg] at hi
          by_cases hij : j = i
          · rw [if_pos (by rw [hij])] at hi; cases hi
            exact .inl ⟨i, by simp only [if_pos hij], lookup_lt v.base ((lookup_inl v.base k1).trans hf), rfl⟩
          · rw [if_neg (by simpa using hij)] at hi; cases hi
            exact .inr ⟨by simp only [if_neg hij], rfl⟩
    rcases hcase with ⟨i, h1, h2, h3⟩ | ⟨h1, h3⟩
    · cases h3
      obtain ⟨w', e, r⟩ := assign_inv v.base h2 (some x)
      have e : w.pv.assignAt (w.heap.make x).1 i (some (w.heap.make x).2) = _ := e
      exact ⟨w', by simp only [h1, e, Option.map_some], r, assign_one v.one i (some x)⟩
    · cases h3
      exact ⟨⟨w.pv.addPut E k1 k2 (some (w.heap.make x).2), (w.heap.make x).1⟩, by simp only [h1, hsz, Option.map_some],
        put_inv (E := E) v.base k1 k2 (some x), both_one v.one k1 k2 (some x)⟩
  | assignOne k x =>
    cases k with
    | inl k =>
      simp only [ideal, lookup_inl v.base] at hi
      simp only [exec, DPV.insertOrAssign1]
      cases hf : FMap.find w.pv.lookup1 k with
      | some i =>
        rw [hf] at hi; cases hi
        obtain ⟨w', e, r⟩ := assign_inv v.base (lookup_lt v.base ((lookup_inl v.base k).trans hf)) (some x)
        have e : w.pv.assignAt (w.heap.make x).1 i (some (w.heap.make x).2) = _ := e
        exact ⟨w', by simp only [e, Option.map_some], r, assign_one v.one i (some x)⟩
      | none =>
        rw [hf] at hi; cases hi
        exact ⟨_, by simp only [Option.map_some, hsz], one1_inv (E := E) v.base k x hf, append_one v.one _ (.inr ⟨_, rfl⟩)⟩
    | inr k =>
      simp only [ideal, lookup_inr v.base] at hi
      simp only [exec, DPV.insertOrAssign2]
      cases hf : FMap.find w.pv.lookup2 k with
      | some i =>
        rw [hf] at hi; cases hi
        obtain ⟨w', e, r⟩ := assign_inv v.base (lookup_lt v.base ((lookup_inr v.base k).trans hf)) (some x)
        have e : w.pv.assignAt (w.heap.make x).1 i (some (w.heap.make x).2) = _ := e
        exact ⟨w', by simp only [e, Option.map_some], r, assign_one v.one i (some x)⟩
      | none =>
        rw [hf] at hi; cases hi
        exact ⟨_, by simp only [Option.map_some, hsz], one2_inv (E := E) v.base k x hf, append_one v.one _ (.inr ⟨_, rfl⟩)⟩
  | find k =>
    cases hi
    refine ⟨w, ?_, v⟩
    have := find_inv v.base k
    cases k with
    | inl k =>
      rw [lookup_inl v.base] at this
      have : (w.pv.find1 k).bind (fun p => w.heap.read p) = some (objOf a (.inl k)) := this
      obtain ⟨p, h1, h2⟩ := Option.bind_eq_some_iff.1 this
      simp only [exec, h1, Option.bind_some, h2, Option.map_some]
    | inr k =>
      rw [lookup_inr v.base] at this
      have : (w.pv.find2 k).bind (fun p => w.heap.read p) = some (objOf a (.inr k)) := this
      obtain ⟨p, h1, h2⟩ := Option.bind_eq_some_iff.1 this
      simp only [exec, h1, Option.bind_some, h2, Option.map_some]
  | get i =>
    cases hi
    refine ⟨w, ?_, v⟩
    simp only [exec, DPV.get, hsz]
    by_cases hl : i < a.entries.length
    · have := v.base.obj_at hl
      simp only [if_pos hl, this.1, Option.bind_some, this.2, Option.map_some, List.getElem?_eq_getElem hl]
    · rw [if_neg hl, List.getElem?_eq_none (by omega)]; rfl
  | write i x =>
    obtain ⟨w', e, r⟩ := step_base v (op := .write i x) rfl hi
    simp only [ideal, Option.map_eq_some_iff] at hi
    obtain ⟨p, _, h3⟩ := hi
    cases h3
    simp only [Pointer.exec, Pointer.PV.get, Option.bind_eq_some_iff, Option.map_eq_some_iff] at e
    obtain ⟨q, e1, q', e2, h', e3, e4⟩ := e
    cases e4
    refine ⟨⟨w.pv, h'⟩, ?_, r, write_one v.one i _⟩
    simp only [exec, DPV.get, e1, Option.bind_some, e2, e3, Option.map_some]
  | back =>
    obtain ⟨w', e, r⟩ := step_base v (op := .back) rfl hi
    simp only [ideal, Option.map_eq_some_iff] at hi
    obtain ⟨p, _, h3⟩ := hi
    cases h3
    simp only [Pointer.exec, Pointer.PV.back, Option.bind_eq_some_iff, Option.map_eq_some_iff] at e
    obtain ⟨q, e1, y, e2, e3⟩ := e
    cases e3
    exact ⟨w, by simp only [exec, DPV.back, e1, Option.bind_some, e2, Option.map_some], v⟩
  | removeIndex i =>
    cases hi
    simp only [exec, DPV.removeIndex, hsz]
    by_cases hl : i < a.entries.length
    · rw [if_neg (by omega)]
      have he := List.getElem?_eq_getElem hl
      simp only [careful, he, Bool.and_eq_true] at hc
      obtain ⟨l1, e1, d1⟩ := drop1 (E := E) v he hc.1
      obtain ⟨l2, e2, d2⟩ := drop2 (E := E) v he hc.2
      obtain ⟨h', e3, r⟩ := erase_inv v.base hl d1 d2
      exact ⟨_, by simp only [e3, Option.bind_some, e1, e2, Option.map_some], r, erase_one v.one i⟩
    · rw [if_pos (by omega), List.eraseIdx_of_length_le (by omega)]
      exact ⟨w, rfl, v⟩
  | remove k =>
    cases k with
    | inl k =>
      simp only [careful, lookup_inl v.base] at hc
      simp only [ideal, lookup_inl v.base] at hi
      simp only [exec, DPV.remove1]
      cases hf : FMap.find w.pv.lookup1 k with
      | none => rw [hf] at hi; cases hi; exact ⟨w, rfl, v⟩
      | some i =>
        rw [hf] at hi hc; cases hi
        have hl := lookup_lt v.base ((lookup_inl v.base k).trans hf)
        have he := List.getElem?_eq_getElem hl
        simp only [Option.bind_some, he] at hc
        obtain ⟨l2, e2, d2⟩ := drop2 (E := E) v he hc
        obtain ⟨h', e3, r⟩ := erase_inv v.base hl (dropKey_eq (join_wf.1 v.base.binds.wf).1 (only1 v hf)) d2
        exact ⟨_, by simp only [e3, Option.bind_some, e2, Option.map_some], r, erase_one v.one i⟩
    | inr k =>
      simp only [careful, lookup_inr v.base] at hc
      simp only [ideal, lookup_inr v.base] at hi
      simp only [exec, DPV.remove2]
      cases hf : FMap.find w.pv.lookup2 k with
      | none => rw [hf] at hi; cases hi; exact ⟨w, rfl, v⟩
      | some i =>
        rw [hf] at hi hc; cases hi
        have hl := lookup_lt v.base ((lookup_inr v.base k).trans hf)
        have he := List.getElem?_eq_getElem hl
        simp only [Option.bind_some, he] at hc
        obtain ⟨l1, e1, d1⟩ := drop1 (E := E) v he hc
        obtain ⟨h', e3, r⟩ := erase_inv v.base hl d1 (dropKey_eq (join_wf.1 v.base.binds.wf).2 (only2 v hf))
        exact ⟨_, by simp only [e3, Option.bind_some, e1, Option.map_some], r, erase_one v.one i⟩
  | apply =>
    obtain ⟨w', e, r⟩ := step_base v (op := .apply) rfl hi
    cases hi
    simp only [Pointer.exec, Pointer.PV.apply, Option.map_eq_some_iff] at e
    obtain ⟨q, e1, e2⟩ := e
    cases e2
    exact ⟨w, by simp only [exec, DPV.apply, e1, Option.map_some], v⟩
  | size => cases hi; exact ⟨w, by simp only [exec, DPV.size, hsz], v⟩
  | clear =>
    obtain ⟨w', e, r⟩ := step_base v (op := .clear) rfl hi
    cases hi
    simp only [Pointer.exec, Pointer.PV.clear, Option.map_eq_some_iff] at e
    obtain ⟨q, ⟨h', e1, e2⟩, e3⟩ := e
    subst e2
    cases e3
    exact ⟨⟨⟨[], [], []⟩, h'⟩, by simp only [exec, DPV.clear, e1, Option.map_some], r, by intro e he; simp at he⟩

theorem simulate (ops : List (Op K1 K2 V)) : ∀ {w : World K1 K2 V} {a : Ideal (K1 ⊕ K2) V}, Inv w a →
    carefulRun E a ops = true → ∀ {a' os}, idealRun a ops = some (a', os) →
    ∃ w', run E w ops = some (w', os) ∧ Inv w' a' := by
  induction ops with
  | nil => intro w a v _ a' os hi; cases hi; exact ⟨w, rfl, v⟩
  | cons op ops ih =>
    intro w a v hc a' os hi
    simp only [idealRun, Option.bind_eq_some_iff, Option.map_eq_some_iff] at hi
    obtain ⟨⟨a1, o⟩, h1, ⟨a2, os2⟩, h2, h3⟩ := hi
    cases h3
    simp only [carefulRun, h1, Bool.and_eq_true] at hc
    obtain ⟨w1, e1, v1⟩ := step v hc.1 h1
    obtain ⟨w2, e2, v2⟩ := ih v1 hc.2 h2
    exact ⟨w2, by simp only [run, e1, Option.bind_some, e2, Option.map_some], v2⟩

end Verif.Mapped.DualPtr
