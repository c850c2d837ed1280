import Verif.Mapped.DualPtr.Lemmas

/-
DualMappedPointerVector: property C44.
-/
namespace Verif.Mapped.DualPtr
open Verif.Mapped
open Verif.Mapped.Pointer (Objs Obs Entry Ideal)
open Verif.Mapped.Dual (emplace_new join_wf)

variable {K1 K2 V : Type} [DecidableEq K1] [DecidableEq K2]

omit [DecidableEq K1] [DecidableEq K2] in
/-- the ideal new container -/
def empty : Ideal (K1 ⊕ K2) V := ⟨[], 0⟩

/-- For every careful history: the code is defined and returns what the specification returns (pointers are compared as
objects, with the value read through them); afterwards the objects in existence are exactly those of the elements, and
no two elements share an object. -/
theorem history_partial (E : Env K1 K2) (ops : List (Op K1 K2 V)) (a : Ideal (K1 ⊕ K2) V) (os : List (Obs V))
    (h : idealRun empty ops = some (a, os)) (hc : carefulRun E empty ops = true) :
    ∃ w, run E World.init ops = some (w, os) ∧
      (∀ p x, w.heap.val p = some x ↔ ∃ e ∈ a.entries, e.obj = some (p, x)) ∧
      (∀ (i j : Nat) (p : Nat) (x y : V), (a.entries[i]?).bind (·.obj) = some (p, x) →
        (a.entries[j]?).bind (·.obj) = some (p, y) → i = j) := by
  obtain ⟨w, e, v⟩ := simulate (E := E) ops Inv.init hc h
  refine ⟨w, e, fun p x => ?_, fun i j p x y hi hj => ?_⟩
  · rw [v.base.own.val]; simp
  · obtain ⟨e1, h1, h2⟩ := Option.bind_eq_some_iff.1 hi
    obtain ⟨e2, h3, h4⟩ := Option.bind_eq_some_iff.1 hj
    exact v.base.own.uniq i j p x y (by simp [h1, h2]) (by simp [h3, h4])

/-- The pointer returned by `find` for a key of either type (outer `none`: undefined, inner `none`: nullptr). -/
def finds (w : World K1 K2 V) : K1 ⊕ K2 → Option (Option Nat)
  | .inl k => w.pv.find1 k
  | .inr k => w.pv.find2 k

section
variable {w : World K1 K2 V} {a : Ideal (K1 ⊕ K2) V}

theorem finds_eq (v : Inv w a) (k : K1 ⊕ K2) : finds w k =
    match a.lookup k with | some i => w.pv.data[i]? | none => some none := by
  cases k with
  | inl k => rw [lookup_inl v.base]; rfl
  | inr k => rw [lookup_inr v.base]; rfl

theorem finds_key (v : Inv w a) {j : Nat} {e : Entry (K1 ⊕ K2) V} {k : K1 ⊕ K2} (hj : a.entries[j]? = some e)
    (hk : k ∈ e.keys) : finds w k = some (e.obj.map (·.1)) := by
  obtain ⟨hl, he⟩ := List.getElem?_eq_some_iff.1 hj
  rw [finds_eq v, (lookup_iff v.base k j).2 ⟨e, hj, hk⟩]
  simp only [(v.base.obj_at hl).1, he]

theorem finds_none (v : Inv w a) {k : K1 ⊕ K2} (hk : ∀ e ∈ a.entries, k ∉ e.keys) : finds w k = some none := by
  rw [finds_eq v]
  cases hf : a.lookup k with
  | none => rfl
  | some i =>
    obtain ⟨e, h1, h2⟩ := (lookup_iff v.base k i).1 hf
    exact absurd h2 (hk e (List.mem_of_getElem? h1))

theorem lookup_of_none (v : Inv w a) {k : K1 ⊕ K2} (hk : ∀ e ∈ a.entries, k ∉ e.keys) : a.lookup k = none := by
  cases hf : a.lookup k with
  | none => rfl
  | some i =>
    obtain ⟨e, h1, h2⟩ := (lookup_iff v.base k i).1 hf
    exact absurd h2 (hk e (List.mem_of_getElem? h1))

/-- the entries of the two maps are positions of elements -/
theorem find1_lt (v : Inv w a) {k : K1} {i : Nat} (h : FMap.find w.pv.lookup1 k = some i) : i < w.pv.data.length := by
  have h1 := lookup_lt v.base ((lookup_inl v.base k).trans h)
  have h2 : w.pv.data.length = a.entries.length := v.base.size_eq
  omega

theorem find2_lt (v : Inv w a) {k : K2} {i : Nat} (h : FMap.find w.pv.lookup2 k = some i) : i < w.pv.data.length := by
  have h1 := lookup_lt v.base ((lookup_inr v.base k).trans h)
  have h2 : w.pv.data.length = a.entries.length := v.base.size_eq
  omega

end

/-- Insertion of two keys of which none is in use, from any state a careful history reaches: the new object becomes the
last element, both keys find it, every other key finds what it found before, every other object is as before. -/
theorem insert_partial (E : Env K1 K2) (ops : List (Op K1 K2 V)) (a : Ideal (K1 ⊕ K2) V) (os : List (Obs V))
    (h : idealRun empty ops = some (a, os)) (hc : carefulRun E empty ops = true) (k1 : K1) (k2 : K2) (x : V)
    (h1 : ∀ e ∈ a.entries, Sum.inl k1 ∉ e.keys) (h2 : ∀ e ∈ a.entries, Sum.inr k2 ∉ e.keys)
    (op : Op K1 K2 V) (hop : op = .insert k1 k2 x ∨ op = .insertPtr k1 k2 (some x)) :
    ∃ w w' p, run E World.init ops = some (w, os) ∧ exec E w op = some (w', .index (some w.pv.size)) ∧
      w'.pv.size = w.pv.size + 1 ∧ w.heap.val p = none ∧
      (∀ q, w'.heap.val q = if q = p then some x else w.heap.val q) ∧
      w'.pv.get w.pv.size = some (some p) ∧ (∀ j, j < w.pv.size → w'.pv.get j = w.pv.get j) ∧
      finds w' (.inl k1) = some (some p) ∧ finds w' (.inr k2) = some (some p) ∧
      (∀ k, k ≠ .inl k1 → k ≠ .inr k2 → finds w' k = finds w k) := by
  obtain ⟨w, e, v⟩ := simulate (E := E) ops Inv.init hc h
  have hf1 : FMap.find w.pv.lookup1 k1 = none := (lookup_inl v.base k1).symm.trans (lookup_of_none v h1)
  have hf2 : FMap.find w.pv.lookup2 k2 = none := (lookup_inr v.base k2).symm.trans (lookup_of_none v h2)
  obtain ⟨hw1, hw2⟩ := join_wf.1 v.base.binds.wf
  have g1 := emplace_new (I := E.impl1) hw1 w.pv.data.length hf1
  have g2 := emplace_new (I := E.impl2) hw2 w.pv.data.length hf2
  have hex : exec E w op = some (⟨w.pv.addNew E k1 k2 (some (w.heap.make x).2), (w.heap.make x).1⟩,
      .index (some w.pv.size)) := by
    rcases hop with rfl | rfl
    · simp [exec, DPV.insert, hf1, DPV.size]
    · simp [exec, DPV.insertPtr, hf1, DPV.size, Objs.makeOpt]
  refine ⟨w, _, (w.heap.make x).2, e, hex, ?_, ?_, ?_, ?_, ?_, ?_, ?_, ?_⟩
  · simp [DPV.size, DPV.addNew]
  · cases hv : w.heap.val (w.heap.make x).2 with
    | none => rfl
    | some y =>
      have := v.base.own.fresh _ _ ((v.base.own.val _ _).1 hv)
      exact absurd this (by simp [Objs.make])
  · intro q; rfl
  · simp [DPV.size, DPV.addNew, DPV.get]
  · intro j hj
    have hj : j < w.pv.data.length := hj
    simp only [DPV.get, DPV.addNew, List.length_append, List.length_singleton]
    rw [if_pos (by omega), if_pos hj, List.getElem?_append_left hj]
  · show DPV.find1 _ _ = _
    simp only [DPV.find1, DPV.addNew, g1]; simp
  · show DPV.find2 _ _ = _
    simp only [DPV.find2, DPV.addNew, g2]; simp
  · intro k n1 n2
    cases k with
    | inl k =>
      show DPV.find1 _ _ = DPV.find1 _ _
      simp only [DPV.find1, DPV.addNew, g1]
      rw [if_neg (fun e => n1 (by rw [e]))]
      cases hk : FMap.find w.pv.lookup1 k with
      | none => rfl
      | some i => simp only [List.getElem?_append_left (find1_lt v hk)]
    | inr k =>
      show DPV.find2 _ _ = DPV.find2 _ _
      simp only [DPV.find2, DPV.addNew, g2]
      rw [if_neg (fun e => n2 (by rw [e]))]
      cases hk : FMap.find w.pv.lookup2 k with
      | none => rfl
      | some i => simp only [List.getElem?_append_left (find2_lt v hk)]

/-- Insertion with both keys in use fails and changes nothing (a passed pointer stays with the caller). -/
theorem insert_fails (E : Env K1 K2) (ops : List (Op K1 K2 V)) (a : Ideal (K1 ⊕ K2) V) (os : List (Obs V))
    (h : idealRun empty ops = some (a, os)) (hc : carefulRun E empty ops = true) (k1 : K1) (k2 : K2) (x : V)
    (h1 : ∃ e ∈ a.entries, Sum.inl k1 ∈ e.keys) (h2 : ∃ e ∈ a.entries, Sum.inr k2 ∈ e.keys) (p : Option Nat) :
    ∃ w, run E World.init ops = some (w, os) ∧ exec E w (.insert k1 k2 x) = some (w, .index none) ∧
      w.pv.insertPtr E k1 k2 p = (w.pv, none) := by
  obtain ⟨w, e, v⟩ := simulate (E := E) ops Inv.init hc h
  obtain ⟨e1, m1, n1⟩ := h1
  obtain ⟨e2, m2, n2⟩ := h2
  obtain ⟨i, hi⟩ := List.mem_iff_getElem?.1 m1
  obtain ⟨j, hj⟩ := List.mem_iff_getElem?.1 m2
  have f1 := (lookup_inl v.base k1).symm.trans ((lookup_iff v.base _ i).2 ⟨e1, hi, n1⟩)
  have f2 := (lookup_inr v.base k2).symm.trans ((lookup_iff v.base _ j).2 ⟨e2, hj, n2⟩)
  exact ⟨w, e, by simp [exec, DPV.insert, f1, f2], by simp [DPV.insertPtr, f1, f2]⟩

/-- C44 fails whenever `insert` is called with exactly the first key in use: the insertion succeeds, but that key still
finds the object it found before; the new object has another address. -/
theorem insert_violation (E : Env K1 K2) (ops : List (Op K1 K2 V)) (a : Ideal (K1 ⊕ K2) V) (os : List (Obs V))
    (h : idealRun empty ops = some (a, os)) (hc : carefulRun E empty ops = true) (k1 : K1) (k2 : K2) (x : V)
    (e1 : Entry (K1 ⊕ K2) V) (m1 : e1 ∈ a.entries) (n1 : Sum.inl k1 ∈ e1.keys) (h2 : ∀ e ∈ a.entries, Sum.inr k2 ∉ e.keys) :
    ∃ w w' p, run E World.init ops = some (w, os) ∧ exec E w (.insert k1 k2 x) = some (w', .index (some w.pv.size)) ∧
      w'.pv.get w.pv.size = some (some p) ∧ finds w' (.inr k2) = some (some p) ∧
      finds w' (.inl k1) = some (e1.obj.map (·.1)) ∧ e1.obj.map (·.1) ≠ some p := by
  obtain ⟨w, e, v⟩ := simulate (E := E) ops Inv.init hc h
  obtain ⟨i, hi⟩ := List.mem_iff_getElem?.1 m1
  have f1 := (lookup_inl v.base k1).symm.trans ((lookup_iff v.base _ i).2 ⟨e1, hi, n1⟩)
  have hf2 : FMap.find w.pv.lookup2 k2 = none := (lookup_inr v.base k2).symm.trans (lookup_of_none v h2)
  obtain ⟨hw1, hw2⟩ := join_wf.1 v.base.binds.wf
  have g2 := emplace_new (I := E.impl2) hw2 w.pv.data.length hf2
  have hex : exec E w (.insert k1 k2 x) = some (⟨w.pv.addNew E k1 k2 (some (w.heap.make x).2), (w.heap.make x).1⟩,
      .index (some w.pv.size)) := by simp [exec, DPV.insert, hf2, DPV.size]
  refine ⟨w, _, (w.heap.make x).2, e, hex, ?_, ?_, ?_, ?_⟩
  · simp [DPV.size, DPV.addNew, DPV.get]
  · show DPV.find2 _ _ = _
    simp only [DPV.find2, DPV.addNew, g2]; simp
  · have := finds_key v hi n1
    rw [← this]
    show DPV.find1 _ _ = DPV.find1 _ _
    simp only [DPV.find1, DPV.addNew, FMap.find_emplace hw1, f1]
    simp [List.getElem?_append_left (find1_lt v f1)]
  · intro hp
    cases ho : e1.obj with
    | none => rw [ho] at hp; cases hp
    | some q =>
      rw [ho] at hp
      have hm : some q ∈ a.entries.map (·.obj) := List.mem_map.2 ⟨e1, m1, ho⟩
      have := v.base.own.fresh q.1 q.2 hm
      simp only [Option.map_some, Option.some.injEq] at hp
      rw [hp] at this
      exact absurd this (by simp [Objs.make])

/-- Removal, from any state a careful history reaches, of element `i` by its index or by any of its keys (a careful
removal): its object is destroyed, every other object stays alive with its value, the keys of every other element still
find that element's object (the same address), the keys of the removed element find null. -/
theorem removal_partial (E : Env K1 K2) (ops : List (Op K1 K2 V)) (a : Ideal (K1 ⊕ K2) V) (os : List (Obs V))
    (h : idealRun empty ops = some (a, os)) (hc : carefulRun E empty ops = true)
    (i : Nat) (ob : Option (Nat × V)) (ks : List (K1 ⊕ K2)) (hi : a.entries[i]? = some ⟨ob, ks⟩) (op : Op K1 K2 V)
    (hop : op = .removeIndex i ∨ ∃ k ∈ ks, op = .remove k) (hcc : careful E a op = true) :
    ∃ w w', run E World.init ops = some (w, os) ∧ exec E w op = some (w', .done) ∧ w'.pv.size + 1 = w.pv.size ∧
      (∀ p, w'.heap.val p = if ob.map (·.1) = some p then none else w.heap.val p) ∧
      (∀ j ob' ks' k', a.entries[j]? = some ⟨ob', ks'⟩ → k' ∈ ks' → j ≠ i →
        finds w k' = some (ob'.map (·.1)) ∧ finds w' k' = some (ob'.map (·.1))) ∧
      (∀ k ∈ ks, finds w' k = some none) := by
  obtain ⟨w, e, v⟩ := simulate (E := E) ops Inv.init hc h
  have hl : i < a.entries.length := (List.getElem?_eq_some_iff.1 hi).1
  have hid : ideal a op = some ({ a with entries := a.entries.eraseIdx i }, .done) := by
    rcases hop with rfl | ⟨k, hk, rfl⟩
    · simp only [ideal]
    · simp only [ideal, (lookup_iff v.base k i).2 ⟨_, hi, hk⟩]
  obtain ⟨w', e', v'⟩ := step (E := E) v hcc hid
  refine ⟨w, w', e, e', ?_, fun p => ?_, fun j ob' ks' k' hj hk' hne => ⟨finds_key v hj hk', ?_⟩, fun k hk => ?_⟩
  · have s1 : w.pv.data.length = a.entries.length := v.base.size_eq
    have s2 : w'.pv.data.length = (a.entries.eraseIdx i).length := v'.base.size_eq
    rw [List.length_eraseIdx_of_lt hl] at s2
    simp only [DPV.size]; omega
  · apply Option.ext
    intro x
    rw [v'.base.own.val]
    simp only [← List.eraseIdx_map]
    rw [List.mem_eraseIdx_iff_getElem?]
    have hio : (a.entries.map (·.obj))[i]? = some ob := by simp [hi]
    constructor
    · rintro ⟨j, hj, he⟩
      rw [if_neg, v.base.own.nameOf he]
      rintro hp
      cases ob with
      | none => cases hp
      | some q =>
        obtain ⟨q, y⟩ := q
        simp only [Option.map_some, Option.some.injEq] at hp
        subst hp
        exact hj (v.base.own.uniq _ _ _ _ _ he hio)
    · intro hx
      split at hx
      · cases hx
      · rename_i hne
        obtain ⟨j, hj⟩ := List.mem_iff_getElem?.1 ((v.base.own.val p x).1 hx)
        refine ⟨j, ?_, hj⟩
        rintro rfl
        rw [hio] at hj
        cases hj
        exact hne rfl
  · rcases Nat.lt_or_gt_of_ne hne with h3 | h3
    · refine finds_key (e := ⟨ob', ks'⟩) v' (j := j) ?_ hk'
      simp only [List.getElem?_eraseIdx, if_pos h3, hj]
    · refine finds_key (e := ⟨ob', ks'⟩) v' (j := j - 1) ?_ hk'
      simp only [List.getElem?_eraseIdx]
      rw [if_neg (by omega), Nat.sub_add_cancel (by omega), hj]
  · refine finds_none v' fun f hf hkf => ?_
    obtain ⟨j, hj, hjf⟩ := List.mem_eraseIdx_iff_getElem?.1 hf
    have l1 := (lookup_iff v.base k i).2 ⟨_, hi, hk⟩
    rw [(lookup_iff v.base k j).2 ⟨_, hjf, hkf⟩] at l1
    cases l1; exact hj rfl

/-- a program using every call -/
def demo : List (Op Nat Nat Nat) :=
  [.insertPtr 1 1 (some 10), .insert 2 2 20, .insertPtr 1 2 (some 11), .insert 2 1 21, .insertPtr 5 5 none,
   .insertOne (.inl 3) 30, .insertOne (.inr 3) 31, .insertOne (.inl 1) 12, .assignPtr 2 2 (some 22), .assign 1 1 13,
   .assign 1 2 40, .find (.inl 1), .find (.inr 1), .find (.inl 2), .find (.inr 2), .assignOne (.inl 3) 32, .assignOne (.inr 9) 90,
   .assignOne (.inr 3) 33, .assignPtr 6 6 none, .find (.inr 5), .find (.inl 7), .get 3, .get 99, .write 3 34, .back,
   .insert 8 8 80, .remove (.inl 8), .insert 8 8 81, .remove (.inr 8), .remove (.inl 77), .remove (.inl 1), .find (.inr 3),
   .find (.inr 2), .find (.inl 3), .removeIndex 2, .removeIndex 99, .find (.inr 5), .apply, .size, .clear, .size]

/-- `std::string`-like keys: default constructed keys have a value (0 here), which `demo` does not use. -/
def env0 : Env Nat Nat := ⟨MapImpl.atEnd, MapImpl.atFront, some 0, some 0⟩

example : (idealRun empty demo).map (·.2) = some
    [.index (some 0), .index (some 1), .index none, .index none, .index (some 2), .index (some 3), .index (some 4),
     .index none, .index (some 1), .index (some 0), .index (some 5), .ptr (some (7, 40)), .ptr (some (6, 13)),
     .ptr (some (5, 22)), .ptr (some (7, 40)), .index (some 3), .index (some 6), .index (some 4), .index (some 7), .ptr none,
     .ptr none, .ptr (some (8, 32)), .ptr none, .done, .ptr none, .index (some 8), .done, .index (some 8), .done, .done,
     .done, .ptr (some (10, 33)), .ptr none, .ptr (some (8, 34)), .done, .done, .ptr none,
     .ptrs [some (6, 13), some (5, 22), some (8, 34), some (10, 33), some (9, 90), none], .num 6, .done, .num 0] := by
  decide +kernel
example : carefulRun env0 empty demo = true := by decide +kernel
example : (run env0 World.init demo).map (·.2) = (idealRun empty demo).map (·.2) := by decide +kernel

/-- three elements with two keys each: the hypotheses of `insert_partial` (for new keys), `insert_fails` (1, 3),
`insert_violation` (1, 9) and `removal_partial` are met, the last also for `int` keys without default value -/
def demo2 : List (Op Nat Nat Nat) := [.insert 1 1 10, .insert 2 2 20, .insertPtr 3 3 (some 30)]
def envInt : Env Nat Nat := ⟨MapImpl.atEnd, MapImpl.atFront, none, none⟩
example : idealRun empty demo2 = some (⟨[⟨some (0, 10), [.inr 1, .inl 1]⟩, ⟨some (1, 20), [.inr 2, .inl 2]⟩,
    ⟨some (2, 30), [.inr 3, .inl 3]⟩], 3⟩, [.index (some 0), .index (some 1), .index (some 2)]) := by decide
example : carefulRun envInt empty demo2 = true := by decide
example : careful envInt (⟨[⟨some (0, 10), [.inr 1, .inl 1]⟩, ⟨some (1, 20), [.inr 2, .inl 2]⟩,
    ⟨some (2, 30), [.inr 3, .inl 3]⟩], 3⟩ : Ideal (Nat ⊕ Nat) Nat) (.remove (.inr 2)) = true := by decide

/-- C44 fails for removing an element without a key of one type: undefined for keys of built-in type (an
indeterminate value is read) ... -/
theorem keyless_undefined :
    (run envInt (World.init : World Nat Nat Nat) [.insertOne (.inl 1) 10, .remove (.inl 1)]).isSome = false ∧
    (run envInt (World.init : World Nat Nat Nat) [.insertOne (.inr 1) 10, .removeIndex 0]).isSome = false ∧
    (idealRun empty ([.insertOne (.inl 1) 10, .remove (.inl 1)] : List (Op Nat Nat Nat))).isSome = true := by decide

/-- ... and the default key of another element is detached for other types. -/
theorem keyless_violation :
    (run env0 (World.init : World Nat Nat Nat)
      [.insert 5 0 10, .insertOne (.inl 1) 20, .remove (.inl 1), .find (.inr 0)]).map (·.2.drop 3) = some [.ptr none] ∧
    (idealRun empty ([.insert 5 0 10, .insertOne (.inl 1) 20, .remove (.inl 1), .find (.inr 0)] :
      List (Op Nat Nat Nat))).map (·.2.drop 3) = some [.ptr (some (0, 10))] := by decide

/-- Removal after such an insertion: the key 1, with which the second object was inserted last, removes the first. -/
theorem insert_remove_violation :
    (run env0 (World.init : World Nat Nat Nat) [.insert 1 1 10, .insert 1 2 20, .find (.inl 1), .remove (.inl 1), .size,
      .find (.inr 1), .find (.inr 2)]).map (·.2.drop 2) = some [.ptr (some (0, 10)), .done, .num 1, .ptr none, .ptr (some (1, 20))] ∧
    (idealRun empty ([.insert 1 1 10, .insert 1 2 20, .find (.inl 1), .remove (.inl 1), .size,
      .find (.inr 1), .find (.inr 2)] : List (Op Nat Nat Nat))).map (·.2.drop 2) =
        some [.ptr (some (1, 20)), .done, .num 1, .ptr (some (0, 10)), .ptr none] := by decide

end Verif.Mapped.DualPtr
