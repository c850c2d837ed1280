import Verif.Mapped.Pointer.Lemmas

/-
MappedPointerVector: property C38.
-/
namespace Verif.Mapped.Pointer
open Verif.Mapped

variable {K V : Type} [DecidableEq K]

/-- the ideal new container -/
def Ideal.empty : Ideal K V := ⟨[], 0⟩

/-- For every careful history: the code is defined and returns what the specification returns (pointers are compared as
objects, with the value read through them); afterwards the objects in existence are exactly those of the elements, and
no two elements share an object. -/
theorem history_partial (I : MapImpl K) (unset : Option K) (ops : List (Op K V)) (a : Ideal K V)
    (os : List (Obs V)) (h : idealRun Ideal.empty ops = some (a, os)) (hc : carefulRun unset Ideal.empty ops = true) :
    ∃ w, run I unset World.init ops = some (w, os) ∧
      (∀ p x, w.heap.val p = some x ↔ ∃ e ∈ a.entries, e.obj = some (p, x)) ∧
      (∀ (i j : Nat) (p : Nat) (x y : V), (a.entries[i]?).bind (·.obj) = some (p, x) →
        (a.entries[j]?).bind (·.obj) = some (p, y) → i = j) := by
  obtain ⟨w, e, v⟩ := simulate (I := I) ops Inv.init hc h
  refine ⟨w, e, fun p x => ?_, fun i j p x y hi hj => ?_⟩
  · rw [v.own.val]; simp
  · obtain ⟨e1, h1, h2⟩ := Option.bind_eq_some_iff.1 hi
    obtain ⟨e2, h3, h4⟩ := Option.bind_eq_some_iff.1 hj
    exact v.own.uniq i j p x y (by simp [h1, h2]) (by simp [h3, h4])

/-- Calls that remove nothing individually. -/
def Op.keepsAll : Op K V → Bool
  | .remove _ | .removeIndex _ => false
  | _ => true

/-- Without remove and removeIndex nothing is excluded. -/
theorem history_no_removal (I : MapImpl K) (unset : Option K) (ops : List (Op K V)) (a : Ideal K V)
    (os : List (Obs V)) (h : idealRun Ideal.empty ops = some (a, os)) (hk : ∀ op ∈ ops, op.keepsAll = true) :
    ∃ w, run I unset World.init ops = some (w, os) ∧
      (∀ p x, w.heap.val p = some x ↔ ∃ e ∈ a.entries, e.obj = some (p, x)) := by
  have : ∀ (ops : List (Op K V)) (a0 : Ideal K V) a os, idealRun a0 ops = some (a, os) →
      (∀ op ∈ ops, op.keepsAll = true) → carefulRun unset a0 ops = true := by
    intro ops
    induction ops with
    | nil => intros; rfl
    | cons op ops ih =>
      intro a0 a os h hk
      simp only [idealRun, Option.bind_eq_some_iff, Option.map_eq_some_iff] at h
      obtain ⟨⟨a1, o⟩, h1, ⟨a2, os2⟩, h2, h3⟩ := h
      simp only [carefulRun, h1, Bool.and_eq_true]
      refine ⟨?_, ih a1 a2 os2 h2 fun op h => hk op (List.mem_cons_of_mem _ h)⟩
      have := hk op (by simp)
      cases op <;> simp_all [careful, Op.keepsAll]
  obtain ⟨w, e, h1, _⟩ := history_partial I unset ops a os h (this ops _ a os h hk)
  exact ⟨w, e, h1⟩

/-- Removal, from any state a careful history reaches, of element `i` with the single key `k`: its object is destroyed,
every other object stays alive with its value, the keys of every other element still find that element's object (the
same address), the key `k` finds null. -/
theorem removal_partial (I : MapImpl K) (unset : Option K) (ops : List (Op K V)) (a : Ideal K V)
    (os : List (Obs V)) (h : idealRun Ideal.empty ops = some (a, os)) (hc : carefulRun unset Ideal.empty ops = true)
    (i : Nat) (ob : Option (Nat × V)) (k : K) (hi : a.entries[i]? = some ⟨ob, [k]⟩) (op : Op K V)
    (hop : op = .remove k ∨ op = .removeIndex i) :
    ∃ w w', run I unset World.init ops = some (w, os) ∧ exec I unset w op = some (w', .done) ∧
      (∀ p, w'.heap.val p = if ob.map (·.1) = some p then none else w.heap.val p) ∧
      (∀ j ob' ks k', a.entries[j]? = some ⟨ob', ks⟩ → k' ∈ ks → j ≠ i →
        w.pv.find k' = some (ob'.map (·.1)) ∧ w'.pv.find k' = some (ob'.map (·.1))) ∧
      w'.pv.find k = some none := by
  obtain ⟨w, e, v⟩ := simulate (I := I) ops Inv.init hc h
  have hl : i < a.entries.length := (List.getElem?_eq_some_iff.1 hi).1
  have hkk := v.binds.single (i := i) (k := k) (by simp [hi])
  have hlk : a.lookup k = some i := by rw [v.lookup_eq]; exact (hkk k).2 rfl
  have hcc : careful unset a op = true := by
    rcases hop with rfl | rfl
    · simp only [careful, find_of_lookup, hlk, Option.bind_some, hi]; rfl
    · simp only [careful, hi]; simp
  have hid : ideal a op = some ({ a with entries := a.entries.eraseIdx i }, .done) := by
    rcases hop with rfl | rfl
    · simp only [ideal, hlk]
    · simp only [ideal]
  obtain ⟨w', e', v'⟩ := step (I := I) v hcc hid
  have findEq : ∀ (w : World K V) (a : Ideal K V), Inv w a → ∀ (j : Nat) ob' (ks : List K) k', a.entries[j]? = some ⟨ob', ks⟩ →
      k' ∈ ks → w.pv.find k' = some (ob'.map (·.1)) := by
    intro w a v j ob' ks k' hj hk'
    have hf : FMap.find w.pv.lookup k' = some j := (v.binds.iff k' j).2 ⟨ks, by simp [hj], hk'⟩
    obtain ⟨hl', he'⟩ := List.getElem?_eq_some_iff.1 hj
    simp only [PV.find, hf, (v.obj_at hl').1, he']
  refine ⟨w, w', e, e', fun p => ?_, fun j ob' ks k' hj hk' hne => ⟨findEq w a v j ob' ks k' hj hk', ?_⟩, ?_⟩
  · apply Option.ext
    intro x
    rw [v'.own.val]
    simp only [← List.eraseIdx_map]
    rw [List.mem_eraseIdx_iff_getElem?]
    have hio : (a.entries.map (·.obj))[i]? = some ob := by simp [hi]
    constructor
    · rintro ⟨j, hj, he⟩
      rw [if_neg, v.own.nameOf he]
      rintro hp
      cases ob with
      | none => cases hp
      | some q =>
        obtain ⟨q, y⟩ := q
        simp only [Option.map_some, Option.some.injEq] at hp
        subst hp
        exact hj (v.own.uniq _ _ _ _ _ he hio)
    · intro hx
      split at hx
      · cases hx
      · rename_i hne
        obtain ⟨j, hj⟩ := List.mem_iff_getElem?.1 ((v.own.val p x).1 hx)
        refine ⟨j, ?_, hj⟩
        rintro rfl
        rw [hio] at hj
        cases hj
        exact hne rfl
  · rcases Nat.lt_or_gt_of_ne hne with h3 | h3
    · refine findEq w' _ v' j ob' ks k' ?_ hk'
      simp only [List.getElem?_eraseIdx, if_pos h3, hj]
    · refine findEq w' _ v' (j - 1) ob' ks k' ?_ hk'
      simp only [List.getElem?_eraseIdx]
      rw [if_neg (by omega), Nat.sub_add_cancel (by omega), hj]
  · have : FMap.find w'.pv.lookup k = none := by
      rw [v'.binds.none_iff]
      intro ks hks hmem
      simp only at hks
      rw [← List.eraseIdx_map, List.mem_eraseIdx_iff_getElem?] at hks
      obtain ⟨j, hj, hjk⟩ := hks
      have h8 := (v.binds.iff k j).2 ⟨ks, hjk, hmem⟩
      rw [(hkk k).2 rfl] at h8; cases h8; exact hj rfl
    simp only [PV.find, this]

/-- a program using every call -/
def demo : List (Op Nat Nat) :=
  [.insertPtr 1 (some 10), .insert 2 20, .insertPtr 1 (some 11), .insert 2 21, .insertNoKey 30, .insertPtr 5 none,
   .assignPtr 2 (some 22), .assign 1 12, .assign 6 60, .find 2, .find 5, .find 9, .get 2, .get 9, .write 2 31, .back,
   .addTerm 9 2, .addTerm 1 2, .remove 1, .find 2, .find 9, .removeIndex 1, .removeIndex 7, .apply, .size, .clear, .size]

example : idealRun Ideal.empty demo = some (⟨[], 7⟩,
    [.index (some 0), .index (some 1), .index none, .index none, .index (some 2), .index (some 3), .index (some 1),
     .index (some 0), .index (some 4), .ptr (some (4, 22)), .ptr none, .ptr none, .ptr (some (3, 30)), .ptr none, .done,
     .ptr (some (6, 60)), .bool true, .bool false, .done, .ptr (some (4, 22)), .ptr (some (3, 31)), .done, .done,
     .ptrs [some (4, 22), none, some (6, 60)], .num 3, .done, .num 0]) := by decide
example : carefulRun none Ideal.empty demo = true := by decide
example : idealRun Ideal.empty (demo.take 9) = some (⟨[⟨some (5, 12), [1]⟩, ⟨some (4, 22), [2]⟩, ⟨some (3, 30), []⟩, ⟨none, [5]⟩,
    ⟨some (6, 60), [6]⟩], 7⟩, [.index (some 0), .index (some 1), .index none, .index none, .index (some 2), .index (some 3),
    .index (some 1), .index (some 0), .index (some 4)]) := by decide

/-- C38 fails for an element with two keys: after removal by one of them the other is undefined behaviour ... -/
theorem alias_undefined :
    (run MapImpl.atEnd none (World.init : World Nat Nat) [.insert 1 10, .addTerm 2 0, .remove 1]).isSome = true ∧
    (run MapImpl.atEnd none (World.init : World Nat Nat) [.insert 1 10, .addTerm 2 0, .remove 1, .find 2]).isSome = false ∧
    (idealRun (Ideal.empty : Ideal Nat Nat) [.insert 1 10, .addTerm 2 0, .remove 1, .find 2]).map (·.2) =
      some [.index (some 0), .bool true, .done, .ptr none] := by decide

/-- ... or finds another object. -/
theorem alias_violation :
    (run MapImpl.atEnd none (World.init : World Nat Nat)
      [.insert 1 10, .addTerm 2 0, .insert 3 30, .removeIndex 0, .find 1]).map (·.2.drop 4) = some [.ptr (some (1, 30))] ∧
    (idealRun (Ideal.empty : Ideal Nat Nat)
      [.insert 1 10, .addTerm 2 0, .insert 3 30, .removeIndex 0, .find 1]).map (·.2.drop 4) = some [.ptr none] := by decide

/-- C38 fails for removeIndex on an element without key while the default key (0 here) is in use. -/
theorem keyless_violation :
    (run MapImpl.atEnd (some 0) (World.init : World Nat Nat)
      [.insert 0 10, .insertNoKey 20, .removeIndex 1, .find 0]).map (·.2.drop 3) = some [.ptr none] ∧
    (idealRun (Ideal.empty : Ideal Nat Nat)
      [.insert 0 10, .insertNoKey 20, .removeIndex 1, .find 0]).map (·.2.drop 3) = some [.ptr (some (0, 10))] := by decide

end Verif.Mapped.Pointer
