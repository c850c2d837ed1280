import Verif.Mapped.Vector.Props
import Verif.Mapped.Dual.Props

/-
C152: copy assignment of MappedVector and DualMappedVector with vector storage when a member cannot be copied.  The assignment is the
implicit one: it assigns the members in the order of their declaration.  A `std::vector` or map whose assignment throws is left valid, with
contents the standard does not specify ([container.requirements]); they are a parameter.
-/
namespace Verif.Mapped
open Verif.Mapped.Vector (Obs Ideal Entry)

/-! ### Model -/

/-- The member whose assignment throws, and what is in it afterwards.  MappedVector.hpp:230-239 (members). -/
inductive Vector.AssignFault (K V : Type) where
  | data (left : List V)
  | map (left : FMap K)

/-- `m = o` when the assignment of a member throws (MappedVector.hpp:230-239). -/
def Vector.MV.assignFault {K V : Type} (m o : Vector.MV (List V) K) : Vector.AssignFault K V → Vector.MV (List V) K
  | .data left => { m with data := left }
  | .map left => ⟨o.data, left⟩

/-- DualMappedVector.hpp:427-441 (members). -/
inductive Dual.AssignFault (K1 K2 V : Type) where
  | data (left : List V)
  | map1 (left : FMap K1)
  | map2 (left : FMap K2)

/-- `m = o` when the assignment of a member throws (DualMappedVector.hpp:427-441). -/
def Dual.DMV.assignFault {K1 K2 V : Type} (m o : Dual.DMV (List V) K1 K2) : Dual.AssignFault K1 K2 V → Dual.DMV (List V) K1 K2
  | .data left => { m with data := left }
  | .map1 left => ⟨o.data, left, m.lookup2⟩
  | .map2 left => ⟨o.data, o.lookup1, left⟩

/-! ### Specification -/

/-- the same search terms, with the values `vs` -/
def revalued {K V : Type} (a : Ideal K V) (vs : List V) : Ideal K V :=
  { a with entries := List.zipWith (fun e v => { e with value := v }) a.entries vs }

/-- only the search terms that satisfy `p` -/
def keeping {K V : Type} (p : K → Bool) (a : Ideal K V) : Ideal K V :=
  { a with entries := a.entries.map fun e => { e with keys := e.keys.filter p } }

/-! ### Lemmas -/

section
variable {K V : Type} [DecidableEq K]

omit [DecidableEq K] in
theorem revalued_values (a : Ideal K V) (vs : List V) (h : vs.length = a.entries.length) :
    (revalued a vs).entries.map (·.value) = vs := by
  apply List.ext_getElem (by simp [revalued, h])
  intro i h1 h2
  simp [revalued]

omit [DecidableEq K] in
theorem revalued_keys (a : Ideal K V) (vs : List V) (h : vs.length = a.entries.length) :
    (revalued a vs).entries.map (·.keys) = a.entries.map (·.keys) := by
  apply List.ext_getElem (by simp [revalued, h])
  intro i h1 h2
  simp [revalued]

theorem binds_keeping {m l : FMap K} {a : Ideal K V} (b : Binds m (a.entries.map (·.keys))) (w : FMap.WF l)
    (h : ∀ k i, FMap.find l k = some i → FMap.find m k = some i) :
    Binds l ((keeping (fun k => (FMap.find l k).isSome) a).entries.map (·.keys)) := by
  refine ⟨w, fun k i => ?_⟩
  have e : (keeping (fun k => (FMap.find l k).isSome) a).entries.map (·.keys) =
      (a.entries.map (·.keys)).map fun ks => ks.filter fun k => (FMap.find l k).isSome := by
    simp [keeping]
  rw [e]
  constructor
  · intro hf
    obtain ⟨ks, h1, h2⟩ := (b.iff k i).1 (h k i hf)
    exact ⟨_, by rw [List.getElem?_map, h1]; rfl, by simp [h2, hf]⟩
  · rintro ⟨ks, h1, h2⟩
    rw [List.getElem?_map, Option.map_eq_some_iff] at h1
    obtain ⟨ks', h3, rfl⟩ := h1
    obtain ⟨h4, h5⟩ := List.mem_filter.1 h2
    have h6 := (b.iff k i).2 ⟨_, h3, h4⟩
    obtain ⟨j, hj⟩ := Option.isSome_iff_exists.1 h5
    rw [h k j hj] at h6
    rw [hj, h6]
end

/-! ## C152: MappedVector -/

section
variable {K V : Type} [DecidableEq K]
open Verif.Mapped.Vector

/-- C152 as far as it holds: if the storage cannot be copied and keeps its size, the target has the elements that are in the storage under
its old search terms; if the map cannot be copied and is left with some entries of the source's map, or none, the target is a copy of the
source without the other search terms.  All later calls are as specified. -/
theorem assign_threw_partial (impl : MapImpl K) (unset : Option K) (ops1 ops2 : List (Op K V)) (a1 a2 : Ideal K V) (os1 os2 : List (Obs V))
    (h1 : idealRun .unstable Ideal.empty ops1 = some (a1, os1)) (c1 : carefulRun .unstable unset Ideal.empty ops1 = true)
    (h2 : idealRun .unstable Ideal.empty ops2 = some (a2, os2)) (c2 : carefulRun .unstable unset Ideal.empty ops2 = true)
    (f : AssignFault K V) (a : Ideal K V)
    (hf : (∃ d, f = .data d ∧ d.length = a1.entries.length ∧ a = revalued a1 d) ∨
      (∃ l, f = .map l ∧ FMap.WF l ∧ (∀ k i, FMap.find l k = some i → a2.lookup k = some i) ∧
        a = keeping (fun k => (FMap.find l k).isSome) a2))
    (ops : List (Op K V)) (a' : Ideal K V) (os : List (Obs V))
    (h : idealRun .unstable a ops = some (a', os)) (c : carefulRun .unstable unset a ops = true) :
    ∃ m1 m2 m', run (unstableEnv impl unset) (MV.init (unstableEnv impl unset)) ops1 = some (m1, os1) ∧
      run (unstableEnv impl unset) (MV.init (unstableEnv impl unset)) ops2 = some (m2, os2) ∧
      run (unstableEnv impl unset) (m1.assignFault m2 f) ops = some (m', os) := by
  obtain ⟨m1, e1, v1⟩ := simulate (E := unstableEnv impl unset) (L := vectorLawful V) ops1 (Inv.init (vectorStarts _)) c1 h1
  obtain ⟨m2, e2, v2⟩ := simulate (E := unstableEnv impl unset) (L := vectorLawful V) ops2 (Inv.init (vectorStarts _)) c2 h2
  have v : Inv (E := unstableEnv impl unset) (vectorLawful V) (m1.assignFault m2 f) a := by
    rcases hf with ⟨d, rfl, hd, rfl⟩ | ⟨l, rfl, w, hl, rfl⟩
    · refine ⟨⟨(revalued_values a1 d hd).symm, v1.rep.2⟩, ?_⟩
      rw [revalued_keys a1 d hd]
      exact v1.binds
    · refine ⟨⟨?_, v2.rep.2⟩, ?_⟩
      · have := v2.rep.1
        simpa [keeping, MV.assignFault, Function.comp_def] using this
      · exact binds_keeping v2.binds w fun k i hk => by rw [← v2.lookup_eq]; exact hl k i hk
  obtain ⟨m', e, -⟩ := simulate ops v c h
  exact ⟨m1, m2, m', e1, e2, e⟩

/-- C152 violation: if the storage cannot be copied and is left shorter, looking up a search term of a later element of the target, in every
state, is undefined. -/
theorem assign_threw_data_violation (impl : MapImpl K) (unset : Option K) (ops1 : List (Op K V)) (a1 : Ideal K V) (os1 : List (Obs V))
    (h1 : idealRun .unstable Ideal.empty ops1 = some (a1, os1)) (c1 : carefulRun .unstable unset Ideal.empty ops1 = true)
    (k : K) (i : Nat) (hk : a1.lookup k = some i) (d : List V) (hd : d.length < i) (m2 : MV (List V) K) :
    ∃ m1, run (unstableEnv impl unset) (MV.init (unstableEnv impl unset)) ops1 = some (m1, os1) ∧
      exec (unstableEnv impl unset) (m1.assignFault m2 (.data d)) (.find k) = none := by
  obtain ⟨m1, e1, v1⟩ := simulate (E := unstableEnv impl unset) (L := vectorLawful V) ops1 (Inv.init (vectorStarts _)) c1 h1
  refine ⟨m1, e1, ?_⟩
  rw [v1.lookup_eq] at hk
  simp only [exec, MV.find, MV.assignFault, hk, unstableEnv, vectorStore]
  rw [if_neg (by omega), List.getElem?_eq_none (by omega)]
  rfl

/-- C152 violation: if the map cannot be copied and is left as it was, then in every state a search term of the target finds the element of
the source at the same position, and looking it up is undefined if it is further behind than the source is long. -/
theorem assign_threw_map_violation (impl : MapImpl K) (unset : Option K) (ops1 ops2 : List (Op K V)) (a1 a2 : Ideal K V)
    (os1 os2 : List (Obs V))
    (h1 : idealRun .unstable Ideal.empty ops1 = some (a1, os1)) (c1 : carefulRun .unstable unset Ideal.empty ops1 = true)
    (h2 : idealRun .unstable Ideal.empty ops2 = some (a2, os2)) (c2 : carefulRun .unstable unset Ideal.empty ops2 = true)
    (k : K) (i : Nat) (hk : a1.lookup k = some i) (hi : i ≠ a2.entries.length) :
    ∃ m1 m2, run (unstableEnv impl unset) (MV.init (unstableEnv impl unset)) ops1 = some (m1, os1) ∧
      run (unstableEnv impl unset) (MV.init (unstableEnv impl unset)) ops2 = some (m2, os2) ∧
      (exec (unstableEnv impl unset) (m1.assignFault m2 (.map m1.lookup)) (.find k)).map (·.2) =
        (a2.entries[i]?).map fun e => .found (some e.value) := by
  obtain ⟨m1, e1, v1⟩ := simulate (E := unstableEnv impl unset) (L := vectorLawful V) ops1 (Inv.init (vectorStarts _)) c1 h1
  obtain ⟨m2, e2, v2⟩ := simulate (E := unstableEnv impl unset) (L := vectorLawful V) ops2 (Inv.init (vectorStarts _)) c2 h2
  refine ⟨m1, m2, e1, e2, ?_⟩
  rw [v1.lookup_eq] at hk
  have hd : m2.data = a2.entries.map (·.value) := v2.rep.1
  simp only [exec, MV.find, MV.assignFault, hk, unstableEnv, vectorStore, hd]
  rw [if_neg (by simpa using hi), List.getElem?_map]
  cases a2.entries[i]? <;> rfl

/-- `assign_threw_partial`: the source has two elements, the map gets none of their search terms, one is inserted again. -/
example : ∃ m1 m2 m', run (unstableEnv MapImpl.atEnd none) (MV.init (unstableEnv MapImpl.atEnd none)) [.insert 'x' 1] = some (m1, [.index (some 0)]) ∧
    run (unstableEnv MapImpl.atEnd none) (MV.init (unstableEnv MapImpl.atEnd none)) [.insert 'a' 5, .insert 'b' 6] =
      some (m2, [.index (some 0), .index (some 1)]) ∧
    run (unstableEnv MapImpl.atEnd none) (m1.assignFault m2 (.map [])) [.find 'x', .find 'a', .insert 'a' 7, .find 'a'] =
      some (m', [.found none, .found none, .index (some 2), .found (some 7)]) :=
  assign_threw_partial (K := Char) (V := Nat) MapImpl.atEnd none [.insert 'x' 1] [.insert 'a' 5, .insert 'b' 6] _ _ _ _ rfl rfl rfl rfl (.map [])
    _ (.inr ⟨[], rfl, .nil, by simp [FMap.find], rfl⟩) [.find 'x', .find 'a', .insert 'a' 7, .find 'a'] _ _ rfl (by decide)

/-- The violations: the old term 'y' finds 6, the old term 'z' is undefined. -/
example : ∃ m1 m2, run (unstableEnv MapImpl.atEnd none) (MV.init (unstableEnv MapImpl.atEnd none)) [.insert 'x' 1, .insert 'y' 2] =
      some (m1, [.index (some 0), .index (some 1)]) ∧
    run (unstableEnv MapImpl.atEnd none) (MV.init (unstableEnv MapImpl.atEnd none)) [.insert 'a' 5, .insert 'b' 6] =
      some (m2, [.index (some 0), .index (some 1)]) ∧
    (exec (unstableEnv MapImpl.atEnd none) (m1.assignFault m2 (.map m1.lookup)) (.find 'y')).map (·.2) = some (.found (some 6)) :=
  assign_threw_map_violation (K := Char) (V := Nat) MapImpl.atEnd none [.insert 'x' 1, .insert 'y' 2] [.insert 'a' 5, .insert 'b' 6] _ _ _ _
    rfl rfl rfl rfl 'y' 1 (by decide) (by decide)
end

/-! ## C152: DualMappedVector -/

section
variable {K1 K2 V : Type} [DecidableEq K1] [DecidableEq K2]
open Verif.Mapped.Dual

/-- C152 as far as it holds, DualMappedVector: if the storage cannot be copied and keeps its size, as for MappedVector; if the second map
cannot be copied and is left with some entries of the source's, or none, the target is a copy of the source without the other search terms
of the second type. -/
theorem dual_assign_threw_partial (i1 : MapImpl K1) (i2 : MapImpl K2) (ops1 ops2 : List (Op K1 K2 V)) (a1 a2 : Ideal (K1 ⊕ K2) V)
    (os1 os2 : List (Obs V))
    (h1 : idealRun .unstable empty ops1 = some (a1, os1))
    (h2 : idealRun .unstable empty ops2 = some (a2, os2))
    (f : AssignFault K1 K2 V) (a : Ideal (K1 ⊕ K2) V)
    (hf : (∃ d, f = .data d ∧ d.length = a1.entries.length ∧ a = revalued a1 d) ∨
      (∃ l, f = .map2 l ∧ FMap.WF l ∧ (∀ k i, FMap.find l k = some i → a2.lookup (.inr k) = some i) ∧
        a = keeping (fun | .inl k => (a2.lookup (.inl k)).isSome | .inr k => (FMap.find l k).isSome) a2))
    (ops : List (Op K1 K2 V)) (a' : Ideal (K1 ⊕ K2) V) (os : List (Obs V))
    (h : idealRun .unstable a ops = some (a', os)) :
    ∃ m1 m2 m', run (unstableEnv i1 i2) (DMV.init (unstableEnv i1 i2)) ops1 = some (m1, os1) ∧
      run (unstableEnv i1 i2) (DMV.init (unstableEnv i1 i2)) ops2 = some (m2, os2) ∧
      run (unstableEnv i1 i2) (m1.assignFault m2 f) ops = some (m', os) := by
  obtain ⟨m1, e1, v1⟩ := simulate (E := unstableEnv i1 i2) (L := vectorLawful V) ops1 (init_inv (vectorStarts _)) (careful_unstable ops1 _ _ _ h1) h1
  obtain ⟨m2, e2, v2⟩ := simulate (E := unstableEnv i1 i2) (L := vectorLawful V) ops2 (init_inv (vectorStarts _)) (careful_unstable ops2 _ _ _ h2) h2
  have v : Inv (E := unstableEnv i1 i2) (vectorLawful V) (m1.assignFault m2 f) a := by
    rcases hf with ⟨d, rfl, hd, rfl⟩ | ⟨l, rfl, w, hl, rfl⟩
    · refine ⟨⟨(revalued_values a1 d hd).symm, v1.rep.2⟩, ?_⟩
      rw [revalued_keys a1 d hd]
      exact v1.binds
    · have wj : FMap.WF (join m2.lookup1 l) := join_wf.2 ⟨(join_wf.1 v2.binds.wf).1, w⟩
      have hp : (fun | .inl k => (a2.lookup (.inl k)).isSome | .inr k => (FMap.find l k).isSome : K1 ⊕ K2 → Bool) =
          fun k => (FMap.find (join m2.lookup1 l) k).isSome := by
        funext k
        cases k with
        | inl k => show (a2.lookup (.inl k)).isSome = _; rw [find_join_inl wj, lookup_inl v2]
        | inr k => rw [find_join_inr wj]
      rw [hp]
      refine ⟨⟨?_, v2.rep.2⟩, ?_⟩
      · have := v2.rep.1
        simpa [keeping, DMV.assignFault, Function.comp_def] using this
      · refine binds_keeping v2.binds wj fun k i hk => ?_
        change FMap.find (join m2.lookup1 l) k = some i at hk
        cases k with
        | inl k => rwa [find_join_inl wj, ← find_join_inl v2.binds.wf] at hk
        | inr k =>
          rw [find_join_inr wj] at hk
          rw [find_join_inr v2.binds.wf, ← lookup_inr v2]
          exact hl k i hk
  obtain ⟨m', e, -⟩ := simulate ops v (careful_unstable ops _ _ _ h) h
  exact ⟨m1, m2, m', e1, e2, e⟩

/-- C152 violation, whatever the standard library leaves in the map: if the first map cannot be copied, then in every state an old search
term of the second type finds the element of the source at the same position, and looking it up is undefined if it is further behind than
the source is long. -/
theorem dual_assign_threw_violation (i1 : MapImpl K1) (i2 : MapImpl K2) (ops1 ops2 : List (Op K1 K2 V)) (a1 a2 : Ideal (K1 ⊕ K2) V)
    (os1 os2 : List (Obs V))
    (h1 : idealRun .unstable empty ops1 = some (a1, os1))
    (h2 : idealRun .unstable empty ops2 = some (a2, os2))
    (k : K2) (i : Nat) (hk : a1.lookup (.inr k) = some i) (hi : i ≠ a2.entries.length) (left : FMap K1) :
    ∃ m1 m2, run (unstableEnv i1 i2) (DMV.init (unstableEnv i1 i2)) ops1 = some (m1, os1) ∧
      run (unstableEnv i1 i2) (DMV.init (unstableEnv i1 i2)) ops2 = some (m2, os2) ∧
      (exec (unstableEnv i1 i2) (m1.assignFault m2 (.map1 left)) (.find (.inr k))).map (·.2) =
        (a2.entries[i]?).map fun e => .found (some e.value) := by
  obtain ⟨m1, e1, v1⟩ := simulate (E := unstableEnv i1 i2) (L := vectorLawful V) ops1 (init_inv (vectorStarts _)) (careful_unstable ops1 _ _ _ h1) h1
  obtain ⟨m2, e2, v2⟩ := simulate (E := unstableEnv i1 i2) (L := vectorLawful V) ops2 (init_inv (vectorStarts _)) (careful_unstable ops2 _ _ _ h2) h2
  refine ⟨m1, m2, e1, e2, ?_⟩
  rw [lookup_inr v1] at hk
  have hd : m2.data = a2.entries.map (·.value) := v2.rep.1
  simp only [exec, DMV.find2, DMV.assignFault, hk, unstableEnv, vectorStore, hd]
  rw [if_neg (by simpa using hi), List.getElem?_map]
  cases a2.entries[i]? <;> rfl

/-- `dual_assign_threw_violation`: the source has one element; the old term 7 finds it, looking up the old term 9 is undefined. -/
example : (∃ a os, idealRun (K1 := Char) (K2 := Nat) (V := Nat) .unstable empty [.insert (some 'a') (some 7) 1, .insert (some 'b') (some 8) 2,
      .insert (some 'c') (some 9) 3] = some (a, os) ∧ a.lookup (.inr 7) = some 0 ∧ a.lookup (.inr 9) = some 2) ∧
    ∃ a os, idealRun (K1 := Char) (K2 := Nat) (V := Nat) .unstable empty [.insert (some 'q') none 5] = some (a, os) ∧
      a.entries[0]?.map (·.value) = some 5 ∧ a.entries[2]?.map (·.value) = none :=
  ⟨⟨_, _, rfl, by decide, by decide⟩, _, _, rfl, by decide, by decide⟩

/-- `dual_assign_threw_partial` -/
example : ∃ m1 m2 m', run (unstableEnv MapImpl.atEnd MapImpl.atEnd) (DMV.init (unstableEnv MapImpl.atEnd MapImpl.atEnd)) [] = some (m1, []) ∧
    run (unstableEnv MapImpl.atEnd MapImpl.atEnd) (DMV.init (unstableEnv MapImpl.atEnd MapImpl.atEnd)) [.insert (some 'a') (some 7) 5] =
      some (m2, [.index (some 0)]) ∧
    run (unstableEnv MapImpl.atEnd MapImpl.atEnd) (m1.assignFault m2 (.map2 [])) [.find (.inl 'a'), .find (.inr 7)] =
      some (m', [.found (some 5), .found none]) :=
  dual_assign_threw_partial (K1 := Char) (K2 := Nat) (V := Nat) MapImpl.atEnd MapImpl.atEnd [] [.insert (some 'a') (some 7) 5] _ _ _ _
    rfl rfl (.map2 []) _ (.inr ⟨[], rfl, .nil, by simp [FMap.find], rfl⟩) [.find (.inl 'a'), .find (.inr 7)] _ _ rfl
end
end Verif.Mapped
