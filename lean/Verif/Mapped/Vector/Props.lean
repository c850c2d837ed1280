import Verif.Mapped.Vector.Lemmas

/-
MappedVector: properties C33 - C37.
-/
namespace Verif.Mapped.Vector
open Verif.Mapped Verif.Block

variable {K V : Type} [DecidableEq K]

/-- `MappedVector<V, K, reference_stability::unstable>`. -/
def unstableEnv (impl : MapImpl K) (unset : Option K) : Env (List V) K V := ⟨vectorStore V, impl, unset⟩

/-- `MappedVector<V, K, reference_stability::stable, N>`. -/
def stableEnv (N : Nat) (impl : MapImpl K) (unset : Option K) : Env (Verif.Block.Vector.Vec × Heap V) K V :=
  ⟨stableStore N V, impl, unset⟩

/-- the ideal new container -/
def Ideal.empty : Ideal K V := ⟨[], 0⟩

/-! ## C33: the container is a sequence with search terms -/

/-- For every order in which the map may iterate, every value a default constructed key may have, and every history of
careful calls that the specification allows: the code is defined and returns what the specification returns.
Vector storage. -/
theorem history_unstable_partial (impl : MapImpl K) (unset : Option K) (ops : List (Op K V)) (a : Ideal K V)
    (os : List (Obs V)) (h : idealRun .unstable Ideal.empty ops = some (a, os))
    (hc : carefulRun .unstable unset Ideal.empty ops = true) :
    ∃ m, run (unstableEnv impl unset) (MV.init (unstableEnv impl unset)) ops = some (m, os) := by
  obtain ⟨m, e, _⟩ := simulate (E := unstableEnv impl unset) (L := vectorLawful V) ops (Inv.init (vectorStarts _)) hc h
  exact ⟨m, e⟩

/-- The same for stable storage. -/
theorem history_stable_partial (N : Nat) (impl : MapImpl K) (unset : Option K) (ops : List (Op K V)) (a : Ideal K V)
    (os : List (Obs V)) (h : idealRun (.stable N) Ideal.empty ops = some (a, os))
    (hc : carefulRun (.stable N) unset Ideal.empty ops = true) :
    ∃ m, run (stableEnv N impl unset) (MV.init (stableEnv N impl unset)) ops = some (m, os) := by
  obtain ⟨m, e, _⟩ := simulate (E := stableEnv N impl unset) (L := stableLawful N V) ops (Inv.init (stableStarts _ _)) hc h
  exact ⟨m, e⟩

/-- Calls that never remove anything. -/
def Op.keepsAll : Op K V → Bool
  | .remove _ | .removeIndex _ => false
  | _ => true

omit [DecidableEq K] in
theorem iterable_unstable (r n : Nat) : Kind.iterable .unstable r n = true := rfl

/-- Without removals nothing is excluded for vector storage: C33 in full. -/
theorem history_unstable_no_removal (impl : MapImpl K) (unset : Option K) (ops : List (Op K V)) (a : Ideal K V)
    (os : List (Obs V)) (h : idealRun .unstable Ideal.empty ops = some (a, os)) (hk : ∀ op ∈ ops, op.keepsAll = true) :
    ∃ m, run (unstableEnv impl unset) (MV.init (unstableEnv impl unset)) ops = some (m, os) := by
  refine history_unstable_partial impl unset ops a os h ?_
  have : ∀ (ops : List (Op K V)) (a0 : Ideal K V) a os, idealRun .unstable a0 ops = some (a, os) →
      (∀ op ∈ ops, op.keepsAll = true) → carefulRun .unstable unset a0 ops = true := by
    intro ops
    induction ops with
    | nil => intros; rfl
    | cons op ops ih =>
      intro a0 a os h hk
      simp only [idealRun, Option.bind_eq_some_iff, Option.map_eq_some_iff] at h
      obtain ⟨⟨a1, o⟩, h1, ⟨a2, os2⟩, h2, h3⟩ := h
      simp only [carefulRun, h1, Bool.and_eq_true]
      refine ⟨?_, ih a1 a2 os2 h2 fun op h => hk op (List.mem_cons_of_mem _ h)⟩
      have := hk op (by simp)
      cases op <;> simp_all [careful, Op.keepsAll, Kind.iterable]
  exact this ops _ a os h hk

/-- a program using every call -/
def demo : List (Op Nat Nat) :=
  [.insert 1 10, .insert 2 20, .insert 1 11, .insertNoKey 30, .insertOrAssign 2 21, .insertOrAssign 4 40, .addTerm 9 2,
   .addTerm 1 2, .addTerm 8 7, .find 9, .find 4, .find 5, .get 1, .set 0 12, .at 0, .at 9, .back, .remove 1, .find 2, .find 9,
   .find 1, .removeIndex 2, .find 4, .removeIndex 5, .size, .apply, .modify (· + 1), .transform (· * 2), .apply, .clear, .size]

example : idealRun .unstable Ideal.empty demo = some (⟨[], 0⟩,
    [.index (some 0), .index (some 1), .index none, .index (some 2), .index (some 1), .index (some 3), .bool true,
     .bool false, .bool false, .found (some 30), .found (some 40), .found none, .val 21, .done, .val 12, .threw, .val 40, .done,
     .found (some 21), .found (some 30), .found none, .done, .found none, .done, .num 2, .vals [21, 30], .done, .done,
     .vals [44, 62], .done, .num 0]) := by decide
example : carefulRun .unstable none Ideal.empty demo = true := by decide
example : (idealRun (.stable 0) Ideal.empty demo).map (·.1) = some ⟨[], 64⟩ := by decide
example : carefulRun (.stable 0) none Ideal.empty demo = true := by decide

/-- C33 fails for stable storage whose reserved block slots are exactly full: searching for an unknown key is
undefined (block order 0, 64 elements). -/
theorem find_full : (idealRun (.stable 0) Ideal.empty ((List.range 64).map fun i => Op.insert i i)).isSome = true ∧
    (run (stableEnv 0 MapImpl.atEnd none) (MV.init (stableEnv (V := Nat) 0 MapImpl.atEnd none))
      ((List.range 64).map fun i => Op.insert i i)).isSome = true ∧
    (run (stableEnv 0 MapImpl.atEnd none) (MV.init (stableEnv (V := Nat) 0 MapImpl.atEnd none))
      ((List.range 64).map (fun i => Op.insert i i) ++ [.find 64])).isSome = false := by decide +kernel

/-! ## C34: removal -/

section
variable {S : Type} {E : Env S K V} {kind : Kind} (L : Lawful E.st kind)
include L

/-- Core of C34: what a search finds after removing element `i`, which has the single key `k`. -/
theorem removal_core {m : MV S K} {a : Ideal K V} (v : Inv L m a) {i : Nat} {y : V} {k : K}
    (hi : a.entries[i]? = some ⟨y, [k]⟩) (op : Op K V) (hop : op = .remove k ∨ op = .removeIndex i) :
    ∃ m', exec E m op = some (m', .done) ∧
      (∀ j x ks k', a.entries[j]? = some ⟨x, ks⟩ → k' ∈ ks → j ≠ i → m'.find E k' = some (some x)) ∧
      (∀ k', (k' = k ∨ FMap.find m.lookup k' = none) → kind.iterable a.reserved (a.drop kind i).entries.length = true →
        m'.find E k' = some none) := by
  have hl : i < a.entries.length := (List.getElem?_eq_some_iff.1 hi).1
  have hkk := v.binds.single (i := i) (k := k) (by simp [hi])
  have hlk : a.lookup k = some i := by rw [v.lookup_eq]; exact (hkk k).2 rfl
  have hc : careful kind E.unset a op = true := by
    rcases hop with rfl | rfl
    · simp only [careful, find_of_lookup, hlk, Option.bind_some, hi]; rfl
    · simp only [careful, hi]; simp
  have hid : ideal kind a op = some (a.drop kind i, .done) := by
    rcases hop with rfl | rfl
    · simp only [ideal, hlk]
    · simp only [ideal, if_pos hl]
  obtain ⟨m', e, v', _⟩ := step v hc hid
  have hkeys : ∀ (k' : K) (j : Nat), j ≠ i → (∃ e, a.entries[j]? = some e ∧ k' ∈ e.keys) →
      ∃ (j' : Nat) (e : Entry K V), a.entries[j]? = some e ∧ (a.drop kind i).entries[j']? = some e ∧ k' ∈ e.keys := by
    rintro k' j hj ⟨e, h1, h2⟩
    unfold Ideal.drop
    split
    · exact ⟨j, e, h1, by simp [List.getElem?_modify, h1]; exact fun h => absurd h.symm hj, h2⟩
    · rcases Nat.lt_or_gt_of_ne hj with h3 | h3
      · exact ⟨j, e, h1, by simp [List.getElem?_eraseIdx, h3, h1], h2⟩
      · refine ⟨j - 1, e, h1, ?_, h2⟩
        simp only [List.getElem?_eraseIdx]
        rw [if_neg (by omega), Nat.sub_add_cancel (by omega), h1]
  refine ⟨m', e, ?_, ?_⟩
  · intro j x ks k' hj hk' hne
    obtain ⟨j', e', h1, h2, h3⟩ := hkeys k' j hne ⟨_, hj, hk'⟩
    rw [hj] at h1
    cases h1
    have hf : FMap.find m'.lookup k' = some j' := (v'.binds.iff k' j').2 ⟨ks, by simp [h2], hk'⟩
    have hl' := (List.getElem?_eq_some_iff.1 h2)
    simp only [MV.find, hf]
    rw [L.iterAt (show j' < ((a.drop kind i).entries.map (·.value)).length by simpa using hl'.1) v'.rep]
    simp [hl'.2]
  · intro k' hk' hit
    have hnone : FMap.find m'.lookup k' = none := by
      rw [v'.binds.none_iff]
      intro ks hks hmem
      obtain ⟨e', he', rfl⟩ := List.mem_map.1 hks
      obtain ⟨j', hj'⟩ := List.mem_iff_getElem?.1 he'
      have h4 : ∃ (j : Nat) (e : Entry K V), j ≠ i ∧ a.entries[j]? = some e ∧ k' ∈ e.keys := by
        unfold Ideal.drop at hj'
        split at hj'
        · simp only [List.getElem?_modify] at hj'
          obtain ⟨e3, h8, h9⟩ := Option.map_eq_some_iff.1 hj'
          by_cases h5 : i = j'
          · simp only [if_pos h5] at h9
            subst h9; simp at hmem
          · simp only [if_neg h5] at h9
            exact ⟨j', e', fun h => h5 h.symm, h9 ▸ h8, hmem⟩
        · simp only [List.getElem?_eraseIdx] at hj'
          split at hj'
          · exact ⟨j', e', by omega, hj', hmem⟩
          · exact ⟨j' + 1, e', by omega, hj', hmem⟩
      obtain ⟨j, e2, h5, h6, h7⟩ := h4
      have h8 := (v.binds.iff k' j).2 ⟨e2.keys, by simp [h6], h7⟩
      rcases hk' with rfl | hk'
      · rw [(hkk k').2 rfl] at h8; cases h8; exact h5 rfl
      · rw [hk'] at h8; cases h8
    simp only [MV.find, hnone]
    have hr : (a.drop kind i).reserved = a.reserved := by unfold Ideal.drop; split <;> rfl
    rw [L.endOk v'.rep (by rw [hr, List.length_map]; exact hit)]
    rfl

end

/-- After any careful history, removing an element with a single key (by its key or by its index, vector storage):
every key of every other element still finds that element's value; the removed key, and any key that was unknown
before, finds nothing. -/
theorem removal_unstable_partial (impl : MapImpl K) (unset : Option K) (ops : List (Op K V)) (a : Ideal K V)
    (os : List (Obs V)) (h : idealRun .unstable Ideal.empty ops = some (a, os))
    (hc : carefulRun .unstable unset Ideal.empty ops = true)
    (i : Nat) (y : V) (k : K) (hi : a.entries[i]? = some ⟨y, [k]⟩) (op : Op K V)
    (hop : op = .remove k ∨ op = .removeIndex i) :
    ∃ m m', run (unstableEnv impl unset) (MV.init (unstableEnv impl unset)) ops = some (m, os) ∧
      exec (unstableEnv impl unset) m op = some (m', .done) ∧
      (∀ j x ks k', a.entries[j]? = some ⟨x, ks⟩ → k' ∈ ks → j ≠ i →
        m'.find (unstableEnv impl unset) k' = some (some x)) ∧
      (∀ k', (k' = k ∨ ∀ e ∈ a.entries, k' ∉ e.keys) → m'.find (unstableEnv impl unset) k' = some none) := by
  obtain ⟨m, e, v⟩ := simulate (E := unstableEnv impl unset) (L := vectorLawful V) ops (Inv.init (vectorStarts _)) hc h
  obtain ⟨m', e', h1, h2⟩ := removal_core (E := unstableEnv impl unset) (vectorLawful V) v hi op hop
  refine ⟨m, m', e, e', h1, fun k' hk' => h2 k' ?_ rfl⟩
  · rcases hk' with h3 | h3
    · exact .inl h3
    · refine .inr (v.binds.none_iff.2 fun ks hks => ?_)
      obtain ⟨e, he, rfl⟩ := List.mem_map.1 hks
      exact h3 e he

/-- The same for stable storage, where a search that finds nothing needs a defined `end()`. -/
theorem removal_stable_partial (N : Nat) (impl : MapImpl K) (unset : Option K) (ops : List (Op K V)) (a : Ideal K V)
    (os : List (Obs V)) (h : idealRun (.stable N) Ideal.empty ops = some (a, os))
    (hc : carefulRun (.stable N) unset Ideal.empty ops = true)
    (i : Nat) (y : V) (k : K) (hi : a.entries[i]? = some ⟨y, [k]⟩) (op : Op K V)
    (hop : op = .remove k ∨ op = .removeIndex i) :
    ∃ m m', run (stableEnv N impl unset) (MV.init (stableEnv N impl unset)) ops = some (m, os) ∧
      exec (stableEnv N impl unset) m op = some (m', .done) ∧
      (∀ j x ks k', a.entries[j]? = some ⟨x, ks⟩ → k' ∈ ks → j ≠ i →
        m'.find (stableEnv N impl unset) k' = some (some x)) ∧
      (∀ k', (k' = k ∨ ∀ e ∈ a.entries, k' ∉ e.keys) →
        Kind.iterable (.stable N) a.reserved (a.drop (.stable N) i).entries.length = true →
        m'.find (stableEnv N impl unset) k' = some none) := by
  obtain ⟨m, e, v⟩ := simulate (E := stableEnv N impl unset) (L := stableLawful N V) ops (Inv.init (stableStarts _ _)) hc h
  obtain ⟨m', e', h1, h2⟩ := removal_core (E := stableEnv N impl unset) (stableLawful N V) v hi op hop
  refine ⟨m, m', e, e', h1, fun k' hk' => h2 k' ?_⟩
  rcases hk' with h3 | h3
  · exact .inl h3
  · refine .inr (v.binds.none_iff.2 fun ks hks => ?_)
    obtain ⟨e, he, rfl⟩ := List.mem_map.1 hks
    exact h3 e he

/-- a state in which the middle element has the single key 2, its neighbours have keys 1 and 3, 7 -/
def demo2 : List (Op Nat Nat) := [.insert 1 10, .insert 2 20, .insert 3 30, .addTerm 7 2]
example : idealRun .unstable Ideal.empty demo2 = some (⟨[⟨10, [1]⟩, ⟨20, [2]⟩, ⟨30, [7, 3]⟩], 0⟩,
    [.index (some 0), .index (some 1), .index (some 2), .bool true]) := by decide
example : carefulRun .unstable none Ideal.empty demo2 = true := by decide
example : idealRun (.stable 5) Ideal.empty demo2 = some (⟨[⟨10, [1]⟩, ⟨20, [2]⟩, ⟨30, [7, 3]⟩], 64⟩,
    [.index (some 0), .index (some 1), .index (some 2), .bool true]) := by decide
example : carefulRun (.stable 5) none Ideal.empty demo2 = true := by decide

/-- C34 fails for an element with two keys: after `remove(3)` the other key 7 of the removed element finds its
successor. -/
theorem alias_violation :
    (run (unstableEnv MapImpl.atEnd none) (MV.init (unstableEnv MapImpl.atEnd none))
      (demo2 ++ [.insert 4 40, .remove 3, .find 7])).map (·.2.drop 4) =
      some [.index (some 3), .done, .found (some 40)] ∧
    (idealRun .unstable Ideal.empty (demo2 ++ [.insert 4 40, .remove 3, .find 7])).map (·.2.drop 4) =
      some [.index (some 3), .done, .found none] := by decide

/-- C34 fails for removeIndex on an element without key while the default key (say, the empty string, here 0) is in
use: the other element loses its key. -/
theorem keyless_violation :
    (run (unstableEnv MapImpl.atEnd (some 0)) (MV.init (unstableEnv MapImpl.atEnd (some 0)))
      [.insert 0 10, .insertNoKey 20, .removeIndex 1, .find 0]).map (·.2) =
      some [.index (some 0), .index (some 1), .done, .found none] ∧
    (idealRun .unstable Ideal.empty [.insert 0 10, .insertNoKey 20, .removeIndex 1, .find 0]).map (·.2) =
      some [.index (some 0), .index (some 1), .done, .found (some 10)] := by decide

/-- C34: for keys of arithmetic type removeIndex on an element without key reads an uninitialised variable. -/
theorem keyless_undefined :
    run (unstableEnv MapImpl.atEnd none) (MV.init (unstableEnv (K := Nat) MapImpl.atEnd none))
      [.insertNoKey 20, .removeIndex 0] = none ∧
    (idealRun .unstable (Ideal.empty (K := Nat)) [.insertNoKey 20, .removeIndex 0]).isSome = true := ⟨rfl, by decide⟩

/-! ## C35: every known key refers to an element -/

/-- After any careful history every key of the map refers to an index below `size()`, and the element found is the one
at that index. -/
theorem index_in_range_unstable_partial (impl : MapImpl K) (unset : Option K) (ops : List (Op K V)) (a : Ideal K V)
    (os : List (Obs V)) (h : idealRun .unstable Ideal.empty ops = some (a, os))
    (hc : carefulRun .unstable unset Ideal.empty ops = true) :
    ∃ m, run (unstableEnv impl unset) (MV.init (unstableEnv impl unset)) ops = some (m, os) ∧
      ∀ k i, (k, i) ∈ m.lookup → i < m.size (unstableEnv (V := V) impl unset) ∧
        ∃ x, m.find (unstableEnv impl unset) k = some (some x) ∧ m.get (unstableEnv impl unset) i = some x := by
  obtain ⟨m, e, v⟩ := simulate (E := unstableEnv impl unset) (L := vectorLawful V) ops (Inv.init (vectorStarts _)) hc h
  refine ⟨m, e, fun k i hk => ?_⟩
  have hf := (FMap.find_eq_some v.binds.wf).2 hk
  have hl : i < (a.entries.map (·.value)).length := by simpa using v.binds.lt hf
  refine ⟨by rw [MV.size, v.size_eq]; simpa using hl, (a.entries.map (·.value))[i], ?_, ?_⟩
  · simp only [MV.find, hf]; exact (vectorLawful V).iterAt hl v.rep
  · exact (vectorLawful V).get hl v.rep

/-- The same for stable storage. -/
theorem index_in_range_stable_partial (N : Nat) (impl : MapImpl K) (unset : Option K) (ops : List (Op K V))
    (a : Ideal K V) (os : List (Obs V)) (h : idealRun (.stable N) Ideal.empty ops = some (a, os))
    (hc : carefulRun (.stable N) unset Ideal.empty ops = true) :
    ∃ m, run (stableEnv N impl unset) (MV.init (stableEnv N impl unset)) ops = some (m, os) ∧
      ∀ k i, (k, i) ∈ m.lookup → i < m.size (stableEnv (V := V) N impl unset) ∧
        ∃ x, m.find (stableEnv N impl unset) k = some (some x) ∧ m.get (stableEnv N impl unset) i = some x := by
  obtain ⟨m, e, v⟩ := simulate (E := stableEnv N impl unset) (L := stableLawful N V) ops (Inv.init (stableStarts _ _)) hc h
  refine ⟨m, e, fun k i hk => ?_⟩
  have hf := (FMap.find_eq_some v.binds.wf).2 hk
  have hl : i < (a.entries.map (·.value)).length := by simpa using v.binds.lt hf
  refine ⟨by rw [MV.size, v.size_eq]; simpa using hl, (a.entries.map (·.value))[i], ?_, ?_⟩
  · simp only [MV.find, hf]; exact (stableLawful N V).iterAt hl v.rep
  · exact (stableLawful N V).get hl v.rep

example : ((run (unstableEnv MapImpl.atEnd none) (MV.init (unstableEnv MapImpl.atEnd none)) demo2).map (·.1.lookup)) =
    some [(1, 0), (2, 1), (3, 2), (7, 2)] := by decide

theorem mem_of_ite_erase {c : Bool} {l : FMap K} {ind : K} {e : K × Nat}
    (h : e ∈ if c = true then FMap.erase l ind else l) : e ∈ l := by
  split at h
  · exact (List.mem_filter.1 h).1
  · exact h

/-- Whatever the history, for vector storage a key never refers beyond the end: index at most `size()`. -/
theorem index_never_beyond_end (impl : MapImpl K) (unset : Option K) (ops : List (Op K V)) (m : MV (List V) K)
    (os : List (Obs V)) (h : run (unstableEnv impl unset) (MV.init (unstableEnv impl unset)) ops = some (m, os)) :
    ∀ k i, (k, i) ∈ m.lookup → i ≤ m.size (unstableEnv (V := V) impl unset) := by
  have mono : ∀ (l : FMap K) (n n' : Nat), (∀ k i, (k, i) ∈ l → i ≤ n) → n ≤ n' → ∀ k i, (k, i) ∈ l → i ≤ n' :=
    fun l n n' h hn k i hk => Nat.le_trans (h k i hk) hn
  have empl : ∀ (l : FMap K) (n : Nat) (k : K) (j : Nat), (∀ k i, (k, i) ∈ l → i ≤ n) → j ≤ n →
      ∀ k' i, (k', i) ∈ (FMap.emplace impl l k j).1 → i ≤ n := by
    intro l n k j hl hj k' i hk
    unfold FMap.emplace at hk
    split at hk
    · exact hl k' i hk
    · rcases List.mem_cons.1 ((impl.perm l k j).mem_iff.1 hk) with h | h
      · cases h; exact hj
      · exact hl k' i h
  have one : ∀ (m m' : MV (List V) K) (op : Op K V) o, exec (unstableEnv impl unset) m op = some (m', o) →
      (∀ k i, (k, i) ∈ m.lookup → i ≤ m.data.length) → ∀ k i, (k, i) ∈ m'.lookup → i ≤ m'.data.length := by
    intro m m' op o h hm
    cases op with
    | insert k x =>
      simp only [exec, MV.insert] at h
      split at h
      · cases h; exact hm
      · cases h
        simp only [List.length_append, List.length_cons, List.length_nil]
        exact empl _ _ _ _ (mono _ _ _ hm (Nat.le_succ _)) (Nat.le_succ _)
    | insertNoKey x =>
      cases h
      simp only [List.length_append, List.length_cons, List.length_nil]
      exact mono _ _ _ hm (Nat.le_succ _)
    | insertOrAssign k x =>
      simp only [exec, MV.insertOrAssign] at h
      split at h
      · rename_i i hi
        simp only [unstableEnv, vectorStore] at h
        split at h
        · cases h; simpa using hm
        · cases h
      · cases h
        simp only [List.length_append, List.length_cons, List.length_nil]
        exact empl _ _ _ _ (mono _ _ _ hm (Nat.le_succ _)) (Nat.le_succ _)
    | find k =>
      simp only [exec, Option.map_eq_some_iff] at h
      obtain ⟨_, _, h⟩ := h; cases h; exact hm
    | get i =>
      simp only [exec, Option.map_eq_some_iff] at h
      obtain ⟨_, _, h⟩ := h; cases h; exact hm
    | set i x =>
      simp only [exec, MV.set, unstableEnv, vectorStore] at h
      split at h
      · cases h; simpa using hm
      · cases h
    | «at» i =>
      simp only [exec, Option.map_eq_some_iff] at h
      obtain ⟨_, _, h⟩ := h; cases h; exact hm
    | back =>
      simp only [exec, Option.map_eq_some_iff] at h
      obtain ⟨_, _, h⟩ := h; cases h; exact hm
    | addTerm k i =>
      simp only [exec, MV.addSearchTermForIndex] at h
      cases h
      split
      · rename_i hl
        exact empl _ _ _ _ hm (Nat.le_of_lt hl)
      · exact hm
    | removeIndex i =>
      simp only [exec, MV.removeIndex] at h
      split at h
      · cases h; exact hm
      · rename_i hl
        have hl : i < m.data.length := Nat.lt_of_not_ge hl
        simp only [unstableEnv, vectorStore, if_pos hl, Option.bind_some, shiftLoop_fst, Option.map_map,
          Option.map_eq_some_iff] at h
        obtain ⟨ind, _, h⟩ := h
        cases h
        have hsh : ∀ k j, (k, j) ∈ m.lookup.map (fun e => (e.1, if true = true then Binds.shift i e.2 else e.2)) →
            j ≤ (m.data.eraseIdx i).length := by
          intro k j hk
          obtain ⟨⟨a, b⟩, h1, h2⟩ := List.mem_map.1 hk
          cases h2
          have := hm _ _ h1
          simp only [if_true, Binds.shift, List.length_eraseIdx, if_pos hl]
          split <;> omega
        intro k j hk
        exact hsh k j (mem_of_ite_erase hk)
    | remove k =>
      simp only [exec, MV.remove] at h
      split at h
      · cases h; exact hm
      · rename_i i hi
        simp only [unstableEnv, vectorStore] at h
        split at h
        · rename_i hl
          cases h
          intro k j hk
          have hk := (List.mem_filter.1 hk).1
          simp only [if_true] at hk
          obtain ⟨⟨a, b⟩, h1, h2⟩ := List.mem_map.1 hk
          cases h2
          have := hm _ _ h1
          simp only [List.length_eraseIdx, if_pos hl]
          split <;> omega
        · cases h
    | apply => cases h; exact hm
    | modify f => cases h; simpa [visitList_length] using hm
    | transform f => cases h; simpa [visitList_length] using hm
    | size => cases h; exact hm
    | clear => cases h; intro k i hk; cases hk
  have all : ∀ (ops : List (Op K V)) (m0 : MV (List V) K) os, run (unstableEnv impl unset) m0 ops = some (m, os) →
      (∀ k i, (k, i) ∈ m0.lookup → i ≤ m0.data.length) → ∀ k i, (k, i) ∈ m.lookup → i ≤ m.data.length := by
    intro ops
    induction ops with
    | nil => intro m0 os h h0; cases h; exact h0
    | cons op ops ih =>
      intro m0 os h h0
      simp only [run, Option.bind_eq_some_iff, Option.map_eq_some_iff] at h
      obtain ⟨⟨m1, o⟩, h1, ⟨m2, os2⟩, h2, h3⟩ := h
      cases h3
      exact ih m1 os2 h2 (one m0 m1 op o h1 h0)
  exact all ops _ os h (by intro k i hk; cases hk)

/-- C35 fails after removing an element with two keys: the remaining key refers to index `size()`. -/
theorem stale_index_violation :
    (run (unstableEnv MapImpl.atEnd none) (MV.init (unstableEnv MapImpl.atEnd none))
      [.insert 1 10, .addTerm 2 0, .remove 1]).map (fun r => (r.1.lookup, r.1.data)) = some ([(2, 0)], ([] : List Nat)) := by
  decide

/-! ## C36: stable storage -/

/-- The container has more than `i` elements before and after each call. -/
def keeps (kind : Kind) (i : Nat) : Ideal K V → List (Op K V) → Prop
  | a, [] => i < a.entries.length
  | a, op :: ops => i < a.entries.length ∧ ∃ r, ideal kind a op = some r ∧ keeps kind i r.1 ops

/-- Stable storage: through any sequence of careful calls, removals included, that does not drop element `i` from the
end, element `i` stays at the same address, and reading there gives the current element `i`. -/
theorem stable_references_partial (N : Nat) (impl : MapImpl K) (unset : Option K) (pre post : List (Op K V)) (i : Nat)
    (a : Ideal K V) (os : List (Obs V)) (h : idealRun (.stable N) Ideal.empty pre = some (a, os))
    (hc : carefulRun (.stable N) unset Ideal.empty pre = true)
    (hk : keeps (.stable N) i a post) (hc2 : carefulRun (.stable N) unset a post = true) :
    ∃ m m' a' os' c, run (stableEnv N impl unset) (MV.init (stableEnv N impl unset)) pre = some (m, os) ∧
      run (stableEnv N impl unset) m post = some (m', os') ∧ idealRun (.stable N) a post = some (a', os') ∧
      (stableStore N V).addr m.data i = some c ∧ (stableStore N V).addr m'.data i = some c ∧
      m'.data.2.read (2 ^ N) c.1 c.2 = (a'.entries[i]?).map (·.value) := by
  obtain ⟨m, e, v⟩ := simulate (E := stableEnv N impl unset) (L := stableLawful N V) pre (Inv.init (stableStarts _ _)) hc h
  have hread : ∀ (m : MV (Verif.Block.Vector.Vec × Heap V) K) (a : Ideal K V),
      Inv (E := stableEnv N impl unset) (stableLawful N V) m a → i < a.entries.length →
      ∃ c, (stableStore N V).addr m.data i = some c ∧
        m.data.2.read (2 ^ N) c.1 c.2 = (a.entries[i]?).map (·.value) := by
    intro m a v hi
    have := (stableLawful N V).get (show i < (a.entries.map (·.value)).length by simpa using hi) v.rep
    have h2 : (Verif.Block.Vector.Vec.get N m.data.1 m.data.2 i) =
      some ((a.entries.map (·.value))[i]'(by simpa using hi)) := this
    unfold Verif.Block.Vector.Vec.get at h2
    obtain ⟨c, h3, h4⟩ := Option.bind_eq_some_iff.1 h2
    rw [Verif.Block.Vector.Vec.blockSize_eq] at h4
    exact ⟨c, h3, by rw [h4]; simp [List.getElem?_eq_getElem hi]⟩
  have main : ∀ (post : List (Op K V)) (m : MV (Verif.Block.Vector.Vec × Heap V) K) (a : Ideal K V),
      Inv (E := stableEnv N impl unset) (stableLawful N V) m a → keeps (.stable N) i a post →
      carefulRun (.stable N) unset a post = true →
      ∃ m' a' os', run (stableEnv N impl unset) m post = some (m', os') ∧ idealRun (.stable N) a post = some (a', os') ∧
        Inv (E := stableEnv N impl unset) (stableLawful N V) m' a' ∧ i < a'.entries.length ∧
        (stableStore N V).addr m'.data i = (stableStore N V).addr m.data i := by
    intro post
    induction post with
    | nil => intro m a v hk _; exact ⟨m, a, [], rfl, rfl, v, hk, rfl⟩
    | cons op ops ih =>
      rintro m a v ⟨hi, ⟨a1, o⟩, h1, hk⟩ hc
      simp only [carefulRun, h1, Bool.and_eq_true] at hc
      obtain ⟨m1, e1, v1, f1⟩ := step v hc.1 h1
      obtain ⟨m', a', os', e2, e3, v', hi', f'⟩ := ih m1 a1 v1 hk hc.2
      have hi1 : i < a1.entries.length := by
        cases ops with
        | nil => exact hk
        | cons _ _ => exact hk.1
      exact ⟨m', a', o :: os', by simp only [run, e1, Option.bind_some, e2, Option.map_some],
        by simp only [idealRun, h1, Option.bind_some, e3, Option.map_some], v', hi', f'.trans (f1 i hi hi1)⟩
  obtain ⟨m', a', os', e2, e3, v', hi', f'⟩ := main post m a v hk hc2
  obtain ⟨c, hc', hr⟩ := hread m' a' v' hi'
  exact ⟨m, m', a', os', c, e, e2, e3, f' ▸ hc', hc', hr⟩

omit [DecidableEq K] in
/-- What removal does in stable storage, about the specification: no element moves or changes its value; only the last
one is taken out; the removed one has no keys. -/
theorem stable_drop_values (N : Nat) (a : Ideal K V) (i : Nat) (hi : i < a.entries.length) :
    (i + 1 ≠ a.entries.length → (a.drop (.stable N) i).entries.map (·.value) = a.entries.map (·.value) ∧
      ((a.drop (.stable N) i).entries[i]?).map (·.keys) = some []) ∧
    (i + 1 = a.entries.length → (a.drop (.stable N) i).entries = a.entries.dropLast) := by
  constructor
  · intro h
    unfold Ideal.drop
    rw [if_pos ⟨rfl, h⟩]
    refine ⟨modify_keys_value _ _ fun _ => [], ?_⟩
    simp [List.getElem?_eq_getElem hi]
  · intro h
    unfold Ideal.drop
    rw [if_neg (by simp [h])]
    exact (List.dropLast_eq_eraseIdx h).symm

/-- hypotheses of `stable_references_partial`: element 1 keeps its place while element 0 and the last one go -/
example : keeps (.stable 0) 1 ⟨[⟨10, [1]⟩, ⟨20, [2]⟩, ⟨30, [3]⟩], 64⟩ [.remove 1, .removeIndex 2, .insert 5 50, .find 2] :=
  ⟨by decide, _, rfl, by decide, _, rfl, by decide, _, rfl, by decide, _, rfl, (by decide : 1 < 3)⟩
example : carefulRun (.stable 0) none (⟨[⟨10, [1]⟩, ⟨20, [2]⟩, ⟨30, [3]⟩], 64⟩ : Ideal Nat Nat)
    [.remove 1, .removeIndex 2, .insert 5 50, .find 2] = true := by decide
example : (idealRun (.stable 0) Ideal.empty [Op.insert 1 10, .insert 2 20, .insert 3 30]).map (·.1) =
    some ⟨[⟨10, [1]⟩, ⟨20, [2]⟩, ⟨30, [3]⟩], 64⟩ := by decide

/-! ## C37: traversals -/

section
variable {S : Type} {E : Env S K V} {kind : Kind} (L : Lawful E.st kind)
include L

theorem visit_core {σ : Type} {m : MV S K} {a : Ideal K V} (v : Inv L m a) (F : σ → V → σ × V) (z : σ)
    (hi : kind.iterable a.reserved a.entries.length = true) (post : List (Op K V)) :
    m.apply E = some (a.entries.map (·.value)) ∧
    ∃ m' es, m.modify E F z = some ((visitList F z (a.entries.map (·.value))).1, m') ∧
      m.transform E F z = some ((visitList F z (a.entries.map (·.value))).1, m') ∧
      es.map (·.value) = (visitList F z (a.entries.map (·.value))).2 ∧ es.map (·.keys) = a.entries.map (·.keys) ∧
      ∀ a' os', idealRun kind { a with entries := es } post = some (a', os') →
        carefulRun kind E.unset { a with entries := es } post = true → ∃ m'', run E m' post = some (m'', os') := by
  obtain ⟨d, es, e, h1, h2, v', _⟩ := v.mapValue F z hi
  refine ⟨L.all v.rep (by simpa using hi), ⟨d, m.lookup⟩, es, ?_, ?_, h1, h2, fun a' os' h hc => ?_⟩
  · simp only [MV.modify, e, Option.map_some]
  · simp only [MV.transform, e, Option.map_some]
  · obtain ⟨m'', e', _⟩ := simulate post v' hc h
    exact ⟨m'', e'⟩

end

/-- After any careful history: `apply` passes each element once, in order; `modify` and `transform` call the function
(which may keep a state) once per element in order, store what it produces, and leave every key attached to its
element, as any further careful calls show. -/
theorem traversal_unstable_partial {σ : Type} (impl : MapImpl K) (unset : Option K) (pre post : List (Op K V))
    (a : Ideal K V) (os : List (Obs V)) (h : idealRun .unstable Ideal.empty pre = some (a, os))
    (hc : carefulRun .unstable unset Ideal.empty pre = true) (F : σ → V → σ × V) (z : σ) :
    ∃ m m' es, run (unstableEnv impl unset) (MV.init (unstableEnv impl unset)) pre = some (m, os) ∧
      m.apply (unstableEnv impl unset) = some (a.entries.map (·.value)) ∧
      m.modify (unstableEnv impl unset) F z = some ((visitList F z (a.entries.map (·.value))).1, m') ∧
      m.transform (unstableEnv impl unset) F z = some ((visitList F z (a.entries.map (·.value))).1, m') ∧
      es.map (·.value) = (visitList F z (a.entries.map (·.value))).2 ∧ es.map (·.keys) = a.entries.map (·.keys) ∧
      ∀ a' os', idealRun .unstable { a with entries := es } post = some (a', os') →
        carefulRun .unstable unset { a with entries := es } post = true →
        ∃ m'', run (unstableEnv impl unset) m' post = some (m'', os') := by
  obtain ⟨m, e, v⟩ := simulate (E := unstableEnv impl unset) (L := vectorLawful V) pre (Inv.init (vectorStarts _)) hc h
  obtain ⟨h1, m', es, h2, h3, h4, h5, h6⟩ := visit_core (E := unstableEnv impl unset) (vectorLawful V) v F z rfl post
  exact ⟨m, m', es, e, h1, h2, h3, h4, h5, h6⟩

/-- The same for stable storage whose reserved block slots are not exactly full. -/
theorem traversal_stable_partial {σ : Type} (N : Nat) (impl : MapImpl K) (unset : Option K) (pre post : List (Op K V))
    (a : Ideal K V) (os : List (Obs V)) (h : idealRun (.stable N) Ideal.empty pre = some (a, os))
    (hc : carefulRun (.stable N) unset Ideal.empty pre = true) (F : σ → V → σ × V) (z : σ)
    (hi : Kind.iterable (.stable N) a.reserved a.entries.length = true) :
    ∃ m m' es, run (stableEnv N impl unset) (MV.init (stableEnv N impl unset)) pre = some (m, os) ∧
      m.apply (stableEnv N impl unset) = some (a.entries.map (·.value)) ∧
      m.modify (stableEnv N impl unset) F z = some ((visitList F z (a.entries.map (·.value))).1, m') ∧
      m.transform (stableEnv N impl unset) F z = some ((visitList F z (a.entries.map (·.value))).1, m') ∧
      es.map (·.value) = (visitList F z (a.entries.map (·.value))).2 ∧ es.map (·.keys) = a.entries.map (·.keys) ∧
      ∀ a' os', idealRun (.stable N) { a with entries := es } post = some (a', os') →
        carefulRun (.stable N) unset { a with entries := es } post = true →
        ∃ m'', run (stableEnv N impl unset) m' post = some (m'', os') := by
  obtain ⟨m, e, v⟩ := simulate (E := stableEnv N impl unset) (L := stableLawful N V) pre (Inv.init (stableStarts _ _)) hc h
  obtain ⟨h1, m', es, h2, h3, h4, h5, h6⟩ := visit_core (E := stableEnv N impl unset) (stableLawful N V) v F z hi post
  exact ⟨m, m', es, e, h1, h2, h3, h4, h5, h6⟩

example : visitList (fun (n : Nat) x => (n + 1, x + n)) 0 [10, 20, 30] = (3, [10, 21, 32]) := by decide
example : Kind.iterable (.stable 5) 64 3 = true := by decide

/-- C37 fails for stable storage with exactly full block slots. -/
theorem traverse_full :
    (run (stableEnv 0 MapImpl.atEnd none) (MV.init (stableEnv (V := Nat) 0 MapImpl.atEnd none))
      ((List.range 64).map (fun i => Op.insert i i) ++ [.apply])).isSome = false := by decide +kernel

end Verif.Mapped.Vector
