import Verif.Mapped.Dual.ThrowProps
import Verif.Mapped.Vector.ThrowProps

/-
C90: `removeIndex` of MappedVector and DualMappedVector when copying a search term throws.
-/
namespace Verif.Mapped
open Verif.Block (Heap)

/-- MappedVector.hpp:139-145, DualMappedVector.hpp:307-322: the map after the first `n` rounds of the loop that lowers the
indices above the removed one. -/
def lowered {K : Type} (erased : Bool) (index n : Nat) (m : FMap K) : FMap K :=
  ((m.take n).map fun e => if erased = true ∧ e.2 > index then (e.1, e.2 - 1) else e) ++ m.drop n

/-- `removeIndex`, MappedVector.hpp:132-150, when the assignment `ind = el2.first` in round `n` of the loop throws (flag
true), if there is one; otherwise an ordinary call. -/
def Vector.MV.removeIndexFault {S K V : Type} [DecidableEq K] (E : Vector.Env S K V) (m : Vector.MV S K) (index n : Nat) :
    Option (Bool × Vector.MV S K) :=
  if index < E.st.size m.data ∧ (m.lookup[n]?).map (·.2) = some index then
    (E.st.erase m.data index).map fun r => (true, ⟨r.1, lowered r.2 index n m.lookup⟩)
  else (m.removeIndex E index).map fun m => (false, m)

/-- The loop that throws. -/
inductive Dual.Loop where
  | first
  | second

/-- `removeIndex`, DualMappedVector.hpp:300-337, when the `push_back` in round `n` of the first or second loop throws.  When
the second loop runs, the indices of the first map have been lowered and nothing has been erased. -/
def Dual.DMV.removeIndexFault {S K1 K2 V : Type} [DecidableEq K1] [DecidableEq K2] (E : Dual.Env S K1 K2 V)
    (m : Dual.DMV S K1 K2) (index : Nat) : Dual.Loop → Nat → Option (Bool × Dual.DMV S K1 K2)
  | .first, n =>
    if index < E.st.size m.data ∧ (m.lookup1[n]?).map (·.2) = some index then
      (E.st.erase m.data index).map fun r => (true, { m with data := r.1, lookup1 := lowered r.2 index n m.lookup1 })
    else (m.removeIndex E index).map fun m => (false, m)
  | .second, n =>
    if index < E.st.size m.data ∧ (m.lookup2[n]?).map (·.2) = some index then
      (E.st.erase m.data index).map fun r =>
        (true, ⟨r.1, lowered r.2 index m.lookup1.length m.lookup1, lowered r.2 index n m.lookup2⟩)
    else (m.removeIndex E index).map fun m => (false, m)

/-! ### Lemmas -/

theorem find_lowered {K : Type} [DecidableEq K] (erased : Bool) (index n : Nat) (m : FMap K) (k : K) (j : Nat)
    (hj : j ≤ index) (h : FMap.find m k = some j) : FMap.find (lowered erased index n m) k = some j := by
  induction m generalizing n with
  | nil => simp [FMap.find] at h
  | cons e m ih =>
    cases n with
    | zero => simpa [lowered] using h
    | succ n =>
      have hc : lowered erased index (n + 1) (e :: m) =
          (if erased = true ∧ e.2 > index then (e.1, e.2 - 1) else e) :: lowered erased index n m := by
        simp [lowered]
      rw [hc]
      by_cases he : e.1 = k
      · have hv : e.2 = j := by simpa [FMap.find, he] using h
        rw [if_neg (by omega)]
        simp [FMap.find, he, hv]
      · have h2 : FMap.find m k = some j := by simpa [FMap.find, he] using h
        have := ih n h2
        split <;> simpa [FMap.find, he] using this

theorem lowered_false {K : Type} (index n : Nat) (m : FMap K) : lowered false index n m = m := by
  simp [lowered]

theorem position {K : Type} [DecidableEq K] {m : FMap K} {k : K} {i : Nat} (h : FMap.find m k = some i) :
    ∃ n : Nat, (m[n]?).map (·.2) = some i := by
  simp only [FMap.find, Option.map_eq_some_iff] at h
  obtain ⟨e, he, rfl⟩ := h
  obtain ⟨n, hn⟩ := List.mem_iff_getElem?.1 (List.mem_of_find?_eq_some he)
  exact ⟨n, by rw [hn]; rfl⟩

/-! ## MappedVector -/

section
variable {K V : Type} [DecidableEq K]
open Verif.Mapped.Vector

/-- C90 as far as it holds, MappedVector with stable storage: if the element is not the last one, an exception while its
search terms are copied has no effect. -/
theorem Vector.remove_throw_stable_partial (N : Nat) (impl : MapImpl K) (unset : Option K)
    (m m' : MV (Verif.Block.Vector.Vec × Heap V) K) (a : Ideal K V) (h : ReachedS N impl unset m a) (i n : Nat)
    (hi : i + 1 < a.entries.length) (ht : m.removeIndexFault (stableEnv N impl unset) i n = some (true, m')) : m' = m := by
  have v := h.inv (L := stableLawful N V) (stableFailing N V) (stableStarts N V)
  have hs : m.data.1.size = a.entries.length := v.size_eq
  simp only [MV.removeIndexFault] at ht
  split at ht
  · have he : (stableEnv (V := V) N impl unset).st.erase m.data i = some (m.data, false) := by
      simp only [stableEnv, stableStore, hs]
      rw [if_neg (by omega)]
    rw [he, Option.map_some, lowered_false] at ht
    cases ht; rfl
  · simp at ht

/-- C90 as far as it holds, MappedVector with vector storage: after an exception in `removeIndex(i)` the elements before
`i` are still found under their search terms. -/
theorem Vector.remove_throw_unstable_partial (impl : MapImpl K) (unset : Option K)
    (m m' : MV (List V) K) (a : Ideal K V) (h : ReachedU impl unset m a) (i n : Nat)
    (ht : m.removeIndexFault (unstableEnv impl unset) i n = some (true, m')) (j : Nat) (hj : j < i) (k : K) (x : V)
    (ks : List K) (he : a.entries[j]? = some ⟨x, ks⟩) (hk : k ∈ ks) :
    exec (unstableEnv impl unset) m' (.find k) = some (m', .found (some x)) := by
  have v := h.inv (L := vectorLawful V) (vectorFailing V) (vectorStarts V)
  have hr : m.data = a.entries.map (·.value) := v.rep.1
  have hf : FMap.find m.lookup k = some j := by
    rw [v.binds.iff]; exact ⟨ks, by simp [he], hk⟩
  simp only [MV.removeIndexFault] at ht
  split at ht
  · rename_i hc
    have hlt : i < m.data.length := hc.1
    have hee : (unstableEnv (V := V) impl unset).st.erase m.data i = some (m.data.eraseIdx i, true) := by
      simp only [unstableEnv, vectorStore, if_pos hlt]
    rw [hee, Option.map_some] at ht
    cases ht
    have hl := find_lowered true i n m.lookup k j (by omega) hf
    have hg : (m.data.eraseIdx i)[j]? = some x := by
      rw [List.getElem?_eraseIdx, if_pos hj, hr]; simp [he]
    have hne : j ≠ (m.data.eraseIdx i).length := fun h => by rw [h] at hg; simp at hg
    simp [exec, MV.find, hl, unstableEnv, vectorStore, hne, hg]
  · simp at ht

/-- C90 fails for MappedVector with vector storage, in every state: `removeIndex(i)` throws while copying a search term
`k` of the element; afterwards the element is gone, but `k` finds the element that followed it. -/
theorem Vector.remove_throw_violation (impl : MapImpl K) (unset : Option K)
    (m : MV (List V) K) (a : Ideal K V) (h : ReachedU impl unset m a) (i : Nat) (k : K) (x y : V) (ks ls : List K)
    (he : a.entries[i]? = some ⟨x, ks⟩) (hk : k ∈ ks) (hy : a.entries[i + 1]? = some ⟨y, ls⟩) :
    ∃ n m', m.removeIndexFault (unstableEnv impl unset) i n = some (true, m') ∧
      m'.size (unstableEnv (V := V) impl unset) + 1 = a.entries.length ∧
      exec (unstableEnv impl unset) m' (.find k) = some (m', .found (some y)) := by
  have v := h.inv (L := vectorLawful V) (vectorFailing V) (vectorStarts V)
  have hr : m.data = a.entries.map (·.value) := v.rep.1
  have hf : FMap.find m.lookup k = some i := by
    rw [v.binds.iff]; exact ⟨ks, by simp [he], hk⟩
  obtain ⟨n, hn⟩ := position hf
  have hlt2 : i + 1 < a.entries.length := (List.getElem?_eq_some_iff.1 hy).1
  have hlt : i < m.data.length := by rw [hr]; simp; omega
  have hee : (unstableEnv (V := V) impl unset).st.erase m.data i = some (m.data.eraseIdx i, true) := by
    simp only [unstableEnv, vectorStore, if_pos hlt]
  refine ⟨n, ⟨m.data.eraseIdx i, lowered true i n m.lookup⟩, ?_, ?_, ?_⟩
  · simp only [MV.removeIndexFault]
    rw [if_pos ⟨hlt, hn⟩, hee, Option.map_some]
  · simp only [MV.size, unstableEnv, vectorStore, List.length_eraseIdx, if_pos hlt]
    rw [hr]; simp; omega
  · have hl := find_lowered true i n m.lookup k i (by omega) hf
    have hg : (m.data.eraseIdx i)[i]? = some y := by
      rw [List.getElem?_eraseIdx, if_neg (by omega), hr]; simp [hy]
    have hne : i ≠ (m.data.eraseIdx i).length := fun h => by
      have := (List.getElem?_eq_some_iff.1 hg).1; omega
    simp [exec, MV.find, hl, unstableEnv, vectorStore, hne, hg]

/-- The hypotheses hold, for example, for the second element after `demo2`. -/
example : ∃ m a, ReachedU (V := Nat) MapImpl.atEnd none m a ∧ a.entries[1]? = some ⟨20, [2]⟩ ∧
    a.entries[2]? = some ⟨30, [7, 3]⟩ := by
  obtain ⟨m, _, R⟩ := after_failures_unstable_partial (V := Nat) MapImpl.atEnd none _ _ .start demo2
    ⟨[⟨10, [1]⟩, ⟨20, [2]⟩, ⟨30, [7, 3]⟩], 0⟩ [.index (some 0), .index (some 1), .index (some 2), .bool true]
    (by decide) (by decide)
  exact ⟨m, _, R, rfl, rfl⟩
/-- With stable storage the call throws and has no effect. -/
example :
    let E := Vector.stableEnv (K := Nat) (V := Nat) 1 MapImpl.atEnd none
    ((run E (MV.init E) demo2).bind fun r =>
      (r.1.removeIndexFault E 1 1).bind fun s => (run E s.2 [.find 2, .find 7, .size]).map fun w => (s.1, w.2)) =
    some (true, [.found (some 20), .found (some 30), .num 3]) := by decide

end

/-! ## DualMappedVector -/

section
variable {K1 K2 V : Type} [DecidableEq K1] [DecidableEq K2]
open Verif.Mapped.Dual
open Verif.Mapped.Vector (Obs Ideal Entry)

/-- C90 as far as it holds, DualMappedVector with stable storage: if the element is not the last one, an exception while
its search terms are copied has no effect. -/
theorem Dual.remove_throw_stable_partial (N : Nat) (i1 : MapImpl K1) (i2 : MapImpl K2)
    (m m' : DMV (Verif.Block.Vector.Vec × Heap V) K1 K2) (a : Ideal (K1 ⊕ K2) V) (h : ReachedS N i1 i2 m a) (i : Nat)
    (l : Loop) (n : Nat) (hi : i + 1 < a.entries.length)
    (ht : m.removeIndexFault (Dual.stableEnv N i1 i2) i l n = some (true, m')) : m' = m := by
  have v := h.inv (L := stableLawful N V) (stableFailing N V) (stableStarts N V)
  have hs : m.data.1.size = a.entries.length := v.size_eq
  have he : (Dual.stableEnv (V := V) N i1 i2).st.erase m.data i = some (m.data, false) := by
    simp only [Dual.stableEnv, stableStore, hs]
    rw [if_neg (by omega)]
  cases l <;>
  · simp only [DMV.removeIndexFault] at ht
    split at ht
    · simp only [he, Option.map_some, lowered_false] at ht
      cases ht; rfl
    · simp at ht

/-- C90 as far as it holds, DualMappedVector with vector storage: after an exception in `removeIndex(i)` the elements before
`i` are still found under their search terms. -/
theorem Dual.remove_throw_unstable_partial (i1 : MapImpl K1) (i2 : MapImpl K2)
    (m m' : DMV (List V) K1 K2) (a : Ideal (K1 ⊕ K2) V) (h : ReachedU i1 i2 m a) (i : Nat) (l : Loop) (n : Nat)
    (ht : m.removeIndexFault (Dual.unstableEnv i1 i2) i l n = some (true, m')) (j : Nat) (hj : j < i) (k : K1 ⊕ K2) (x : V)
    (ks : List (K1 ⊕ K2)) (he : a.entries[j]? = some ⟨x, ks⟩) (hk : k ∈ ks) :
    exec (Dual.unstableEnv i1 i2) m' (.find k) = some (m', .found (some x)) := by
  have v := h.inv (L := vectorLawful V) (vectorFailing V) (vectorStarts V)
  have hr : m.data = a.entries.map (·.value) := v.rep.1
  have hlk : a.lookup k = some j := (lookup_iff v k j).2 ⟨_, he, hk⟩
  have hd : i < m.data.length ∧ ∃ l1 l2, m' = ⟨m.data.eraseIdx i, l1, l2⟩ ∧
      (∀ k j, j ≤ i → FMap.find m.lookup1 k = some j → FMap.find l1 k = some j) ∧
      (∀ k j, j ≤ i → FMap.find m.lookup2 k = some j → FMap.find l2 k = some j) := by
    cases l <;>
    · simp only [DMV.removeIndexFault] at ht
      split at ht
      · rename_i hc
        have hlt : i < m.data.length := hc.1
        have hee : (Dual.unstableEnv (V := V) i1 i2).st.erase m.data i = some (m.data.eraseIdx i, true) := by
          simp only [Dual.unstableEnv, vectorStore, if_pos hlt]
        rw [hee, Option.map_some] at ht
        cases ht
        refine ⟨hlt, _, _, rfl, ?_, ?_⟩ <;> intro k j hj h <;> first
          | exact h
          | exact find_lowered _ _ _ _ _ _ hj h
      · simp at ht
  obtain ⟨hlt, l1, l2, rfl, f1, f2⟩ := hd
  have hg : (m.data.eraseIdx i)[j]? = some x := by
    rw [List.getElem?_eraseIdx, if_pos hj, hr]; simp [he]
  have hne : j ≠ (m.data.eraseIdx i).length := fun h => by
    have := (List.getElem?_eq_some_iff.1 hg).1; omega
  cases k with
  | inl k =>
    rw [lookup_inl v] at hlk
    simp [exec, DMV.find1, f1 k j (by omega) hlk, Dual.unstableEnv, vectorStore, hne, hg]
  | inr k =>
    rw [lookup_inr v] at hlk
    simp [exec, DMV.find2, f2 k j (by omega) hlk, Dual.unstableEnv, vectorStore, hne, hg]

/-- C90 fails for DualMappedVector with vector storage, in every state: `removeIndex(i)` throws while copying a search term
of the element; afterwards the element is gone, but all its search terms find the element that followed it. -/
theorem Dual.remove_throw_violation (i1 : MapImpl K1) (i2 : MapImpl K2)
    (m : DMV (List V) K1 K2) (a : Ideal (K1 ⊕ K2) V) (h : ReachedU i1 i2 m a) (i : Nat) (k : K1 ⊕ K2) (x y : V)
    (ks ls : List (K1 ⊕ K2)) (he : a.entries[i]? = some ⟨x, ks⟩) (hk : k ∈ ks)
    (hy : a.entries[i + 1]? = some ⟨y, ls⟩) :
    ∃ l n m', m.removeIndexFault (Dual.unstableEnv i1 i2) i l n = some (true, m') ∧
      m'.size (Dual.unstableEnv (V := V) i1 i2) + 1 = a.entries.length ∧
      ∀ k' ∈ ks, exec (Dual.unstableEnv i1 i2) m' (.find k') = some (m', .found (some y)) := by
  have v := h.inv (L := vectorLawful V) (vectorFailing V) (vectorStarts V)
  have hr : m.data = a.entries.map (·.value) := v.rep.1
  have hlt2 : i + 1 < a.entries.length := (List.getElem?_eq_some_iff.1 hy).1
  have hlt : i < m.data.length := by rw [hr]; simp; omega
  have hee : (Dual.unstableEnv (V := V) i1 i2).st.erase m.data i = some (m.data.eraseIdx i, true) := by
    simp only [Dual.unstableEnv, vectorStore, if_pos hlt]
  have hsz : (m.data.eraseIdx i).length + 1 = a.entries.length := by
    rw [List.length_eraseIdx, if_pos hlt, hr]; simp; omega
  have hg : (m.data.eraseIdx i)[i]? = some y := by
    rw [List.getElem?_eraseIdx, if_neg (by omega), hr]; simp [hy]
  have hne : i ≠ (m.data.eraseIdx i).length := by omega
  have found : ∀ l1 l2, (∀ k, FMap.find m.lookup1 k = some i → FMap.find l1 k = some i) →
      (∀ k, FMap.find m.lookup2 k = some i → FMap.find l2 k = some i) → ∀ k' ∈ ks,
      exec (Dual.unstableEnv i1 i2) (⟨m.data.eraseIdx i, l1, l2⟩ : DMV (List V) K1 K2) (.find k') =
        some (⟨m.data.eraseIdx i, l1, l2⟩, .found (some y)) := by
    intro l1 l2 f1 f2 k' hk'
    have hlk : a.lookup k' = some i := (lookup_iff v k' i).2 ⟨_, he, hk'⟩
    cases k' with
    | inl k =>
      rw [lookup_inl v] at hlk
      simp [exec, DMV.find1, f1 k hlk, Dual.unstableEnv, vectorStore, hne, hg]
    | inr k =>
      rw [lookup_inr v] at hlk
      simp [exec, DMV.find2, f2 k hlk, Dual.unstableEnv, vectorStore, hne, hg]
  have hlk : a.lookup k = some i := (lookup_iff v k i).2 ⟨_, he, hk⟩
  cases k with
  | inl k =>
    rw [lookup_inl v] at hlk
    obtain ⟨n, hn⟩ := position hlk
    refine ⟨.first, n, ⟨m.data.eraseIdx i, lowered true i n m.lookup1, m.lookup2⟩, ?_, hsz, ?_⟩
    · simp only [DMV.removeIndexFault]
      rw [if_pos ⟨hlt, hn⟩, hee, Option.map_some]
    · exact found _ _ (fun k h => find_lowered _ _ _ _ _ _ (by omega) h) (fun k h => h)
  | inr k =>
    rw [lookup_inr v] at hlk
    obtain ⟨n, hn⟩ := position hlk
    refine ⟨.second, n, ⟨m.data.eraseIdx i, lowered true i m.lookup1.length m.lookup1, lowered true i n m.lookup2⟩, ?_, hsz, ?_⟩
    · simp only [DMV.removeIndexFault]
      rw [if_pos ⟨hlt, hn⟩, hee, Option.map_some]
    · exact found _ _ (fun k h => find_lowered _ _ _ _ _ _ (by omega) h)
        (fun k h => find_lowered _ _ _ _ _ _ (by omega) h)

/-- The hypotheses hold, for example, for the second element after `demo2`. -/
example : ∃ m a, ReachedU (V := Nat) MapImpl.atEnd MapImpl.atFront m a ∧
    a.entries[1]? = some ⟨20, [.inl 7, .inr 2, .inl 2]⟩ ∧ a.entries[2]? = some ⟨30, [.inr 3, .inl 3]⟩ := by
  obtain ⟨m, _, R⟩ := after_failures_unstable (V := Nat) MapImpl.atEnd MapImpl.atFront _ _ .start Dual.demo2
    ⟨[⟨10, [.inr 1, .inl 1]⟩, ⟨20, [.inl 7, .inr 2, .inl 2]⟩, ⟨30, [.inr 3, .inl 3]⟩], 0⟩
    [.index (some 0), .index (some 1), .index (some 2), .bool true] (by decide)
  exact ⟨m, _, R, rfl, rfl⟩
example :
    let E := Dual.stableEnv (K1 := Nat) (K2 := Nat) (V := Nat) 1 MapImpl.atEnd MapImpl.atFront
    ((run E (DMV.init E) Dual.demo2).bind fun r =>
      (r.1.removeIndexFault E 1 .second 1).bind fun s => (run E s.2 [.find (.inl 2), .find (.inr 3), .size]).map fun w => (s.1, w.2)) =
    some (true, [.found (some 20), .found (some 30), .num 3]) := by decide

end
end Verif.Mapped
