import Verif.Mapped.Map

/-
Helper lemmas: a map binds exactly the keys listed for each position.
-/
namespace Verif.Mapped
variable {K : Type} [DecidableEq K]

/-- `m` maps `k` to `i` iff `k` is listed at position `i`. -/
structure Binds (m : FMap K) (kss : List (List K)) : Prop where
  wf : FMap.WF m
  iff : ∀ k i, FMap.find m k = some i ↔ ∃ ks, kss[i]? = some ks ∧ k ∈ ks

namespace Binds
variable {m : FMap K} {kss : List (List K)}

theorem nil : Binds ([] : FMap K) [] := ⟨.nil, by simp [FMap.find]⟩

theorem lt (b : Binds m kss) {k : K} {i : Nat} (h : FMap.find m k = some i) : i < kss.length := by
  obtain ⟨ks, h1, _⟩ := (b.iff k i).1 h
  exact (List.getElem?_eq_some_iff.1 h1).1

theorem none_iff (b : Binds m kss) {k : K} : FMap.find m k = none ↔ ∀ ks ∈ kss, k ∉ ks := by
  constructor
  · intro h ks hk hm
    obtain ⟨i, hi, rfl⟩ := List.getElem_of_mem hk
    have := (b.iff k i).2 ⟨_, List.getElem?_eq_getElem hi, hm⟩
    rw [h] at this; cases this
  · intro h
    cases h2 : FMap.find m k with
    | none => rfl
    | some i =>
      obtain ⟨ks, h3, h4⟩ := (b.iff k i).1 h2
      exact absurd h4 (h ks (List.mem_of_getElem? h3))

/-- the map finds what a search through the positions finds -/
theorem findIdx (b : Binds m kss) (k : K) : kss.findIdx? (fun ks => decide (k ∈ ks)) = FMap.find m k := by
  cases h : FMap.find m k with
  | none =>
    rw [List.findIdx?_eq_none_iff]
    intro ks hk
    simpa using b.none_iff.1 h ks hk
  | some i =>
    obtain ⟨ks, h1, h2⟩ := (b.iff k i).1 h
    obtain ⟨hi, rfl⟩ := List.getElem?_eq_some_iff.1 h1
    rw [List.findIdx?_eq_some_iff_getElem]
    refine ⟨hi, by simpa using h2, fun j hj => ?_⟩
    have hj' : j < kss.length := by omega
    intro h3
    have := (b.iff k j).2 ⟨_, List.getElem?_eq_getElem hj', by simpa using h3⟩
    rw [h] at this
    cases this; omega

/-- new position -/
theorem append {I : MapImpl K} (b : Binds m kss) {k : K} (h : FMap.find m k = none) :
    Binds (FMap.emplace I m k kss.length).1 (kss ++ [[k]]) := by
  refine ⟨FMap.emplace_wf b.wf _ _, fun k' i => ?_⟩
  rw [FMap.find_emplace b.wf]
  rcases Nat.lt_trichotomy i kss.length with hi | rfl | hi
  · rw [List.getElem?_append_left hi]
    by_cases hk : k' = k
    · subst hk
      rw [if_pos ⟨rfl, h⟩]
      constructor
      · intro e; cases e; omega
      · intro e; have := (b.iff k' i).2 e; rw [h] at this; cases this
    · rw [if_neg (by simp [hk])]; exact b.iff k' i
  · rw [List.getElem?_append_right (Nat.le_refl _)]
    simp only [Nat.sub_self, List.getElem?_cons_zero, Option.some.injEq, exists_eq_left', List.mem_singleton]
    constructor
    · intro e
      split at e
      · rename_i h2; exact h2.1
      · have := b.lt e; omega
    · rintro rfl; rw [if_pos ⟨rfl, h⟩]
  · rw [List.getElem?_append_right (by omega)]
    have : ([[k]] : List (List K))[i - kss.length]? = none := by
      rw [List.getElem?_eq_none_iff]; simp; omega
    rw [this]
    simp only [reduceCtorEq, false_and, exists_false, iff_false]
    intro e
    split at e
    · cases e; omega
    · have := b.lt e; omega

theorem append_nil (b : Binds m kss) : Binds m (kss ++ [[]]) := by
  refine ⟨b.wf, fun k i => ?_⟩
  rw [b.iff]
  rcases Nat.lt_or_ge i kss.length with hi | hi
  · rw [List.getElem?_append_left hi]
  · rw [List.getElem?_append_right hi, List.getElem?_eq_none hi]
    simp only [reduceCtorEq, false_and, exists_false, false_iff, not_exists, not_and]
    intro ks h
    have := List.mem_of_getElem? h
    simp at this; subst this; simp

/-- another key for a position -/
theorem add {I : MapImpl K} (b : Binds m kss) {k : K} {i : Nat} (h : FMap.find m k = none) (hi : i < kss.length) :
    Binds (FMap.emplace I m k i).1 (kss.modify i (k :: ·)) := by
  refine ⟨FMap.emplace_wf b.wf _ _, fun k' j => ?_⟩
  rw [FMap.find_emplace b.wf, List.getElem?_modify]
  by_cases hk : k' = k
  · subst hk
    rw [if_pos ⟨rfl, h⟩]
    have hn := b.none_iff.1 h
    constructor
    · intro e; cases e
      exact ⟨k' :: kss[i], by simp [List.getElem?_eq_getElem hi], by simp⟩
    · rintro ⟨ks, h1, h2⟩
      obtain ⟨ks', h3, h4⟩ := Option.map_eq_some_iff.1 h1
      by_cases hij : i = j
      · rw [hij]
      · simp only [if_neg hij] at h4
        subst h4
        exact absurd h2 (hn _ (List.mem_of_getElem? h3))
  · rw [if_neg (by simp [hk]), b.iff]
    constructor
    · rintro ⟨ks, h1, h2⟩
      refine ⟨_, by rw [h1]; rfl, ?_⟩
      split
      · exact List.mem_cons_of_mem _ h2
      · exact h2
    · rintro ⟨ks, h1, h2⟩
      obtain ⟨ks', h3, h4⟩ := Option.map_eq_some_iff.1 h1
      subst h4
      refine ⟨_, h3, ?_⟩
      split at h2
      · exact (List.mem_cons.1 h2).resolve_left hk
      · exact h2

/-- index of a position after position `i` has been taken out -/
def shift (i j : Nat) : Nat := if j > i then j - 1 else j

/-- taking out a position with all its keys -/
theorem eraseIdx {m' : FMap K} (b : Binds m kss) (w : FMap.WF m') {i : Nat}
    (h : ∀ k, FMap.find m' k = if FMap.find m k = some i then none else (FMap.find m k).map (shift i)) :
    Binds m' (kss.eraseIdx i) := by
  refine ⟨w, fun k j => ?_⟩
  rw [h, List.getElem?_eraseIdx]
  constructor
  · intro e
    split at e
    · cases e
    · rename_i hne
      obtain ⟨l, h1, h2⟩ := Option.map_eq_some_iff.1 e
      have hl : l ≠ i := fun e => hne (e ▸ h1)
      obtain ⟨ks, h3, h4⟩ := (b.iff k l).1 h1
      refine ⟨ks, ?_, h4⟩
      unfold shift at h2
      split at h2
      · rw [if_neg (by omega), ← h3]; congr 1; omega
      · rw [if_pos (by omega), ← h3, h2]
  · rintro ⟨ks, h1, h2⟩
    split at h1
    · rename_i hj
      have h3 := (b.iff k j).2 ⟨ks, h1, h2⟩
      rw [h3, if_neg (by simp; omega)]
      simp [shift]; omega
    · rename_i hj
      have h3 := (b.iff k (j + 1)).2 ⟨ks, h1, h2⟩
      rw [h3, if_neg (by simp; omega)]
      simp [shift]; omega

/-- dropping all keys of a position -/
theorem clearIdx {m' : FMap K} (b : Binds m kss) (w : FMap.WF m') {i : Nat}
    (h : ∀ k, FMap.find m' k = if FMap.find m k = some i then none else FMap.find m k) :
    Binds m' (kss.modify i fun _ => []) := by
  refine ⟨w, fun k j => ?_⟩
  rw [h, List.getElem?_modify]
  constructor
  · intro e
    split at e
    · cases e
    · rename_i hne
      have hl : i ≠ j := fun e2 => hne (e2 ▸ e)
      obtain ⟨ks, h3, h4⟩ := (b.iff k j).1 e
      exact ⟨ks, by rw [h3]; simp [hl], h4⟩
  · rintro ⟨ks, h1, h2⟩
    obtain ⟨ks', h3, h4⟩ := Option.map_eq_some_iff.1 h1
    by_cases hij : i = j
    · subst h4; simp [hij] at h2
    · simp only [if_neg hij] at h4
      subst h4
      have h5 := (b.iff k j).2 ⟨_, h3, h2⟩
      rw [h5, if_neg (by simpa using fun e => hij e.symm)]

/-- which keys map to a position with a single key -/
theorem single (b : Binds m kss) {i : Nat} {k : K} (h : kss[i]? = some [k]) (k' : K) :
    FMap.find m k' = some i ↔ k' = k := by
  rw [b.iff]
  constructor
  · rintro ⟨ks, h1, h2⟩
    rw [h] at h1; cases h1
    simpa using h2
  · rintro rfl; exact ⟨_, h, by simp⟩

theorem noKey (b : Binds m kss) {i : Nat} (h : kss[i]? = some []) (k' : K) : FMap.find m k' ≠ some i := by
  rw [Ne, b.iff]
  rintro ⟨ks, h1, h2⟩
  rw [h] at h1; cases h1
  simp at h2

/-- the map after the indices above `i` have been lowered (if `sh`) and the only key of `i` erased -/
theorem find_removed (b : Binds m kss) {i : Nat} {k : K} (hi : kss[i]? = some [k]) (sh : Bool) (k' : K) :
    FMap.find (FMap.erase (m.map fun e => (e.1, if sh = true then shift i e.2 else e.2)) k) k' =
      if FMap.find m k' = some i then none else
      (FMap.find m k').map fun j => if sh = true then shift i j else j := by
  rw [FMap.find_erase (FMap.mapVal_wf b.wf (fun j => if sh = true then shift i j else j)),
    FMap.find_mapVal b.wf (fun j => if sh = true then shift i j else j)]
  have := b.single hi k'
  by_cases h : k' = k
  · rw [if_pos h, if_pos (this.2 h)]
  · rw [if_neg h, if_neg (fun e => h (this.1 e))]

end Binds
end Verif.Mapped
