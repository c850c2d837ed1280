import Mathlib.Data.List.Nodup
import Mathlib.Data.List.Perm.Basic

/-
Model of `std::map<K, size_t>` and `std::unordered_map<K, size_t>`, as the list of their entries in iteration
order.  Nothing is assumed about the position of a new entry, nor about the old entries keeping their order
(rehashing): `MapImpl.ins` may be any function whose result is a permutation.
-/
namespace Verif.Mapped

variable {K : Type}

/-- Entries in iteration order. -/
abbrev FMap (K : Type) := List (K × Nat)

/-- How a map places a new entry. -/
structure MapImpl (K : Type) where
  ins : FMap K → K → Nat → FMap K
  perm : ∀ m k i, (ins m k i).Perm ((k, i) :: m)

/-- Appending; an example of an implementation. -/
def MapImpl.atEnd : MapImpl K := ⟨fun m k i => m ++ [(k, i)], fun m k i => by
  exact List.perm_append_comm (l₁ := m) (l₂ := [(k, i)])⟩

/-- Insertion at the front; an example of an implementation. -/
def MapImpl.atFront : MapImpl K := ⟨fun m k i => (k, i) :: m, fun _ _ _ => List.Perm.refl _⟩

namespace FMap
variable [DecidableEq K]

/-- `m.find(k)`: the index stored under `k`. -/
def find (m : FMap K) (k : K) : Option Nat := (List.find? (fun e => decide (e.1 = k)) m).map (·.2)

/-- `m.emplace(k, i)`: (new map, whether inserted); an existing entry is kept. -/
def emplace (I : MapImpl K) (m : FMap K) (k : K) (i : Nat) : FMap K × Bool :=
  if (find m k).isSome then (m, false) else (I.ins m k i, true)

/-- `m[k] = i`. -/
def put (I : MapImpl K) (m : FMap K) (k : K) (i : Nat) : FMap K :=
  if (find m k).isSome then m.map fun e => if e.1 = k then (e.1, i) else e else I.ins m k i

/-- `m.erase(it)` for the entry with key `k`. -/
def erase (m : FMap K) (k : K) : FMap K := m.filter fun e => e.1 ≠ k

/-- keys are unique -/
def WF (m : FMap K) : Prop := (m.map (·.1)).Nodup

omit [DecidableEq K] in
theorem WF.nil : WF ([] : FMap K) := List.nodup_nil

theorem find_eq_some {m : FMap K} (w : WF m) {k : K} {i : Nat} : find m k = some i ↔ (k, i) ∈ m := by
  induction m with
  | nil => simp [find]
  | cons e m ih =>
    have w' : e.1 ∉ m.map (·.1) ∧ WF m := by simpa [WF] using w
    by_cases h : e.1 = k
    · have : ∀ j, (k, j) ∉ m := fun j hj => w'.1 (h ▸ List.mem_map_of_mem (f := (·.1)) hj)
      obtain ⟨a, b⟩ := e
      simp only at h; subst h
      simp [find, this, eq_comm]
    · have h2 : find (e :: m) k = find m k := by simp [find, h]
      rw [h2, ih w'.2]
      simp only [List.mem_cons]
      constructor
      · exact .inr
      · rintro (h3 | h3)
        · exact absurd (by rw [← h3]) h
        · exact h3

theorem find_eq_none {m : FMap K} {k : K} : find m k = none ↔ ∀ i, (k, i) ∉ m := by
  simp only [find, Option.map_eq_none_iff, List.find?_eq_none]
  constructor
  · intro h i hi; simpa using h _ hi
  · rintro h ⟨a, b⟩ hx hk
    simp only [decide_eq_true_eq] at hk; subst hk
    exact h b hx

theorem find_ext {m m' : FMap K} (w : WF m) (w' : WF m') (h : ∀ k i, (k, i) ∈ m ↔ (k, i) ∈ m') (k : K) :
    find m k = find m' k := by
  apply Option.ext
  intro i
  rw [find_eq_some w, find_eq_some w', h]

theorem ins_wf {I : MapImpl K} {m : FMap K} (w : WF m) {k : K} (i : Nat) (h : find m k = none) : WF (I.ins m k i) := by
  have h2 := (I.perm m k i).map (·.1)
  unfold WF
  rw [h2.nodup_iff]
  simp only [List.map_cons, List.nodup_cons]
  refine ⟨?_, w⟩
  rw [find_eq_none] at h
  rintro hm
  obtain ⟨⟨a, b⟩, h3, h4⟩ := List.mem_map.1 hm
  simp only at h4; subst h4
  exact h b h3

theorem find_ins {I : MapImpl K} {m : FMap K} (w : WF m) {k : K} (i : Nat) (h : find m k = none) (k' : K) :
    find (I.ins m k i) k' = if k' = k then some i else find m k' := by
  have w2 := ins_wf (I := I) w i h
  have mem : ∀ e, e ∈ I.ins m k i ↔ e ∈ (k, i) :: m := fun e => (I.perm m k i).mem_iff
  split
  · rename_i hk; subst hk
    rw [find_eq_some w2, mem]; simp
  · rename_i hk
    apply Option.ext
    intro j
    rw [find_eq_some w2, find_eq_some w, mem]
    simp [hk]

theorem emplace_wf {I : MapImpl K} {m : FMap K} (w : WF m) (k : K) (i : Nat) : WF (emplace I m k i).1 := by
  rw [emplace]
  split
  · exact w
  · rename_i h; exact ins_wf w i (by simpa using h)

theorem find_emplace {I : MapImpl K} {m : FMap K} (w : WF m) (k : K) (i : Nat) (k' : K) :
    find (emplace I m k i).1 k' = if k' = k ∧ find m k = none then some i else find m k' := by
  rw [emplace]
  split
  · rename_i h
    rw [if_neg]
    rintro ⟨_, h2⟩
    rw [h2] at h; cases h
  · rename_i h
    have h : find m k = none := by simpa using h
    rw [find_ins w i h]
    simp [h]

theorem put_wf {I : MapImpl K} {m : FMap K} (w : WF m) (k : K) (i : Nat) : WF (put I m k i) := by
  rw [put]
  split
  · unfold WF
    rw [List.map_map]
    have : ((fun x => x.1) ∘ fun e : K × Nat => if e.1 = k then (e.1, i) else e) = fun x => x.1 := by
      funext e; simp only [Function.comp]; split <;> rfl
    rw [this]; exact w
  · rename_i h; exact ins_wf w i (by simpa using h)

theorem find_put {I : MapImpl K} {m : FMap K} (w : WF m) (k : K) (i : Nat) (k' : K) :
    find (put I m k i) k' = if k' = k then some i else find m k' := by
  have w2 := put_wf (I := I) w k i
  by_cases hs : (find m k).isSome
  · have he : put I m k i = m.map fun e => if e.1 = k then (e.1, i) else e := by rw [put, if_pos hs]
    obtain ⟨j, hj⟩ := Option.isSome_iff_exists.1 hs
    have hj := (find_eq_some w).1 hj
    split
    · rename_i hk; subst hk
      rw [find_eq_some w2, he, List.mem_map]
      exact ⟨_, hj, by simp⟩
    · rename_i hk
      apply Option.ext
      intro l
      rw [find_eq_some w2, find_eq_some w, he, List.mem_map]
      constructor
      · rintro ⟨⟨a, b⟩, h1, h2⟩
        simp only at h2
        split at h2
        · rename_i h3; cases h2; exact absurd h3 hk
        · cases h2; exact h1
      · intro h1
        exact ⟨_, h1, by simp [hk]⟩
  · have h : find m k = none := by simpa using hs
    rw [put, if_neg hs, find_ins w i h]

theorem erase_wf {m : FMap K} (w : WF m) (k : K) : WF (erase m k) :=
  List.Nodup.sublist (List.Sublist.map _ List.filter_sublist) w

theorem find_erase {m : FMap K} (w : WF m) (k k' : K) :
    find (erase m k) k' = if k' = k then none else find m k' := by
  split
  · rename_i hk; subst hk
    rw [find_eq_none]; simp [erase]
  · rename_i hk
    apply Option.ext
    intro j
    rw [find_eq_some (erase_wf w k), find_eq_some w]
    simp [erase, hk]

omit [DecidableEq K] in
theorem mapVal_wf {m : FMap K} (w : WF m) (f : Nat → Nat) : WF (m.map fun e => (e.1, f e.2)) := by
  unfold WF
  rw [List.map_map]; exact w

theorem find_mapVal {m : FMap K} (w : WF m) (f : Nat → Nat) (k : K) :
    find (m.map fun e => (e.1, f e.2)) k = (find m k).map f := by
  apply Option.ext
  intro j
  rw [find_eq_some (mapVal_wf w f), Option.map_eq_some_iff]
  simp only [find_eq_some w, List.mem_map, Prod.mk.injEq, Prod.exists]
  constructor
  · rintro ⟨a, b, h, rfl, rfl⟩; exact ⟨b, h, rfl⟩
  · rintro ⟨b, h, rfl⟩; exact ⟨k, b, h, rfl, rfl⟩

end FMap
end Verif.Mapped
