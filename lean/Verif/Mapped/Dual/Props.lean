import Verif.Mapped.Dual.Lemmas

/-
DualMappedVector: properties C40, C41, C42.
-/
namespace Verif.Mapped.Dual
open Verif.Mapped Verif.Block
open Verif.Mapped.Vector (Obs Ideal Entry)

variable {K1 K2 V : Type} [DecidableEq K1] [DecidableEq K2]

omit [DecidableEq K1] [DecidableEq K2] in
/-- `DualMappedVector<V, K1, K2, reference_stability::unstable>`. -/
def unstableEnv (i1 : MapImpl K1) (i2 : MapImpl K2) : Env (List V) K1 K2 V := ⟨vectorStore V, i1, i2⟩

omit [DecidableEq K1] [DecidableEq K2] in
/-- `DualMappedVector<V, K1, K2, reference_stability::stable, N>`. -/
def stableEnv (N : Nat) (i1 : MapImpl K1) (i2 : MapImpl K2) : Env (Verif.Block.Vector.Vec × Heap V) K1 K2 V :=
  ⟨stableStore N V, i1, i2⟩

omit [DecidableEq K1] [DecidableEq K2] in
/-- the ideal new container -/
def empty : Ideal (K1 ⊕ K2) V := ⟨[], 0⟩

/-! ## Histories -/

/-- For vector storage every call is careful. -/
theorem careful_unstable (ops : List (Op K1 K2 V)) : ∀ (a0 : Ideal (K1 ⊕ K2) V) a os,
    idealRun .unstable a0 ops = some (a, os) → carefulRun .unstable a0 ops = true := by
  induction ops with
  | nil => intros; rfl
  | cons op ops ih =>
    intro a0 a os h
    simp only [idealRun, Option.bind_eq_some_iff, Option.map_eq_some_iff] at h
    obtain ⟨⟨a1, o⟩, h1, ⟨a2, os2⟩, h2, h3⟩ := h
    simp only [carefulRun, h1, Bool.and_eq_true]
    refine ⟨?_, ih a1 a2 os2 h2⟩
    cases op <;> simp [careful, Kind.iterable]

/-- For every order in which the maps may iterate and every history that the specification allows: the code is defined
and returns what the specification returns.  Vector storage; nothing is excluded. -/
theorem history_unstable (i1 : MapImpl K1) (i2 : MapImpl K2) (ops : List (Op K1 K2 V)) (a : Ideal (K1 ⊕ K2) V)
    (os : List (Obs V)) (h : idealRun .unstable empty ops = some (a, os)) :
    ∃ m, run (unstableEnv i1 i2) (DMV.init (unstableEnv i1 i2)) ops = some (m, os) := by
  obtain ⟨m, e, _⟩ := simulate (E := unstableEnv i1 i2) (L := vectorLawful V) ops (init_inv (vectorStarts _)) (careful_unstable ops _ _ _ h) h
  exact ⟨m, e⟩

/-- The same for stable storage, except for traversals and unsuccessful searches while the reserved block slots are
exactly full. -/
theorem history_stable_partial (N : Nat) (i1 : MapImpl K1) (i2 : MapImpl K2) (ops : List (Op K1 K2 V))
    (a : Ideal (K1 ⊕ K2) V) (os : List (Obs V)) (h : idealRun (.stable N) empty ops = some (a, os))
    (hc : carefulRun (.stable N) empty ops = true) :
    ∃ m, run (stableEnv N i1 i2) (DMV.init (stableEnv N i1 i2)) ops = some (m, os) := by
  obtain ⟨m, e, _⟩ := simulate (E := stableEnv N i1 i2) (L := stableLawful N V) ops (init_inv (stableStarts _ _)) hc h
  exact ⟨m, e⟩

/-- a program using every call -/
def demo : List (Op Nat Nat Nat) :=
  [.insert (some 1) (some 1) 10, .insert (some 2) (some 1) 20, .insert (some 2) (some 1) 21, .insert none (some 5) 30,
   .insert (some 3) none 40, .insert none none 50, .find (.inl 1), .find (.inr 1), .insertOrAssign 1 1 11, .find (.inr 1),
   .find (.inl 2), .insertOrAssignOne (.inl 9) 60, .insertOrAssignOne (.inr 9) 70, .insertOrAssignOne (.inl 9) 61,
   .addTermForIndex (.inr 4) 3, .addTermForIndex (.inl 4) 17, .addTermForIndex (.inl 3) 0, .addTerm (.inl 30) (.inr 4),
   .addTerm (.inr 31) (.inl 30), .addTerm (.inl 32) (.inl 3), .addTerm (.inr 33) (.inr 31), .find (.inr 33),
   .remove (.inl 2), .find (.inr 33), .find (.inl 2), .find (.inr 1), .remove (.inr 33), .find (.inl 32), .find (.inr 5),
   .remove (.inl 77), .removeIndex 1, .removeIndex 99, .find (.inr 5), .find (.inl 9), .get 0, .set 0 12, .at 0, .at 9,
   .back, .size, .apply, .modify (· + 1), .transform (· * 2), .apply, .clear, .size]

example : (idealRun .unstable empty demo).map (·.2) = some
    [.index (some 0), .index (some 1), .index none, .index (some 2), .index (some 3), .index (some 4), .found (some 10),
     .found (some 20), .index (some 0), .found (some 11), .found (some 20), .index (some 5), .index (some 6), .index (some 5),
     .bool true, .bool false, .bool false, .bool true, .bool true, .bool true, .bool true, .found (some 40), .done,
     .found (some 40), .found none, .found (some 11), .done, .found none, .found (some 30), .done, .done, .done,
     .found none, .found (some 61), .val 11, .done, .val 12, .threw, .val 70, .num 4, .vals [12, 50, 61, 70], .done, .done,
     .vals [26, 102, 124, 142], .done, .num 0] := by decide +kernel
example : (idealRun (.stable 0) empty demo).isSome = true := by decide +kernel
example : carefulRun (.stable 0) empty demo = true := by decide +kernel

/-- For stable storage whose reserved block slots are exactly full, searching for an unknown key is undefined (block
order 0, 64 elements). -/
theorem find_full :
    (run (stableEnv 0 MapImpl.atEnd MapImpl.atEnd) (DMV.init (stableEnv (V := Nat) 0 MapImpl.atEnd MapImpl.atEnd))
      ((List.range 64).map fun i => Op.insert (some i) (some i) i)).isSome = true ∧
    (run (stableEnv 0 MapImpl.atEnd MapImpl.atEnd) (DMV.init (stableEnv (V := Nat) 0 MapImpl.atEnd MapImpl.atEnd))
      ((List.range 64).map (fun i => Op.insert (some i) (some i) i) ++ [.find (.inr 64)])).isSome = false := by decide +kernel

/-! ## C40, C41, C42

`E` is any storage that behaves as a sequence: instances below for both storages. -/

section
variable {S : Type}

/-- `find(k)` yields `y` (for a key of either type). -/
def Finds (E : Env S K1 K2 V) (m : DMV S K1 K2) (k : K1 ⊕ K2) (y : V) : Prop :=
  exec E m (.find k) = some (m, .found (some y))

/-- C40 of a state: `insert(k1,k2,x)` fails iff both keys find something, and then changes nothing; otherwise it
appends `x`, both keys find it, all other elements and what other keys find are as before. -/
def InsertOk (E : Env S K1 K2 V) (m : DMV S K1 K2) : Prop :=
  ∀ (k1 : K1) (k2 : K2) (x : V),
    ((∃ y, Finds E m (.inl k1) y) ∧ (∃ y, Finds E m (.inr k2) y) → m.insert E k1 k2 x = some (m, none)) ∧
    (¬ ((∃ y, Finds E m (.inl k1) y) ∧ (∃ y, Finds E m (.inr k2) y)) →
      ∃ m', m.insert E k1 k2 x = some (m', some (m.size E)) ∧ m'.size E = m.size E + 1 ∧
        m'.get E (m.size E) = some x ∧ (∀ j, j < m.size E → m'.get E j = m.get E j) ∧
        Finds E m' (.inl k1) x ∧ Finds E m' (.inr k2) x ∧
        ∀ k, k ≠ .inl k1 → k ≠ .inr k2 → ∀ y, Finds E m' k y ↔ Finds E m k y)

/-- C41 of a state whose elements and keys are `a`: removing element `i`, by its index or by any of its keys, leaves
every other key at its element and nothing under the keys of the removed one. -/
def RemoveOk (E : Env S K1 K2 V) (kind : Kind) (m : DMV S K1 K2) (a : Ideal (K1 ⊕ K2) V) : Prop :=
  ∀ (i : Nat) (e : Entry (K1 ⊕ K2) V) (op : Op K1 K2 V), a.entries[i]? = some e →
    (op = .removeIndex i ∨ ∃ k ∈ e.keys, op = .remove k) →
    ∃ m', exec E m op = some (m', .done) ∧
      (∀ (j : Nat) (f : Entry (K1 ⊕ K2) V) (k : K1 ⊕ K2), j ≠ i → a.entries[j]? = some f → k ∈ f.keys → Finds E m' k f.value) ∧
      (∀ k, (k ∈ e.keys ∨ ∀ f ∈ a.entries, k ∉ f.keys) →
        (∀ y, ¬ Finds E m' k y) ∧
        (kind.iterable a.reserved (a.drop kind i).entries.length = true → exec E m' (.find k) = some (m', .found none)))

/-- C42 of a state whose elements and keys are `a`: after `insert_or_assign(k1,k2,x)` both keys find `x` at the
returned position `r`; elements other than `r` keep their value and every other key stays at its element. -/
def InsertOrAssignOk (E : Env S K1 K2 V) (m : DMV S K1 K2) (a : Ideal (K1 ⊕ K2) V) : Prop :=
  ∀ (k1 : K1) (k2 : K2) (x : V), ∃ m' r, m.insertOrAssign E k1 k2 x = some (m', r) ∧
    (∀ (j : Nat) (f : Entry (K1 ⊕ K2) V), a.entries[j]? = some f → Sum.inl k1 ∈ f.keys → r = j ∧ m'.size E = m.size E) ∧
    ((∀ f ∈ a.entries, Sum.inl k1 ∉ f.keys) → r = m.size E ∧ m'.size E = m.size E + 1) ∧
    m'.get E r = some x ∧ Finds E m' (.inl k1) x ∧ Finds E m' (.inr k2) x ∧
    (∀ j, j ≠ r → j < m.size E → m'.get E j = m.get E j) ∧
    (∀ (j : Nat) (f : Entry (K1 ⊕ K2) V) (k : K1 ⊕ K2), k ≠ .inl k1 → k ≠ .inr k2 → a.entries[j]? = some f → k ∈ f.keys →
      Finds E m' k (if j = r then x else f.value)) ∧
    (∀ k, k ≠ .inl k1 → k ≠ .inr k2 → (∀ f ∈ a.entries, k ∉ f.keys) → ∀ y, ¬ Finds E m' k y)

variable {E : Env S K1 K2 V} {kind : Kind} {L : Lawful E.st kind} {m : DMV S K1 K2} {a : Ideal (K1 ⊕ K2) V}

theorem present_iff (v : Inv L m a) (k : K1 ⊕ K2) : (∃ y, Finds E m k y) ↔ (a.lookup k).isSome = true := by
  constructor
  · rintro ⟨y, h⟩
    obtain ⟨i, h1, _⟩ := (find_iff v k y).1 h
    simp [h1]
  · intro h
    obtain ⟨i, h⟩ := Option.isSome_iff_exists.1 h
    have hl := lookup_lt v h
    exact ⟨_, (find_iff v k _).2 ⟨i, h, by rw [List.getElem?_eq_getElem hl]; rfl⟩⟩

theorem absent (v : Inv L m a) {k : K1 ⊕ K2} (h : a.lookup k = none) (y : V) : ¬ Finds E m k y := by
  intro hf
  have := (present_iff v k).1 ⟨y, hf⟩
  simp [h] at this

theorem lookup_none (v : Inv L m a) {k : K1 ⊕ K2} (h : ∀ f ∈ a.entries, k ∉ f.keys) : a.lookup k = none := by
  cases hf : a.lookup k with
  | none => rfl
  | some i =>
    obtain ⟨e, h1, h2⟩ := (lookup_iff v k i).1 hf
    exact absurd h2 (h e (List.mem_of_getElem? h1))

omit [DecidableEq K1] [DecidableEq K2] in
theorem append_get (x : V) (j : Nat) : ((a.append kind x []).entries[j]?).map (·.value) =
    if j < a.entries.length then (a.entries[j]?).map (·.value) else if j = a.entries.length then some x else none := by
  unfold Ideal.append
  rcases Nat.lt_trichotomy j a.entries.length with h | h | h
  · rw [if_pos h, List.getElem?_append_left h]
  · subst h; simp
  · rw [if_neg (by omega), if_neg (by omega), List.getElem?_eq_none (by simp; omega)]; rfl

/-- what is true after appending an element under two keys -/
theorem pushed (v : Inv L m a) (k1 : K1) (k2 : K2) (x : V) {m' : DMV S K1 K2}
    (v' : Inv L m' (attach (attach (a.append kind x []) a.entries.length (.inl k1)) a.entries.length (.inr k2))) :
    m'.size E = m.size E + 1 ∧ m'.get E (m.size E) = some x ∧ (∀ j, j < m.size E → m'.get E j = m.get E j) ∧
    Finds E m' (.inl k1) x ∧ Finds E m' (.inr k2) x ∧
    ∀ k, k ≠ .inl k1 → k ≠ .inr k2 → ∀ y, Finds E m' k y ↔ Finds E m k y := by
  obtain ⟨d, _, v1, _⟩ := push_inv v x
  have hl := append_length (kind := kind) a x
  have hlk := lookup_attach2 v1 hl hl (.inl k1) (.inr k2)
  have hlen : (attach (attach (a.append kind x []) a.entries.length (.inl k1)) a.entries.length (.inr k2)).entries.length =
      a.entries.length + 1 := by
    rw [attach_length, attach_length]; simp [Ideal.append]
  rw [size_eq v, size_eq v', hlen]
  refine ⟨rfl, ?_, ?_, ?_, ?_, ?_⟩
  · rw [get_eq v' (by omega), attach_value, attach_value, append_get]; simp
  · intro j hj
    rw [get_eq v' (by omega), get_eq v hj, attach_value, attach_value, append_get, if_pos hj]
  · refine (find_iff v' _ _).2 ⟨a.entries.length, by rw [hlk]; simp, ?_⟩
    rw [attach_value, attach_value, append_get]; simp
  · refine (find_iff v' _ _).2 ⟨a.entries.length, by rw [hlk]; simp, ?_⟩
    rw [attach_value, attach_value, append_get]; simp
  · intro k h1 h2 y
    refine (find_iff v' k y).trans (Iff.trans ?_ (find_iff v k y).symm)
    rw [hlk, if_neg h2, if_neg h1, lookup_append]
    constructor
    · rintro ⟨i, h3, h4⟩
      refine ⟨i, h3, ?_⟩
      rwa [attach_value, attach_value, append_get, if_pos (lookup_lt v h3)] at h4
    · rintro ⟨i, h3, h4⟩
      refine ⟨i, h3, ?_⟩
      rwa [attach_value, attach_value, append_get, if_pos (lookup_lt v h3)]

theorem insert_core (v : Inv L m a) : InsertOk E m := by
  intro k1 k2 x
  rw [present_iff v, present_iff v]
  have hc : careful kind a (.insert (some k1) (some k2) x) = true := rfl
  constructor
  · intro h
    rw [lookup_inl v, lookup_inr v] at h
    rw [DMV.insert, if_pos h]
  · intro h
    obtain ⟨m', e, v', _⟩ := step v hc (by simp only [ideal]; rw [if_neg h])
    refine ⟨m', ?_, pushed v k1 k2 x v'⟩
    simp only [exec, Option.map_eq_some_iff] at e
    obtain ⟨⟨m1, o⟩, h1, h2⟩ := e
    simp only [Prod.mk.injEq, Obs.index.injEq] at h2
    obtain ⟨rfl, rfl⟩ := h2
    rw [h1, size_eq v]

theorem remove_core (v : Inv L m a) : RemoveOk E kind m a := by
  intro i e op hi hop
  have hl := (List.getElem?_eq_some_iff.1 hi).1
  have hid : ideal kind a op = some (a.drop kind i, .done) := by
    rcases hop with rfl | ⟨k, hk, rfl⟩
    · simp only [ideal, if_pos hl]
    · simp only [ideal, (lookup_iff v k i).2 ⟨e, hi, hk⟩]
  have hc : careful kind a op = true := by rcases hop with rfl | ⟨k, hk, rfl⟩ <;> rfl
  obtain ⟨m', ex, v', _⟩ := step v hc hid
  refine ⟨m', ex, ?_, ?_⟩
  · intro j f k hj hf hk
    obtain ⟨j', h1, h2⟩ := (lookup_drop v hl k).2.2 j hj ((lookup_iff v k j).2 ⟨f, hf, hk⟩)
    exact (find_iff v' k _).2 ⟨j', h1, by rw [h2, hf]; rfl⟩
  · intro k hk
    have hn : (a.drop kind i).lookup k = none := by
      rcases hk with hk | hk
      · exact (lookup_drop v hl k).1 ((lookup_iff v k i).2 ⟨e, hi, hk⟩)
      · exact (lookup_drop v hl k).2.1 (lookup_none v hk)
    have hr : (a.drop kind i).reserved = a.reserved := by unfold Ideal.drop; split <;> rfl
    exact ⟨absent v' hn, fun hit => find_none v' k (by rw [hr]; exact hit) hn⟩

theorem insertOrAssign_core (v : Inv L m a) : InsertOrAssignOk E m a := by
  intro k1 k2 x
  have hc : careful kind a (.insertOrAssign k1 k2 x) = true := rfl
  cases hf : a.lookup (.inl k1) with
  | none =>
    obtain ⟨m', e, v', _⟩ := step v hc (by simp only [ideal]; rw [hf])
    simp only [exec, Option.map_eq_some_iff] at e
    obtain ⟨⟨m1, r⟩, h1, h2⟩ := e
    simp only [Prod.mk.injEq, Obs.index.injEq, Option.some.injEq] at h2
    obtain ⟨rfl, rfl⟩ := h2
    obtain ⟨p1, p2, p3, p4, p5, p6⟩ := pushed v k1 k2 x v'
    refine ⟨_, _, h1, ?_, ?_, by rw [← size_eq v]; exact p2, p4, p5, fun j _ h => p3 j h, ?_, ?_⟩
    · intro j f h3 h4
      rw [(lookup_iff v (.inl k1) j).2 ⟨f, h3, h4⟩] at hf; cases hf
    · intro _; exact ⟨(size_eq v).symm, p1⟩
    · intro j f k h3 h4 h5 h6
      have hlt := (List.getElem?_eq_some_iff.1 h5).1
      rw [if_neg (by omega)]
      exact (p6 k h3 h4 _).2 ((find_iff v k _).2 ⟨j, (lookup_iff v k j).2 ⟨f, h5, h6⟩, by rw [h5]; rfl⟩)
    · intro k h3 h4 h5 y hy
      exact absent v (lookup_none v h5) y ((p6 k h3 h4 y).1 hy)
  | some i =>
    have hl := lookup_lt v hf
    obtain ⟨m', e, v', _⟩ := step v hc (by simp only [ideal]; rw [hf])
    simp only [exec, Option.map_eq_some_iff] at e
    obtain ⟨⟨m1, r⟩, h1, h2⟩ := e
    simp only [Prod.mk.injEq, Obs.index.injEq, Option.some.injEq] at h2
    obtain ⟨rfl, rfl⟩ := h2
    obtain ⟨d, _, v1, _⟩ := assign_inv v hl x
    have hl1 : r < (assign a r x).entries.length := by simpa [assign] using hl
    have hlk := lookup_attach v1 hl1 (.inr k2)
    have hval : ∀ j, ((attach (assign a r x) r (.inr k2)).entries[j]?).map (·.value) =
        (a.entries[j]?).map fun e => if j = r then x else e.value := by
      intro j
      rw [attach_value]
      unfold assign
      simp only [List.getElem?_modify]
      cases a.entries[j]? with
      | none => rfl
      | some e => by_cases h : r = j
                  · simp [h]
                  · have : ¬ j = r := fun e => h e.symm
                    simp [h, this]
    have hlen : (attach (assign a r x) r (Sum.inr k2)).entries.length = a.entries.length := by
      rw [attach_length]; simp [assign]
    refine ⟨_, _, h1, ?_, ?_, ?_, ?_, ?_, ?_, ?_, ?_⟩
    · intro j f h3 h4
      rw [(lookup_iff v (.inl k1) j).2 ⟨f, h3, h4⟩] at hf
      cases hf; exact ⟨rfl, by rw [size_eq v', size_eq v, hlen]⟩
    · intro h3; rw [lookup_none v h3] at hf; cases hf
    · rw [get_eq v' (by omega), hval, List.getElem?_eq_getElem hl]; simp
    · refine (find_iff v' _ _).2 ⟨r, ?_, by rw [hval, List.getElem?_eq_getElem hl]; simp⟩
      rw [hlk, if_neg (by simp), lookup_keys _ a (assign_keys a r x), hf]
    · refine (find_iff v' _ _).2 ⟨r, ?_, by rw [hval, List.getElem?_eq_getElem hl]; simp⟩
      rw [hlk, if_pos rfl]
    · intro j h3 h4
      rw [size_eq v] at h4
      rw [get_eq v' (by omega), get_eq v h4, hval]
      simp [h3]
    · intro j f k h3 h4 h5 h6
      refine (find_iff v' _ _).2 ⟨j, ?_, by rw [hval, h5]; rfl⟩
      rw [hlk, if_neg h4, lookup_keys _ a (assign_keys a r x)]
      exact (lookup_iff v k j).2 ⟨f, h5, h6⟩
    · intro k h3 h4 h5
      refine absent v' ?_
      rw [hlk, if_neg h4, lookup_keys _ a (assign_keys a r x), lookup_none v h5]

end

/-- C40, C41 and C42 hold after every history; vector storage. -/
theorem insert_unstable (i1 : MapImpl K1) (i2 : MapImpl K2) (ops : List (Op K1 K2 V)) (a : Ideal (K1 ⊕ K2) V)
    (os : List (Obs V)) (h : idealRun .unstable empty ops = some (a, os)) :
    ∃ m, run (unstableEnv i1 i2) (DMV.init (unstableEnv i1 i2)) ops = some (m, os) ∧ InsertOk (unstableEnv i1 i2) m := by
  obtain ⟨m, e, v⟩ := simulate (E := unstableEnv i1 i2) (L := vectorLawful V) ops (init_inv (vectorStarts _)) (careful_unstable ops _ _ _ h) h
  exact ⟨m, e, insert_core v⟩

theorem remove_unstable (i1 : MapImpl K1) (i2 : MapImpl K2) (ops : List (Op K1 K2 V)) (a : Ideal (K1 ⊕ K2) V)
    (os : List (Obs V)) (h : idealRun .unstable empty ops = some (a, os)) :
    ∃ m, run (unstableEnv i1 i2) (DMV.init (unstableEnv i1 i2)) ops = some (m, os) ∧
      RemoveOk (unstableEnv i1 i2) .unstable m a := by
  obtain ⟨m, e, v⟩ := simulate (E := unstableEnv i1 i2) (L := vectorLawful V) ops (init_inv (vectorStarts _)) (careful_unstable ops _ _ _ h) h
  exact ⟨m, e, remove_core v⟩

theorem insertOrAssign_unstable (i1 : MapImpl K1) (i2 : MapImpl K2) (ops : List (Op K1 K2 V)) (a : Ideal (K1 ⊕ K2) V)
    (os : List (Obs V)) (h : idealRun .unstable empty ops = some (a, os)) :
    ∃ m, run (unstableEnv i1 i2) (DMV.init (unstableEnv i1 i2)) ops = some (m, os) ∧
      InsertOrAssignOk (unstableEnv i1 i2) m a := by
  obtain ⟨m, e, v⟩ := simulate (E := unstableEnv i1 i2) (L := vectorLawful V) ops (init_inv (vectorStarts _)) (careful_unstable ops _ _ _ h) h
  exact ⟨m, e, insertOrAssign_core v⟩

/-- Stable storage, after every careful history. -/
theorem insert_stable (N : Nat) (i1 : MapImpl K1) (i2 : MapImpl K2) (ops : List (Op K1 K2 V)) (a : Ideal (K1 ⊕ K2) V)
    (os : List (Obs V)) (h : idealRun (.stable N) empty ops = some (a, os)) (hc : carefulRun (.stable N) empty ops = true) :
    ∃ m, run (stableEnv N i1 i2) (DMV.init (stableEnv N i1 i2)) ops = some (m, os) ∧ InsertOk (stableEnv N i1 i2) m := by
  obtain ⟨m, e, v⟩ := simulate (E := stableEnv N i1 i2) (L := stableLawful N V) ops (init_inv (stableStarts _ _)) hc h
  exact ⟨m, e, insert_core v⟩

theorem remove_stable (N : Nat) (i1 : MapImpl K1) (i2 : MapImpl K2) (ops : List (Op K1 K2 V)) (a : Ideal (K1 ⊕ K2) V)
    (os : List (Obs V)) (h : idealRun (.stable N) empty ops = some (a, os)) (hc : carefulRun (.stable N) empty ops = true) :
    ∃ m, run (stableEnv N i1 i2) (DMV.init (stableEnv N i1 i2)) ops = some (m, os) ∧
      RemoveOk (stableEnv N i1 i2) (.stable N) m a := by
  obtain ⟨m, e, v⟩ := simulate (E := stableEnv N i1 i2) (L := stableLawful N V) ops (init_inv (stableStarts _ _)) hc h
  exact ⟨m, e, remove_core v⟩

theorem insertOrAssign_stable (N : Nat) (i1 : MapImpl K1) (i2 : MapImpl K2) (ops : List (Op K1 K2 V))
    (a : Ideal (K1 ⊕ K2) V) (os : List (Obs V)) (h : idealRun (.stable N) empty ops = some (a, os))
    (hc : carefulRun (.stable N) empty ops = true) :
    ∃ m, run (stableEnv N i1 i2) (DMV.init (stableEnv N i1 i2)) ops = some (m, os) ∧
      InsertOrAssignOk (stableEnv N i1 i2) m a := by
  obtain ⟨m, e, v⟩ := simulate (E := stableEnv N i1 i2) (L := stableLawful N V) ops (init_inv (stableStarts _ _)) hc h
  exact ⟨m, e, insertOrAssign_core v⟩

/-- a state with an element under three keys between two others -/
def demo2 : List (Op Nat Nat Nat) :=
  [.insert (some 1) (some 1) 10, .insert (some 2) (some 2) 20, .insert (some 3) (some 3) 30, .addTerm (.inl 7) (.inr 2)]
example : (idealRun .unstable empty demo2).map (·.1) =
    some ⟨[⟨10, [.inr 1, .inl 1]⟩, ⟨20, [.inl 7, .inr 2, .inl 2]⟩, ⟨30, [.inr 3, .inl 3]⟩], 0⟩ := by decide
example : (idealRun (.stable 5) empty demo2).map (·.1) =
    some ⟨[⟨10, [.inr 1, .inl 1]⟩, ⟨20, [.inl 7, .inr 2, .inl 2]⟩, ⟨30, [.inr 3, .inl 3]⟩], 64⟩ := by decide
example : carefulRun (.stable 5) empty demo2 = true := by decide
example : ((run (unstableEnv MapImpl.atEnd MapImpl.atFront) (DMV.init (unstableEnv MapImpl.atEnd MapImpl.atFront))
    (demo2 ++ [.remove (.inr 2), .find (.inl 3), .find (.inl 7), .insert (some 3) (some 9) 40, .find (.inl 3), .find (.inr 3),
      .insertOrAssign 1 9 50, .find (.inr 9), .find (.inl 3), .find (.inr 1)])).map (·.2)) =
    some [.index (some 0), .index (some 1), .index (some 2), .bool true, .done, .found (some 30), .found none,
      .index (some 2), .found (some 40), .found (some 30), .index (some 0), .found (some 50), .found (some 40),
      .found (some 50)] := by decide

/-! ## Stable storage: references -/

/-- Does the specification's run of `ops` from `a` keep element `i` in place throughout? -/
def keeps (kind : Kind) (i : Nat) : Ideal (K1 ⊕ K2) V → List (Op K1 K2 V) → Prop
  | a, [] => i < a.entries.length
  | a, op :: ops => i < a.entries.length ∧ ∃ a' o, ideal kind a op = some (a', o) ∧ keeps kind i a' ops

/-- With stable storage an element that exists keeps its address as long as it is not removed or cleared. -/
theorem stable_references_partial (N : Nat) (i1 : MapImpl K1) (i2 : MapImpl K2) (pre post : List (Op K1 K2 V)) (i : Nat)
    (a : Ideal (K1 ⊕ K2) V) (os : List (Obs V)) (h : idealRun (.stable N) empty pre = some (a, os))
    (hc : carefulRun (.stable N) empty pre = true) (hp : carefulRun (.stable N) a post = true)
    (hk : keeps (.stable N) i a post) :
    ∃ m m' os', run (stableEnv N i1 i2) (DMV.init (stableEnv N i1 i2)) pre = some (m, os) ∧
      run (stableEnv N i1 i2) m post = some (m', os') ∧
      (stableStore N V).addr m'.data i = (stableStore N V).addr m.data i := by
  obtain ⟨m, e, v⟩ := simulate (E := stableEnv N i1 i2) (L := stableLawful N V) pre (init_inv (stableStarts _ _)) hc h
  refine ⟨m, ?_⟩
  suffices ∀ (post : List (Op K1 K2 V)) (m : DMV _ K1 K2) (a : Ideal (K1 ⊕ K2) V),
      Inv (E := stableEnv N i1 i2) (stableLawful N V) m a → carefulRun (.stable N) a post = true → keeps (.stable N) i a post →
      ∃ m' os', run (stableEnv N i1 i2) m post = some (m', os') ∧
        (stableStore N V).addr m'.data i = (stableStore N V).addr m.data i by
    obtain ⟨m', os', h1, h2⟩ := this post m a v hp hk
    exact ⟨m', os', e, h1, h2⟩
  intro post
  induction post with
  | nil => intro m a _ _ _; exact ⟨m, [], rfl, rfl⟩
  | cons op ops ih =>
    intro m a v hc hk
    obtain ⟨hl, a', o, h1, h2⟩ := hk
    simp only [carefulRun, h1, Bool.and_eq_true] at hc
    obtain ⟨m1, e1, v1, s1⟩ := step v hc.1 h1
    obtain ⟨m2, os2, e2, s2⟩ := ih m1 a' v1 hc.2 h2
    have hl' : i < a'.entries.length := by cases ops <;> [exact h2; exact h2.1]
    refine ⟨m2, o :: os2, ?_, by rw [s2]; exact s1 i hl hl'⟩
    simp only [run, e1, Option.bind_some, e2, Option.map_some]

example : keeps (.stable 0) 1 (⟨[⟨10, [.inl 1]⟩, ⟨20, [.inr 2]⟩, ⟨30, [.inl 3]⟩], 64⟩ : Ideal (Nat ⊕ Nat) Nat)
    [.remove (.inl 1), .removeIndex 2, .insert (some 5) (some 5) 50, .find (.inr 2)] :=
  ⟨by decide, _, _, rfl, by decide, _, _, rfl, by decide, _, _, rfl, by decide, _, _, rfl,
    (by decide : 1 < 3)⟩

end Verif.Mapped.Dual
