import Verif.Mapped.Dual.Props
import Verif.Mapped.DualStr.Own

/-
DualStringMappedVector: property C43.
-/
namespace Verif.Mapped.DualStr
open Verif.Mapped Verif.Block Verif.Block.Vector
open Verif.Mapped.Vector (Obs Ideal Entry)
open Verif.Mapped.Dual (ideal idealRun)
open Verif.Mapped.Str (View text nameOf strings)

variable {K2 V : Type} [DecidableEq K2]

omit [DecidableEq K2] in
/-- `DualStringMappedVector<V, K2, reference_stability::stable, N>`. -/
def stableEnv (N : Nat) (i1 : MapImpl View) (i2 : MapImpl K2) (hash : String → Nat) : Env (Vec × Heap V) K2 V :=
  ⟨stableStore N V, N, i1, i2, hash⟩

omit [DecidableEq K2] in
/-- `DualStringMappedVector<V, K2, reference_stability::unstable, N>`.  In this variant `remove` and `removeIndex` do not
compile (there is no `localErase` for `std::vector`), see `compiles`. -/
def unstableEnv (N : Nat) (i1 : MapImpl View) (i2 : MapImpl K2) (hash : String → Nat) : Env (List V) K2 V :=
  ⟨vectorStore V, N, i1, i2, hash⟩

omit [DecidableEq K2] in
/-- calls that compile for vector storage -/
def compiles : Op K2 V → Bool
  | .remove _ | .removeIndex _ => false
  | _ => true

omit [DecidableEq K2] in
/-- the ideal new container -/
def empty : Ideal (String ⊕ K2) V := ⟨[], 0⟩

/-! ## Every name refers to one of the container's own strings -/

/-- After any history at all, whatever the element storage, the hash function and the order of the maps: every key of the
first map is a view of a living string that is an element of the container's own `names`; and no two keys have the same
content. -/
theorem keys_own {S : Type} (E : Env S K2 V) (ops : List (Op K2 V)) (m : DSV S K2) (h : Heap String) (os : List (Obs V))
    (he : run E (DSV.init E) Heap.empty ops = some (m, h, os)) :
    (∀ v i, (v, i) ∈ m.lookup1 → ∃ (j : Nat) (s : String), j < m.names.size ∧ Vec.cell E.order m.names j = some v.1 ∧
      Vec.get E.order m.names h j = some s ∧ text E.order h v = some s ∧ v.2 = E.hash s) ∧
    (∀ v i v' i', (v, i) ∈ m.lookup1 → (v', i') ∈ m.lookup1 → text E.order h v = text E.order h v' → v = v' ∧ i = i') := by
  have f := Fine.run ops Fine.init he
  obtain ⟨ns, rep, g⟩ := f.ok.own
  have hsz : m.names.size = ns.length := rep.size
  constructor
  · intro v i hv
    obtain ⟨j, s, h1, h2, h3⟩ := g v (List.mem_map.2 ⟨_, hv, rfl⟩)
    obtain ⟨hj, rfl⟩ := List.getElem?_eq_some_iff.1 h1
    have hg : Vec.get E.order m.names h j = some ns[j] := rep.get hj
    refine ⟨j, ns[j], by omega, h2, hg, ?_, h3⟩
    rw [Vec.get, h2] at hg; exact hg
  · intro v i v' i' hv hv' ht
    have w : (m.lookup1.map fun e => nameOf E.order h e.1).Nodup := by
      have := f.wf; unfold FMap.WF strings at this; rw [List.map_map] at this; exact this
    have := List.inj_on_of_nodup_map w hv hv' (by simp only [nameOf, ht])
    cases this; exact ⟨rfl, rfl⟩

/-! ## Histories -/

/-- For every hash function, every order in which the maps may iterate, and every history of careful calls that the
specification allows: the code is defined and returns what the specification returns.  Stable storage. -/
theorem history_stable_partial (N : Nat) (i1 : MapImpl View) (i2 : MapImpl K2) (hash : String → Nat) (ops : List (Op K2 V))
    (a : Ideal (String ⊕ K2) V) (os : List (Obs V)) (h : idealRun (.stable N) empty ops = some (a, os))
    (hc : carefulRun N (.stable N) empty ops = true) :
    ∃ m hp, run (stableEnv N i1 i2 hash) (DSV.init (stableEnv N i1 i2 hash)) Heap.empty ops = some (m, hp, os) := by
  obtain ⟨m, hp, e, _⟩ := simulate (E := stableEnv N i1 i2 hash) (L := stableLawful N V) ops (InvC.init (stableStarts _ _)) hc h
  exact ⟨m, hp, e⟩

/-- The same for vector storage, where removals do not compile (`compiles`). -/
theorem history_unstable_partial (N : Nat) (i1 : MapImpl View) (i2 : MapImpl K2) (hash : String → Nat) (ops : List (Op K2 V))
    (a : Ideal (String ⊕ K2) V) (os : List (Obs V)) (h : idealRun .unstable empty ops = some (a, os))
    (hc : carefulRun N .unstable empty ops = true) (_ : ∀ op ∈ ops, compiles op = true) :
    ∃ m hp, run (unstableEnv N i1 i2 hash) (DSV.init (unstableEnv N i1 i2 hash)) Heap.empty ops = some (m, hp, os) := by
  obtain ⟨m, hp, e, _⟩ := simulate (E := unstableEnv N i1 i2 hash) (L := vectorLawful V) ops (InvC.init (vectorStarts _)) hc h
  exact ⟨m, hp, e⟩

/-- a program using every call -/
def demo : List (Op Nat Nat) :=
  [.insert (some "a") (some 1) 10, .insert (some "b") (some 1) 20, .insert (some "b") (some 1) 21, .insert none (some 5) 30,
   .insert (some "c") none 40, .insert none none 50, .find (.inl "a"), .find (.inr 1), .insertOrAssign "a" 1 11, .find (.inr 1),
   .find (.inl "b"), .insertOrAssignOne (.inl "i") 60, .insertOrAssignOne (.inr 9) 70, .insertOrAssignOne (.inl "i") 61,
   .addTermForIndex (.inr 4) 3, .addTermForIndex (.inl "d") 17, .addTermForIndex (.inl "c") 0, .addTerm (.inl "x") (.inr 4),
   .addTerm (.inr 31) (.inl "x"), .addTerm (.inl "y") (.inl "c"), .addTerm (.inr 33) (.inr 31), .find (.inr 33),
   .remove (.inl "b"), .find (.inr 33), .find (.inl "b"), .find (.inr 1), .remove (.inr 33), .find (.inl "y"), .find (.inr 5),
   .remove (.inl "none"), .removeIndex 2, .removeIndex 99, .find (.inr 5), .find (.inl "i"), .get 0, .set 0 12, .at 0, .at 9,
   .back, .size, .apply, .modify (· + 1), .transform (· * 2), .apply, .clear, .size]

example : (idealRun (.stable 0) empty demo).map (·.2) = some
    [.index (some 0), .index (some 1), .index none, .index (some 2), .index (some 3), .index (some 4), .found (some 10),
     .found (some 20), .index (some 0), .found (some 11), .found (some 20), .index (some 5), .index (some 6), .index (some 5),
     .bool true, .bool false, .bool false, .bool true, .bool true, .bool true, .bool true, .found (some 40), .done,
     .found (some 40), .found none, .found (some 11), .done, .found none, .found (some 30), .done, .done, .done,
     .found none, .found (some 61), .val 11, .done, .val 12, .threw, .val 70, .num 7, .vals [12, 20, 30, 40, 50, 61, 70],
     .done, .done, .vals [26, 42, 62, 82, 102, 124, 142], .done, .num 0] := by decide +kernel
example : carefulRun 0 (.stable 0) empty demo = true := by decide +kernel
example : (idealRun .unstable (empty : Ideal (String ⊕ Nat) Nat) (demo.filter compiles)).isSome = true ∧
    carefulRun 0 .unstable empty (demo.filter compiles) = true := by decide +kernel
/-- a run meeting the hypothesis of `keys_own`, with all hash codes equal, and with an insertion that is not careful -/
example : ((run (stableEnv 1 MapImpl.atFront MapImpl.atEnd (fun _ => 0))
    (DSV.init (stableEnv (V := Nat) 1 MapImpl.atFront MapImpl.atEnd (fun _ => 0))) Heap.empty
    [.insert (some "a") (some 1) 10, .insert (some "b") (some 2) 20, .insert (some "b") (some 3) 21,
     .insert (some "c") none 30, .remove (.inl "a")]).map fun r => r.1.lookup1) =
    some [(((1, 1), 0), 3), (((0, 1), 0), 1)] := by decide +kernel

/-! ## C43 -/

section
variable {S : Type}

/-- `find(k)` yields `y` (for a key of either type). -/
def Finds (E : Env S K2 V) (m : DSV S K2) (h : Heap String) (k : String ⊕ K2) (y : V) : Prop :=
  exec E m h (.find k) = some (m, h, .found (some y))

/-- C43 of a state, for a name that is not in use or a second term that is: `insert(name,k2,x)` fails iff both find
something, and then changes nothing; otherwise it appends `x`, both keys find it, all other elements and what other keys
find are as before. -/
def InsertOk (E : Env S K2 V) (m : DSV S K2) (h : Heap String) : Prop :=
  ∀ (k1 : String) (k2 : K2) (x : V),
    ((∃ y, Finds E m h (.inl k1) y) ∧ (∃ y, Finds E m h (.inr k2) y) → m.insert E h k1 k2 x = some (m, h, none)) ∧
    (¬ (∃ y, Finds E m h (.inl k1) y) →
      ∃ m' h', m.insert E h k1 k2 x = some (m', h', some (m.size E)) ∧ m'.size E = m.size E + 1 ∧
        m'.get E (m.size E) = some x ∧ (∀ j, j < m.size E → m'.get E j = m.get E j) ∧
        Finds E m' h' (.inl k1) x ∧ Finds E m' h' (.inr k2) x ∧
        ∀ k, k ≠ .inl k1 → k ≠ .inr k2 → ∀ y, Finds E m' h' k y ↔ Finds E m h k y)

/-- The opposite of C43 in the remaining case: when the name is in use and the second term is not, `insert(name,k2,x)`
reports success, but `name` goes on finding the old element; only `k2` finds `x`. -/
def InsertIgnoresName (E : Env S K2 V) (m : DSV S K2) (h : Heap String) : Prop :=
  ∀ (k1 : String) (k2 : K2) (x y : V), Finds E m h (.inl k1) y → ¬ (∃ z, Finds E m h (.inr k2) z) →
    ∃ m' h', m.insert E h k1 k2 x = some (m', h', some (m.size E)) ∧ Finds E m' h' (.inl k1) y ∧ Finds E m' h' (.inr k2) x ∧
      ∀ k, k ≠ .inr k2 → ∀ z, Finds E m' h' k z ↔ Finds E m h k z

/-- Removal in a state whose elements and keys are `a`: removing element `i`, by its index or by any of its keys, leaves
every other key at its element and nothing under the keys of the removed one; unless the keys exactly fill the reserved
slots of the temporary vectors (`fits`). -/
def RemoveOk (E : Env S K2 V) (m : DSV S K2) (h : Heap String) (a : Ideal (String ⊕ K2) V) : Prop :=
  ∀ (i : Nat) (e : Entry (String ⊕ K2) V) (op : Op K2 V), a.entries[i]? = some e → fits E.order e = true →
    (op = .removeIndex i ∨ ∃ k ∈ e.keys, op = .remove k) →
    ∃ m', exec E m h op = some (m', h, .done) ∧
      (∀ (j : Nat) (f : Entry (String ⊕ K2) V) (k : String ⊕ K2), j ≠ i → a.entries[j]? = some f → k ∈ f.keys →
        Finds E m' h k f.value) ∧
      (∀ k, (k ∈ e.keys ∨ ∀ f ∈ a.entries, k ∉ f.keys) → ∀ y, ¬ Finds E m' h k y)

variable {E : Env S K2 V} {kind : Kind} {L : Lawful E.st kind} {m : DSV S K2} {h : Heap String} {a : Ideal (String ⊕ K2) V}

theorem finds_base (w : m.Ok E h) (k : String ⊕ K2) (y : V) :
    Finds E m h k y ↔ Dual.Finds (E.base MapImpl.atEnd) (m.base E h) k y := find_base w k MapImpl.atEnd _

theorem present_iff (v : Inv L m h a) (k : String ⊕ K2) : (∃ y, Finds E m h k y) ↔ (a.lookup k).isSome = true := by
  rw [← Dual.present_iff v.base k]
  simp only [finds_base v.ok]

theorem insert_core (v : Inv L m h a) : InsertOk E m h := by
  intro k1 k2 x
  rw [present_iff v, present_iff v]
  constructor
  · intro hp
    have hl1 := hp.1
    have hl2 := hp.2
    rw [Dual.lookup_inl v.base] at hl1
    rw [Dual.lookup_inr v.base] at hl2
    rw [Str.find_strings, Option.isSome_map] at hl1
    simp only [DSV.insert, Str.SRepC.find_eq v.ok, Option.bind_some]
    rw [if_pos ⟨hl1, hl2⟩]
  · intro hn
    have hc : careful E.order kind a (.insert (some k1) (some k2) x) = true := by
      simp only [careful, Bool.or_eq_true]; left; simpa using hn
    obtain ⟨m', h', e, v'⟩ := step v hc (by simp only [ideal]; rw [if_neg (fun h => hn h.1)])
    have hp := Dual.pushed v.base k1 k2 x v'.base
    refine ⟨m', h', ?_, hp.1, hp.2.1, hp.2.2.1, (finds_base v'.ok _ _).2 hp.2.2.2.1, (finds_base v'.ok _ _).2 hp.2.2.2.2.1, ?_⟩
    · simp only [exec, Option.map_eq_some_iff] at e
      obtain ⟨⟨m1, h1, o⟩, h1, h2⟩ := e
      simp only [Prod.mk.injEq, Obs.index.injEq] at h2
      obtain ⟨rfl, rfl, rfl⟩ := h2
      rw [h1, ← Dual.size_eq v.base]; rfl
    · intro k h1 h2 y
      rw [finds_base v'.ok, finds_base v.ok]
      exact hp.2.2.2.2.2 k h1 h2 y

theorem insert_ignores_core (v : Inv L m h a) : InsertIgnoresName E m h := by
  intro k1 k2 x y hy hn
  have h1 := (present_iff v (.inl k1)).1 ⟨y, hy⟩
  have h2 : a.lookup (.inr k2) = none := by
    cases hf : a.lookup (.inr k2) with
    | none => rfl
    | some i => exact absurd ((present_iff v _).2 (by simp [hf])) hn
  obtain ⟨m', h', e, ok, v'⟩ := insert_present v (k1 := k1) (k2 := k2) x h1 h2
  obtain ⟨d, _, v1, _⟩ := Dual.push_inv v.base x
  have hl := Dual.append_length (kind := kind) a x
  have hlk := Dual.lookup_attach v1 hl (.inr k2)
  have hoth : ∀ k, k ≠ .inr k2 → ∀ z, Finds E m' h' k z ↔ Finds E m h k z := by
    intro k hk z
    rw [finds_base ok, finds_base v.ok]
    refine (Dual.find_iff v' k z).trans (Iff.trans ?_ (Dual.find_iff v.base k z).symm)
    rw [hlk, if_neg hk, Dual.lookup_append]
    constructor
    · rintro ⟨i, h3, h4⟩
      refine ⟨i, h3, ?_⟩
      rwa [Dual.attach_value, Dual.append_get, if_pos (Dual.lookup_lt v.base h3)] at h4
    · rintro ⟨i, h3, h4⟩
      refine ⟨i, h3, ?_⟩
      rwa [Dual.attach_value, Dual.append_get, if_pos (Dual.lookup_lt v.base h3)]
  refine ⟨m', h', ?_, (hoth _ (by simp) y).2 hy, ?_, hoth⟩
  · rw [e]; congr 4; exact (Dual.size_eq v.base).symm
  · rw [finds_base ok]
    refine (Dual.find_iff v' _ _).2 ⟨a.entries.length, by rw [hlk]; simp, ?_⟩
    rw [Dual.attach_value, Dual.append_get]; simp

theorem remove_core (v : Inv L m h a) : RemoveOk E m h a := by
  intro i e op hi hf hop
  have hl := (List.getElem?_eq_some_iff.1 hi).1
  have hid : ideal kind a op = some (a.drop kind i, .done) := by
    rcases hop with rfl | ⟨k, hk, rfl⟩
    · simp only [ideal, if_pos hl]
    · simp only [ideal, (Dual.lookup_iff v.base k i).2 ⟨e, hi, hk⟩]
  have hc : careful E.order kind a op = true := by
    rcases hop with rfl | ⟨k, hk, rfl⟩
    · simp only [careful, hi, hf]
    · simp only [careful, (Dual.lookup_iff v.base k i).2 ⟨e, hi, hk⟩, Option.bind_some, hi, hf]
  obtain ⟨m', h', ex, v'⟩ := step v hc hid
  have hh : h' = h := by
    rcases hop with rfl | ⟨k, hk, rfl⟩
    · simp only [exec] at ex
      obtain ⟨_, _, h2⟩ := Option.map_eq_some_iff.1 ex; cases h2; rfl
    · cases k <;> simp only [exec] at ex <;>
        obtain ⟨_, _, h2⟩ := Option.map_eq_some_iff.1 ex <;> cases h2 <;> rfl
  subst hh
  refine ⟨m', ex, ?_, ?_⟩
  · intro j f k hj hf hk
    obtain ⟨j', h1, h2⟩ := (Dual.lookup_drop v.base hl k).2.2 j hj ((Dual.lookup_iff v.base k j).2 ⟨f, hf, hk⟩)
    rw [finds_base v'.ok]
    exact (Dual.find_iff v'.base k _).2 ⟨j', h1, by rw [h2, hf]; rfl⟩
  · intro k hk y
    have hn : (a.drop kind i).lookup k = none := by
      rcases hk with hk | hk
      · exact (Dual.lookup_drop v.base hl k).1 ((Dual.lookup_iff v.base k i).2 ⟨e, hi, hk⟩)
      · exact (Dual.lookup_drop v.base hl k).2.1 (Dual.lookup_none v.base hk)
    rw [finds_base v'.ok]
    exact Dual.absent v'.base hn y

end

/-- C43 for stable storage after every careful history. -/
theorem insert_stable_partial (N : Nat) (i1 : MapImpl View) (i2 : MapImpl K2) (hash : String → Nat) (ops : List (Op K2 V))
    (a : Ideal (String ⊕ K2) V) (os : List (Obs V)) (h : idealRun (.stable N) empty ops = some (a, os))
    (hc : carefulRun N (.stable N) empty ops = true) :
    ∃ m hp, run (stableEnv N i1 i2 hash) (DSV.init (stableEnv N i1 i2 hash)) Heap.empty ops = some (m, hp, os) ∧
      InsertOk (stableEnv N i1 i2 hash) m hp := by
  obtain ⟨m, hp, e, v⟩ := simulate (E := stableEnv N i1 i2 hash) (L := stableLawful N V) ops (InvC.init (stableStarts _ _)) hc h
  exact ⟨m, hp, e, insert_core v⟩

/-- C43 for vector storage after every careful history. -/
theorem insert_unstable_partial (N : Nat) (i1 : MapImpl View) (i2 : MapImpl K2) (hash : String → Nat) (ops : List (Op K2 V))
    (a : Ideal (String ⊕ K2) V) (os : List (Obs V)) (h : idealRun .unstable empty ops = some (a, os))
    (hc : carefulRun N .unstable empty ops = true) :
    ∃ m hp, run (unstableEnv N i1 i2 hash) (DSV.init (unstableEnv N i1 i2 hash)) Heap.empty ops = some (m, hp, os) ∧
      InsertOk (unstableEnv N i1 i2 hash) m hp := by
  obtain ⟨m, hp, e, v⟩ := simulate (E := unstableEnv N i1 i2 hash) (L := vectorLawful V) ops (InvC.init (vectorStarts _)) hc h
  exact ⟨m, hp, e, insert_core v⟩

/-- Whenever the name is in use and the second term is not, C43 fails: `insert` reports success without attaching the
name.  Stable storage, after every careful history. -/
theorem insert_ignores_name (N : Nat) (i1 : MapImpl View) (i2 : MapImpl K2) (hash : String → Nat) (ops : List (Op K2 V))
    (a : Ideal (String ⊕ K2) V) (os : List (Obs V)) (h : idealRun (.stable N) empty ops = some (a, os))
    (hc : carefulRun N (.stable N) empty ops = true) :
    ∃ m hp, run (stableEnv N i1 i2 hash) (DSV.init (stableEnv N i1 i2 hash)) Heap.empty ops = some (m, hp, os) ∧
      InsertIgnoresName (stableEnv N i1 i2 hash) m hp := by
  obtain ⟨m, hp, e, v⟩ := simulate (E := stableEnv N i1 i2 hash) (L := stableLawful N V) ops (InvC.init (stableStarts _ _)) hc h
  exact ⟨m, hp, e, insert_ignores_core v⟩

/-- Removal, after every careful history (stable storage; it does not compile for vector storage). -/
theorem remove_stable_partial (N : Nat) (i1 : MapImpl View) (i2 : MapImpl K2) (hash : String → Nat) (ops : List (Op K2 V))
    (a : Ideal (String ⊕ K2) V) (os : List (Obs V)) (h : idealRun (.stable N) empty ops = some (a, os))
    (hc : carefulRun N (.stable N) empty ops = true) :
    ∃ m hp, run (stableEnv N i1 i2 hash) (DSV.init (stableEnv N i1 i2 hash)) Heap.empty ops = some (m, hp, os) ∧
      RemoveOk (stableEnv N i1 i2 hash) m hp a := by
  obtain ⟨m, hp, e, v⟩ := simulate (E := stableEnv N i1 i2 hash) (L := stableLawful N V) ops (InvC.init (stableStarts _ _)) hc h
  exact ⟨m, hp, e, remove_core v⟩

/-- a state with an element under three keys between two others -/
def demo2 : List (Op Nat Nat) :=
  [.insert (some "a") (some 1) 10, .insert (some "b") (some 2) 20, .insert (some "c") (some 3) 30, .addTerm (.inl "x") (.inr 2)]
example : (idealRun (.stable 5) empty demo2).map (·.1) =
    some ⟨[⟨10, [.inr 1, .inl "a"]⟩, ⟨20, [.inl "x", .inr 2, .inl "b"]⟩, ⟨30, [.inr 3, .inl "c"]⟩], 64⟩ := by decide
example : carefulRun 5 (.stable 5) empty demo2 = true ∧ carefulRun 5 .unstable empty demo2 = true := by decide
example : (idealRun .unstable empty demo2).isSome = true := by decide
example : fits 5 (⟨20, [.inl "x", .inr 2, .inl "b"]⟩ : Entry (String ⊕ Nat) Nat) = true := by decide

/-- C43 violated: the second insertion reports success, yet its name finds the first element. -/
theorem insert_violated (N : Nat) (i1 : MapImpl View) (i2 : MapImpl Nat) (hash : String → Nat) :
    (run (unstableEnv N i1 i2 hash) (DSV.init (unstableEnv N i1 i2 hash)) Heap.empty
      [.insert (some "a") (some 1) 10]).bind (fun r =>
        (exec (unstableEnv N i1 i2 hash) r.1 r.2.1 (.insert (some "a") (some 2) 20)).bind fun s =>
        (exec (unstableEnv N i1 i2 hash) s.1 s.2.1 (.find (.inl "a"))).map fun t => (s.2.2, t.2.2)) =
    some (.index (some 1), .found (some 10)) := by
  obtain ⟨m, hp, e, v⟩ := simulate (E := unstableEnv N i1 i2 hash) (L := vectorLawful Nat) (K2 := Nat)
    [.insert (some "a") (some 1) 10] (InvC.init (vectorStarts _)) (by rfl) rfl
  have hf : Finds (unstableEnv N i1 i2 hash) m hp (.inl "a") 10 :=
    (finds_base v.ok _ _).2 ((Dual.find_iff v.base _ _).2 ⟨0, by decide, rfl⟩)
  have hn : ¬ ∃ z, Finds (unstableEnv N i1 i2 hash) m hp (.inr 2) z := by
    rw [present_iff v]; decide
  obtain ⟨m', h', e1, e2, _⟩ := insert_ignores_core v "a" 2 20 10 hf hn
  have hs : m.size (unstableEnv N i1 i2 hash) = 1 := Dual.size_eq v.base
  rw [e]
  simp only [Option.bind_some, exec, e1, Option.map_some, hs]
  have := e2
  simp only [Finds, exec] at this
  rw [this]; rfl

/-- Removal of an element whose 64 names exactly fill the slots reserved by the temporary vector (block order 0) is
undefined. -/
theorem remove_full :
    (run (stableEnv 0 MapImpl.atEnd MapImpl.atEnd String.length)
      (DSV.init (stableEnv (K2 := Nat) (V := Nat) 0 MapImpl.atEnd MapImpl.atEnd String.length)) Heap.empty
      (.insert none none 7 :: (List.range 64).map fun i => .addTermForIndex (.inl (String.ofList (List.replicate i 'a'))) 0)).isSome = true ∧
    (run (stableEnv 0 MapImpl.atEnd MapImpl.atEnd String.length)
      (DSV.init (stableEnv (K2 := Nat) (V := Nat) 0 MapImpl.atEnd MapImpl.atEnd String.length)) Heap.empty
      (.insert none none 7 :: ((List.range 64).map fun i => .addTermForIndex (.inl (String.ofList (List.replicate i 'a'))) 0) ++
        [.removeIndex 0])).isSome = false := by decide +kernel

end Verif.Mapped.DualStr
