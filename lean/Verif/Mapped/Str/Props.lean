import Verif.Mapped.Str.Own

/-
StringMappedVector: property C39.
-/
namespace Verif.Mapped.Str
open Verif.Mapped Verif.Block Verif.Block.Vector
open Verif.Mapped.Vector (Obs Ideal)

variable {V : Type}

/-- `StringMappedVector<V, reference_stability::stable, N>`. -/
def stableEnv (N : Nat) (impl : MapImpl View) (hash : String → Nat) : Env (Vec × Heap V) V :=
  ⟨stableStore N V, N, impl, hash⟩

/-- `StringMappedVector<V, reference_stability::unstable, N>`.  In this variant `remove` and `removeIndex` do not compile
(there is no `localErase` for `std::vector`), see `Op.compiles`. -/
def unstableEnv (N : Nat) (impl : MapImpl View) (hash : String → Nat) : Env (List V) V := ⟨vectorStore V, N, impl, hash⟩

/-- calls that compile for vector storage -/
def Op.compiles : Op V → Bool
  | .remove _ | .removeIndex _ => false
  | _ => true

/-! ## Every key refers to one of the container's own strings -/

/-- After any history at all, whatever the element storage, the hash function and the order of the map: every key of the
map is a view of a living string that is an element of the container's own `names`; and no two keys have the same
content. -/
theorem keys_own {S : Type} (E : Env S V) (ops : List (Op V)) (m : SMV S) (h : Heap String) (os : List (Obs V))
    (he : run E (SMV.init E) Heap.empty ops = some (m, h, os)) :
    (∀ v i, (v, i) ∈ m.lookup → ∃ (j : Nat) (s : String), j < m.names.size ∧ Vec.cell E.order m.names j = some v.1 ∧
      Vec.get E.order m.names h j = some s ∧ text E.order h v = some s ∧ v.2 = E.hash s) ∧
    (∀ v i v' i', (v, i) ∈ m.lookup → (v', i') ∈ m.lookup → text E.order h v = text E.order h v' → v = v' ∧ i = i') := by
  have f := Fine.run ops Fine.init he
  obtain ⟨ns, rep, g⟩ := f.ok.own
  have hsz : m.names.size = ns.length := rep.size
  constructor
  · intro v i hv
    obtain ⟨j, s, h1, h2, h3⟩ := g v (List.mem_map.2 ⟨_, hv, rfl⟩)
    obtain ⟨hj, rfl⟩ := List.getElem?_eq_some_iff.1 h1
    have hg : Vec.get E.order m.names h j = some ns[j] := rep.get hj
    refine ⟨j, ns[j], by omega, h2, hg, ?_, h3⟩
    rw [Vec.get, h2] at hg; exact hg
  · intro v i v' i' hv hv' ht
    have w : (m.lookup.map fun e => nameOf E.order h e.1).Nodup := by
      have := f.wf; unfold FMap.WF strings at this; rw [List.map_map] at this; exact this
    have := List.inj_on_of_nodup_map w hv hv' (by simp only [nameOf, ht])
    cases this; exact ⟨rfl, rfl⟩

/-! ## Histories -/

/-- For every hash function, every order in which the map may iterate, and every history of careful calls that the
specification allows: the code is defined and returns what the specification returns; in particular `find(name)` returns
the element inserted under that name.  Stable storage (the default). -/
theorem history_stable_partial (N : Nat) (impl : MapImpl View) (hash : String → Nat) (ops : List (Op V))
    (a : Ideal String V) (os : List (Obs V)) (h : idealRun (.stable N) ⟨[], 0⟩ ops = some (a, os))
    (hc : carefulRun (.stable N) ⟨[], 0⟩ ops = true) :
    ∃ m hp, run (stableEnv N impl hash) (SMV.init (stableEnv N impl hash)) Heap.empty ops = some (m, hp, os) := by
  obtain ⟨m, hp, e, _⟩ := simulate (E := stableEnv N impl hash) (L := stableLawful N V) ops (InvC.init (stableStarts _ _)) hc h
  exact ⟨m, hp, e⟩

/-- Vector storage: nothing is excluded among the calls that compile. -/
theorem history_unstable (N : Nat) (impl : MapImpl View) (hash : String → Nat) (ops : List (Op V))
    (a : Ideal String V) (os : List (Obs V)) (h : idealRun .unstable ⟨[], 0⟩ ops = some (a, os))
    (hk : ∀ op ∈ ops, op.compiles = true) :
    ∃ m hp, run (unstableEnv N impl hash) (SMV.init (unstableEnv N impl hash)) Heap.empty ops = some (m, hp, os) := by
  have : ∀ (ops : List (Op V)) (a0 : Ideal String V) a os, idealRun .unstable a0 ops = some (a, os) →
      (∀ op ∈ ops, op.compiles = true) → carefulRun .unstable a0 ops = true := by
    intro ops
    induction ops with
    | nil => intros; rfl
    | cons op ops ih =>
      intro a0 a os h hk
      simp only [idealRun, List.map_cons, Vector.idealRun, Option.bind_eq_some_iff, Option.map_eq_some_iff] at h
      obtain ⟨⟨a1, o⟩, h1, ⟨a2, os2⟩, h2, h3⟩ := h
      have h1' : ideal .unstable a0 op = some (a1, o) := h1
      simp only [carefulRun, h1', Bool.and_eq_true]
      refine ⟨?_, ih a1 a2 os2 h2 fun op h => hk op (List.mem_cons_of_mem _ h)⟩
      have := hk op (by simp)
      cases op <;> simp_all [careful, Op.compiles, Kind.iterable]
  obtain ⟨m, hp, e, _⟩ := simulate (E := unstableEnv N impl hash) (L := vectorLawful V) ops (InvC.init (vectorStarts _)) (this ops _ a os h hk) h
  exact ⟨m, hp, e⟩

/-- a program using every call -/
def demo : List (Op Nat) :=
  [.insert "a" 10, .insert "b" 20, .insert "a" 11, .insertNoKey 30, .insertOrAssign "b" 21, .insertOrAssign "d" 40,
   .find "b", .find "d", .find "z", .get 1, .set 0 12, .at 0, .at 9, .back, .remove "a", .find "b", .find "a", .removeIndex 3,
   .find "d", .removeIndex 1, .find "b", .removeIndex 9, .size, .apply, .modify (· + 1), .transform (· * 2), .apply,
   .clear, .size, .insert "a" 7, .find "a"]

example : (idealRun (.stable 0) ⟨[], 0⟩ demo).map (·.2) = some
    [.index (some 0), .index (some 1), .index none, .index (some 2), .index (some 1), .index (some 3), .found (some 21),
     .found (some 40), .found none, .val 21, .done, .val 12, .threw, .val 40, .done, .found (some 21), .found none, .done,
     .found none, .done, .found none, .done, .num 3, .vals [12, 21, 30], .done, .done, .vals [26, 44, 62], .done, .num 0,
     .index (some 0), .found (some 7)] := by decide
example : carefulRun (.stable 0) ⟨[], 0⟩ demo = true := by decide
/-- a run meeting the hypothesis of `keys_own`, with all hash codes equal -/
example : ((run (stableEnv 1 MapImpl.atFront (fun _ => 0)) (SMV.init (stableEnv (V := Nat) 1 MapImpl.atFront (fun _ => 0))) Heap.empty
    [.insert "a" 10, .insert "b" 20, .insertNoKey 1, .insert "c" 30, .remove "a"]).map fun r => r.1.lookup) =
    some [(((1, 0), 0), 3), (((0, 1), 0), 1)] := by decide +kernel
example : (idealRun .unstable (⟨[], 0⟩ : Ideal String Nat) (demo.filter Op.compiles)).isSome = true := by decide

/-! ## Moves and copies -/

/-- Execution after a move: run `ops` on a container, move it, destroy the moved-from one, then run `ops'` on the new
container. -/
def moveRun {S : Type} (E : Env S V) (data' : S) (lookup' : FMap View) (ops ops' : List (Op V)) : Option (List (Obs V)) :=
  (run E (SMV.init E) Heap.empty ops).bind fun r =>
  let mv := r.1.move data' lookup'
  (mv.2.destroy E r.2.1).bind fun h => (run E mv.1 h ops').map fun s => r.2.2 ++ s.2.2

/-- Moving a container and destroying the moved-from one changes no result of any call, before or after. -/
theorem move_transparent {S : Type} (E : Env S V) (data' : S) (lookup' : FMap View) (ops ops' : List (Op V)) :
    moveRun E data' lookup' ops ops' = (run E (SMV.init E) Heap.empty (ops ++ ops')).map fun r => r.2.2 := by
  have key : ∀ (ops : List (Op V)) (m : SMV S) (h : Heap String),
      run E m h (ops ++ ops') = (run E m h ops).bind fun r => (run E r.1 r.2.1 ops').map fun s => (s.1, s.2.1, r.2.2 ++ s.2.2) := by
    intro ops
    induction ops with
    | nil => intro m h; simp [run]
    | cons op ops ih =>
      intro m h
      simp only [List.cons_append, run]
      cases exec E m h op with
      | none => rfl
      | some r =>
        simp only [Option.bind_some, ih]
        cases run E r.1 r.2.1 ops with
        | none => rfl
        | some q =>
          simp only [Option.bind_some, Option.map_some, Option.map_map]
          rfl
  rw [key, moveRun, Option.map_bind]
  congr 1
  funext r
  show (run E r.1 r.2.1 ops').map _ = _
  simp only [Function.comp, Option.map_map]
  rfl

example : moveRun (unstableEnv 5 MapImpl.atEnd (fun s => s.length)) [] [] [.insert "a" 10] [.find "a"] =
    some [.index (some 0), .found (some (10 : Nat))] := by decide +kernel

/-- Execution after a copy: run `ops` on a container, copy it, destroy the original, then run `ops'` on the copy.
(`data` is its own copy, here for vector storage.) -/
def copyRun (E : Env (List V) V) (ops ops' : List (Op V)) : Option (List (Obs V)) :=
  (run E (SMV.init E) Heap.empty ops).bind fun r =>
  (r.1.copy E r.2.1 r.1.data).bind fun c =>
  (r.1.destroy E c.2).bind fun h => (run E c.1 h ops').map fun s => s.2.2

/-- C39 is false for copies: after copying a container and destroying the original, looking for a name in the copy is
undefined (it compares with a string that no longer exists), although the copy itself works. -/
theorem copy_violation :
    copyRun (unstableEnv 5 MapImpl.atEnd (fun s => s.length)) [.insert "a" 10] [.find "a"] = none ∧
    copyRun (unstableEnv 5 MapImpl.atEnd (fun s => s.length)) [.insert "a" 10] [.get 0, .size] =
      some [.val (10 : Nat), .num 1] := by
  constructor <;> decide +kernel

/-- The reason: the keys of the copy are views of the original's strings. -/
theorem copy_keys {S : Type} (E : Env S V) (m c : SMV S) (h h' : Heap String) (d : S) (he : m.copy E h d = some (c, h')) :
    c.lookup = m.lookup := by
  simp only [SMV.copy, Option.map_eq_some_iff] at he
  obtain ⟨_, _, h3⟩ := he
  cases h3; rfl

/-- Removing by index an element without search term removes the empty search term of another element. -/
theorem keyless_violation :
    (idealRun (.stable 5) (⟨[], 0⟩ : Ideal String Nat) [.insertNoKey 1, .insert "" 2, .removeIndex 0, .find ""]).map (·.2) =
      some [.index (some 0), .index (some 1), .done, .found (some 2)] ∧
    (run (stableEnv 5 MapImpl.atEnd (fun s => s.length)) (SMV.init (stableEnv (V := Nat) 5 MapImpl.atEnd (fun s => s.length)))
      Heap.empty [.insertNoKey 1, .insert "" 2, .removeIndex 0, .find ""]).map (fun r => r.2.2) =
      some [.index (some 0), .index (some 1), .done, .found none] := by
  constructor <;> decide +kernel

end Verif.Mapped.Str
