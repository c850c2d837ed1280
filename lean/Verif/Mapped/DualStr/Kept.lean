import Verif.Mapped.Str.Kept
import Verif.Mapped.DualStr.Props

/-
C151: the strings a DualStringMappedVector keeps.  `names` is only ever added to.
-/
namespace Verif.Mapped.DualStr
open Verif.Mapped Verif.Block Verif.Block.Vector
open Verif.Mapped.Vector (Obs Ideal Entry)
open Verif.Mapped.Dual (ideal idealRun)
open Verif.Mapped.Str (View Names SRepC find_strings strings nameOf)
variable {S K2 V : Type} [DecidableEq K2]

/-! ### Specification -/

omit [DecidableEq K2] in
/-- The strings the container keeps: `names[0]`, `names[1]`, ...  `none` is undefined behaviour. -/
def kept (E : Env S K2 V) (m : DSV S K2) (h : Heap String) : Option (List String) :=
  (List.range m.names.size).mapM fun j => Vec.get E.order m.names h j

/-- The string a call adds: the name of an insertion that adds an element, and the name given to addSearchTerm and addSearchTermForIndex,
in use or not, if the element is found. -/
def added (a : Ideal (String ⊕ K2) V) : Op K2 V → List String
  | .insert (some k1) (some k2) _ => if (a.lookup (.inl k1)).isSome ∧ (a.lookup (.inr k2)).isSome then [] else [k1]
  | .insert (some k1) none _ | .insertOrAssign k1 _ _ | .insertOrAssignOne (.inl k1) _ => if a.lookup (.inl k1) = none then [k1] else []
  | .addTermForIndex (.inl k) i => if i < a.entries.length then [k] else []
  | .addTerm (.inl k) e => if (a.lookup e).isSome then [k] else []
  | _ => []

/-- The strings added by a program. -/
def addedRun (kind : Kind) : Ideal (String ⊕ K2) V → List (Op K2 V) → List String
  | _, [] => []
  | a, op :: ops => added a op ++ (match ideal kind a op with | some r => addedRun kind r.1 ops | none => [])

/-! ### Lemmas -/

variable {E : Env S K2 V} {kind : Kind} {L : Lawful E.st kind}

omit [DecidableEq K2] in
theorem kept_of_names {m : DSV S K2} {h : Heap String} {ns : List String} (r : Names E.order m.names h ns) :
    kept E m h = some ns :=
  Str.kept_of_names (E := (⟨E.st, E.order, E.impl1, E.hash⟩ : Str.Env S V)) (m := ⟨m.data, m.names, m.lookup1⟩) r

omit [DecidableEq K2] in
theorem names_addName1 {m m' : DSV S K2} {h h' : Heap String} {ns : List String} (r : Names E.order m.names h ns) {k : String} {i : Nat}
    {b : Bool} (e : m.addName1 E h k i = some (m', h', b)) : Names E.order m'.names h' (ns ++ [k]) := by
  simp only [DSV.addName1, Str.addName, Option.bind_eq_some_iff, Option.map_eq_some_iff] at e
  obtain ⟨⟨n1, h1, v1⟩, ⟨⟨n2, h2⟩, e1, c, -, e2⟩, l, -, e3⟩ := e
  cases e2; cases e3
  obtain ⟨us, fs, c, w⟩ := r
  obtain ⟨n3, h3, us', fs', e4, c', f, -⟩ := c.pushBack w k
  rw [e1] at e4; cases e4
  exact ⟨us', fs', c', f.wf⟩

theorem names_add {m m' : DSV S K2} {h h' : Heap String} {ns : List String} (r : Names E.order m.names h ns) {k1 : String} {k2 : K2} {x : V}
    {i : Nat} (e : m.add E h k1 k2 x = some (m', h', i)) : Names E.order m'.names h' (ns ++ [k1]) := by
  simp only [DSV.add, Option.bind_eq_some_iff, Option.map_eq_some_iff] at e
  obtain ⟨d, -, ⟨m1, h1, b⟩, e1, e2⟩ := e
  cases e2
  have := names_addName1 (m := { m with data := d }) r e1
  exact this

omit [DecidableEq K2] in
theorem names_addFirst {m m' : DSV S K2} {h h' : Heap String} {ns : List String} (r : Names E.order m.names h ns) {k1 : String} {x : V}
    {i : Nat} (e : m.addFirst E h k1 x = some (m', h', i)) : Names E.order m'.names h' (ns ++ [k1]) := by
  simp only [DSV.addFirst, Option.bind_eq_some_iff, Option.map_eq_some_iff] at e
  obtain ⟨d, -, ⟨m1, h1, b⟩, e1, e2⟩ := e
  cases e2
  exact names_addName1 (m := { m with data := d }) r e1

theorem removeIndex_names {m m' : DSV S K2} {h : Heap String} {i : Nat} (e : m.removeIndex E h i = some m') : m'.names = m.names := by
  simp only [DSV.removeIndex] at e
  split at e
  · cases e; rfl
  · simp only [Option.bind_eq_some_iff, Option.map_eq_some_iff] at e
    obtain ⟨q, -, ind1, -, l1, -, ind2, -, rfl⟩ := e
    rfl

theorem names_step {m m' : DSV S K2} {h h' : Heap String} {a : Ideal (String ⊕ K2) V} (v : Inv L m h a) {ns : List String}
    (r : Names E.order m.names h ns) {op : Op K2 V} {o : Obs V} (e : exec E m h op = some (m', h', o)) :
    Names E.order m'.names h' (ns ++ added a op) := by
  have key : ∀ k, ∃ f, Str.find E.hash E.order h k m.lookup1 = some f ∧ (f = none ↔ a.lookup (.inl k) = none) := by
    intro k
    refine ⟨_, SRepC.find_eq v.ok k, ?_⟩
    rw [Dual.lookup_inl v.base, find_strings]
    simp only [Option.map_eq_none_iff]
  have key2 : ∀ k, a.lookup (.inr k) = FMap.find m.lookup2 k := fun k => Dual.lookup_inr v.base k
  have hsz : E.st.size m.data = a.entries.length := v.base.size_eq
  cases op with
  | insert o1 o2 x =>
    cases o1 with
    | none =>
      cases o2 with
      | none =>
        simp only [exec, DSV.insertNoKey, Option.map_map, Option.map_eq_some_iff] at e
        obtain ⟨d, -, e⟩ := e
        cases e; simpa [added] using r
      | some k2 =>
        simp only [exec, DSV.insert2] at e
        split at e
        · cases e; simpa [added] using r
        · simp only [Option.map_map, Option.map_eq_some_iff] at e
          obtain ⟨d, -, e⟩ := e
          cases e; simpa [added] using r
    | some k1 =>
      obtain ⟨f, hf, hn⟩ := key k1
      cases o2 with
      | none =>
        simp only [exec, DSV.insert1, hf, Option.bind_some, Option.map_eq_some_iff] at e
        obtain ⟨⟨m1, h1, i⟩, e1, e2⟩ := e
        cases e2
        cases f with
        | some p =>
          simp only [Option.isSome_some, if_true] at e1
          cases e1
          have : a.lookup (.inl k1) ≠ none := fun h => by simpa using hn.2 h
          simpa [added, this] using r
        | none =>
          simp only [Option.isSome_none, Bool.false_eq_true, if_false, Option.map_eq_some_iff] at e1
          obtain ⟨⟨m2, h2, j⟩, e1, e2⟩ := e1
          cases e2
          simpa [added, hn.1 rfl] using names_addFirst r e1
      | some k2 =>
        have hiff : (f.isSome ∧ (FMap.find m.lookup2 k2).isSome) ↔
            ((a.lookup (.inl k1)).isSome ∧ (a.lookup (.inr k2)).isSome) := by
          rw [key2]
          cases f <;> cases hl : a.lookup (.inl k1) <;> simp_all
        simp only [exec, DSV.insert, hf, Option.bind_some, Option.map_eq_some_iff] at e
        obtain ⟨⟨m1, h1, i⟩, e1, e2⟩ := e
        cases e2
        split at e1
        · rename_i hb
          cases e1
          simpa [added, if_pos (hiff.1 hb)] using r
        · rename_i hb
          simp only [Option.map_eq_some_iff] at e1
          obtain ⟨⟨m2, h2, j⟩, e1, e2⟩ := e1
          cases e2
          have := names_add r e1
          rw [added, if_neg fun h => hb (hiff.2 h)]
          exact this
  | insertOrAssign k1 k2 x =>
    obtain ⟨f, hf, hn⟩ := key k1
    simp only [exec, DSV.insertOrAssign, hf, Option.bind_some, Option.map_eq_some_iff] at e
    obtain ⟨⟨m1, h1, i⟩, e1, e2⟩ := e
    cases e2
    cases f with
    | some p =>
      simp only [Option.map_eq_some_iff] at e1
      obtain ⟨d, -, e1⟩ := e1
      cases e1
      have : a.lookup (.inl k1) ≠ none := fun h => by simpa using hn.2 h
      simpa [added, this] using r
    | none => simpa [added, hn.1 rfl] using names_add r e1
  | insertOrAssignOne k x =>
    cases k with
    | inl k1 =>
      obtain ⟨f, hf, hn⟩ := key k1
      simp only [exec, DSV.insertOrAssign1, hf, Option.bind_some, Option.map_eq_some_iff] at e
      obtain ⟨⟨m1, h1, i⟩, e1, e2⟩ := e
      cases e2
      cases f with
      | some p =>
        simp only [Option.map_eq_some_iff] at e1
        obtain ⟨d, -, e1⟩ := e1
        cases e1
        have : a.lookup (.inl k1) ≠ none := fun h => by simpa using hn.2 h
        simpa [added, this] using r
      | none => simpa [added, hn.1 rfl] using names_addFirst r e1
    | inr k =>
      simp only [exec, DSV.insertOrAssign2, Option.map_eq_some_iff] at e
      obtain ⟨⟨m1, i⟩, e1, e2⟩ := e
      cases e2
      split at e1 <;> simp only [Option.map_eq_some_iff] at e1 <;> obtain ⟨d, -, e1⟩ := e1 <;> cases e1 <;> simpa [added] using r
  | addTermForIndex k i =>
    cases k with
    | inl k =>
      simp only [exec, DSV.addTermForIndex1, Option.map_eq_some_iff, hsz] at e
      obtain ⟨⟨m1, h1, b⟩, e1, e2⟩ := e
      cases e2
      by_cases hi : i < a.entries.length
      · rw [if_pos hi] at e1
        simpa [added, hi] using names_addName1 r e1
      · rw [if_neg hi] at e1
        cases e1; simpa [added, hi] using r
    | inr k =>
      simp only [exec, DSV.addTermForIndex2] at e
      split at e <;> cases e <;> simpa [added, DSV.emplace2] using r
  | addTerm k ex =>
    cases k with
    | inl k =>
      cases ex with
      | inl ex =>
        obtain ⟨f, hf, hn⟩ := key ex
        simp only [exec, DSV.addTerm11, hf, Option.bind_some, Option.map_eq_some_iff] at e
        obtain ⟨⟨m1, h1, b⟩, e1, e2⟩ := e
        cases e2
        cases f with
        | none => cases e1; simpa [added, hn.1 rfl] using r
        | some p =>
          have : (a.lookup (.inl ex)).isSome = true := by
            rw [← Option.ne_none_iff_isSome]; exact fun h => by simpa using hn.2 h
          simpa [added, this] using names_addName1 r e1
      | inr ex =>
        simp only [exec, DSV.addTerm12, ← key2, Option.map_eq_some_iff] at e
        obtain ⟨⟨m1, h1, b⟩, e1, e2⟩ := e
        cases e2
        cases hl : a.lookup (.inr ex) with
        | none => rw [hl] at e1; cases e1; simpa [added, hl] using r
        | some p => rw [hl] at e1; simpa [added, hl] using names_addName1 r e1
    | inr k =>
      cases ex with
      | inl ex =>
        simp only [exec, DSV.addTerm21, Option.map_map, Option.map_eq_some_iff] at e
        obtain ⟨f, -, e⟩ := e
        cases f <;> cases e <;> simpa [added, DSV.emplace2] using r
      | inr ex =>
        simp only [exec, DSV.addTerm22] at e
        split at e <;> cases e <;> simpa [added, DSV.emplace2] using r
  | removeIndex i =>
    simp only [exec, Option.map_eq_some_iff] at e
    obtain ⟨m1, e1, e2⟩ := e
    cases e2
    simpa [added, removeIndex_names e1] using r
  | remove k =>
    cases k with
    | inl k =>
      simp only [exec, DSV.remove1, Option.map_eq_some_iff, Option.bind_eq_some_iff] at e
      obtain ⟨m1, ⟨f, -, e1⟩, e2⟩ := e
      cases e2
      cases f with
      | none => cases e1; simpa [added] using r
      | some p => simpa [added, removeIndex_names e1] using r
    | inr k =>
      simp only [exec, DSV.remove2, Option.map_eq_some_iff] at e
      obtain ⟨m1, e1, e2⟩ := e
      cases e2
      split at e1
      · cases e1; simpa [added] using r
      · simpa [added, removeIndex_names e1] using r
  | find k =>
    cases k <;> simp only [exec, Option.map_eq_some_iff] at e <;> obtain ⟨q, -, e⟩ := e <;> cases e <;> simpa [added] using r
  | _ =>
    simp only [exec, DSV.get, DSV.set, DSV.at?, DSV.back, DSV.apply, DSV.modify, DSV.transform, DSV.clear, Option.map_map,
      Option.map_eq_some_iff] at e
    first
      | (cases e; simpa [added] using r)
      | (obtain ⟨q, -, e⟩ := e; cases e; simpa [added] using r)

theorem names_run (ops : List (Op K2 V)) : ∀ {m : DSV S K2} {h : Heap String} {a : Ideal (String ⊕ K2) V} {ns : List String}, Inv L m h a →
    Names E.order m.names h ns → carefulRun E.order kind a ops = true → ∀ {a' os}, idealRun kind a ops = some (a', os) →
    ∃ m' h', run E m h ops = some (m', h', os) ∧ Inv L m' h' a' ∧ Names E.order m'.names h' (ns ++ addedRun kind a ops) := by
  induction ops with
  | nil => intro m h a ns v r _ a' os hi; cases hi; exact ⟨m, h, rfl, v, by simpa [addedRun] using r⟩
  | cons op ops ih =>
    intro m h a ns v r hc a' os hi
    simp only [idealRun, Option.bind_eq_some_iff, Option.map_eq_some_iff] at hi
    obtain ⟨⟨a1, o⟩, h1, ⟨a2, os2⟩, h2, h3⟩ := hi
    cases h3
    simp only [carefulRun, h1, Bool.and_eq_true] at hc
    obtain ⟨m1, hp1, e1, v1⟩ := step v hc.1 h1
    obtain ⟨m2, hp2, e2, v2, r2⟩ := ih v1 (names_step v r e1) hc.2 h2
    exact ⟨m2, hp2, by simp [run, e1, e2], v2, by simpa [addedRun, h1, List.append_assoc] using r2⟩

omit [DecidableEq K2] in
theorem names_init : Names E.order (DSV.init E).names Heap.empty [] := by
  obtain ⟨us, fs, c, w, _⟩ := (stableStarts E.order String).start
  exact ⟨us, fs, c, w⟩

/-! ## C151 -/

/-- After every careful history the container keeps exactly the strings that calls have ever added. -/
theorem kept_exact_stable (N : Nat) (i1 : MapImpl View) (i2 : MapImpl K2) (hash : String → Nat) (ops : List (Op K2 V))
    (a : Ideal (String ⊕ K2) V) (os : List (Obs V)) (h : idealRun (.stable N) empty ops = some (a, os))
    (hc : carefulRun N (.stable N) empty ops = true) :
    ∃ m hp, run (stableEnv N i1 i2 hash) (DSV.init (stableEnv N i1 i2 hash)) Heap.empty ops = some (m, hp, os) ∧
      kept (stableEnv N i1 i2 hash) m hp = some (addedRun (.stable N) empty ops) := by
  obtain ⟨m, hp, e, -, r⟩ := names_run (E := stableEnv N i1 i2 hash) (L := stableLawful N V) ops (InvC.init (stableStarts _ _)) names_init hc h
  exact ⟨m, hp, e, kept_of_names r⟩

/-- The same for vector storage. -/
theorem kept_exact_unstable (N : Nat) (i1 : MapImpl View) (i2 : MapImpl K2) (hash : String → Nat) (ops : List (Op K2 V))
    (a : Ideal (String ⊕ K2) V) (os : List (Obs V)) (h : idealRun .unstable empty ops = some (a, os))
    (hc : carefulRun N .unstable empty ops = true) :
    ∃ m hp, run (unstableEnv N i1 i2 hash) (DSV.init (unstableEnv N i1 i2 hash)) Heap.empty ops = some (m, hp, os) ∧
      kept (unstableEnv N i1 i2 hash) m hp = some (addedRun .unstable empty ops) := by
  obtain ⟨m, hp, e, -, r⟩ := names_run (E := unstableEnv N i1 i2 hash) (L := vectorLawful V) ops (InvC.init (vectorStarts _)) names_init hc h
  exact ⟨m, hp, e, kept_of_names r⟩

omit [DecidableEq K2] in
/-- calls that take no element out -/
def _root_.Verif.Mapped.Dual.Op.keeps : Op K2 V → Bool
  | .remove _ | .removeIndex _ | .clear => false
  | _ => true

omit [DecidableEq K2] in
/-- calls that ask for one more name of an element -/
def _root_.Verif.Mapped.Dual.Op.names : Op K2 V → Bool
  | .addTerm (.inl _) _ | .addTermForIndex (.inl _) _ => true
  | _ => false

theorem added_length {a a' : Ideal (String ⊕ K2) V} {op : Op K2 V} {o : Obs V} (hk : op.keeps = true) (h : ideal kind a op = some (a', o)) :
    a.entries.length + (added a op).length ≤ a'.entries.length + (if op.names then 1 else 0) := by
  cases op with
  | insert o1 o2 x =>
    cases o1 <;> cases o2 <;> simp only [ideal, added] at h ⊢ <;> (try split at h) <;> cases h <;>
      simp_all [Dual.attach, Vector.Ideal.append]
    all_goals (try split) <;> first | omega | (simp_all; done) | grind
  | insertOrAssign k1 k2 x =>
    simp only [ideal, added] at h ⊢
    split at h <;> cases h <;> simp_all [Dual.attach, Dual.assign, Vector.Ideal.append]
  | insertOrAssignOne k x =>
    cases k <;> simp only [ideal, added] at h ⊢ <;> split at h <;> cases h <;> simp_all [Dual.assign, Vector.Ideal.append, Dual.Op.names]
  | addTermForIndex k i =>
    cases k <;> simp only [ideal, added, Dual.Op.names] at h ⊢ <;> split at h <;> cases h <;> simp [Dual.attach] <;> split <;> simp
  | addTerm k e =>
    cases k <;> simp only [ideal, added, Dual.Op.names] at h ⊢ <;> split at h <;> (try split at h) <;> cases h <;> simp [Dual.attach] <;>
      split <;> simp
  | removeIndex _ | remove _ | clear => cases hk
  | set i x => simp only [ideal] at h; split at h <;> cases h; simp [added, Dual.assign]
  | get i => simp only [ideal, Option.map_eq_some_iff] at h; obtain ⟨_, -, h⟩ := h; cases h; simp [added]
  | back => simp only [ideal, Option.map_eq_some_iff] at h; obtain ⟨_, -, h⟩ := h; cases h; simp [added]
  | _ => simp only [ideal] at h; cases h; simp [added]

theorem addedRun_length (ops : List (Op K2 V)) : ∀ {a a' : Ideal (String ⊕ K2) V} {os}, (∀ op ∈ ops, op.keeps = true) →
    idealRun kind a ops = some (a', os) →
    a.entries.length + (addedRun kind a ops).length ≤ a'.entries.length + (ops.countP fun op => op.names) := by
  induction ops with
  | nil => intro a a' os _ h; cases h; simp [addedRun]
  | cons op ops ih =>
    intro a a' os hk h
    simp only [idealRun, Option.bind_eq_some_iff, Option.map_eq_some_iff] at h
    obtain ⟨⟨a1, o⟩, h1, ⟨a2, os2⟩, h2, h3⟩ := h
    cases h3
    have b1 := added_length (hk op (by simp)) h1
    have b2 := ih (fun x hx => hk x (by simp [hx])) h2
    simp only [addedRun, h1, List.length_append, List.countP_cons]
    dsimp only at b1 b2
    omega

/-- C151, partial: as long as no element is taken out, at most one string is kept per element and call that gives an element a further
name, used or not.  Missing, because the code violates it: the same after removals, and without counting refused calls. -/
theorem kept_bounded_partial (N : Nat) (i1 : MapImpl View) (i2 : MapImpl K2) (hash : String → Nat) (ops : List (Op K2 V))
    (a : Ideal (String ⊕ K2) V) (os : List (Obs V)) (h : idealRun (.stable N) empty ops = some (a, os))
    (hc : carefulRun N (.stable N) empty ops = true) (hk : ∀ op ∈ ops, op.keeps = true) :
    ∃ m hp ns, run (stableEnv N i1 i2 hash) (DSV.init (stableEnv N i1 i2 hash)) Heap.empty ops = some (m, hp, os) ∧
      kept (stableEnv N i1 i2 hash) m hp = some ns ∧
      ns.length ≤ m.size (stableEnv N i1 i2 hash) + (ops.countP fun op => op.names) := by
  obtain ⟨m, hp, e, v, r⟩ := names_run (E := stableEnv N i1 i2 hash) (L := stableLawful N V) ops (InvC.init (stableStarts _ _)) names_init hc h
  refine ⟨m, hp, _, e, kept_of_names r, ?_⟩
  have := addedRun_length ops hk h
  have hs : m.size (stableEnv N i1 i2 hash) = a.entries.length := v.base.size_eq
  rw [hs]
  simpa [empty] using this

/-! ### Violations -/

/-- `n` times the same calls -/
def repeated {α : Type} (l : List α) : Nat → List α
  | 0 => []
  | n + 1 => l ++ repeated l n

/-- Insert under `k`, then clear. -/
theorem rounds_ideal (N : Nat) (k : String) (x : V) (n : Nat) : ∀ r,
    ∃ r' os, idealRun (K2 := K2) kind ⟨[], r⟩ (repeated [.insert (some k) none x, .clear] n) = some (⟨[], r'⟩, os) ∧
      carefulRun (K2 := K2) N kind ⟨[], r⟩ (repeated [.insert (some k) none x, .clear] n) = true ∧
      addedRun (K2 := K2) kind ⟨[], r⟩ (repeated [.insert (some k) none x, .clear] n) = List.replicate n k := by
  induction n with
  | zero => intro r; exact ⟨r, [], rfl, rfl, rfl⟩
  | succ n ih =>
    intro r
    obtain ⟨r', os, h1, h2, h3⟩ := ih (kind.reserve r 0)
    have e1 : ideal kind (⟨[], r⟩ : Ideal (String ⊕ K2) V) (.insert (some k) none x) =
      some (⟨[⟨x, [.inl k]⟩], kind.reserve r 0⟩, .index (some 0)) := rfl
    have e2 : ideal kind (⟨[⟨x, [.inl k]⟩], kind.reserve r 0⟩ : Ideal (String ⊕ K2) V) .clear = some (⟨[], kind.reserve r 0⟩, .done) := rfl
    have a1 : added (⟨[], r⟩ : Ideal (String ⊕ K2) V) (.insert (some k) none x) = [k] := rfl
    have a2 : added (⟨[⟨x, [.inl k]⟩], kind.reserve r 0⟩ : Ideal (String ⊕ K2) V) .clear = [] := rfl
    refine ⟨r', .index (some 0) :: .done :: os, ?_, ?_, ?_⟩
    · simp only [repeated, List.cons_append, List.nil_append, idealRun, e1, e2, h1, Option.bind_some, Option.map_some]
    · simp only [repeated, List.cons_append, List.nil_append, carefulRun, e1, e2, h2, Bool.and_true]; rfl
    · simp only [repeated, List.cons_append, List.nil_append, addedRun, e1, e2, a1, a2, h3, List.replicate_succ]

/-- C151 violation: `n` times insert an element and clear the container: it is empty then, but keeps `n` copies of the name. -/
theorem kept_grows_violation (N : Nat) (i1 : MapImpl View) (i2 : MapImpl K2) (hash : String → Nat) (k : String) (x : V) (n : Nat) :
    ∃ m hp os, run (stableEnv N i1 i2 hash) (DSV.init (stableEnv N i1 i2 hash)) Heap.empty
        (repeated [.insert (some k) none x, .clear] n) = some (m, hp, os) ∧
      m.size (stableEnv N i1 i2 hash) = 0 ∧ kept (stableEnv N i1 i2 hash) m hp = some (List.replicate n k) ∧
      ∃ bs : List Nat, bs.Nodup ∧ (∀ b, b ∈ bs → hp.live b = true) ∧ n ≤ bs.length * 2 ^ N := by
  obtain ⟨r, os, h1, h2, h3⟩ := rounds_ideal (K2 := K2) (kind := .stable N) N k x n 0
  obtain ⟨m, hp, e, v, rn⟩ := names_run (E := stableEnv N i1 i2 hash) (L := stableLawful N V) _ (InvC.init (stableStarts _ _)) names_init h2 h1
  rw [List.nil_append, h3] at rn
  refine ⟨m, hp, os, e, v.base.size_eq, kept_of_names rn, ?_⟩
  obtain ⟨us, fs, c, -⟩ := rn
  have hz := c.size
  have hb := c.bsz
  have hl := c.len
  have hB : Vec.blockSize (stableEnv (V := V) N i1 i2 hash).order = 2 ^ N := Vec.blockSize_eq N
  rw [hB] at hz hb
  rw [List.length_replicate] at hl
  exact ⟨us, (List.nodup_append.1 c.nodup).1, fun b h => c.live b (by simp [h]), by omega⟩

/-- C151 violation: in every state with an element known under `k`, calls that return false and have no other effect, adding the search term
`k` that is in use, leave one more string each. -/
theorem refused_term_kept_violation (N : Nat) (i1 : MapImpl View) (i2 : MapImpl K2) (hash : String → Nat) (ops : List (Op K2 V))
    (a : Ideal (String ⊕ K2) V) (os : List (Obs V)) (h : idealRun (.stable N) empty ops = some (a, os))
    (hc : carefulRun N (.stable N) empty ops = true) (k : String) (i : Nat) (hk : a.lookup (.inl k) = some i) (n : Nat) :
    ∃ m hp m' hp' ns, run (stableEnv N i1 i2 hash) (DSV.init (stableEnv N i1 i2 hash)) Heap.empty ops = some (m, hp, os) ∧
      kept (stableEnv N i1 i2 hash) m hp = some ns ∧
      run (stableEnv N i1 i2 hash) m hp (repeated [.addTermForIndex (.inl k) i] n) = some (m', hp', List.replicate n (.bool false)) ∧
      kept (stableEnv N i1 i2 hash) m' hp' = some (ns ++ List.replicate n k) := by
  obtain ⟨m, hp, e, v, r⟩ := names_run (E := stableEnv N i1 i2 hash) (L := stableLawful N V) ops (InvC.init (stableStarts _ _)) names_init hc h
  have hi : i < a.entries.length := by
    rw [Vector.Ideal.lookup] at hk
    exact (List.findIdx?_eq_some_iff_findIdx_eq.1 hk).1
  have e1 : ideal (.stable N) a (.addTermForIndex (.inl k) i : Op K2 V) = some (a, .bool false) := by simp [ideal, hk]
  have a1 : added a (.addTermForIndex (.inl k) i : Op K2 V) = [k] := by simp [added, hi]
  have hrep : ∀ n, idealRun (.stable N) a (repeated [(.addTermForIndex (.inl k) i : Op K2 V)] n) = some (a, List.replicate n (.bool false)) ∧
      carefulRun N (.stable N) a (repeated [(.addTermForIndex (.inl k) i : Op K2 V)] n) = true ∧
      addedRun (.stable N) a (repeated [(.addTermForIndex (.inl k) i : Op K2 V)] n) = List.replicate n k := by
    intro n
    induction n with
    | zero => exact ⟨rfl, rfl, rfl⟩
    | succ n ih =>
      obtain ⟨h1, h2, h3⟩ := ih
      refine ⟨?_, ?_, ?_⟩
      · simp only [repeated, List.cons_append, List.nil_append, idealRun, e1, h1, Option.bind_some, Option.map_some, List.replicate_succ]
      · simp only [repeated, List.cons_append, List.nil_append, carefulRun, e1, h2, Bool.and_true]; rfl
      · simp only [repeated, List.cons_append, List.nil_append, addedRun, e1, a1, h3, List.replicate_succ]
  obtain ⟨h1, h2, h3⟩ := hrep n
  obtain ⟨m', hp', e', v', r'⟩ := names_run (E := stableEnv N i1 i2 hash) (L := stableLawful N V) _ v r h2 h1
  rw [h3] at r'
  exact ⟨m, hp, m', hp', _, e, kept_of_names r, e', kept_of_names r'⟩

/-! ### Examples -/

/-- `kept_exact_stable`: the name "b" is kept three times, once by a call that returned false. -/
example : addedRun (K2 := Nat) (V := Nat) (.stable 1) empty [.insert (some "a") (some 7) 1, .insertOrAssign "b" 8 2, .addTerm (.inl "b") (.inr 7),
    .remove (.inl "b"), .insert (some "b") none 5] = ["a", "b", "b", "b"] := by decide

/-- `kept_bounded_partial` -/
example : (idealRun (K1 := String) (K2 := Nat) (V := Nat) (.stable 1) empty [.insert (some "a") (some 7) 1, .addTerm (.inl "b") (.inr 7)]).isSome ∧
    carefulRun (K2 := Nat) (V := Nat) 1 (.stable 1) empty [.insert (some "a") (some 7) 1, .addTerm (.inl "b") (.inr 7)] = true ∧
    ∀ op ∈ ([.insert (some "a") (some 7) 1, .addTerm (.inl "b") (.inr 7)] : List (Op Nat Nat)), op.keeps = true := by decide

/-- `refused_term_kept_violation` -/
example : ∃ a os, idealRun (K1 := String) (K2 := Nat) (V := Nat) (.stable 1) empty [.insert (some "a") (some 7) 1] = some (a, os) ∧
    carefulRun (K2 := Nat) (V := Nat) 1 (.stable 1) empty [.insert (some "a") (some 7) 1] = true ∧ a.lookup (.inl "a") = some 0 :=
  ⟨_, _, rfl, by decide, by decide⟩

end Verif.Mapped.DualStr
