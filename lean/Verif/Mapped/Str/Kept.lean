import Verif.Mapped.Str.Props

/-
C150: the strings a StringMappedVector keeps.  `names` is only ever added to.
-/
namespace Verif.Mapped.Str
open Verif.Mapped Verif.Block Verif.Block.Vector
open Verif.Mapped.Vector (Obs Ideal)
variable {S V : Type}

/-! ### Specification -/

/-- The strings the container keeps: `names[0]`, `names[1]`, ...  `none` is undefined behaviour. -/
def kept (E : Env S V) (m : SMV S) (h : Heap String) : Option (List String) :=
  (List.range m.names.size).mapM fun j => Vec.get E.order m.names h j

/-- The search term of an insertion that adds an element. -/
def added (a : Ideal String V) : Op V → List String
  | .insert k _ | .insertOrAssign k _ => if a.lookup k = none then [k] else []
  | _ => []

/-- The search terms of all insertions of a program that add an element. -/
def addedRun (kind : Kind) : Ideal String V → List (Op V) → List String
  | _, [] => []
  | a, op :: ops => added a op ++ (match ideal kind a op with | some r => addedRun kind r.1 ops | none => [])

/-! ### Lemmas -/

variable {E : Env S V} {kind : Kind} {L : Lawful E.st kind}

theorem kept_of_names {m : SMV S} {h : Heap String} {ns : List String} (r : Names E.order m.names h ns) :
    kept E m h = some ns := by
  rw [kept, r.size]
  have : ∀ l : List Nat, (∀ j, j ∈ l → j < ns.length) →
      (l.mapM fun j => Vec.get E.order m.names h j) = some (l.map fun j => ns.getD j "") := by
    intro l
    induction l with
    | nil => intro _; rfl
    | cons j l ih =>
      intro hl
      have hj := hl j (by simp)
      rw [List.mapM_cons, r.get hj, ih fun i hi => hl i (by simp [hi])]
      simp [hj]
  rw [this _ (by simp)]
  congr 1
  apply List.ext_getElem (by simp)
  intro i h1 h2
  simp at h1
  simp [h1]

theorem names_add {m m' : SMV S} {h h' : Heap String} {ns : List String} (r : Names E.order m.names h ns) {k : String} {x : V} {i : Nat}
    (e : m.add E h k x = some (m', h', i)) : Names E.order m'.names h' (ns ++ [k]) := by
  simp only [SMV.add, addName, Option.bind_eq_some_iff, Option.map_eq_some_iff] at e
  obtain ⟨d, -, ⟨n1, h1, v1⟩, ⟨⟨n2, h2⟩, e1, c, -, e2⟩, l, -, e3⟩ := e
  cases e2; cases e3
  obtain ⟨us, fs, c, w⟩ := r
  obtain ⟨n3, h3, us', fs', e4, c', f, -⟩ := c.pushBack w k
  rw [e1] at e4; cases e4
  exact ⟨us', fs', c', f.wf⟩

theorem names_step {m m' : SMV S} {h h' : Heap String} {a : Ideal String V} (v : Inv L m h a) {ns : List String}
    (r : Names E.order m.names h ns) {op : Op V} {o : Obs V} (e : exec E m h op = some (m', h', o)) :
    Names E.order m'.names h' (ns ++ added a op) := by
  have key : ∀ k, ∃ f, find E.hash E.order h k m.lookup = some f ∧ (f = none ↔ a.lookup k = none) := by
    intro k
    refine ⟨_, SRepC.find_eq v.ok k, ?_⟩
    rw [v.base.lookup_eq, find_strings]
    simp only [Option.map_eq_none_iff]
  cases op with
  | insert k x =>
    obtain ⟨f, hf, hn⟩ := key k
    simp only [exec, SMV.insert, hf, Option.bind_some, Option.map_eq_some_iff] at e
    obtain ⟨⟨m1, h1, i⟩, e1, e2⟩ := e
    cases e2
    cases f with
    | some p =>
      simp only [Option.isSome_some, if_true] at e1
      cases e1
      have : a.lookup k ≠ none := fun h => by simpa using hn.2 h
      simpa [added, this] using r
    | none =>
      simp only [Option.isSome_none, Bool.false_eq_true, if_false, Option.map_eq_some_iff] at e1
      obtain ⟨⟨m2, h2, j⟩, e1, e2⟩ := e1
      cases e2
      simpa [added, hn.1 rfl] using names_add r e1
  | insertOrAssign k x =>
    obtain ⟨f, hf, hn⟩ := key k
    simp only [exec, SMV.insertOrAssign, hf, Option.bind_some, Option.map_eq_some_iff] at e
    obtain ⟨⟨m1, h1, i⟩, e1, e2⟩ := e
    cases e2
    cases f with
    | some p =>
      simp only [Option.map_eq_some_iff] at e1
      obtain ⟨d, -, e1⟩ := e1
      cases e1
      have : a.lookup k ≠ none := fun h => by simpa using hn.2 h
      simpa [added, this] using r
    | none => simpa [added, hn.1 rfl] using names_add r e1
  | removeIndex i =>
    simp only [exec, SMV.removeIndex, Option.map_eq_some_iff] at e
    obtain ⟨m1, e1, e2⟩ := e
    cases e2
    split at e1
    · cases e1; simpa [added] using r
    · simp only [Option.bind_eq_some_iff, Option.map_eq_some_iff] at e1
      obtain ⟨q, -, ind, -, f, -, rfl⟩ := e1
      simpa [added] using r
  | remove k =>
    simp only [exec, SMV.remove, Option.map_eq_some_iff, Option.bind_eq_some_iff] at e
    obtain ⟨m1, ⟨f, -, e1⟩, e2⟩ := e
    cases e2
    cases f with
    | none => cases e1; simpa [added] using r
    | some p =>
      simp only [Option.map_eq_some_iff] at e1
      obtain ⟨q, -, rfl⟩ := e1
      simpa [added] using r
  | _ =>
    simp only [exec, SMV.insertNoKey, SMV.find, SMV.get, SMV.set, SMV.at?, SMV.back, SMV.apply, SMV.modify, SMV.transform, SMV.clear,
      Option.map_map, Option.map_eq_some_iff] at e
    first
      | (cases e; simpa [added] using r)
      | (obtain ⟨q, -, e⟩ := e; cases e; simpa [added] using r)

theorem names_run (ops : List (Op V)) : ∀ {m : SMV S} {h : Heap String} {a : Ideal String V} {ns : List String}, Inv L m h a →
    Names E.order m.names h ns → carefulRun kind a ops = true → ∀ {a' os}, idealRun kind a ops = some (a', os) →
    ∃ m' h', run E m h ops = some (m', h', os) ∧ Inv L m' h' a' ∧ Names E.order m'.names h' (ns ++ addedRun kind a ops) := by
  induction ops with
  | nil => intro m h a ns v r _ a' os hi; cases hi; exact ⟨m, h, rfl, v, by simpa [addedRun] using r⟩
  | cons op ops ih =>
    intro m h a ns v r hc a' os hi
    simp only [idealRun, List.map_cons, Vector.idealRun, Option.bind_eq_some_iff, Option.map_eq_some_iff] at hi
    obtain ⟨⟨a1, o⟩, h1, ⟨a2, os2⟩, h2, h3⟩ := hi
    cases h3
    have h1' : ideal kind a op = some (a1, o) := h1
    simp only [carefulRun, h1', Bool.and_eq_true] at hc
    obtain ⟨m1, hp1, e1, v1⟩ := step v hc.1 h1'
    obtain ⟨m2, hp2, e2, v2, r2⟩ := ih v1 (names_step v r e1) hc.2 h2
    exact ⟨m2, hp2, by simp [run, e1, e2], v2, by simpa [addedRun, h1', List.append_assoc] using r2⟩

theorem names_init : Names E.order (SMV.init E).names Heap.empty [] := by
  obtain ⟨us, fs, c, w, _⟩ := (stableStarts E.order String).start
  exact ⟨us, fs, c, w⟩

/-! ## C150 -/

/-- After every careful history the container keeps exactly the search terms of all the insertions that ever added an element. -/
theorem kept_exact_stable (N : Nat) (impl : MapImpl View) (hash : String → Nat) (ops : List (Op V)) (a : Ideal String V)
    (os : List (Obs V)) (h : idealRun (.stable N) ⟨[], 0⟩ ops = some (a, os)) (hc : carefulRun (.stable N) ⟨[], 0⟩ ops = true) :
    ∃ m hp, run (stableEnv N impl hash) (SMV.init (stableEnv N impl hash)) Heap.empty ops = some (m, hp, os) ∧
      kept (stableEnv N impl hash) m hp = some (addedRun (.stable N) ⟨[], 0⟩ ops) := by
  obtain ⟨m, hp, e, -, r⟩ := names_run (E := stableEnv N impl hash) (L := stableLawful N V) ops (InvC.init (stableStarts _ _)) names_init hc h
  exact ⟨m, hp, e, kept_of_names r⟩

/-- The same for vector storage. -/
theorem kept_exact_unstable (N : Nat) (impl : MapImpl View) (hash : String → Nat) (ops : List (Op V)) (a : Ideal String V)
    (os : List (Obs V)) (h : idealRun .unstable ⟨[], 0⟩ ops = some (a, os)) (hc : carefulRun .unstable ⟨[], 0⟩ ops = true) :
    ∃ m hp, run (unstableEnv N impl hash) (SMV.init (unstableEnv N impl hash)) Heap.empty ops = some (m, hp, os) ∧
      kept (unstableEnv N impl hash) m hp = some (addedRun .unstable ⟨[], 0⟩ ops) := by
  obtain ⟨m, hp, e, -, r⟩ := names_run (E := unstableEnv N impl hash) (L := vectorLawful V) ops (InvC.init (vectorStarts _)) names_init hc h
  exact ⟨m, hp, e, kept_of_names r⟩

/-- calls that take no element out -/
def Op.keeps : Op V → Bool
  | .remove _ | .removeIndex _ | .clear => false
  | _ => true

theorem added_length {a a' : Ideal String V} {op : Op V} {o : Obs V} (hk : op.keeps = true) (h : ideal kind a op = some (a', o)) :
    a.entries.length + (added a op).length ≤ a'.entries.length := by
  cases op with
  | insert k x =>
    cases hl : a.lookup k with
    | none =>
      simp only [ideal, Op.base, Vector.ideal, hl, Option.some.injEq, Prod.mk.injEq] at h
      obtain ⟨rfl, -⟩ := h
      simp [added, hl, Vector.Ideal.append]
    | some i =>
      simp only [ideal, Op.base, Vector.ideal, hl, Option.some.injEq, Prod.mk.injEq] at h
      obtain ⟨rfl, -⟩ := h
      simp [added, hl]
  | insertOrAssign k x =>
    cases hl : a.lookup k with
    | none =>
      simp only [ideal, Op.base, Vector.ideal, hl, Option.some.injEq, Prod.mk.injEq] at h
      obtain ⟨rfl, -⟩ := h
      simp [added, hl, Vector.Ideal.append]
    | some i =>
      simp only [ideal, Op.base, Vector.ideal, hl, Option.some.injEq, Prod.mk.injEq] at h
      obtain ⟨rfl, -⟩ := h
      simp [added, hl]
  | insertNoKey x =>
    simp only [ideal, Op.base, Vector.ideal, Option.some.injEq, Prod.mk.injEq] at h
    obtain ⟨rfl, -⟩ := h
    simp [added, Vector.Ideal.append]
  | remove k => cases hk
  | removeIndex i => cases hk
  | clear => cases hk
  | set i x =>
    simp only [ideal, Op.base, Vector.ideal] at h
    split at h
    · simp only [Option.some.injEq, Prod.mk.injEq] at h
      obtain ⟨rfl, -⟩ := h
      simp [added]
    · cases h
  | get i =>
    simp only [ideal, Op.base, Vector.ideal, Option.map_eq_some_iff, Prod.mk.injEq] at h
    obtain ⟨_, -, rfl, -⟩ := h
    simp [added]
  | back =>
    simp only [ideal, Op.base, Vector.ideal, Option.map_eq_some_iff, Prod.mk.injEq] at h
    obtain ⟨_, -, rfl, -⟩ := h
    simp [added]
  | _ =>
    simp only [ideal, Op.base, Vector.ideal, Option.some.injEq, Prod.mk.injEq] at h
    obtain ⟨rfl, -⟩ := h
    simp [added]

theorem addedRun_length (ops : List (Op V)) : ∀ {a a' : Ideal String V} {os : List (Obs V)}, (∀ op, op ∈ ops → op.keeps = true) →
    idealRun kind a ops = some (a', os) → a.entries.length + (addedRun kind a ops).length ≤ a'.entries.length := by
  induction ops with
  | nil => intro a a' os _ h; cases h; simp [addedRun]
  | cons op ops ih =>
    intro a a' os hk hi
    simp only [idealRun, List.map_cons, Vector.idealRun, Option.bind_eq_some_iff, Option.map_eq_some_iff] at hi
    obtain ⟨⟨a1, o⟩, h1, ⟨a2, os2⟩, h2, h3⟩ := hi
    cases h3
    have h1' : ideal kind a op = some (a1, o) := h1
    have := added_length (hk op (by simp)) h1'
    have := ih (fun op h => hk op (by simp [h])) h2
    simp only [addedRun, h1', List.length_append] at *
    omega

/-- C150 as far as it holds: as long as no element has been taken out, no more strings are kept than there are elements. -/
theorem kept_bounded_partial (N : Nat) (impl : MapImpl View) (hash : String → Nat) (ops : List (Op V)) (a : Ideal String V)
    (os : List (Obs V)) (h : idealRun (.stable N) ⟨[], 0⟩ ops = some (a, os)) (hc : carefulRun (.stable N) ⟨[], 0⟩ ops = true)
    (hk : ∀ op, op ∈ ops → op.keeps = true) :
    ∃ m hp ns, run (stableEnv N impl hash) (SMV.init (stableEnv N impl hash)) Heap.empty ops = some (m, hp, os) ∧
      kept (stableEnv N impl hash) m hp = some ns ∧ ns.length ≤ m.size (stableEnv N impl hash) := by
  obtain ⟨m, hp, e, v, r⟩ := names_run (E := stableEnv N impl hash) (L := stableLawful N V) ops (InvC.init (stableStarts _ _)) names_init hc h
  refine ⟨m, hp, _, e, kept_of_names r, ?_⟩
  have h1 : m.size (stableEnv N impl hash) = a.entries.length := v.base.size_eq
  have h2 := addedRun_length ops hk h
  simp only [List.length_nil, List.nil_append] at h2 ⊢
  omega

/-! ### Violations -/

/-- Insert under `k`, then take everything out. -/
def rounds (k : String) (x : V) (out : Op V) : Nat → List (Op V)
  | 0 => []
  | n + 1 => .insert k x :: out :: rounds k x out n

theorem rounds_ideal (k : String) (x : V) (out : Op V) (ho : out = .clear ∨ out = .remove k) (n : Nat) : ∀ r,
    ∃ r' os, idealRun kind ⟨[], r⟩ (rounds k x out n) = some (⟨[], r'⟩, os) ∧ carefulRun kind ⟨[], r⟩ (rounds k x out n) = true ∧
      addedRun kind ⟨[], r⟩ (rounds k x out n) = List.replicate n k := by
  induction n with
  | zero => intro r; exact ⟨r, [], rfl, rfl, rfl⟩
  | succ n ih =>
    intro r
    obtain ⟨r', os, h1, h2, h3⟩ := ih (kind.reserve r 0)
    have e1 : ideal kind ⟨[], r⟩ (.insert k x) = some (⟨[⟨x, [k]⟩], kind.reserve r 0⟩, .index (some 0)) := rfl
    have e2 : ideal kind ⟨[⟨x, [k]⟩], kind.reserve r 0⟩ out = some (⟨[], kind.reserve r 0⟩, .done) := by
      rcases ho with rfl | rfl
      · rfl
      · simp [ideal, Op.base, Vector.ideal, Vector.Ideal.lookup, Vector.Ideal.drop, List.findIdx?_cons]
    have c2 : careful kind (⟨[⟨x, [k]⟩], kind.reserve r 0⟩ : Ideal String V) out = true := by rcases ho with rfl | rfl <;> rfl
    have a1 : added (⟨[], r⟩ : Ideal String V) (.insert k x) = [k] := rfl
    have a2 : added (⟨[⟨x, [k]⟩], kind.reserve r 0⟩ : Ideal String V) out = [] := by rcases ho with rfl | rfl <;> rfl
    refine ⟨r', .index (some 0) :: .done :: os, ?_, ?_, ?_⟩
    · rw [rounds, idealRun, List.map_cons, List.map_cons, Vector.idealRun, show Vector.ideal kind _ _ = _ from e1, Option.bind_some,
        Vector.idealRun, show Vector.ideal kind _ _ = _ from e2, Option.bind_some,
        show Vector.idealRun kind _ (List.map Op.base (rounds k x out n)) = _ from h1]
      rfl
    · simp only [rounds, carefulRun, e1, e2, c2, h2, Bool.true_and, Bool.and_true]; rfl
    · simp only [rounds, addedRun, e1, e2, a1, a2, h3, List.nil_append, List.replicate_succ, List.singleton_append]

/-- C150 violation: for every block size, search term and value, `n` times insert an element and take it out again, with `clear` or with
`remove`: the container is empty then, but keeps `n` copies of the search term, in as many blocks as are needed for that. -/
theorem kept_grows_violation (N : Nat) (impl : MapImpl View) (hash : String → Nat) (k : String) (x : V) (out : Op V)
    (ho : out = .clear ∨ out = .remove k) (n : Nat) :
    ∃ m hp os, run (stableEnv N impl hash) (SMV.init (stableEnv N impl hash)) Heap.empty (rounds k x out n) = some (m, hp, os) ∧
      m.size (stableEnv N impl hash) = 0 ∧ m.lookup = [] ∧ kept (stableEnv N impl hash) m hp = some (List.replicate n k) ∧
      ∃ bs : List Nat, bs.Nodup ∧ (∀ b, b ∈ bs → hp.live b = true) ∧ n ≤ bs.length * 2 ^ N := by
  obtain ⟨r, os, h1, h2, h3⟩ := rounds_ideal (kind := .stable N) k x out ho n 0
  obtain ⟨m, hp, e, v, rn⟩ := names_run (E := stableEnv N impl hash) (L := stableLawful N V) _ (InvC.init (stableStarts _ _)) names_init h2 h1
  rw [List.nil_append, h3] at rn
  refine ⟨m, hp, os, e, v.base.size_eq, ?_, kept_of_names rn, ?_⟩
  · cases hl : m.lookup with
    | nil => rfl
    | cons p l =>
      have := v.base.lookup_eq (nameOf N hp p.1)
      simp [Vector.Ideal.lookup, strings, hl, FMap.find, stableEnv] at this
  · obtain ⟨us, fs, c, -⟩ := rn
    have hz := c.size
    have hb := c.bsz
    have hl := c.len
    have hB : Vec.blockSize (stableEnv (V := V) N impl hash).order = 2 ^ N := Vec.blockSize_eq N
    rw [hB] at hz hb
    rw [List.length_replicate] at hl
    exact ⟨us, (List.nodup_append.1 c.nodup).1, fun b h => c.live b (by simp [h]), by omega⟩

/-! ### Examples -/

/-- `kept_exact_stable` and `kept_bounded_partial`: two elements, one of them inserted under a known search term. -/
example : addedRun (V := Nat) (.stable 1) ⟨[], 0⟩ [.insert "a" 1, .insertOrAssign "b" 2, .insertOrAssign "a" 3, .insert "b" 4, .remove "b",
    .insert "b" 5] = ["a", "b", "b"] := by decide

example : ∃ a os, idealRun (V := Nat) (.stable 1) ⟨[], 0⟩ [.insert "a" 1, .insertOrAssign "b" 2, .insertOrAssign "a" 3] = some (a, os) ∧
    carefulRun (V := Nat) (.stable 1) ⟨[], 0⟩ [.insert "a" 1, .insertOrAssign "b" 2, .insertOrAssign "a" 3] = true ∧
    a.entries.length = 2 := ⟨_, _, rfl, by decide, rfl⟩

end Verif.Mapped.Str
