import Verif.Mapped.Str.Exact
import Verif.Mapped.Str.Props

/-
Property C131: what StringMappedVector does in every history.
-/
namespace Verif.Mapped.Str
open Verif.Mapped Verif.Block Verif.Block.Vector
open Verif.Mapped.Vector (Obs Actual Step safe beyond Runs Corner Undef vectorCorner stableCorner stableUndef)

variable {S V : Type} {E : Env S V} {kind : Kind} {L : Lawful E.st kind}

theorem Abs.init (h0 : L.Starts) : Abs L (SMV.init E) Heap.empty Actual.empty :=
  ⟨SRepC.init, ⟨h0.start, .nil, fun _ => rfl, fun _ _ h => (nomatch h)⟩, fun _ _ h => (nomatch h), fun _ _ _ h => (nomatch h)⟩

theorem run_append (E : Env S V) : ∀ (pre post : List (Op V)) (m : SMV S) (h : Heap String),
    run E m h (pre ++ post) = (run E m h pre).bind fun r => (run E r.1 r.2.1 post).map fun s => (s.1, s.2.1, r.2.2 ++ s.2.2)
  | [], post, m, h => by simp [run]
  | op :: pre, post, m, h => by
    simp only [List.cons_append, run]
    cases exec E m h op with
    | none => rfl
    | some r =>
      simp only [Option.bind_some, run_append E pre post r.1 r.2.1]
      cases run E r.1 r.2.1 pre with
      | none => rfl
      | some s =>
        simp only [Option.bind_some, Option.map_some, Option.map_map]
        rfl

/-- Every program, from every state: it does what the description says, up to the first call that is not safe. -/
theorem exact_core (h0 : Corner E.st kind) : ∀ (ops : List (Op V)) (m : SMV S) (h : Heap String) (a : Actual String V),
    Abs L m h a →
    (∃ m' h' a' os, run E m h ops = some (m', h', os) ∧ Runs kind (some "") a (ops.map Op.base) a' os ∧ Abs L m' h' a') ∨
    (∃ pre op post m' h' a' os, ops = pre ++ op :: post ∧ run E m h pre = some (m', h', os) ∧
      Runs kind (some "") a (pre.map Op.base) a' os ∧ Abs L m' h' a' ∧ ¬ safe kind (some "") a' op.base)
  | [], m, h, a, v => .inl ⟨m, h, a, [], rfl, ⟨rfl, rfl⟩, v⟩
  | op :: ops, m, h, a, v => by
    by_cases hs : safe kind (some "") a op.base
    · obtain ⟨m1, h1, a1, o, e1, s1, v1⟩ := exact_step h0 v hs
      rcases exact_core h0 ops m1 h1 a1 v1 with ⟨m', h', a', os, e, r, w⟩ | ⟨pre, op', post, m', h', a', os, hh, e, r, w, n⟩
      · exact .inl ⟨m', h', a', o :: os, by simp [run, e1, e], ⟨a1, o, os, s1, r, rfl⟩, w⟩
      · exact .inr ⟨op :: pre, op', post, m', h', a', o :: os, by rw [hh]; rfl, by simp [run, e1, e],
          ⟨a1, o, os, s1, r, rfl⟩, w, n⟩
    · exact .inr ⟨[], op, ops, m, h, a, [], rfl, rfl, ⟨rfl, rfl⟩, v, hs⟩

/-- C131, stable storage, for every hash function and map: every program does what the description says, and all the
time every search term refers to an element, different terms to different ones; up to the first call that is not safe,
which is an unchecked access beyond the end or has undefined behaviour. -/
theorem exact_stable (N : Nat) (impl : MapImpl View) (hash : String → Nat) (ops : List (Op V)) :
    (∃ m hp a os, run (stableEnv N impl hash) (SMV.init (stableEnv N impl hash)) Heap.empty ops = some (m, hp, os) ∧
      Runs (.stable N) (some "") Actual.empty (ops.map Op.base) a os ∧ One a) ∨
    (∃ pre op post m hp a os, ops = pre ++ op :: post ∧
      run (stableEnv N impl hash) (SMV.init (stableEnv N impl hash)) Heap.empty pre = some (m, hp, os) ∧
      Runs (.stable N) (some "") Actual.empty (pre.map Op.base) a os ∧ One a ∧ ¬ safe (.stable N) (some "") a op.base ∧
      (beyond a op.base ∨ exec (stableEnv N impl hash) m hp op = none)) := by
  rcases exact_core (E := stableEnv N impl hash) (L := stableLawful N V) (stableCorner N V) ops _ _ _
    (Abs.init (stableStarts N V)) with ⟨m', h', a', os', e, r, w⟩ | ⟨pre, op', post, m', h', a', os', h1, e, r, w, n⟩
  · exact .inl ⟨m', h', a', os', e, r, w.one⟩
  · exact .inr ⟨pre, op', post, m', h', a', os', h1, e, r, w.one, n,
      unsafe_step (E := stableEnv N impl hash) (stableUndef N V) rfl w n⟩

/-- Vector storage: a call that is not safe has undefined behaviour. -/
theorem unsafe_undefined {N : Nat} {impl : MapImpl View} {hash : String → Nat} {m : SMV (List V)} {h : Heap String}
    {a : Actual String V} (v : Abs (E := unstableEnv N impl hash) (vectorLawful V) m h a)
    {op : Op V} (hs : ¬ safe .unstable (some "") a op.base) : exec (unstableEnv N impl hash) m h op = none := by
  have hd : m.data = a.values := v.base.rep.1
  cases op with
  | get i =>
    simp only [Op.base, safe, Nat.not_lt, ← hd] at hs
    simp [exec, SMV.get, unstableEnv, vectorStore, hs]
  | set i x =>
    simp only [Op.base, safe, ← hd] at hs
    simp [exec, SMV.set, unstableEnv, vectorStore, hs]
  | back =>
    simp only [Op.base, safe, ne_eq, Decidable.not_not, ← hd] at hs
    simp [exec, SMV.back, unstableEnv, vectorStore, hs]
  | insertOrAssign k x => exact absurd (fun i hk => v.one.1 k i hk) hs
  | remove k => exact absurd (fun i hk => .inl (v.one.1 k i hk)) hs
  | removeIndex i => exact absurd (fun _ => .inr (by simp)) hs
  | find k => exact absurd (.inr rfl) hs
  | apply => exact absurd rfl hs
  | modify f => exact absurd rfl hs
  | transform f => exact absurd rfl hs
  | _ => exact absurd trivial hs

/-- C131, vector storage: after every history that has defined behaviour the container holds the values the description
says, the calls returned what it says, and the next call is undefined exactly if it is not safe, that is if it is an
access by index beyond the end.  (For this storage `remove` and `removeIndex` do not compile.) -/
theorem exact_unstable (N : Nat) (impl : MapImpl View) (hash : String → Nat) (ops : List (Op V)) (m : SMV (List V))
    (hp : Heap String) (os : List (Obs V))
    (h : run (unstableEnv N impl hash) (SMV.init (unstableEnv N impl hash)) Heap.empty ops = some (m, hp, os)) :
    ∃ a, Runs .unstable (some "") Actual.empty (ops.map Op.base) a os ∧ m.data = a.values ∧ One a ∧
      ∀ op, exec (unstableEnv N impl hash) m hp op = none ↔ ¬ safe .unstable (some "") a op.base := by
  rcases exact_core (E := unstableEnv N impl hash) (L := vectorLawful V) (vectorCorner V) ops _ _ _
    (Abs.init (vectorStarts V)) with ⟨m', h', a', os', e, r, w⟩ | ⟨pre, op', post, m', h', a', os', h1, e, r, w, n⟩
  · rw [e] at h
    cases h
    refine ⟨a', r, w.base.rep.1, w.one, fun op => ⟨fun hn hs => ?_, unsafe_undefined w⟩⟩
    obtain ⟨m1, h1, a1, o, e1, _⟩ := exact_step (E := unstableEnv N impl hash) (vectorCorner V) w hs
    rw [hn] at e1; cases e1
  · have := unsafe_undefined w n
    rw [h1, run_append, e] at h
    simp [run, this] at h

/-- The program's unchecked accesses by index are in range: below what `size()` would return. -/
def InRange (E : Env S V) (ops : List (Op V)) : Prop :=
  ∀ pre op post m h os, ops = pre ++ op :: post → run E (SMV.init E) Heap.empty pre = some (m, h, os) →
    ∀ i, op = .get i ∨ (∃ x, op = .set i x) → i < m.size E

/-- With accesses in range every history with defined behaviour is described. -/
theorem reach (N : Nat) (impl : MapImpl View) (hash : String → Nat) (ops : List (Op V))
    (hr : InRange (stableEnv N impl hash) ops) (m : SMV (Vec × Heap V)) (hp : Heap String) (os : List (Obs V))
    (h : run (stableEnv N impl hash) (SMV.init (stableEnv N impl hash)) Heap.empty ops = some (m, hp, os)) :
    ∃ a, Runs (.stable N) (some "") Actual.empty (ops.map Op.base) a os ∧
      Abs (E := stableEnv N impl hash) (stableLawful N V) m hp a := by
  rcases exact_core (E := stableEnv N impl hash) (L := stableLawful N V) (stableCorner N V) ops _ _ _
    (Abs.init (stableStarts N V)) with ⟨m', h', a, os', e, r, w⟩ | ⟨pre, op', post, m', h', a, os', hh, e, r, w, n⟩
  · rw [e] at h
    cases h
    exact ⟨a, r, w⟩
  · have hsz : m'.size (stableEnv N impl hash) = a.values.length := (stableLawful N V).size w.base.rep
    rcases unsafe_step (E := stableEnv N impl hash) (stableUndef N V) rfl w n with hb | hb
    · cases op' with
      | get i => exact absurd (hsz ▸ hr pre _ post m' h' os' hh e i (.inl rfl)) (Nat.not_lt.2 hb)
      | set i y => exact absurd (hsz ▸ hr pre _ post m' h' os' hh e i (.inr ⟨y, rfl⟩)) (Nat.not_lt.2 hb)
      | insertOrAssign k' y =>
        obtain ⟨i, q1, q2⟩ := hb
        exact absurd (w.one.1 _ _ q1) (Nat.not_lt.2 q2)
      | _ => exact hb.elim
    · rw [hh, run_append, e] at h
      simp [run, hb] at h

/-- After every history: a search term is refused by `insert` exactly if a search for it finds an element. -/
theorem refused_iff_found (N : Nat) (impl : MapImpl View) (hash : String → Nat) (ops : List (Op V))
    (hr : InRange (stableEnv N impl hash) ops)
    (m : SMV (Vec × Heap V)) (hp : Heap String) (os : List (Obs V))
    (h : run (stableEnv N impl hash) (SMV.init (stableEnv N impl hash)) Heap.empty ops = some (m, hp, os))
    (k : String) (x : V) (m1 m2 : SMV (Vec × Heap V)) (h1 h2 : Heap String) (o1 o2 : Obs V)
    (e1 : exec (stableEnv N impl hash) m hp (.insert k x) = some (m1, h1, o1))
    (e2 : exec (stableEnv N impl hash) m hp (.find k) = some (m2, h2, o2)) :
    o1 = .index none ↔ ∃ y, o2 = .found (some y) := by
  obtain ⟨a, r, w⟩ := reach N impl hash ops hr m hp os h
  obtain ⟨_, _, a1, o, f1, s1, _⟩ := exact_step (op := .insert k x) (stableCorner N V) w trivial
  rw [f1] at e1; cases e1
  have hs : safe (.stable N) (some "") a (Op.find k).base := by
    by_contra hs
    rcases unsafe_step (E := stableEnv N impl hash) (stableUndef N V) rfl w hs with h | h
    · exact h
    · rw [h] at e2; cases e2
  obtain ⟨_, _, a2, o', f2, s2, _⟩ := exact_step (op := .find k) (stableCorner N V) w hs
  rw [f2] at e2; cases e2
  simp only [Op.base, Step] at s1 s2
  cases hk : a.index k with
  | none =>
    simp only [hk] at s1 s2
    simp [s1.2, s2.2]
  | some i =>
    simp only [hk] at s1 s2
    simp [s1.2, s2.2, List.getElem?_eq_getElem (w.one.1 _ _ hk)]

/-- After every history: inserting an element without term and removing it again by its index makes the container lose
the term "", if it was the term of another element. -/
theorem keyless_removal_hides_empty (N : Nat) (impl : MapImpl View) (hash : String → Nat) (ops : List (Op V))
    (hr : InRange (stableEnv N impl hash) ops)
    (m m' : SMV (Vec × Heap V)) (hp hp' : Heap String) (os : List (Obs V)) (x : V) (i : Nat) (o : Obs V)
    (h : run (stableEnv N impl hash) (SMV.init (stableEnv N impl hash)) Heap.empty ops = some (m, hp, os))
    (h' : run (stableEnv N impl hash) m hp [.insertNoKey x, .removeIndex i, .find ""] =
      some (m', hp', [.index (some i), .done, o])) : o = .found none := by
  obtain ⟨a, r, w⟩ := reach N impl hash ops hr m hp os h
  obtain ⟨m1, h1, a1, o1, f1, s1, w1⟩ := exact_step (op := .insertNoKey x) (stableCorner N V) w trivial
  obtain ⟨rfl, rfl⟩ := s1
  simp only [run, f1, Option.bind_some] at h'
  obtain ⟨m2, h2, a2, o2, f2, s2, w2⟩ := exact_step (op := .removeIndex i) (stableCorner N V) w1 (fun _ => .inr (by simp))
  simp only [f2, Option.bind_some] at h'
  have hs : safe (.stable N) (some "") a2 (Op.find (V := V) "").base := by
    by_contra hs
    rcases unsafe_step (E := stableEnv N impl hash) (stableUndef N V) rfl w2 hs with h | h
    · exact h
    · simp [h] at h'
  obtain ⟨m3, h3, a3, o3, f3, s3, w3⟩ := exact_step (op := .find "") (stableCorner N V) w2 hs
  simp only [f3, Option.bind_some, Option.map_some, Option.some.injEq, Prod.mk.injEq, List.cons.injEq, Obs.index.injEq] at h'
  obtain ⟨_, _, rfl, _, rfl, _⟩ := h'
  have hn : ∀ k', (a.append (.stable N) x).index k' ≠ some a.values.length :=
    fun k' hk => absurd (w.one.1 k' _ hk) (Nat.lt_irrefl _)
  simp only [Op.base, Step] at s2 s3
  rw [if_pos (by simp [Actual.append])] at s2
  obtain ⟨k, _, hk, rfl, _⟩ := s2
  cases hk hn
  rw [s3.2]
  simp [Actual.forget]

/-- Elements without term, "" as a term, removal by index and by name, an assignment to a known name, and the refusal of
a known one. -/
def demoExact : List (Op Nat) :=
  [.insert "" 10, .insertNoKey 20, .insert "b" 30, .removeIndex 1, .find "", .insert "" 40, .find "b", .remove "b", .size,
   .removeIndex 3, .find "", .size, .insertOrAssign "" 50, .insert "" 60, .get 0, .set 0 11, .apply]

example : (run (stableEnv 2 MapImpl.atEnd (fun s => s.length)) (SMV.init (stableEnv (V := Nat) 2 MapImpl.atEnd (fun s => s.length)))
    Heap.empty demoExact).map (fun r => r.2.2) =
    some [.index (some 0), .index (some 1), .index (some 2), .done, .found none, .index (some 3), .found (some 30), .done, .num 4,
      .done, .found none, .num 3, .index (some 3), .index none, .val 10, .done, .vals [11, 20, 30, 50]] := by decide +kernel

/-- the hypotheses of `keyless_removal_hides_empty`, with a history that gives an element the term "" -/
example : InRange (stableEnv (V := Nat) 2 MapImpl.atEnd (fun s => s.length)) [.insert "" 10] ∧
    (run (stableEnv 2 MapImpl.atEnd (fun s => s.length)) (SMV.init (stableEnv (V := Nat) 2 MapImpl.atEnd (fun s => s.length)))
    Heap.empty [.insert "" 10, .find "", .insertNoKey 20, .removeIndex 1, .find ""]).map (fun r => r.2.2) =
    some [.index (some 0), .found (some 10), .index (some 1), .done, .found none] := by
  refine ⟨?_, by decide +kernel⟩
  intro pre op post m h os hh _ i hi
  have : op ∈ [Op.insert "" 10] := by rw [hh]; simp
  simp only [List.mem_singleton] at this
  subst this
  simp at hi

/-- A call that is not safe: all reserved slots are full. -/
example : (run (stableEnv 0 MapImpl.atEnd (fun s => s.length)) (SMV.init (stableEnv (V := Nat) 0 MapImpl.atEnd (fun s => s.length)))
    Heap.empty ((List.range 64).map fun i => .insertNoKey i)).isSome = true ∧
    (run (stableEnv 0 MapImpl.atEnd (fun s => s.length)) (SMV.init (stableEnv (V := Nat) 0 MapImpl.atEnd (fun s => s.length)))
    Heap.empty (((List.range 64).map fun i => .insertNoKey i) ++ [.find "x"])).isSome = false := by
  constructor <;> decide +kernel

end Verif.Mapped.Str
