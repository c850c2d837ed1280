import Verif.Mapped.Str.Throw
import Verif.Mapped.Str.Props

/-
C96, C97: exceptions inside calls of a StringMappedVector.
-/
namespace Verif.Mapped.Str
open Verif.Mapped Verif.Block Verif.Block.Vector
open Verif.Mapped.Vector (Ideal)

/-- States a program can reach if any call may throw, at any point after which the container can be used (`tolerated`), and
goes on; `a` is what the container should hold: calls that throw leave what `left` says. -/
inductive Reached {S V : Type} (E : Env S V) (flt : Faults S V) (kind : Kind) :
    SMV S → Heap String → Ideal String V → Prop where
  | start : Reached E flt kind (SMV.init E) Heap.empty ⟨[], 0⟩
  | call {m h m' h' a a' op o} (r : Reached E flt kind m h a) (hc : careful kind a op = true)
      (hi : ideal kind a op = some (a', o)) (he : exec E m h op = some (m', h', o)) : Reached E flt kind m' h' a'
  | threw {m h m' h' a a' op o f} (r : Reached E flt kind m h a) (hc : careful kind a op = true)
      (hi : ideal kind a op = some (a', o)) (hf : tolerated kind a f = true)
      (he : execFault E flt m h op f = some (true, m', h')) : Reached E flt kind m' h' (left kind a op f)

section
variable {S V : Type} {E : Env S V} {flt : Faults S V} {kind : Kind} {m : SMV S} {h : Heap String} {a : Ideal String V}

theorem Reached.inv {L : Lawful E.st kind} (Q : L.Failing flt) (Z : L.Starts) (r : Reached E flt kind m h a) :
    Inv L m h a := by
  induction r with
  | start => exact InvC.init Z
  | call _ hc hi he v =>
    obtain ⟨m1, h1, e1, v1⟩ := step v hc hi
    rw [he] at e1; cases e1
    exact v1
  | threw _ hc hi hf he v =>
    rcases fails Q v hc hi hf with ⟨m1, h1, e1, v1, _⟩ | ⟨m1, h1, e1, _⟩
    · rw [he] at e1; cases e1
      exact v1
    · rw [he] at e1; cases e1

theorem Reached.fail {L : Lawful E.st kind} (Q : L.Failing flt) (Z : L.Starts) (r : Reached E flt kind m h a)
    {op : Op V} {f : Fault V} (hc : careful kind a op = true) {a' : Ideal String V} {o : Vector.Obs V}
    (hi : ideal kind a op = some (a', o)) (hf : tolerated kind a f = true) :
    (∃ m' h', execFault E flt m h op f = some (false, m', h') ∧ exec E m h op = some (m', h', o)) ∨
    (∃ m' h', execFault E flt m h op f = some (true, m', h') ∧ Reached E flt kind m' h' (left kind a op f) ∧
      ∀ i, i < a.entries.length → E.st.addr m'.data i = E.st.addr m.data i) := by
  rcases fails Q (r.inv Q Z) hc hi hf with ⟨m1, h1, e1, _, ad⟩ | h1
  · exact .inr ⟨m1, h1, e1, .threw r hc hi hf e1, ad⟩
  · exact .inl h1

theorem Reached.runs {L : Lawful E.st kind} (Q : L.Failing flt) (Z : L.Starts) (ops : List (Op V))
    {m : SMV S} {h : Heap String} {a : Ideal String V} (r : Reached E flt kind m h a) {a' os}
    (hi : idealRun kind a ops = some (a', os)) (hc : carefulRun kind a ops = true) :
    ∃ m' h', run E m h ops = some (m', h', os) ∧ Reached E flt kind m' h' a' := by
  induction ops generalizing m h a os with
  | nil => cases hi; exact ⟨m, h, rfl, r⟩
  | cons op ops ih =>
    simp only [idealRun, List.map_cons, Vector.idealRun, Option.bind_eq_some_iff, Option.map_eq_some_iff] at hi
    obtain ⟨⟨a1, o⟩, h1, ⟨a2, os2⟩, h2, h3⟩ := hi
    cases h3
    have h1' : ideal kind a op = some (a1, o) := h1
    simp only [carefulRun, h1', Bool.and_eq_true] at hc
    obtain ⟨m1, hh1, e1, _⟩ := step (r.inv Q Z) hc.1 h1'
    obtain ⟨m2, hh2, e2, R⟩ := ih (.call r hc.1 h1' e1) h2 hc.2
    exact ⟨m2, hh2, by simp only [run, e1, Option.bind_some, e2, Option.map_some], R⟩

/-- Nothing that compiles is excluded for vector storage. -/
theorem careful_compiles {op : Op V} (hk : op.compiles = true) : careful .unstable a op = true := by
  cases op <;> simp_all [careful, Op.compiles, Kind.iterable]

theorem carefulRun_compiles (ops : List (Op V)) {a : Ideal String V} {a' os}
    (hi : idealRun .unstable a ops = some (a', os)) (hk : ∀ op ∈ ops, op.compiles = true) :
    carefulRun .unstable a ops = true := by
  induction ops generalizing a os with
  | nil => rfl
  | cons op ops ih =>
    simp only [idealRun, List.map_cons, Vector.idealRun, Option.bind_eq_some_iff, Option.map_eq_some_iff] at hi
    obtain ⟨⟨a1, o⟩, h1, ⟨a2, os2⟩, h2, h3⟩ := hi
    have h1' : ideal .unstable a op = some (a1, o) := h1
    simp only [carefulRun, h1', Bool.and_eq_true]
    cases h3
    exact ⟨careful_compiles (hk op (by simp)), ih h2 fun op h => hk op (List.mem_cons_of_mem _ h)⟩

end

variable {V : Type}

/-- reachable with vector storage -/
abbrev ReachedU (N : Nat) (impl : MapImpl View) (hash : String → Nat) :
    SMV (List V) → Heap String → Ideal String V → Prop :=
  Reached (unstableEnv N impl hash) (vectorFaults V) .unstable

/-- reachable with stable storage -/
abbrev ReachedS (N : Nat) (impl : MapImpl View) (hash : String → Nat) :
    SMV (Vec × Heap V) → Heap String → Ideal String V → Prop :=
  Reached (stableEnv N impl hash) (stableFaults N V) (.stable N)

/-! ## C97: the container can be used after an exception -/

/-- C97, vector storage: whatever throws in whatever call, except copying the search term (see `name_throw_violation`),
either the call did not get to it and is an ordinary one, or the container then holds what `left` says. -/
theorem failure_unstable_partial (N : Nat) (impl : MapImpl View) (hash : String → Nat) (m : SMV (List V))
    (h : Heap String) (a : Ideal String V) (r : ReachedU N impl hash m h a) (op : Op V) (hk : op.compiles = true)
    (f : Fault V) (a' : Ideal String V) (o : Vector.Obs V) (hi : ideal .unstable a op = some (a', o))
    (hf : tolerated .unstable a f = true) :
    (∃ m' h', execFault (unstableEnv N impl hash) (vectorFaults V) m h op f = some (false, m', h') ∧
      exec (unstableEnv N impl hash) m h op = some (m', h', o)) ∨
    (∃ m' h', execFault (unstableEnv N impl hash) (vectorFaults V) m h op f = some (true, m', h') ∧
      ReachedU N impl hash m' h' (left .unstable a op f)) := by
  rcases r.fail (L := vectorLawful V) (vectorFailing V) (vectorStarts V) (careful_compiles hk) hi hf with h1 | ⟨m', h', h1, h2, _⟩
  · exact .inl h1
  · exact .inr ⟨m', h', h1, h2⟩

/-- The same for stable storage, where moreover all elements stay where they are.  Missing: failures the storage does not
survive (`tolerated`), see `element_throw_violation`. -/
theorem failure_stable_partial (N : Nat) (impl : MapImpl View) (hash : String → Nat) (m : SMV (Vec × Heap V))
    (h : Heap String) (a : Ideal String V) (r : ReachedS N impl hash m h a) (op : Op V) (f : Fault V)
    (hc : careful (.stable N) a op = true) (a' : Ideal String V) (o : Vector.Obs V)
    (hi : ideal (.stable N) a op = some (a', o)) (hf : tolerated (.stable N) a f = true) :
    (∃ m' h', execFault (stableEnv N impl hash) (stableFaults N V) m h op f = some (false, m', h') ∧
      exec (stableEnv N impl hash) m h op = some (m', h', o)) ∨
    (∃ m' h', execFault (stableEnv N impl hash) (stableFaults N V) m h op f = some (true, m', h') ∧
      ReachedS N impl hash m' h' (left (.stable N) a op f) ∧
      ∀ i, i < a.entries.length → (stableStore N V).addr m'.data i = (stableStore N V).addr m.data i) :=
  r.fail (L := stableLawful N V) (stableFailing N V) (stableStarts N V) hc hi hf

/-- C97: after any number of exceptions every program goes on as the specification says, vector storage. -/
theorem after_failures_unstable_partial (N : Nat) (impl : MapImpl View) (hash : String → Nat) (m : SMV (List V))
    (h : Heap String) (a : Ideal String V) (r : ReachedU N impl hash m h a) (ops : List (Op V)) (a' : Ideal String V)
    (os : List (Vector.Obs V)) (hi : idealRun .unstable a ops = some (a', os)) (hk : ∀ op ∈ ops, op.compiles = true) :
    ∃ m' h', run (unstableEnv N impl hash) m h ops = some (m', h', os) ∧ ReachedU N impl hash m' h' a' :=
  r.runs (L := vectorLawful V) (vectorFailing V) (vectorStarts V) ops hi (carefulRun_compiles ops hi hk)

/-- The same for stable storage and careful programs. -/
theorem after_failures_stable_partial (N : Nat) (impl : MapImpl View) (hash : String → Nat) (m : SMV (Vec × Heap V))
    (h : Heap String) (a : Ideal String V) (r : ReachedS N impl hash m h a) (ops : List (Op V)) (a' : Ideal String V)
    (os : List (Vector.Obs V)) (hi : idealRun (.stable N) a ops = some (a', os)) (hc : carefulRun (.stable N) a ops = true) :
    ∃ m' h', run (stableEnv N impl hash) m h ops = some (m', h', os) ∧ ReachedS N impl hash m' h' a' :=
  r.runs (L := stableLawful N V) (stableFailing N V) (stableStarts N V) ops hi hc

/-- C97: after any number of exceptions every search term is a view of a living string of the container's own. -/
theorem after_failures_keys_own {S : Type} (E : Env S V) (kind : Kind) (L : Lawful E.st kind) (flt : Faults S V)
    (Q : L.Failing flt) (Z : L.Starts) (m : SMV S) (h : Heap String) (a : Ideal String V) (r : Reached E flt kind m h a)
    (v : View) (i : Nat) (hv : (v, i) ∈ m.lookup) :
    ∃ (j : Nat) (s : String), j < m.names.size ∧ Vec.cell E.order m.names j = some v.1 ∧
      Vec.get E.order m.names h j = some s ∧ text E.order h v = some s ∧ v.2 = E.hash s ∧
      ∃ e, a.entries[i]? = some e ∧ e.keys = [s] := by
  have w := r.inv Q Z
  obtain ⟨ns, rep, g⟩ := w.ok.own
  obtain ⟨j, s, h1, h2, h3⟩ := g v (List.mem_map.2 ⟨_, hv, rfl⟩)
  obtain ⟨hj, rfl⟩ := List.getElem?_eq_some_iff.1 h1
  have hg : Vec.get E.order m.names h j = some ns[j] := rep.get hj
  have ht : text E.order h v = some ns[j] := by rw [Vec.get, h2] at hg; exact hg
  refine ⟨j, ns[j], by rw [rep.size]; exact hj, h2, hg, ht, h3, ?_⟩
  have hf : FMap.find (strings E.order h m.lookup) ns[j] = some i := by
    rw [FMap.find_eq_some w.base.binds.wf]
    exact List.mem_map.2 ⟨(v, i), hv, by simp [nameOf, ht]⟩
  have hi := w.base.binds.lt hf
  rw [List.length_map] at hi
  have hmem : ns[j] ∈ a.entries[i].keys := by
    obtain ⟨ks, h4, h5⟩ := (w.base.binds.iff ns[j] i).1 hf
    rw [List.getElem?_map, List.getElem?_eq_getElem hi] at h4
    cases h4; exact h5
  refine ⟨a.entries[i], List.getElem?_eq_getElem hi, ?_⟩
  have h1 := w.single a.entries[i] (List.getElem_mem hi)
  match hk : a.entries[i].keys with
  | [] => rw [hk] at hmem; simp at hmem
  | [x] => rw [hk] at hmem; simp at hmem; rw [hmem]
  | _ :: _ :: _ => rw [hk] at h1; simp at h1

/-- C97: after any number of exceptions the strings can be destroyed, if any has been stored or none was ever attempted to be
(see `first_name_violation`). -/
theorem after_failures_destroy_partial {S : Type} (E : Env S V) (kind : Kind) (L : Lawful E.st kind) (flt : Faults S V)
    (Q : L.Failing flt) (Z : L.Starts) (m : SMV S) (h : Heap String) (a : Ideal String V) (r : Reached E flt kind m h a)
    (hn : 0 < m.names.size ∨ m.names = Vec.default E.order) : ∃ h', m.destroy E h = some h' := by
  rcases hn with hn | hn
  · obtain ⟨ns, rep, _⟩ := (r.inv Q Z).ok.own
    exact rep.freeAll hn
  · rw [SMV.destroy, hn]; exact default_freeAll _ _

/-- C97: and so can, with stable storage, the elements. -/
theorem after_failures_destroy_elements (N : Nat) (impl : MapImpl View) (hash : String → Nat) (m : SMV (Vec × Heap V))
    (h : Heap String) (a : Ideal String V) (r : ReachedS N impl hash m h a) :
    ∃ h', Vec.freeAll N m.data.1 m.data.2 = some h' := by
  obtain ⟨us, fs, c, w, hu, _⟩ := (r.inv (L := stableLawful N V) (stableFailing N V) (stableStarts N V)).base.rep
  obtain ⟨h', e, _⟩ := c.freeAll w hu
  exact ⟨h', e⟩

/-- C97 fails if there is no memory for the first string: the call throws, and destroying the container is undefined. -/
theorem first_name_violation {S : Type} (E : Env S V) (kind : Kind) (L : Lawful E.st kind) (flt : Faults S V)
    (Q : L.Failing flt) (Z : L.Starts) (m : SMV S) (h : Heap String) (a : Ideal String V) (r : Reached E flt kind m h a)
    (hn : m.names = Vec.default E.order) (k : String) (x : V) (hk : ∀ e ∈ a.entries, k ∉ e.keys) (op : Op V)
    (hop : op = .insert k x ∨ op = .insertOrAssign k x) :
    ∃ m', execFault E flt m h op (.name .block) = some (true, m', h) ∧ m'.destroy E h = none := by
  have v := r.inv Q Z
  have h1 : find E.hash E.order h k m.lookup = some none := by
    have h1 : FMap.find (strings E.order h m.lookup) k = none := by
      rw [v.base.binds.none_iff]
      intro ks hks
      obtain ⟨e, he, rfl⟩ := List.mem_map.1 hks
      exact hk e he
    rw [SRepC.find_eq v.ok]
    rw [find_strings] at h1
    rw [Option.map_eq_none_iff.1 h1]
  obtain ⟨n', e, hd⟩ := default_pushBlock E.order h k
  rw [← hn] at e
  obtain ⟨d, ed, _⟩ := L.push x v.base.rep
  refine ⟨⟨d, n', m.lookup⟩, ?_, hd⟩
  have ed : E.st.push m.data x = some d := ed
  rcases hop with rfl | rfl <;> simp [execFault, SMV.addFault, h1, ed, e]

/-- The hypotheses of `first_name_violation` hold for a new container, and those of `after_failures_destroy_partial` after
an insertion. -/
example : ∃ m h a, ReachedU (V := Nat) 2 MapImpl.atEnd (fun _ => 0) m h a ∧
    m.names = Vec.default (unstableEnv (V := Nat) 2 MapImpl.atEnd fun _ => 0).order ∧ ∀ e ∈ a.entries, "a" ∉ e.keys :=
  ⟨_, _, _, .start, rfl, by simp⟩
example :
    let E := unstableEnv (V := Nat) 2 MapImpl.atEnd (fun _ => 0)
    ((run E (SMV.init E) Heap.empty [.insert "a" 10]).map fun r => decide (0 < r.1.names.size)) = some true := by
  decide +kernel

/-- Three elements, then an insertion whose name cannot be stored (with blocks of one string each needs a block), one whose
key cannot be stored, then `modify` throws for the second element and leaves 0, then `insert_or_assign` throws and leaves
77. -/
example :
    let E := unstableEnv (V := Nat) 0 MapImpl.atEnd (fun s => s.length)
    ((run E (SMV.init E) Heap.empty [.insert "a" 10, .insert "b" 20, .insertNoKey 30]).bind fun r =>
      (execFault E (vectorFaults Nat) r.1 r.2.1 (.insert "c" 40) (.name .block)).bind fun s =>
      (execFault E (vectorFaults Nat) s.2.1 s.2.2 (.insertOrAssign "d" 50) (.base .map)).bind fun t =>
      (execFault E (vectorFaults Nat) t.2.1 t.2.2 (.modify (· + 5)) (.base (.visitor 1 0))).bind fun u =>
      (execFault E (vectorFaults Nat) u.2.1 u.2.2 (.insertOrAssign "a" 8) (.base (.assign 77))).bind fun w =>
      (run E w.2.1 w.2.2 [.apply, .find "a", .find "c", .find "d", .insert "d" 9, .find "d", .find "b"]).map fun z =>
        ([s.1, t.1, u.1, w.1], z.2.2)) =
    some ([true, true, true, true], [.vals [77, 0, 30, 40, 50], .found (some 77), .found none, .found none,
      .index (some 5), .found (some 9), .found (some 0)]) := by decide +kernel
example :
    let E := stableEnv (V := Nat) 0 MapImpl.atFront (fun _ => 0)
    ((run E (SMV.init E) Heap.empty [.insert "a" 10, .insert "b" 20]).bind fun r =>
      (execFault E (stableFaults 0 Nat) r.1 r.2.1 (.insert "c" 40) (.name .block)).bind fun s =>
      (execFault E (stableFaults 0 Nat) s.2.1 s.2.2 (.insert "d" 50) (.base (.storage .block))).bind fun t =>
      (run E t.2.1 t.2.2 [.apply, .find "c", .insert "d" 9, .find "d", .find "b", .removeIndex 2, .size]).map fun z =>
        ([s.1, t.1], z.2.2)) =
    some ([true, true], [.vals [10, 20, 40], .found none, .index (some 3), .found (some 9), .found (some 20), .done,
      .num 4]) := by decide +kernel

/-! ## C96: calls that throw have no effect -/

/-- C96, as far as it holds: if what throws is `emplace_back` of the elements or the construction of the value to be
assigned, the container holds what it held. -/
theorem no_effect_partial (kind : Kind) (a : Ideal String V) (op : Op V) (f : Fault V)
    (hf : (∃ g, f = .base (.storage g)) ∨ f = .base .value) : (left kind a op f).entries = a.entries := by
  rcases hf with ⟨g, rfl⟩ | rfl <;> cases op <;> rfl

theorem carefulRun_some (kind : Kind) (ops : List (Op V)) (a : Ideal String V)
    (h : carefulRun kind a ops = true) : ∃ a' os, idealRun kind a ops = some (a', os) := by
  induction ops generalizing a with
  | nil => exact ⟨a, [], rfl⟩
  | cons op ops ih =>
    simp only [carefulRun, Bool.and_eq_true] at h
    cases h1 : ideal kind a op with
    | none => rw [h1] at h; exact absurd h.2 (by simp)
    | some q =>
      rw [h1] at h
      obtain ⟨a2, os, e⟩ := ih q.1 h.2
      have h1' : Vector.ideal kind a op.base = some q := h1
      have e : Vector.idealRun kind q.1 (ops.map Op.base) = some (a2, os) := e
      exact ⟨a2, q.2 :: os, by simp only [idealRun, List.map_cons, Vector.idealRun, h1', e, Option.bind_some, Option.map_some]⟩

/-- C96, as far as it holds, as the client sees it: such a call leaves a container on which every later program returns what it
would have returned without the call, as long as the program makes no calls the code does not handle (`careful`: it
depends on how much memory has been reserved, therefore it is required for both). -/
theorem no_effect_runs_partial {S : Type} (E : Env S V) (kind : Kind) (L : Lawful E.st kind) (flt : Faults S V)
    (Q : L.Failing flt) (Z : L.Starts) (m m' : SMV S) (h : Heap String) (h' : Heap String) (a : Ideal String V) (r : Reached E flt kind m h a)
    (op : Op V) (f : Fault V) (hc : careful kind a op = true) (a' : Ideal String V) (o : Vector.Obs V)
    (hi : ideal kind a op = some (a', o)) (hf : tolerated kind a f = true)
    (hl : (∃ g, f = .base (.storage g)) ∨ f = .base .value)
    (he : execFault E flt m h op f = some (true, m', h')) :
    ∃ b, Reached E flt kind m' h' b ∧ b.entries = a.entries ∧
      ∀ ops, carefulRun kind a ops = true → carefulRun kind b ops = true →
        (run E m' h' ops).map (·.2.2) = (run E m h ops).map (·.2.2) := by
  have hn := no_effect_partial kind a op f hl
  have R : Reached E flt kind m' h' (left kind a op f) := .threw r hc hi hf he
  refine ⟨_, R, hn, fun ops h1 h2 => ?_⟩
  obtain ⟨a1, os1, e1⟩ := carefulRun_some kind ops a h1
  obtain ⟨a2, os2, e2⟩ := carefulRun_some kind ops _ h2
  have hs := Vector.idealRun_entries kind (ops.map Op.base) _ _ hn
  have hs : (idealRun kind (left kind a op f) ops).map (·.2) = (idealRun kind a ops).map (·.2) := hs
  obtain ⟨m1, hh1, x1, _⟩ := r.runs Q Z ops e1 h1
  obtain ⟨m2, hh2, x2, _⟩ := R.runs Q Z ops e2 h2
  rw [x1, x2]
  rw [e1, e2] at hs
  simpa using hs

section
variable {S : Type} {E : Env S V} {kind : Kind} {L : Lawful E.st kind} {flt : Faults S V} {m : SMV S} {h : Heap String}
  {a : Ideal String V}

theorem InvC.unknown (v : Inv L m h a) {k : String} (hk : ∀ e ∈ a.entries, k ∉ e.keys) :
    a.lookup k = none ∧ find E.hash E.order h k m.lookup = some none := by
  have h1 : FMap.find (strings E.order h m.lookup) k = none := by
    rw [v.base.binds.none_iff]
    intro ks hks
    obtain ⟨e, he, rfl⟩ := List.mem_map.1 hks
    exact hk e he
  refine ⟨(v.base.lookup_eq k).trans h1, ?_⟩
  rw [SRepC.find_eq v.ok]
  rw [find_strings] at h1
  rw [Option.map_eq_none_iff.1 h1]

theorem InvC.get (v : Inv L m h a) {i : Nat} {e : Vector.Entry String V} (he : a.entries[i]? = some e) :
    m.get E i = some e.value := by
  have hi : i < (a.entries.map (·.value)).length := by simpa using (List.getElem?_eq_some_iff.1 he).1
  rw [SMV.get, L.get hi v.base.rep, List.getElem_map, (List.getElem?_eq_some_iff.1 he).2]

theorem InvC.size (v : Inv L m h a) : m.size E = a.entries.length := by
  have := v.base.size_eq
  exact this

end

/-- C96 fails, in every state and for both storages, whenever storing the name or the key throws: `insert(k, x)` and
`insert_or_assign(k, x)` throw, but `x` has become an element, without search term; inserting it again makes a second
one.  (A key that cannot be stored always has this effect; a name that cannot whenever its vector needs memory.) -/
theorem term_throw_violation {S : Type} (E : Env S V) (kind : Kind) (L : Lawful E.st kind) (flt : Faults S V)
    (Q : L.Failing flt) (Z : L.Starts) (m : SMV S) (h : Heap String) (a : Ideal String V) (r : Reached E flt kind m h a)
    (k : String) (x : V) (hk : ∀ e ∈ a.entries, k ∉ e.keys) (op : Op V)
    (hop : op = .insert k x ∨ op = .insertOrAssign k x) :
    (∃ m' h', execFault E flt m h op (.base .map) = some (true, m', h')) ∧
    ∀ f, f = .base .map ∨ f = .name .array ∨ f = .name .block →
      ∀ m' h', execFault E flt m h op f = some (true, m', h') →
      Reached E flt kind m' h' (a.append kind x []) ∧
      m'.size E = a.entries.length + 1 ∧ m'.get E a.entries.length = some x ∧
      ∃ m'' h'', exec E m' h' op = some (m'', h'', .index (some (a.entries.length + 1))) ∧
        m''.size E = a.entries.length + 2 ∧ m''.get E (a.entries.length + 1) = some x ∧
        m''.get E a.entries.length = some x := by
  have v := r.inv Q Z
  obtain ⟨hl, hfd⟩ := v.unknown hk
  have hid : ideal kind a op = some (a.append kind x [k], .index (some a.entries.length)) := by
    rcases hop with rfl | rfl <;> simp only [ideal, Op.base, Vector.ideal, hl]
  have hcf : ∀ b, careful kind b op = true := by rcases hop with rfl | rfl <;> exact fun _ => rfl
  have hl2 : (a.append kind x []).lookup k = none := by
    simp only [Ideal.lookup, Ideal.append, List.findIdx?_eq_none_iff, decide_eq_false_iff_not] at hl ⊢
    intro e he
    rcases List.mem_append.1 he with h1 | h1
    · exact hl e h1
    · rw [List.mem_singleton.1 h1]; simp
  have hid2 : ideal kind (a.append kind x []) op =
      some ((a.append kind x []).append kind x [k], .index (some (a.entries.length + 1))) := by
    have hlen : (a.append kind x []).entries.length = a.entries.length + 1 := by simp [Ideal.append]
    rcases hop with rfl | rfl <;> simp only [ideal, Op.base, Vector.ideal, hl2, hlen]
  constructor
  · rcases r.fail Q Z (hcf a) hid (f := .base .map) rfl with ⟨m', h', e, _⟩ | ⟨m', h', e, _⟩
    · exfalso
      obtain ⟨d, ed, _⟩ := L.push x v.base.rep
      obtain ⟨n', h1, u, en, _⟩ := SRepC.addName v.ok k
      rcases hop with rfl | rfl <;> simp [execFault, SMV.addFault, hfd, ed, en] at e
    · exact ⟨m', h', e⟩
  · intro f hf m' h' he
    have ht : tolerated kind a f = true := by rcases hf with rfl | rfl | rfl <;> rfl
    have hleft : left kind a op f = a.append kind x [] := by
      rcases hf with rfl | rfl | rfl <;> rcases hop with rfl | rfl <;> rfl
    have R := Reached.threw r (hcf a) hid ht he
    rw [hleft] at R
    have v1 := R.inv Q Z
    obtain ⟨m'', h'', e2, v2⟩ := step v1 (hcf _) hid2
    refine ⟨R, ?_, ?_, m'', h'', e2, ?_, ?_, ?_⟩
    · rw [v1.size]; simp [Ideal.append]
    · exact v1.get (e := ⟨x, []⟩) (by simp [Ideal.append])
    · rw [v2.size]; simp [Ideal.append]
    · exact v2.get (e := ⟨x, [k]⟩) (by simp [Ideal.append])
    · exact v2.get (e := ⟨x, []⟩) (by simp [Ideal.append])

/-- C96 and C97 fail, in every state and for both storages, if copying the search term into the container throws (for
example because there is no memory for a long string): then `x` has become an element, and destroying the container is
undefined. -/
theorem name_throw_violation {S : Type} (E : Env S V) (kind : Kind) (L : Lawful E.st kind) (flt : Faults S V)
    (Q : L.Failing flt) (Z : L.Starts) (m : SMV S) (h : Heap String) (a : Ideal String V) (r : Reached E flt kind m h a)
    (k : String) (x : V) (hk : ∀ e ∈ a.entries, k ∉ e.keys) (op : Op V)
    (hop : op = .insert k x ∨ op = .insertOrAssign k x) :
    ∃ m' h', execFault E flt m h op (.name .element) = some (true, m', h') ∧ m'.destroy E h' = none ∧
      m'.size E = a.entries.length + 1 ∧ m'.get E a.entries.length = some x := by
  have v := r.inv Q Z
  obtain ⟨_, hfd⟩ := v.unknown hk
  obtain ⟨n', h', e, hd⟩ := v.ok.nameElement k
  obtain ⟨d, ed, rd, _⟩ := v.base.append x (strings E.order h m.lookup) [] v.base.binds.append_nil
  have ed : E.st.push m.data x = some d := ed
  refine ⟨⟨d, n', m.lookup⟩, h', ?_, hd _ _, ?_, ?_⟩
  · rcases hop with rfl | rfl <;> simp [execFault, SMV.addFault, hfd, ed, e]
  · have := rd.size_eq
    simp only [Ideal.append, List.length_append, List.length_singleton] at this
    exact this
  · have hi : a.entries.length < ((a.append kind x []).entries.map (·.value)).length := by simp [Ideal.append]
    rw [SMV.get, L.get hi rd.rep]
    simp [Ideal.append]

/-- C96 and C97 fail with stable storage, in every state, if the constructor of the element throws: the container can then
be neither cleared nor destroyed, and `back()` refers to an element that does not exist. -/
theorem element_throw_violation (N : Nat) (impl : MapImpl View) (hash : String → Nat) (m : SMV (Vec × Heap V))
    (h : Heap String) (a : Ideal String V) (r : ReachedS N impl hash m h a) (k : String) (x : V)
    (hk : ∀ e ∈ a.entries, k ∉ e.keys) (op : Op V)
    (hop : op = .insert k x ∨ op = .insertOrAssign k x ∨ op = .insertNoKey x) :
    ∃ m', execFault (stableEnv N impl hash) (stableFaults N V) m h op (.base (.storage .element)) = some (true, m', h) ∧
      exec (stableEnv N impl hash) m' h .clear = none ∧ Vec.freeAll N m'.data.1 m'.data.2 = none ∧
      exec (stableEnv N impl hash) m' h .back = none ∧
      exec (stableEnv N impl hash) m' h .size = some (m', h, .num a.entries.length) ∧
      (a.entries ≠ [] → exec (stableEnv N impl hash) m' h .apply = none) := by
  have v := r.inv (L := stableLawful N V) (stableFailing N V) (stableStarts N V)
  obtain ⟨_, hfd⟩ := v.unknown hk
  obtain ⟨s', e, h1, h2, h3, h4, h5⟩ := stable_element v.base.rep x
  refine ⟨{ m with data := s' }, ?_, ?_, h2, ?_, ?_, ?_⟩
  · rcases hop with rfl | rfl | rfl <;> simp [execFault, SMV.addFault, hfd, e]
  · simp only [exec, SMV.clear, stableEnv, h1, Option.map_none]
  · simp only [exec, SMV.back, stableEnv, h3, Option.map_none]
  · simp only [exec, SMV.size, stableEnv, h4, List.length_map]
  · intro hne
    simp only [exec, SMV.apply, stableEnv, h5 (by simpa using hne), Option.map_none]

/-- The hypotheses of the three violations are met, for example, after two insertions. -/
example : ∃ m h a, ReachedS (V := Nat) 0 MapImpl.atFront (fun _ => 0) m h a ∧ (∀ e ∈ a.entries, "c" ∉ e.keys) ∧
    a.entries ≠ [] := by
  obtain ⟨m, h, _, R⟩ := after_failures_stable_partial 0 MapImpl.atFront (fun _ => 0) _ _ _ .start
    [.insert "a" 10, .insert "b" 20] ⟨[⟨10, ["a"]⟩, ⟨20, ["b"]⟩], 64⟩ [.index (some 0), .index (some 1)]
    (by decide) (by decide)
  exact ⟨m, h, _, R, by decide, by decide⟩

end Verif.Mapped.Str
