import Verif.Mapped.DualStr.Throw
import Verif.Mapped.DualStr.Props
import Verif.Mapped.RemoveThrow

/-
C98, C99: exceptions inside calls of a DualStringMappedVector.
-/
namespace Verif.Mapped.DualStr
open Verif.Mapped Verif.Block
open Verif.Block.Vector (Vec)
open Verif.Mapped.Vector (Ideal Entry)
open Verif.Mapped.Dual (ideal idealRun attach assign push_inv lookup_inl lookup_inr lookup_lt mem_lookup)
open Verif.Mapped.Str (View text nameOf strings SRep SRepC find_strings)

/-- States a program can reach if any call may throw, at any point after which the container can be used (`tolerated`), and
goes on; `a` is what the container should hold: calls that throw leave what `left` says. -/
inductive Reached {S K2 V : Type} [DecidableEq K2] (E : Env S K2 V) (flt : Faults S V) (kind : Kind) :
    DSV S K2 → Heap String → Ideal (String ⊕ K2) V → Prop where
  | start : Reached E flt kind (DSV.init E) Heap.empty empty
  | call {m h m' h' a a' op o} (r : Reached E flt kind m h a) (hc : careful E.order kind a op = true)
      (hi : ideal kind a op = some (a', o)) (he : exec E m h op = some (m', h', o)) : Reached E flt kind m' h' a'
  | threw {m h m' h' a a' op o f} (r : Reached E flt kind m h a) (hc : careful E.order kind a op = true)
      (hi : ideal kind a op = some (a', o)) (hf : tolerated kind a f = true)
      (he : execFault E flt m h op f = some (true, m', h')) : Reached E flt kind m' h' (left kind a op f)

section
variable {S K2 V : Type} [DecidableEq K2] {E : Env S K2 V} {flt : Faults S V} {kind : Kind} {m : DSV S K2} {h : Heap String}
  {a : Ideal (String ⊕ K2) V}

theorem Reached.inv {L : Lawful E.st kind} (Q : L.Failing flt) (Z : L.Starts) (r : Reached E flt kind m h a) :
    Inv L m h a := by
  induction r with
  | start => exact InvC.init Z
  | call _ hc hi he v =>
    obtain ⟨m1, h1, e1, v1⟩ := step v hc hi
    rw [he] at e1; cases e1
    exact v1
  | threw _ hc hi hf he v =>
    rcases fails Q v hc hi hf with ⟨m1, h1, e1, v1, _⟩ | ⟨m1, h1, e1, _⟩
    · rw [he] at e1; cases e1
      exact v1
    · rw [he] at e1; cases e1

theorem Reached.fail {L : Lawful E.st kind} (Q : L.Failing flt) (Z : L.Starts) (r : Reached E flt kind m h a)
    {op : Op K2 V} {f : Fault V} (hc : careful E.order kind a op = true) {a' : Ideal (String ⊕ K2) V} {o : Vector.Obs V}
    (hi : ideal kind a op = some (a', o)) (hf : tolerated kind a f = true) :
    (∃ m' h', execFault E flt m h op f = some (false, m', h') ∧ exec E m h op = some (m', h', o)) ∨
    (∃ m' h', execFault E flt m h op f = some (true, m', h') ∧ Reached E flt kind m' h' (left kind a op f) ∧
      ∀ i, i < a.entries.length → E.st.addr m'.data i = E.st.addr m.data i) := by
  rcases fails Q (r.inv Q Z) hc hi hf with ⟨m1, h1, e1, _, ad⟩ | h1
  · exact .inr ⟨m1, h1, e1, .threw r hc hi hf e1, ad⟩
  · exact .inl h1

theorem Reached.runs {L : Lawful E.st kind} (Q : L.Failing flt) (Z : L.Starts) (ops : List (Op K2 V))
    {m : DSV S K2} {h : Heap String} {a : Ideal (String ⊕ K2) V} (r : Reached E flt kind m h a) {a' os}
    (hi : idealRun kind a ops = some (a', os)) (hc : carefulRun E.order kind a ops = true) :
    ∃ m' h', run E m h ops = some (m', h', os) ∧ Reached E flt kind m' h' a' := by
  induction ops generalizing m h a os with
  | nil => cases hi; exact ⟨m, h, rfl, r⟩
  | cons op ops ih =>
    simp only [idealRun, Option.bind_eq_some_iff, Option.map_eq_some_iff] at hi
    obtain ⟨⟨a1, o⟩, h1, ⟨a2, os2⟩, h2, h3⟩ := hi
    cases h3
    simp only [carefulRun, h1, Bool.and_eq_true] at hc
    obtain ⟨m1, hh1, e1, _⟩ := step (r.inv Q Z) hc.1 h1
    obtain ⟨m2, hh2, e2, R⟩ := ih (.call r hc.1 h1 e1) h2 hc.2
    exact ⟨m2, hh2, by simp only [run, e1, Option.bind_some, e2, Option.map_some], R⟩

omit [DecidableEq K2] in
/-- The implicitly defined destructor: what happens to the strings. -/
def DSV.destroy (E : Env S K2 V) (m : DSV S K2) (h : Heap String) : Option (Heap String) := Vec.freeAll E.order m.names h

end

variable {K2 V : Type} [DecidableEq K2]

/-- reachable with vector storage -/
abbrev ReachedU (N : Nat) (i1 : MapImpl View) (i2 : MapImpl K2) (hash : String → Nat) :
    DSV (List V) K2 → Heap String → Ideal (String ⊕ K2) V → Prop :=
  Reached (unstableEnv N i1 i2 hash) (vectorFaults V) .unstable

/-- reachable with stable storage -/
abbrev ReachedS (N : Nat) (i1 : MapImpl View) (i2 : MapImpl K2) (hash : String → Nat) :
    DSV (Vec × Heap V) K2 → Heap String → Ideal (String ⊕ K2) V → Prop :=
  Reached (stableEnv N i1 i2 hash) (stableFaults N V) (.stable N)

/-! ## C99: the container can be used after an exception -/

/-- C99, vector storage: whatever throws in whatever careful call, except copying the name (see `name_throw_violation`),
either the call did not get to it and is an ordinary one, or the container then holds what `left` says. -/
theorem failure_unstable_partial (N : Nat) (i1 : MapImpl View) (i2 : MapImpl K2) (hash : String → Nat) (m : DSV (List V) K2)
    (h : Heap String) (a : Ideal (String ⊕ K2) V) (r : ReachedU N i1 i2 hash m h a) (op : Op K2 V) (f : Fault V)
    (hc : careful N .unstable a op = true) (a' : Ideal (String ⊕ K2) V) (o : Vector.Obs V)
    (hi : ideal .unstable a op = some (a', o)) (hf : tolerated .unstable a f = true) :
    (∃ m' h', execFault (unstableEnv N i1 i2 hash) (vectorFaults V) m h op f = some (false, m', h') ∧
      exec (unstableEnv N i1 i2 hash) m h op = some (m', h', o)) ∨
    (∃ m' h', execFault (unstableEnv N i1 i2 hash) (vectorFaults V) m h op f = some (true, m', h') ∧
      ReachedU N i1 i2 hash m' h' (left .unstable a op f)) := by
  rcases r.fail (L := vectorLawful V) (vectorFailing V) (vectorStarts V) hc hi hf with h1 | ⟨m', h', h1, h2, _⟩
  · exact .inl h1
  · exact .inr ⟨m', h', h1, h2⟩

/-- The same for stable storage, where moreover all elements stay where they are.  Missing: failures the storage does not
survive (`tolerated`), see `element_throw_violation`. -/
theorem failure_stable_partial (N : Nat) (i1 : MapImpl View) (i2 : MapImpl K2) (hash : String → Nat)
    (m : DSV (Vec × Heap V) K2) (h : Heap String) (a : Ideal (String ⊕ K2) V) (r : ReachedS N i1 i2 hash m h a) (op : Op K2 V)
    (f : Fault V) (hc : careful N (.stable N) a op = true) (a' : Ideal (String ⊕ K2) V) (o : Vector.Obs V)
    (hi : ideal (.stable N) a op = some (a', o)) (hf : tolerated (.stable N) a f = true) :
    (∃ m' h', execFault (stableEnv N i1 i2 hash) (stableFaults N V) m h op f = some (false, m', h') ∧
      exec (stableEnv N i1 i2 hash) m h op = some (m', h', o)) ∨
    (∃ m' h', execFault (stableEnv N i1 i2 hash) (stableFaults N V) m h op f = some (true, m', h') ∧
      ReachedS N i1 i2 hash m' h' (left (.stable N) a op f) ∧
      ∀ i, i < a.entries.length → (stableStore N V).addr m'.data i = (stableStore N V).addr m.data i) :=
  r.fail (L := stableLawful N V) (stableFailing N V) (stableStarts N V) hc hi hf

/-- C99: after any number of exceptions every careful program goes on as the specification says, vector storage. -/
theorem after_failures_unstable_partial (N : Nat) (i1 : MapImpl View) (i2 : MapImpl K2) (hash : String → Nat)
    (m : DSV (List V) K2) (h : Heap String) (a : Ideal (String ⊕ K2) V) (r : ReachedU N i1 i2 hash m h a)
    (ops : List (Op K2 V)) (a' : Ideal (String ⊕ K2) V) (os : List (Vector.Obs V))
    (hi : idealRun .unstable a ops = some (a', os)) (hc : carefulRun N .unstable a ops = true) :
    ∃ m' h', run (unstableEnv N i1 i2 hash) m h ops = some (m', h', os) ∧ ReachedU N i1 i2 hash m' h' a' :=
  r.runs (L := vectorLawful V) (vectorFailing V) (vectorStarts V) ops hi hc

/-- The same for stable storage. -/
theorem after_failures_stable_partial (N : Nat) (i1 : MapImpl View) (i2 : MapImpl K2) (hash : String → Nat)
    (m : DSV (Vec × Heap V) K2) (h : Heap String) (a : Ideal (String ⊕ K2) V) (r : ReachedS N i1 i2 hash m h a)
    (ops : List (Op K2 V)) (a' : Ideal (String ⊕ K2) V) (os : List (Vector.Obs V))
    (hi : idealRun (.stable N) a ops = some (a', os)) (hc : carefulRun N (.stable N) a ops = true) :
    ∃ m' h', run (stableEnv N i1 i2 hash) m h ops = some (m', h', os) ∧ ReachedS N i1 i2 hash m' h' a' :=
  r.runs (L := stableLawful N V) (stableFailing N V) (stableStarts N V) ops hi hc

/-- C99: after any number of exceptions every name is a view of a living string of the container's own. -/
theorem after_failures_keys_own {S : Type} (E : Env S K2 V) (kind : Kind) (L : Lawful E.st kind) (flt : Faults S V)
    (Q : L.Failing flt) (Z : L.Starts) (m : DSV S K2) (h : Heap String) (a : Ideal (String ⊕ K2) V)
    (r : Reached E flt kind m h a) (v : View) (i : Nat) (hv : (v, i) ∈ m.lookup1) :
    ∃ (j : Nat) (s : String), j < m.names.size ∧ Vec.cell E.order m.names j = some v.1 ∧
      Vec.get E.order m.names h j = some s ∧ text E.order h v = some s ∧ v.2 = E.hash s ∧
      ∃ e, a.entries[i]? = some e ∧ .inl s ∈ e.keys := by
  have w := r.inv Q Z
  obtain ⟨ns, rep, g⟩ := w.ok.own
  obtain ⟨j, s, h1, h2, h3⟩ := g v (List.mem_map.2 ⟨_, hv, rfl⟩)
  obtain ⟨hj, rfl⟩ := List.getElem?_eq_some_iff.1 h1
  have hg : Vec.get E.order m.names h j = some ns[j] := rep.get hj
  have ht : text E.order h v = some ns[j] := by rw [Vec.get, h2] at hg; exact hg
  refine ⟨j, ns[j], by rw [rep.size]; exact hj, h2, hg, ht, h3, ?_⟩
  have hwf := (Dual.join_wf.1 w.base.binds.wf).1
  have hf : FMap.find (strings E.order h m.lookup1) ns[j] = some i := by
    rw [FMap.find_eq_some hwf]
    exact List.mem_map.2 ⟨(v, i), hv, by simp [nameOf, ht]⟩
  exact (Dual.lookup_iff w.base (.inl ns[j]) i).1 ((lookup_inl w.base _).trans hf)

/-- C99: after any number of exceptions the strings can be destroyed, if any has been stored or none was ever attempted to be
(see `first_name_violation`). -/
theorem after_failures_destroy_partial {S : Type} (E : Env S K2 V) (kind : Kind) (L : Lawful E.st kind) (flt : Faults S V)
    (Q : L.Failing flt) (Z : L.Starts) (m : DSV S K2) (h : Heap String) (a : Ideal (String ⊕ K2) V)
    (r : Reached E flt kind m h a) (hn : 0 < m.names.size ∨ m.names = Vec.default E.order) :
    ∃ h', m.destroy E h = some h' := by
  rcases hn with hn | hn
  · obtain ⟨ns, rep, _⟩ := (r.inv Q Z).ok.own
    exact rep.freeAll hn
  · rw [DSV.destroy, hn]; exact Str.default_freeAll _ _

/-- C99: and so can, with stable storage, the elements. -/
theorem after_failures_destroy_elements (N : Nat) (i1 : MapImpl View) (i2 : MapImpl K2) (hash : String → Nat)
    (m : DSV (Vec × Heap V) K2) (h : Heap String) (a : Ideal (String ⊕ K2) V) (r : ReachedS N i1 i2 hash m h a) :
    ∃ h', Vec.freeAll N m.data.1 m.data.2 = some h' := by
  obtain ⟨us, fs, c, w, hu, _⟩ := (r.inv (L := stableLawful N V) (stableFailing N V) (stableStarts N V)).base.rep
  obtain ⟨h', e, _⟩ := c.freeAll w hu
  exact ⟨h', e⟩

/-- Four failing calls: the name cannot be stored, the first key, the second key, the second key of `insert_or_assign` of
an element that exists; then a throwing visitor. -/
example :
    let E := unstableEnv (K2 := Nat) (V := Nat) 0 MapImpl.atEnd MapImpl.atFront String.length
    ((run E (DSV.init E) Heap.empty demo2).bind fun r =>
      (execFault E (vectorFaults Nat) r.1 r.2.1 (.insert (some "d") (some 4) 40) (.name .block)).bind fun s =>
      (execFault E (vectorFaults Nat) s.2.1 s.2.2 (.insert (some "e") none 50) (.base .map1)).bind fun t =>
      (execFault E (vectorFaults Nat) t.2.1 t.2.2 (.insertOrAssign "f" 6 60) (.base .map2)).bind fun u =>
      (execFault E (vectorFaults Nat) u.2.1 u.2.2 (.insertOrAssign "a" 7 11) (.base .map2)).bind fun w =>
      (execFault E (vectorFaults Nat) w.2.1 w.2.2 (.modify (· + 5)) (.base (.visitor 1 0))).bind fun x =>
      (run E x.2.1 x.2.2 [.apply, .find (.inl "d"), .find (.inr 4), .find (.inl "e"), .find (.inl "f"), .find (.inr 6),
        .find (.inr 7), .find (.inl "x"), .insert (some "d") (some 4) 70, .find (.inl "d")]).map fun z =>
        ([s.1, t.1, u.1, w.1, x.1], z.2.2)) =
    some ([true, true, true, true, true], [.vals [16, 0, 30, 40, 50, 60], .found none, .found none, .found none,
      .found (some 60), .found none, .found none, .found (some 0), .index (some 6), .found (some 70)]) := by decide +kernel
example :
    let E := stableEnv (K2 := Nat) (V := Nat) 0 MapImpl.atFront MapImpl.atEnd (fun _ => 0)
    ((run E (DSV.init E) Heap.empty demo2).bind fun r =>
      (execFault E (stableFaults 0 Nat) r.1 r.2.1 (.addTerm (.inl "y") (.inr 2)) (.name .block)).bind fun s =>
      (execFault E (stableFaults 0 Nat) s.2.1 s.2.2 (.insert none (some 5) 50) (.base (.storage .block))).bind fun t =>
      (execFault E (stableFaults 0 Nat) t.2.1 t.2.2 (.insertOrAssignOne (.inr 3) 1) (.base (.assign 77))).bind fun u =>
      (run E u.2.1 u.2.2 [.apply, .find (.inl "y"), .find (.inr 5), .addTerm (.inl "y") (.inr 2), .remove (.inl "y"),
        .find (.inl "x"), .find (.inl "c")]).map fun z => ([s.1, t.1, u.1], z.2.2)) =
    some ([true, true, true], [.vals [10, 20, 77], .found none, .found none, .bool true, .done, .found none,
      .found (some 77)]) := by decide +kernel

/-! ## C98: calls that throw have no effect -/

/-- C98, as far as it holds: if what throws is `emplace_back` of the elements or the construction of the value to be
assigned, or (except copying the name) anything in one of the calls that only add a search term, the container holds what
it held. -/
theorem no_effect_partial (kind : Kind) (a : Ideal (String ⊕ K2) V) (op : Op K2 V) (f : Fault V)
    (hf : (∃ g, f = .base (.storage g)) ∨ f = .base .value ∨ (∃ k i, op = .addTermForIndex k i) ∨ ∃ k e, op = .addTerm k e) :
    (left kind a op f).entries = a.entries := by
  rcases hf with ⟨g, rfl⟩ | rfl | ⟨k, i, rfl⟩ | ⟨k, i, rfl⟩
  · cases op <;> rfl
  · cases op <;> rfl
  all_goals rcases f with f | f <;> rfl

theorem carefulRun_some (kind : Kind) (N : Nat) (ops : List (Op K2 V)) (a : Ideal (String ⊕ K2) V)
    (h : carefulRun N kind a ops = true) : ∃ a' os, idealRun kind a ops = some (a', os) := by
  induction ops generalizing a with
  | nil => exact ⟨a, [], rfl⟩
  | cons op ops ih =>
    simp only [carefulRun, Bool.and_eq_true] at h
    cases h1 : ideal kind a op with
    | none => rw [h1] at h; exact absurd h.2 (by simp)
    | some q =>
      rw [h1] at h
      obtain ⟨a2, os, e⟩ := ih q.1 h.2
      exact ⟨a2, q.2 :: os, by simp only [Dual.idealRun, h1, e, Option.bind_some, Option.map_some]⟩

/-- C98, as far as it holds, as the client sees it: such a call leaves a container on which every later program returns what it
would have returned without the call, as long as the program makes no calls the code does not handle (`careful`: it
depends on how much memory has been reserved, therefore it is required for both). -/
theorem no_effect_runs_partial {S : Type} (E : Env S K2 V) (kind : Kind) (L : Lawful E.st kind) (flt : Faults S V)
    (Q : L.Failing flt) (Z : L.Starts) (m m' : DSV S K2) (h : Heap String) (h' : Heap String) (a : Ideal (String ⊕ K2) V) (r : Reached E flt kind m h a)
    (op : Op K2 V) (f : Fault V) (hc : careful E.order kind a op = true) (a' : Ideal (String ⊕ K2) V) (o : Vector.Obs V)
    (hi : ideal kind a op = some (a', o)) (hf : tolerated kind a f = true)
    (hl : (∃ g, f = .base (.storage g)) ∨ f = .base .value ∨ (∃ k i, op = .addTermForIndex k i) ∨ ∃ k e, op = .addTerm k e)
    (he : execFault E flt m h op f = some (true, m', h')) :
    ∃ b, Reached E flt kind m' h' b ∧ b.entries = a.entries ∧
      ∀ ops, carefulRun E.order kind a ops = true → carefulRun E.order kind b ops = true →
        (run E m' h' ops).map (·.2.2) = (run E m h ops).map (·.2.2) := by
  have hn := no_effect_partial kind a op f hl
  have R : Reached E flt kind m' h' (left kind a op f) := .threw r hc hi hf he
  refine ⟨_, R, hn, fun ops h1 h2 => ?_⟩
  obtain ⟨a1, os1, e1⟩ := carefulRun_some kind E.order ops a h1
  obtain ⟨a2, os2, e2⟩ := carefulRun_some kind E.order ops _ h2
  have hs := Dual.idealRun_entries kind ops _ _ hn
  obtain ⟨m1, hh1, x1, _⟩ := r.runs Q Z ops e1 h1
  obtain ⟨m2, hh2, x2, _⟩ := R.runs Q Z ops e2 h2
  rw [x1, x2]
  rw [e1, e2] at hs
  simpa using hs

section
variable {S : Type} {E : Env S K2 V} {kind : Kind} {L : Lawful E.st kind} {flt : Faults S V} {m : DSV S K2} {h : Heap String}
  {a : Ideal (String ⊕ K2) V}

theorem InvC.unknown1 (v : Inv L m h a) {k : String} (hk : ∀ e ∈ a.entries, .inl k ∉ e.keys) :
    a.lookup (.inl k) = none ∧ FMap.find (strings E.order h m.lookup1) k = none ∧
      Str.find E.hash E.order h k m.lookup1 = some none := by
  have h1 := mem_lookup hk
  have h2 := h1; rw [lookup_inl v.base] at h2
  have h2 : FMap.find (strings E.order h m.lookup1) k = none := h2
  refine ⟨h1, h2, ?_⟩
  rw [SRepC.find_eq v.ok]
  rw [find_strings] at h2
  rw [Option.map_eq_none_iff.1 h2]

theorem InvC.unknown2 (v : Inv L m h a) {k : K2} (hk : ∀ e ∈ a.entries, .inr k ∉ e.keys) :
    a.lookup (.inr k) = none ∧ FMap.find m.lookup2 k = none := by
  have h1 := mem_lookup hk
  have h2 := h1; rw [lookup_inr v.base] at h2
  exact ⟨h1, h2⟩

theorem InvC.size (v : Inv L m h a) : m.size E = a.entries.length := Dual.size_eq v.base

theorem InvC.get (v : Inv L m h a) {i : Nat} (hi : i < a.entries.length) : m.get E i = (a.entries[i]?).map (·.value) :=
  Dual.get_eq v.base hi

theorem InvC.finds (v : Inv L m h a) (k : String ⊕ K2) (y : V) :
    Finds E m h k y ↔ ∃ i, a.lookup k = some i ∧ (a.entries[i]?).map (·.value) = some y :=
  (finds_base v.ok k y).trans (Dual.find_iff v.base k y)

end

/-- C98 fails, in every state and for both storages, whenever the name or its key, or the only second term, cannot be
stored: the call throws, but `x` has become an element, without search term.  (A key that cannot be stored always has this
effect; a name that cannot whenever its vector needs memory.) -/
theorem term_throw_violation {S : Type} (E : Env S K2 V) (kind : Kind) (L : Lawful E.st kind) (flt : Faults S V)
    (Q : L.Failing flt) (Z : L.Starts) (m : DSV S K2) (h : Heap String) (a : Ideal (String ⊕ K2) V)
    (r : Reached E flt kind m h a) (k1 : String) (k2 : K2) (x : V) (hk1 : ∀ e ∈ a.entries, .inl k1 ∉ e.keys)
    (hk2 : ∀ e ∈ a.entries, .inr k2 ∉ e.keys) :
    (∀ op, op ∈ [.insert (some k1) (some k2) x, .insert (some k1) none x, .insertOrAssign k1 k2 x,
        .insertOrAssignOne (.inl k1) x] →
      (∃ m' h', execFault E flt m h op (.base .map1) = some (true, m', h')) ∧
      ∀ f, f = .base .map1 ∨ f = .name .array ∨ f = .name .block →
        ∀ m' h', execFault E flt m h op f = some (true, m', h') →
        Reached E flt kind m' h' (a.append kind x []) ∧ m'.size E = a.entries.length + 1 ∧
        m'.get E a.entries.length = some x) ∧
    (∀ op, op ∈ [.insert none (some k2) x, .insertOrAssignOne (.inr k2) x] →
      ∃ m', execFault E flt m h op (.base .map2) = some (true, m', h) ∧
        Reached E flt kind m' h (a.append kind x []) ∧ m'.size E = a.entries.length + 1 ∧
        m'.get E a.entries.length = some x) := by
  have v := r.inv Q Z
  obtain ⟨l1, s1, f1⟩ := v.unknown1 hk1
  obtain ⟨l2, f2⟩ := v.unknown2 hk2
  obtain ⟨d, ed, vd, -⟩ := v.push x
  obtain ⟨n', h1, u, en, _⟩ := SRepC.addName v.ok k1
  have fin : ∀ {m' h'}, Reached E flt kind m' h' (a.append kind x []) →
      Reached E flt kind m' h' (a.append kind x []) ∧ m'.size E = a.entries.length + 1 ∧
        m'.get E a.entries.length = some x := by
    intro m' h' R
    have v1 := R.inv Q Z
    refine ⟨R, ?_, ?_⟩
    · rw [v1.size]; simp [Ideal.append]
    · rw [v1.get (by simp [Ideal.append])]; simp [Ideal.append]
  constructor
  · intro op hop
    simp only [List.mem_cons, List.not_mem_nil, or_false] at hop
    constructor
    · refine ⟨⟨d, m.lookup1, n', m.lookup2⟩, h1, ?_⟩
      rcases hop with rfl | rfl | rfl | rfl <;>
        simp [execFault, DSV.insertFault, DSV.insert1Fault, DSV.insertOrAssignFault, DSV.insertOrAssign1Fault, DSV.addFault,
          DSV.addFirstFault, DSV.addName1Fault, f1, f2, ed, en]
    · intro f hf m' h' he
      have hok : ∃ r, ideal kind a op = some r ∧ careful E.order kind a op = true := by
        rcases hop with rfl | rfl | rfl | rfl <;> simp [ideal, careful, Dual.careful, l1, l2]
      obtain ⟨⟨a', o⟩, hi, hc⟩ := hok
      have ht : tolerated kind a f = true := by rcases hf with rfl | rfl | rfl <;> rfl
      have R := Reached.threw r hc hi ht he
      have hleft : left kind a op f = a.append kind x [] := by
        rcases hf with rfl | rfl | rfl <;> rcases hop with rfl | rfl | rfl | rfl <;> rfl
      rw [hleft] at R
      exact fin R
  · intro op hop
    simp only [List.mem_cons, List.not_mem_nil, or_false] at hop
    have hth : execFault E flt m h op (.base .map2) = some (true, { m with data := d }, h) := by
      rcases hop with rfl | rfl <;>
        simp [execFault, DSV.insert2Fault, DSV.insertOrAssign2Fault, DSV.addSecondFault, f2, ed]
    have hok : ∃ r, ideal kind a op = some r ∧ careful E.order kind a op = true := by
      rcases hop with rfl | rfl <;> simp [ideal, careful, Dual.careful, l2]
    obtain ⟨⟨a', o⟩, hi, hc⟩ := hok
    have R := Reached.threw r hc hi (f := .base .map2) rfl hth
    have hleft : left kind a op (.base .map2) = a.append kind x [] := by rcases hop with rfl | rfl <;> rfl
    rw [hleft] at R
    exact ⟨_, hth, fin R⟩

/-- C98 fails likewise if the second search term cannot be stored: the insertion throws, but `x` has become an element,
found by the name only. -/
theorem map2_throw_violation {S : Type} (E : Env S K2 V) (kind : Kind) (L : Lawful E.st kind) (flt : Faults S V)
    (Q : L.Failing flt) (Z : L.Starts) (m : DSV S K2) (h : Heap String) (a : Ideal (String ⊕ K2) V)
    (r : Reached E flt kind m h a) (k1 : String) (k2 : K2) (x : V) (hk1 : ∀ e ∈ a.entries, .inl k1 ∉ e.keys)
    (hk2 : ∀ e ∈ a.entries, .inr k2 ∉ e.keys) (op : Op K2 V)
    (hop : op = .insert (some k1) (some k2) x ∨ op = .insertOrAssign k1 k2 x) :
    ∃ m' h', execFault E flt m h op (.base .map2) = some (true, m', h') ∧
      Reached E flt kind m' h' (attach (a.append kind x []) a.entries.length (.inl k1)) ∧
      m'.size E = a.entries.length + 1 ∧ Finds E m' h' (.inl k1) x ∧ ¬ ∃ y, Finds E m' h' (.inr k2) y := by
  have v := r.inv Q Z
  obtain ⟨l1, s1, f1⟩ := v.unknown1 hk1
  obtain ⟨l2, f2⟩ := v.unknown2 hk2
  obtain ⟨d, ed, vd, -⟩ := v.push x
  have hok : ∃ r, ideal kind a op = some r ∧ careful E.order kind a op = true := by
    rcases hop with rfl | rfl <;> simp [ideal, careful, Dual.careful, l1, l2]
  obtain ⟨⟨a', o⟩, hi, hc⟩ := hok
  have hleft : left kind a op (.base .map2) = attach (a.append kind x []) a.entries.length (.inl k1) := by
    rcases hop with rfl | rfl
    · rfl
    · simp only [left, Dual.left, l1]
  obtain ⟨J, n, h', e1, _⟩ := addName1_lift vd.ok k1 (E.st.size m.data)
  have hth : execFault E flt m h op (.base .map2) = some (true, n, h') := by
    rcases hop with rfl | rfl <;>
      simp [execFault, DSV.insertFault, DSV.insertOrAssignFault, DSV.addFault, DSV.addName1Fault, f1, f2, ed, e1]
  have R := Reached.threw r hc hi (f := .base .map2) rfl hth
  rw [hleft] at R
  have v1 := R.inv Q Z
  have hlt : a.entries.length < (a.append kind x []).entries.length := Dual.append_length a x
  refine ⟨_, _, hth, R, ?_, ?_, ?_⟩
  · rw [v1.size, Dual.attach_length]; simp [Ideal.append]
  · rw [v1.finds]
    refine ⟨_, by rw [Dual.lookup_attach vd.base hlt, if_pos rfl], ?_⟩
    rw [Dual.attach_value]; simp [Ideal.append]
  · rintro ⟨y, hy⟩
    rw [v1.finds] at hy
    obtain ⟨i, hi, _⟩ := hy
    rw [Dual.lookup_attach vd.base hlt, if_neg (by simp), Dual.lookup_append, l2] at hi
    cases hi

/-- C98 fails likewise for `insert_or_assign` with a name in use: it throws, but the value is replaced. -/
theorem assign_throw_violation {S : Type} (E : Env S K2 V) (kind : Kind) (L : Lawful E.st kind) (flt : Faults S V)
    (Q : L.Failing flt) (Z : L.Starts) (m : DSV S K2) (h : Heap String) (a : Ideal (String ⊕ K2) V)
    (r : Reached E flt kind m h a) (k1 : String) (k2 : K2) (x : V) (hk1 : ∃ e ∈ a.entries, .inl k1 ∈ e.keys)
    (hk2 : ∀ e ∈ a.entries, .inr k2 ∉ e.keys) :
    ∃ m', execFault E flt m h (.insertOrAssign k1 k2 x) (.base .map2) = some (true, m', h) ∧ m'.size E = a.entries.length ∧
      Finds E m' h (.inl k1) x ∧ ¬ ∃ y, Finds E m' h (.inr k2) y := by
  have v := r.inv Q Z
  obtain ⟨e, he, hke⟩ := hk1
  obtain ⟨i, hi⟩ := List.mem_iff_getElem?.1 he
  have l1 : a.lookup (.inl k1) = some i := (Dual.lookup_iff v.base _ _).2 ⟨e, hi, hke⟩
  have f1 := l1; rw [lookup_inl v.base] at f1
  have f1 : FMap.find (strings E.order h m.lookup1) k1 = some i := f1
  rw [find_strings] at f1
  obtain ⟨w, hw, rfl⟩ := Option.map_eq_some_iff.1 f1
  obtain ⟨l2, f2⟩ := v.unknown2 hk2
  have hlt := lookup_lt v.base l1
  obtain ⟨d, ed, v1, -⟩ := v.assign hlt x
  have lk : ∀ k, (assign a w.2 x).lookup k = a.lookup k := fun k => Dual.lookup_keys _ _ (Dual.assign_keys a w.2 x) k
  refine ⟨{ m with data := d }, ?_, ?_, ?_, ?_⟩
  · simp [execFault, DSV.insertOrAssignFault, SRepC.find_eq v.ok, hw, f2, ed]
  · rw [v1.size]; simp [assign]
  · rw [v1.finds]
    exact ⟨w.2, by rw [lk, l1], by simp [assign, List.getElem?_modify, hlt]⟩
  · rintro ⟨y, hy⟩
    rw [v1.finds] at hy
    obtain ⟨j, hj, _⟩ := hy
    rw [lk, l2] at hj
    cases hj

/-- C98 and C99 fail, in every state and for both storages, if copying a name into the container throws (for example
because there is no memory for a long string): destroying the container is then undefined.  This is so even for a call that
only adds a name to element `i`. -/
theorem name_throw_violation {S : Type} (E : Env S K2 V) (kind : Kind) (L : Lawful E.st kind) (flt : Faults S V)
    (Q : L.Failing flt) (Z : L.Starts) (m : DSV S K2) (h : Heap String) (a : Ideal (String ⊕ K2) V)
    (r : Reached E flt kind m h a) (k1 : String) (k2 : K2) (x : V) (i : Nat) (op : Op K2 V)
    (hop : ((∀ e ∈ a.entries, .inl k1 ∉ e.keys) ∧ op ∈ [.insert (some k1) (some k2) x, .insert (some k1) none x,
        .insertOrAssign k1 k2 x, .insertOrAssignOne (.inl k1) x]) ∨
      (i < a.entries.length ∧ op = .addTermForIndex (.inl k1) i)) :
    ∃ m' h', execFault E flt m h op (.name .element) = some (true, m', h') ∧ m'.destroy E h' = none := by
  have v := r.inv Q Z
  have w : Str.SMV.Ok (S := S) (V := V) ⟨E.st, E.order, E.impl1, E.hash⟩ ⟨m.data, m.names, m.lookup1⟩ h := v.ok
  obtain ⟨n', h', e, hd⟩ := w.nameElement k1
  have e : m.names.pushFault E.order h k1 .element = some (true, n', h') := e
  obtain ⟨d, ed, -⟩ := v.push x
  have hd : Vec.freeAll E.order n' h' = none := hd m.data m.lookup1
  rcases hop with ⟨hk1, hop⟩ | ⟨hi, rfl⟩
  · obtain ⟨l1, s1, f1⟩ := v.unknown1 hk1
    simp only [List.mem_cons, List.not_mem_nil, or_false] at hop
    refine ⟨⟨d, m.lookup1, n', m.lookup2⟩, h', ?_, hd⟩
    rcases hop with rfl | rfl | rfl | rfl <;>
      simp [execFault, DSV.insertFault, DSV.insert1Fault, DSV.insertOrAssignFault, DSV.insertOrAssign1Fault, DSV.addFault,
        DSV.addFirstFault, DSV.addName1Fault, f1, ed, e]
  · refine ⟨{ m with names := n' }, h', ?_, hd⟩
    have hsz : i < E.st.size m.data := by rw [show E.st.size m.data = a.entries.length from v.base.size_eq]; exact hi
    simp [execFault, DSV.addName1Fault, hsz, e]

/-- C99 fails if there is no memory for the first string, whether of an inserted element or of a name added to element
`i`: the call throws, and destroying the container is undefined. -/
theorem first_name_violation {S : Type} (E : Env S K2 V) (kind : Kind) (L : Lawful E.st kind) (flt : Faults S V)
    (Q : L.Failing flt) (Z : L.Starts) (m : DSV S K2) (h : Heap String) (a : Ideal (String ⊕ K2) V)
    (r : Reached E flt kind m h a) (hn : m.names = Vec.default E.order) (k1 : String) (k2 : K2) (x : V) (i : Nat) (op : Op K2 V)
    (hop : ((∀ e ∈ a.entries, .inl k1 ∉ e.keys) ∧ op ∈ [.insert (some k1) (some k2) x, .insert (some k1) none x,
        .insertOrAssign k1 k2 x, .insertOrAssignOne (.inl k1) x]) ∨
      (i < a.entries.length ∧ op = .addTermForIndex (.inl k1) i)) :
    ∃ m', execFault E flt m h op (.name .block) = some (true, m', h) ∧ m'.destroy E h = none := by
  have v := r.inv Q Z
  obtain ⟨n', e, hd⟩ := Str.default_pushBlock E.order h k1
  rw [← hn] at e
  obtain ⟨d, ed, -⟩ := v.push x
  rcases hop with ⟨hk1, hop⟩ | ⟨hi, rfl⟩
  · obtain ⟨l1, s1, f1⟩ := v.unknown1 hk1
    simp only [List.mem_cons, List.not_mem_nil, or_false] at hop
    refine ⟨⟨d, m.lookup1, n', m.lookup2⟩, ?_, hd⟩
    rcases hop with rfl | rfl | rfl | rfl <;>
      simp [execFault, DSV.insertFault, DSV.insert1Fault, DSV.insertOrAssignFault, DSV.insertOrAssign1Fault, DSV.addFault,
        DSV.addFirstFault, DSV.addName1Fault, f1, ed, e]
  · refine ⟨{ m with names := n' }, ?_, hd⟩
    have hsz : i < E.st.size m.data := by rw [show E.st.size m.data = a.entries.length from v.base.size_eq]; exact hi
    simp [execFault, DSV.addName1Fault, hsz, e]

/-- The hypotheses hold, for example, after the insertion of an element with a second term only. -/
example : ∃ m h a, ReachedU (K2 := Nat) (V := Nat) 2 MapImpl.atEnd MapImpl.atEnd (fun _ => 0) m h a ∧
    m.names = Vec.default (unstableEnv (K2 := Nat) (V := Nat) 2 MapImpl.atEnd MapImpl.atEnd fun _ => 0).order ∧
    (∀ e ∈ a.entries, .inl "a" ∉ e.keys) ∧ 0 < a.entries.length :=
  ⟨⟨[10], [], Vec.default 2, [(1, 0)]⟩, Heap.empty, ⟨[⟨10, [.inr 1]⟩], 0⟩,
    .call (op := .insert none (some 1) 10) (o := .index (some 0)) .start rfl rfl rfl, rfl, by simp, by simp⟩

/-- C98 and C99 fail with stable storage, in every state, if the constructor of the element throws: the container can then
be neither cleared nor destroyed, and `back()` refers to an element that does not exist. -/
theorem element_throw_violation (N : Nat) (i1 : MapImpl View) (i2 : MapImpl K2) (hash : String → Nat)
    (m : DSV (Vec × Heap V) K2) (h : Heap String) (a : Ideal (String ⊕ K2) V) (r : ReachedS N i1 i2 hash m h a)
    (k1 : String) (k2 : K2) (x : V) (hk1 : ∀ e ∈ a.entries, .inl k1 ∉ e.keys) (hk2 : ∀ e ∈ a.entries, .inr k2 ∉ e.keys)
    (op : Op K2 V)
    (hop : op ∈ [.insert (some k1) (some k2) x, .insert (some k1) none x, .insert none (some k2) x, .insert none none x,
      .insertOrAssign k1 k2 x, .insertOrAssignOne (.inl k1) x, .insertOrAssignOne (.inr k2) x]) :
    ∃ m', execFault (stableEnv N i1 i2 hash) (stableFaults N V) m h op (.base (.storage .element)) = some (true, m', h) ∧
      exec (stableEnv N i1 i2 hash) m' h .clear = none ∧ Vec.freeAll N m'.data.1 m'.data.2 = none ∧
      exec (stableEnv N i1 i2 hash) m' h .back = none ∧
      exec (stableEnv N i1 i2 hash) m' h .size = some (m', h, .num a.entries.length) ∧
      (a.entries ≠ [] → exec (stableEnv N i1 i2 hash) m' h .apply = none) := by
  have v := r.inv (L := stableLawful N V) (stableFailing N V) (stableStarts N V)
  obtain ⟨_, _, f1⟩ := v.unknown1 hk1
  obtain ⟨_, f2⟩ := v.unknown2 hk2
  obtain ⟨s', e, h1, h2, h3, h4, h5⟩ := stable_element v.base.rep x
  have e : (stableFaults N V).push m.data x .element = some (true, s') := e
  refine ⟨{ m with data := s' }, ?_, ?_, h2, ?_, ?_, ?_⟩
  · simp only [List.mem_cons, List.not_mem_nil, or_false] at hop
    rcases hop with rfl | rfl | rfl | rfl | rfl | rfl | rfl <;>
      simp [execFault, DSV.insertFault, DSV.insert1Fault, DSV.insert2Fault, DSV.insertNoKeyFault, DSV.addFault,
        DSV.addFirstFault, DSV.addSecondFault, DSV.insertOrAssignFault, DSV.insertOrAssign1Fault, DSV.insertOrAssign2Fault,
        f1, f2, e]
  · simp only [exec, DSV.clear, stableEnv, h1, Option.map_none]
  · simp only [exec, DSV.back, stableEnv, h3, Option.map_none]
  · simp only [exec, DSV.size, stableEnv, h4, List.length_map]
  · intro hne
    simp only [exec, DSV.apply, stableEnv, h5 (by simpa using hne), Option.map_none]

/-- The hypotheses of the violations are met, for example, after `demo2`. -/
example : ∃ m h a, ReachedS (V := Nat) 1 MapImpl.atEnd MapImpl.atFront (fun _ => 0) m h a ∧
    (∀ e ∈ a.entries, .inl "d" ∉ e.keys) ∧ (∀ e ∈ a.entries, .inr 4 ∉ e.keys) ∧ (∃ e ∈ a.entries, .inl "x" ∈ e.keys) ∧
    a.entries ≠ [] := by
  obtain ⟨m, h, _, R⟩ := after_failures_stable_partial (V := Nat) 1 MapImpl.atEnd MapImpl.atFront (fun _ => 0) _ _ _ .start demo2
    ⟨[⟨10, [.inr 1, .inl "a"]⟩, ⟨20, [.inl "x", .inr 2, .inl "b"]⟩, ⟨30, [.inr 3, .inl "c"]⟩], 64⟩
    [.index (some 0), .index (some 1), .index (some 2), .bool true] (by decide) (by decide)
  exact ⟨m, h, _, R, by simp, by simp, by simp, by simp⟩

/-! ## C100: removals that throw -/

/-- `removeIndex`, DualStringMappedVector.hpp:307-344, when `ind2.push_back(searchterm.first)` in round `n` of the second
loop throws (its memory, or the copy of the second term) and `ind1`, `ind2` are destroyed; otherwise an ordinary call.  In
the first loop nothing can throw: copying a `string_view` is `noexcept` and so is `push_back` then (StableBlockVector.hpp:144),
a failing allocation ends the program; so is the second, unless copying a second term can throw.  That `ind1` can be
destroyed is not modelled. -/
def DSV.removeIndexFault {S : Type} (E : Env S K2 V) (m : DSV S K2) (h : Heap String) (index n : Nat)
    (f : Block.Vector.Fault) : Option (Bool × DSV S K2) :=
  match m.lookup2[n]? with
  | some e =>
    if index < E.st.size m.data ∧ e.2 = index then
      (E.st.erase m.data index).bind fun r =>
      ((Dual.collect r.2 index (m.lookup2.take n)).2.foldlM (stableStore E.order K2).push (stableStore E.order K2).empty).bind
        fun ind2 =>
      ((stableFaults E.order K2).push ind2 e.1 f).bind fun q =>
      if q.1 then
        (Vec.freeAll E.order q.2.1 q.2.2).map fun _ =>
          (true, { m with data := r.1, lookup1 := lowered r.2 index m.lookup1.length m.lookup1,
                          lookup2 := lowered r.2 index n m.lookup2 })
      else (m.removeIndex E h index).map fun m => (false, m)
    else (m.removeIndex E h index).map fun m => (false, m)
  | none => (m.removeIndex E h index).map fun m => (false, m)

/-- C100 as far as it holds: if the element is not the last one and the call lets the exception through, it had no effect.
(With stable storage; with vector storage removals do not compile.) -/
theorem remove_throw_partial (N : Nat) (i1 : MapImpl View) (i2 : MapImpl K2) (hash : String → Nat)
    (m m' : DSV (Vec × Heap V) K2) (h : Heap String) (a : Ideal (String ⊕ K2) V) (r : ReachedS N i1 i2 hash m h a)
    (i n : Nat) (f : Block.Vector.Fault) (hi : i + 1 < a.entries.length)
    (ht : m.removeIndexFault (stableEnv N i1 i2 hash) h i n f = some (true, m')) : m' = m := by
  have v := r.inv (L := stableLawful N V) (stableFailing N V) (stableStarts N V)
  have hs : m.data.1.size = a.entries.length := v.base.size_eq
  have he : (stableEnv (V := V) N i1 i2 hash).st.erase m.data i = some (m.data, false) := by
    simp only [stableEnv, stableStore, hs]
    rw [if_neg (by omega)]
  simp only [DSV.removeIndexFault] at ht
  split at ht
  · split at ht
    · simp only [he, Option.bind_some, lowered_false, Option.bind_eq_some_iff] at ht
      obtain ⟨_, _, _, _, ht⟩ := ht
      split at ht
      · obtain ⟨_, _, h3⟩ := Option.map_eq_some_iff.1 ht
        cases h3; rfl
      · simp at ht
    · simp at ht
  · simp at ht

/-- the position of the first term with index `i` -/
theorem first_position {K : Type} [DecidableEq K] {m : FMap K} {k : K} {i : Nat} (h : FMap.find m k = some i) :
    ∃ n e, m[n]? = some e ∧ e.2 = i ∧ ∀ er, (Dual.collect er i (m.take n)).2 = [] := by
  obtain ⟨n, hn⟩ := position h
  clear h
  induction m generalizing n with
  | nil => simp at hn
  | cons e m ih =>
    by_cases he : e.2 = i
    · exact ⟨0, e, rfl, he, fun _ => rfl⟩
    · cases n with
      | zero => simp at hn; exact absurd hn he
      | succ n =>
        obtain ⟨n', e', h1, h2, h3⟩ := ih n (by simpa using hn)
        refine ⟨n' + 1, e', by simpa using h1, h2, fun er => ?_⟩
        rw [List.take_succ_cons, Dual.collect]
        split
        · exact h3 er
        · exact h3 er

/-- C100 fails: if the copy of a second term throws, whichever of the element's, the call is undefined, in every state. -/
theorem remove_copy_violation (N : Nat) (i1 : MapImpl View) (i2 : MapImpl K2) (hash : String → Nat)
    (m : DSV (Vec × Heap V) K2) (h : Heap String) (a : Ideal (String ⊕ K2) V) (r : ReachedS N i1 i2 hash m h a)
    (i : Nat) (x : V) (ks : List (String ⊕ K2)) (k : K2) (he : a.entries[i]? = some ⟨x, ks⟩) (hk : .inr k ∈ ks) :
    ∃ n j, m.lookup2[n]? = some (k, j) ∧ m.removeIndexFault (stableEnv N i1 i2 hash) h i n .element = none := by
  have v := r.inv (L := stableLawful N V) (stableFailing N V) (stableStarts N V)
  have hlk : a.lookup (.inr k) = some i := (Dual.lookup_iff v.base _ _).2 ⟨_, he, hk⟩
  have hlt := lookup_lt v.base hlk
  rw [lookup_inr v.base] at hlk
  have hlk : FMap.find m.lookup2 k = some i := hlk
  have hm : (k, i) ∈ m.lookup2 := (FMap.find_eq_some (Dual.join_wf.1 v.base.binds.wf).2).1 hlk
  obtain ⟨n, hn⟩ := List.mem_iff_getElem?.1 hm
  refine ⟨n, i, hn, ?_⟩
  have hsz : i < (stableEnv (V := V) N i1 i2 hash).st.size m.data := by
    rw [show (stableEnv (V := V) N i1 i2 hash).st.size m.data = a.entries.length from v.base.size_eq]; exact hlt
  simp only [DSV.removeIndexFault, hn]
  rw [if_pos ⟨hsz, trivial⟩]
  cases hE : (stableEnv (V := V) N i1 i2 hash).st.erase m.data i with
  | none => rfl
  | some q =>
    obtain ⟨s, e1, rep⟩ := fold_push N (Dual.collect q.2 i (m.lookup2.take n)).2 [] _ 0 (stableStarts N K2).start rfl
    obtain ⟨s', e2, _, e3, _⟩ := stable_element rep k
    simp only [Option.bind_some, stableEnv, e1, e2, e3, Option.map_none, if_true]

/-- C100 fails likewise if there is no memory for the first term. -/
theorem remove_memory_violation (N : Nat) (i1 : MapImpl View) (i2 : MapImpl K2) (hash : String → Nat)
    (m : DSV (Vec × Heap V) K2) (h : Heap String) (a : Ideal (String ⊕ K2) V) (r : ReachedS N i1 i2 hash m h a)
    (i : Nat) (x : V) (ks : List (String ⊕ K2)) (k : K2) (he : a.entries[i]? = some ⟨x, ks⟩) (hk : .inr k ∈ ks) :
    ∃ n, m.removeIndexFault (stableEnv N i1 i2 hash) h i n .block = none := by
  have v := r.inv (L := stableLawful N V) (stableFailing N V) (stableStarts N V)
  have hlk : a.lookup (.inr k) = some i := (Dual.lookup_iff v.base _ _).2 ⟨_, he, hk⟩
  have hlt := lookup_lt v.base hlk
  rw [lookup_inr v.base] at hlk
  have hlk : FMap.find m.lookup2 k = some i := hlk
  obtain ⟨n, e, hn, rfl, hc⟩ := first_position hlk
  refine ⟨n, ?_⟩
  have hsz : e.2 < (stableEnv (V := V) N i1 i2 hash).st.size m.data := by
    rw [show (stableEnv (V := V) N i1 i2 hash).st.size m.data = a.entries.length from v.base.size_eq]; exact hlt
  simp only [DSV.removeIndexFault, hn]
  rw [if_pos ⟨hsz, trivial⟩]
  cases hE : (stableEnv (V := V) N i1 i2 hash).st.erase m.data e.2 with
  | none => rfl
  | some q =>
    obtain ⟨n1, hn1⟩ : ∃ n, Vec.blockSize N = n + 1 := ⟨Vec.blockSize N - 1, by have := Vec.blockSize_pos N; omega⟩
    simp [hc, stableEnv, stableStore, stableFaults, Vec.pushFault, Vec.default, Vec.growSlots, Vec.freeAll, hn1,
      Vec.destroyDown, Block.slotGet]

/-- C100 fails for the last element in every state: if there is no memory for its terms, `removeIndex(i)` throws and the
element is gone, but its terms are not: they find the next element that is inserted, whatever it is. -/
theorem remove_last_violation (N : Nat) (i1 : MapImpl View) (i2 : MapImpl K2) (hash : String → Nat)
    (m : DSV (Vec × Heap V) K2) (h : Heap String) (a : Ideal (String ⊕ K2) V) (r : ReachedS N i1 i2 hash m h a)
    (i : Nat) (x : V) (ks : List (String ⊕ K2)) (k : K2) (he : a.entries[i]? = some ⟨x, ks⟩) (hk : .inr k ∈ ks)
    (hi : i + 1 = a.entries.length) :
    ∃ n m', m.removeIndexFault (stableEnv N i1 i2 hash) h i n .array = some (true, m') ∧
      m'.size (stableEnv (V := V) N i1 i2 hash) = i ∧
      ∀ y, ∃ m'', exec (stableEnv N i1 i2 hash) m' h (.insert none none y) = some (m'', h, .index (some i)) ∧
        ∀ k' ∈ ks, Finds (stableEnv N i1 i2 hash) m'' h k' y := by
  have v := r.inv (L := stableLawful N V) (stableFailing N V) (stableStarts N V)
  have hlk : a.lookup (.inr k) = some i := (Dual.lookup_iff v.base _ _).2 ⟨_, he, hk⟩
  have hlt := lookup_lt v.base hlk
  rw [lookup_inr v.base] at hlk
  have hlk : FMap.find m.lookup2 k = some i := hlk
  obtain ⟨n, e, hn, rfl, hc⟩ := first_position hlk
  have hsz : e.2 < (stableEnv (V := V) N i1 i2 hash).st.size m.data := by
    rw [show (stableEnv (V := V) N i1 i2 hash).st.size m.data = a.entries.length from v.base.size_eq]; exact hlt
  obtain ⟨s, e1, rep, _⟩ := (stableLawful N V).erase (show e.2 < (a.entries.map (·.value)).length by simpa using hlt) v.base.rep
  have e1 : (stableEnv (V := V) N i1 i2 hash).st.erase m.data e.2 = some (s, true) := by
    refine e1.trans ?_
    simp only [List.length_map]
    rw [decide_eq_true (by omega)]; rfl
  have hks : (Kind.erase (.stable N) (a.entries.map (·.value)) e.2).length = e.2 := by
    have h1 : e.2 = (a.entries.map (·.value)).length - 1 := by simp; omega
    rw [Kind.erase, if_pos (show (Kind.stable N).isStable = true from rfl), if_pos h1, List.length_dropLast, ← h1]
  have hnd : ∀ w ∈ m.lookup1, w.2 ≤ e.2 := by
    intro w hw
    have h1 : FMap.find (strings N h m.lookup1) (nameOf N h w.1) = some w.2 := by
      have w1 : FMap.WF (strings N h m.lookup1) := (Dual.join_wf.1 v.base.binds.wf).1
      rw [FMap.find_eq_some w1]
      exact List.mem_map.2 ⟨w, hw, rfl⟩
    have h2 := lookup_lt v.base (k := .inl (nameOf N h w.1)) ((lookup_inl v.base _).trans h1)
    omega
  have hl1 : lowered true e.2 m.lookup1.length m.lookup1 = m.lookup1 := by
    rw [lowered, List.take_length, List.drop_length, List.append_nil]
    conv => rhs; rw [← List.map_id m.lookup1]
    apply List.map_congr_left
    intro w hw
    have := hnd w hw
    rw [if_neg (by omega)]; rfl
  have hnul : m.removeIndexFault (stableEnv N i1 i2 hash) h e.2 n .array =
      some (true, { m with data := s, lookup2 := lowered true e.2 n m.lookup2 }) := by
    simp only [DSV.removeIndexFault, hn]
    rw [if_pos ⟨hsz, trivial⟩, e1]
    simp [hc, stableEnv, stableStore, stableFaults, Vec.pushFault, Vec.default, Vec.freeAll, hl1]
  refine ⟨n, _, hnul, ?_, ?_⟩
  · exact ((stableLawful N V).size rep).trans hks
  · intro y
    obtain ⟨d, ed, rd, _⟩ := (stableLawful N V).push y rep
    have hsz2 : (stableStore N V).size s = e.2 := ((stableLawful N V).size rep).trans hks
    refine ⟨{ m with data := d, lookup2 := lowered true e.2 n m.lookup2 }, ?_, ?_⟩
    · have ed : (stableEnv (V := V) N i1 i2 hash).st.push s y = some d := ed
      simp only [exec, DSV.insertNoKey, ed, Option.map_some]
      rw [show (stableEnv (V := V) N i1 i2 hash).st.size s = e.2 from hsz2]
    · intro k' hk'
      have hlk' : a.lookup k' = some e.2 := (Dual.lookup_iff v.base _ _).2 ⟨_, he, hk'⟩
      have hit : (stableEnv (V := V) N i1 i2 hash).st.iterAt d e.2 = some (some y) := by
        have hlt : e.2 < (Kind.erase (.stable N) (a.entries.map (·.value)) e.2 ++ [y]).length := by
          rw [List.length_append, hks]; simp
        have := (stableLawful N V).iterAt hlt rd
        rw [List.getElem_append_right (by omega)] at this
        simpa [stableEnv] using this
      cases k' with
      | inl k' =>
        have h1 := (lookup_inl v.base k').symm.trans hlk'
        have h1 : FMap.find (strings N h m.lookup1) k' = some e.2 := h1
        rw [find_strings] at h1
        obtain ⟨w, hw, hw2⟩ := Option.map_eq_some_iff.1 h1
        have hw : (m.lookup1.find? fun e => decide (nameOf (stableEnv (K2 := K2) (V := V) N i1 i2 hash).order h e.1 = k')) =
          some w := hw
        simp only [Finds, exec, DSV.find1, SRepC.find_eq v.ok, hw, Option.bind_some, hw2, hit, Option.map_some]
      | inr k' =>
        have h1 := (lookup_inr v.base k').symm.trans hlk'
        have h1 : FMap.find m.lookup2 k' = some e.2 := h1
        have h2 := find_lowered true e.2 n m.lookup2 k' e.2 (Nat.le_refl _) h1
        simp only [Finds, exec, DSV.find2, h2, hit, Option.map_some]

/-- The hypotheses hold, for example, for the second and for the last element after `demo2`. -/
example : ∃ m h a, ReachedS (V := Nat) 1 MapImpl.atEnd MapImpl.atFront (fun _ => 0) m h a ∧
    a.entries[1]? = some ⟨20, [.inl "x", .inr 2, .inl "b"]⟩ ∧ a.entries[2]? = some ⟨30, [.inr 3, .inl "c"]⟩ ∧
    a.entries.length = 3 := by
  obtain ⟨m, h, _, R⟩ := after_failures_stable_partial (V := Nat) 1 MapImpl.atEnd MapImpl.atFront (fun _ => 0) _ _ _ .start demo2
    ⟨[⟨10, [.inr 1, .inl "a"]⟩, ⟨20, [.inl "x", .inr 2, .inl "b"]⟩, ⟨30, [.inr 3, .inl "c"]⟩], 64⟩
    [.index (some 0), .index (some 1), .index (some 2), .bool true] (by decide) (by decide)
  exact ⟨m, h, _, R, rfl, rfl, rfl⟩
/-- The removal of the second element throws and has no effect. -/
example :
    let E := stableEnv (K2 := Nat) (V := Nat) 1 MapImpl.atEnd MapImpl.atFront (fun _ => 0)
    ((run E (DSV.init E) Heap.empty demo2).bind fun r =>
      (r.1.removeIndexFault E r.2.1 1 1 .array).bind fun s =>
      (run E s.2 r.2.1 [.find (.inl "x"), .find (.inr 2), .size]).map fun w => (s.1, w.2.2)) =
    some (true, [.found (some 20), .found (some 20), .num 3]) := by decide +kernel

end Verif.Mapped.DualStr
