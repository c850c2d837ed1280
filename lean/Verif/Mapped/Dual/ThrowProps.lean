import Verif.Mapped.Dual.Throw
import Verif.Mapped.Dual.Props

/-
C88, C89: exceptions inside calls of a DualMappedVector.
-/
namespace Verif.Mapped.Dual
open Verif.Mapped Verif.Block
open Verif.Mapped.Vector (Obs Ideal Entry interrupted)

/-- States a program can reach if any call may throw, at any point at which the storage tolerates it (`tolerated`), and
goes on; `a` is what the container should hold: calls that throw leave what `left` says. -/
inductive Reached {S K1 K2 V : Type} [DecidableEq K1] [DecidableEq K2] (E : Env S K1 K2 V) (flt : Faults S V) (kind : Kind) :
    DMV S K1 K2 → Ideal (K1 ⊕ K2) V → Prop where
  | start : Reached E flt kind (DMV.init E) empty
  | call {m m' a a' op o} (h : Reached E flt kind m a) (hc : careful kind a op = true)
      (hi : ideal kind a op = some (a', o)) (he : exec E m op = some (m', o)) : Reached E flt kind m' a'
  | threw {m m' a a' op o f} (h : Reached E flt kind m a) (hc : careful kind a op = true)
      (hi : ideal kind a op = some (a', o)) (hf : tolerated kind a f = true)
      (he : execFault E flt m op f = some (true, m')) : Reached E flt kind m' (left kind a op f)

section
variable {S K1 K2 V : Type} [DecidableEq K1] [DecidableEq K2] {E : Env S K1 K2 V} {flt : Faults S V} {kind : Kind}

theorem Reached.inv {L : Lawful E.st kind} (Q : L.Failing flt) (Z : L.Starts) {m : DMV S K1 K2} {a : Ideal (K1 ⊕ K2) V}
    (h : Reached E flt kind m a) : Inv L m a := by
  induction h with
  | start => exact init_inv Z
  | call _ hc hi he v =>
    obtain ⟨m1, e1, v1, _⟩ := step v hc hi
    rw [he] at e1; cases e1
    exact v1
  | threw _ hc hi hf he v =>
    rcases fails Q v hc hi hf with ⟨m1, e1, v1, _⟩ | ⟨m1, e1, _⟩
    · rw [he] at e1; cases e1
      exact v1
    · rw [he] at e1; cases e1

theorem Reached.fail {L : Lawful E.st kind} (Q : L.Failing flt) (Z : L.Starts) {m : DMV S K1 K2} {a : Ideal (K1 ⊕ K2) V}
    (h : Reached E flt kind m a) {op : Op K1 K2 V} {f : Fault V} (hc : careful kind a op = true) {a' : Ideal (K1 ⊕ K2) V}
    {o : Obs V} (hi : ideal kind a op = some (a', o)) (hf : tolerated kind a f = true) :
    (∃ m', execFault E flt m op f = some (false, m') ∧ exec E m op = some (m', o)) ∨
    (∃ m', execFault E flt m op f = some (true, m') ∧ Reached E flt kind m' (left kind a op f) ∧
      ∀ i, i < a.entries.length → E.st.addr m'.data i = E.st.addr m.data i) := by
  rcases fails Q (h.inv Q Z) hc hi hf with ⟨m1, e1, _, ad⟩ | h1
  · exact .inr ⟨m1, e1, .threw h hc hi hf e1, ad⟩
  · exact .inl h1

theorem Reached.runs {L : Lawful E.st kind} (Q : L.Failing flt) (Z : L.Starts) (ops : List (Op K1 K2 V))
    {m : DMV S K1 K2} {a : Ideal (K1 ⊕ K2) V} (h : Reached E flt kind m a) {a' os}
    (hi : idealRun kind a ops = some (a', os)) (hc : carefulRun kind a ops = true) :
    ∃ m', run E m ops = some (m', os) ∧ Reached E flt kind m' a' := by
  induction ops generalizing m a os with
  | nil => cases hi; exact ⟨m, rfl, h⟩
  | cons op ops ih =>
    simp only [idealRun, Option.bind_eq_some_iff, Option.map_eq_some_iff] at hi
    obtain ⟨⟨a1, o⟩, h1, ⟨a2, os2⟩, h2, h3⟩ := hi
    cases h3
    simp only [carefulRun, h1, Bool.and_eq_true] at hc
    obtain ⟨m1, e1, _⟩ := step (h.inv Q Z) hc.1 h1
    obtain ⟨m2, e2, R⟩ := ih (.call h hc.1 h1 e1) h2 hc.2
    exact ⟨m2, by simp only [run, e1, Option.bind_some, e2, Option.map_some], R⟩

end

variable {K1 K2 V : Type} [DecidableEq K1] [DecidableEq K2]

/-- reachable with vector storage -/
abbrev ReachedU (i1 : MapImpl K1) (i2 : MapImpl K2) : DMV (List V) K1 K2 → Ideal (K1 ⊕ K2) V → Prop :=
  Reached (unstableEnv i1 i2) (vectorFaults V) .unstable

/-- reachable with stable storage -/
abbrev ReachedS (N : Nat) (i1 : MapImpl K1) (i2 : MapImpl K2) :
    DMV (Verif.Block.Vector.Vec × Heap V) K1 K2 → Ideal (K1 ⊕ K2) V → Prop :=
  Reached (stableEnv N i1 i2) (stableFaults N V) (.stable N)

/-! ## C89: the container can be used after an exception -/

/-- C89, vector storage: whatever throws in whatever call, either the call did not get to it and is an ordinary one, or
the container then holds what `left` says. -/
theorem failure_unstable (i1 : MapImpl K1) (i2 : MapImpl K2) (m : DMV (List V) K1 K2) (a : Ideal (K1 ⊕ K2) V)
    (h : ReachedU i1 i2 m a) (op : Op K1 K2 V) (f : Fault V) (a' : Ideal (K1 ⊕ K2) V)
    (o : Obs V) (hi : ideal .unstable a op = some (a', o)) (hf : tolerated .unstable a f = true) :
    (∃ m', execFault (unstableEnv i1 i2) (vectorFaults V) m op f = some (false, m') ∧
      exec (unstableEnv i1 i2) m op = some (m', o)) ∨
    (∃ m', execFault (unstableEnv i1 i2) (vectorFaults V) m op f = some (true, m') ∧
      ReachedU i1 i2 m' (left .unstable a op f)) := by
  have hc : careful .unstable a op = true := by cases op <;> simp [careful, Kind.iterable]
  rcases h.fail (L := vectorLawful V) (vectorFailing V) (vectorStarts V) hc hi hf with h1 | ⟨m', h1, h2, _⟩
  · exact .inl h1
  · exact .inr ⟨m', h1, h2⟩

/-- The same for stable storage, where moreover all elements stay where they are.  Missing: failures the storage does not
survive (`tolerated`), see `element_throw_violation`. -/
theorem failure_stable_partial (N : Nat) (i1 : MapImpl K1) (i2 : MapImpl K2)
    (m : DMV (Verif.Block.Vector.Vec × Heap V) K1 K2) (a : Ideal (K1 ⊕ K2) V)
    (h : ReachedS N i1 i2 m a) (op : Op K1 K2 V) (f : Fault V) (hc : careful (.stable N) a op = true)
    (a' : Ideal (K1 ⊕ K2) V) (o : Obs V) (hi : ideal (.stable N) a op = some (a', o))
    (hf : tolerated (.stable N) a f = true) :
    (∃ m', execFault (stableEnv N i1 i2) (stableFaults N V) m op f = some (false, m') ∧
      exec (stableEnv N i1 i2) m op = some (m', o)) ∨
    (∃ m', execFault (stableEnv N i1 i2) (stableFaults N V) m op f = some (true, m') ∧
      ReachedS N i1 i2 m' (left (.stable N) a op f) ∧
      ∀ i, i < a.entries.length → (stableStore N V).addr m'.data i = (stableStore N V).addr m.data i) :=
  h.fail (L := stableLawful N V) (stableFailing N V) (stableStarts N V) hc hi hf

/-- C89: after any number of exceptions every program goes on as the specification says, vector storage. -/
theorem after_failures_unstable (i1 : MapImpl K1) (i2 : MapImpl K2) (m : DMV (List V) K1 K2) (a : Ideal (K1 ⊕ K2) V)
    (h : ReachedU i1 i2 m a) (ops : List (Op K1 K2 V)) (a' : Ideal (K1 ⊕ K2) V) (os : List (Obs V))
    (hi : idealRun .unstable a ops = some (a', os)) :
    ∃ m', run (unstableEnv i1 i2) m ops = some (m', os) ∧ ReachedU i1 i2 m' a' :=
  h.runs (L := vectorLawful V) (vectorFailing V) (vectorStarts V) ops hi (careful_unstable ops _ _ _ hi)

/-- The same for stable storage and careful programs. -/
theorem after_failures_stable_partial (N : Nat) (i1 : MapImpl K1) (i2 : MapImpl K2)
    (m : DMV (Verif.Block.Vector.Vec × Heap V) K1 K2) (a : Ideal (K1 ⊕ K2) V)
    (h : ReachedS N i1 i2 m a) (ops : List (Op K1 K2 V)) (a' : Ideal (K1 ⊕ K2) V) (os : List (Obs V))
    (hi : idealRun (.stable N) a ops = some (a', os)) (hc : carefulRun (.stable N) a ops = true) :
    ∃ m', run (stableEnv N i1 i2) m ops = some (m', os) ∧ ReachedS N i1 i2 m' a' :=
  h.runs (L := stableLawful N V) (stableFailing N V) (stableStarts N V) ops hi hc

/-- `modify` throws for the second element and leaves 0; `insert_or_assign` replaces the value of key 1 but cannot store
the second key 8; an insertion cannot store its second key; one cannot store its first. -/
example :
    let E := unstableEnv (K1 := Nat) (K2 := Nat) (V := Nat) MapImpl.atEnd MapImpl.atFront
    ((run E (DMV.init E) demo2).bind fun r =>
      (execFault E (vectorFaults Nat) r.1 (.modify (· + 5)) (.visitor 1 0)).bind fun s =>
      (execFault E (vectorFaults Nat) s.2 (.insertOrAssign 1 8 99) .map2).bind fun t =>
      (execFault E (vectorFaults Nat) t.2 (.insert (some 4) (some 4) 40) .map2).bind fun u =>
      (execFault E (vectorFaults Nat) u.2 (.insert (some 5) (some 5) 50) .map1).bind fun x =>
      (run E x.2 [.apply, .find (.inl 1), .find (.inr 8), .find (.inl 4), .find (.inr 4), .find (.inl 5),
        .insert (some 5) (some 5) 51, .find (.inr 5)]).map fun w => ([s.1, t.1, u.1, x.1], w.2)) =
    some ([true, true, true, true], [.vals [99, 0, 30, 40, 50], .found (some 99), .found none, .found (some 40), .found none,
      .found none, .index (some 5), .found (some 51)]) := by decide
example :
    let E := stableEnv (K1 := Nat) (K2 := Nat) (V := Nat) 1 MapImpl.atEnd MapImpl.atFront
    ((run E (DMV.init E) demo2).bind fun r =>
      (execFault E (stableFaults 1 Nat) r.1 (.transform (· + 5)) (.visitor 2 0)).bind fun s =>
      (execFault E (stableFaults 1 Nat) s.2 (.insert none (some 4) 40) .map2).bind fun u =>
      (execFault E (stableFaults 1 Nat) u.2 (.insert (some 5) none 9) (.storage .block)).bind fun t =>
      (run E t.2 [.apply, .find (.inr 4), .find (.inl 5), .insert (some 5) none 9, .find (.inl 5)]).map fun w =>
        (s.1, u.1, t.1, w.2)) =
    some (true, true, true, [.vals [15, 25, 0, 40], .found none, .found none, .index (some 4), .found (some 9)]) := by
  decide

/-! ## C88: calls that throw have no effect -/

/-- C88, as far as it holds: if what throws is `emplace_back` or the construction of the value to be assigned, or storing a
search term in one of the calls that only add a search term, the container holds what it held, so that by
`after_failures_unstable` and `after_failures_stable_partial` every later call returns what it would have returned
(`reserved` influences no result). -/
theorem no_effect_partial (kind : Kind) (a : Ideal (K1 ⊕ K2) V) (op : Op K1 K2 V) (f : Fault V)
    (hf : (∃ g, f = .storage g) ∨ f = .value ∨
      (((∃ k i, op = .addTermForIndex k i) ∨ ∃ k e, op = .addTerm k e) ∧ (f = .map1 ∨ f = .map2))) :
    (left kind a op f).entries = a.entries := by
  rcases hf with ⟨g, rfl⟩ | rfl | ⟨⟨k, i, rfl⟩ | ⟨k, i, rfl⟩, rfl | rfl⟩
  · cases op <;> rfl
  · cases op <;> rfl
  all_goals rfl

theorem carefulRun_some (kind : Kind) (ops : List (Op K1 K2 V)) (a : Ideal (K1 ⊕ K2) V)
    (h : carefulRun kind a ops = true) : ∃ a' os, idealRun kind a ops = some (a', os) := by
  induction ops generalizing a with
  | nil => exact ⟨a, [], rfl⟩
  | cons op ops ih =>
    simp only [carefulRun, Bool.and_eq_true] at h
    cases h1 : ideal kind a op with
    | none => rw [h1] at h; exact absurd h.2 (by simp)
    | some q =>
      rw [h1] at h
      obtain ⟨a2, os, e⟩ := ih q.1 h.2
      exact ⟨a2, q.2 :: os, by simp only [idealRun, h1, e, Option.bind_some, Option.map_some]⟩

/-- C88, as far as it holds, as the client sees it: such a call leaves a container on which every later program returns what it
would have returned without the call, as long as the program makes no calls the code does not handle (`careful`: it
depends on how much memory has been reserved, therefore it is required for both). -/
theorem no_effect_runs_partial {S : Type} (E : Env S K1 K2 V) (kind : Kind) (L : Lawful E.st kind) (flt : Faults S V)
    (Q : L.Failing flt) (Z : L.Starts) (m m' : DMV S K1 K2) (a : Ideal (K1 ⊕ K2) V) (r : Reached E flt kind m a)
    (op : Op K1 K2 V) (f : Fault V) (hc : careful kind a op = true) (a' : Ideal (K1 ⊕ K2) V) (o : Vector.Obs V)
    (hi : ideal kind a op = some (a', o)) (hf : tolerated kind a f = true)
    (hl : (∃ g, f = .storage g) ∨ f = .value ∨
      (((∃ k i, op = .addTermForIndex k i) ∨ ∃ k e, op = .addTerm k e) ∧ (f = .map1 ∨ f = .map2)))
    (he : execFault E flt m op f = some (true, m')) :
    ∃ b, Reached E flt kind m' b ∧ b.entries = a.entries ∧
      ∀ ops, carefulRun kind a ops = true → carefulRun kind b ops = true →
        (run E m' ops).map (·.2) = (run E m ops).map (·.2) := by
  have hn := no_effect_partial kind a op f hl
  have R : Reached E flt kind m' (left kind a op f) := .threw r hc hi hf he
  refine ⟨_, R, hn, fun ops h1 h2 => ?_⟩
  obtain ⟨a1, os1, e1⟩ := carefulRun_some kind ops a h1
  obtain ⟨a2, os2, e2⟩ := carefulRun_some kind ops _ h2
  have hs := idealRun_entries kind ops _ _ hn
  obtain ⟨m1, x1, _⟩ := r.runs Q Z ops e1 h1
  obtain ⟨m2, x2, _⟩ := R.runs Q Z ops e2 h2
  rw [x1, x2]
  rw [e1, e2] at hs
  simpa using hs

theorem mem_lookup {a : Ideal (K1 ⊕ K2) V} {k : K1 ⊕ K2} (h : ∀ e ∈ a.entries, k ∉ e.keys) : a.lookup k = none := by
  simp only [Ideal.lookup, List.findIdx?_eq_none_iff, decide_eq_false_iff_not]
  exact h

/-- C88 fails, in every state and for both storages, if the first search term cannot be stored: the call throws, but `x`
has become an element, without search term. -/
theorem map_throw_violation {S : Type} (E : Env S K1 K2 V) (kind : Kind) (L : Lawful E.st kind) (flt : Faults S V)
    (Q : L.Failing flt) (Z : L.Starts) (m : DMV S K1 K2) (a : Ideal (K1 ⊕ K2) V) (h : Reached E flt kind m a)
    (k1 : K1) (k2 : K2) (x : V) (hk1 : ∀ e ∈ a.entries, .inl k1 ∉ e.keys) (hk2 : ∀ e ∈ a.entries, .inr k2 ∉ e.keys)
    (op : Op K1 K2 V) (f : Fault V)
    (hop : (op ∈ [.insert (some k1) (some k2) x, .insert (some k1) none x, .insertOrAssign k1 k2 x,
        .insertOrAssignOne (.inl k1) x] ∧ f = .map1) ∨
      (op ∈ [.insert none (some k2) x, .insertOrAssignOne (.inr k2) x] ∧ f = .map2)) :
    ∃ m', execFault E flt m op f = some (true, m') ∧ Reached E flt kind m' (a.append kind x []) ∧
      m'.size E = a.entries.length + 1 ∧ m'.get E a.entries.length = some x := by
  have v := h.inv Q Z
  have l1 := mem_lookup hk1
  have l2 := mem_lookup hk2
  have f1 := l1; rw [lookup_inl v] at f1
  have f2 := l2; rw [lookup_inr v] at f2
  obtain ⟨d, ed, -⟩ := push_inv v x
  have hleft : left kind a op f = a.append kind x [] := by
    simp only [List.mem_cons, List.not_mem_nil, or_false] at hop
    rcases hop with ⟨rfl | rfl | rfl | rfl, rfl⟩ | ⟨rfl | rfl, rfl⟩ <;> rfl
  have hth : execFault E flt m op f = some (true, { m with data := d }) := by
    simp only [List.mem_cons, List.not_mem_nil, or_false] at hop
    rcases hop with ⟨rfl | rfl | rfl | rfl, rfl⟩ | ⟨rfl | rfl, rfl⟩ <;>
      simp [execFault, DMV.insertFault, DMV.insert1Fault, DMV.insert2Fault, DMV.insertOrAssignFault,
        DMV.insertOrAssign1Fault, DMV.insertOrAssign2Fault, f1, f2, ed]
  have hok : ∃ r, ideal kind a op = some r ∧ careful kind a op = true := by
    simp only [List.mem_cons, List.not_mem_nil, or_false] at hop
    rcases hop with ⟨rfl | rfl | rfl | rfl, rfl⟩ | ⟨rfl | rfl, rfl⟩ <;>
      simp [ideal, careful, l1, l2]
  obtain ⟨⟨a', o⟩, hi, hc⟩ := hok
  have hft : tolerated kind a f = true := by rcases hop with ⟨_, rfl⟩ | ⟨_, rfl⟩ <;> rfl
  have R : Reached E flt kind { m with data := d } (a.append kind x []) := hleft ▸ .threw h hc hi hft hth
  have v1 := R.inv Q Z
  refine ⟨_, hth, R, ?_, ?_⟩
  · rw [size_eq v1]; simp [Ideal.append]
  · rw [get_eq v1 (by simp [Ideal.append])]; simp [Ideal.append]

/-- C88 fails likewise if the second search term cannot be stored: `insert` throws, but `x` has become an element, found
by the first search term only; if that search term was another element's, the other element has lost it. -/
theorem map2_throw_violation {S : Type} (E : Env S K1 K2 V) (kind : Kind) (L : Lawful E.st kind) (flt : Faults S V)
    (Q : L.Failing flt) (Z : L.Starts) (m : DMV S K1 K2) (a : Ideal (K1 ⊕ K2) V) (h : Reached E flt kind m a)
    (k1 : K1) (k2 : K2) (x : V) (hk2 : ∀ e ∈ a.entries, .inr k2 ∉ e.keys) :
    ∃ m', execFault E flt m (.insert (some k1) (some k2) x) .map2 = some (true, m') ∧
      Reached E flt kind m' (attach (a.append kind x []) a.entries.length (.inl k1)) ∧
      m'.size E = a.entries.length + 1 ∧ exec E m' (.find (.inl k1)) = some (m', .found (some x)) ∧
      ¬ ∃ y, exec E m' (.find (.inr k2)) = some (m', .found (some y)) := by
  have v := h.inv Q Z
  have l2 := mem_lookup hk2
  have f2 := l2; rw [lookup_inr v] at f2
  obtain ⟨d, ed, -⟩ := push_inv v x
  have hth : execFault E flt m (.insert (some k1) (some k2) x) .map2 =
      some (true, { m with data := d, lookup1 := FMap.put E.impl1 m.lookup1 k1 (E.st.size m.data) }) := by
    simp [execFault, DMV.insertFault, f2, ed]
  have R : Reached E flt kind { m with data := d, lookup1 := FMap.put E.impl1 m.lookup1 k1 (E.st.size m.data) }
      (attach (a.append kind x []) a.entries.length (.inl k1)) := by
    have hi : ideal kind a (.insert (some k1) (some k2) x) = some (attach (attach (a.append kind x []) a.entries.length
        (.inl k1)) a.entries.length (.inr k2), .index (some a.entries.length)) := by
      simp [ideal, l2]
    exact .threw (f := .map2) h rfl hi rfl hth
  have v1 := R.inv Q Z
  obtain ⟨d1, _, vd, _⟩ := push_inv v x
  have hlt : a.entries.length < (a.append kind x []).entries.length := append_length a x
  refine ⟨_, hth, R, ?_, ?_, ?_⟩
  · rw [size_eq v1, attach_length]; simp [Ideal.append]
  · rw [find_iff v1]
    refine ⟨_, by rw [lookup_attach vd hlt, if_pos rfl], ?_⟩
    rw [attach_value]; simp [Ideal.append]
  · rintro ⟨y, hy⟩
    rw [find_iff v1] at hy
    obtain ⟨i, hi, _⟩ := hy
    rw [lookup_attach vd hlt, if_neg (by simp), lookup_append, l2] at hi
    cases hi

/-- C88 fails likewise for `insert_or_assign` with a first search term in use: it throws, but the value is replaced. -/
theorem assign_throw_violation {S : Type} (E : Env S K1 K2 V) (kind : Kind) (L : Lawful E.st kind) (flt : Faults S V)
    (Q : L.Failing flt) (Z : L.Starts) (m : DMV S K1 K2) (a : Ideal (K1 ⊕ K2) V) (h : Reached E flt kind m a)
    (k1 : K1) (k2 : K2) (x : V) (hk1 : ∃ e ∈ a.entries, .inl k1 ∈ e.keys) (hk2 : ∀ e ∈ a.entries, .inr k2 ∉ e.keys) :
    ∃ m', execFault E flt m (.insertOrAssign k1 k2 x) .map2 = some (true, m') ∧ m'.size E = a.entries.length ∧
      exec E m' (.find (.inl k1)) = some (m', .found (some x)) ∧
      ¬ ∃ y, exec E m' (.find (.inr k2)) = some (m', .found (some y)) := by
  have v := h.inv Q Z
  obtain ⟨e, he, hke⟩ := hk1
  obtain ⟨i, hi⟩ := List.mem_iff_getElem?.1 he
  have l1 : a.lookup (.inl k1) = some i := (lookup_iff v _ _).2 ⟨e, hi, hke⟩
  have f1 := l1; rw [lookup_inl v] at f1
  have l2 := mem_lookup hk2
  have f2 := l2; rw [lookup_inr v] at f2
  have hlt := lookup_lt v l1
  obtain ⟨d, ed, v1, -⟩ := assign_inv v hlt x
  have lk : ∀ k, (assign a i x).lookup k = a.lookup k := fun k => lookup_keys _ _ (assign_keys a i x) k
  refine ⟨{ m with data := d }, by simp [execFault, DMV.insertOrAssignFault, f1, f2, ed], ?_, ?_, ?_⟩
  · rw [size_eq v1]; simp [assign]
  · rw [find_iff v1]
    exact ⟨i, by rw [lk, l1], by simp [assign, List.getElem?_modify, hlt]⟩
  · rintro ⟨y, hy⟩
    rw [find_iff v1] at hy
    obtain ⟨j, hj, _⟩ := hy
    rw [lk, l2] at hj
    cases hj

/-- The hypotheses hold, for example, for new keys 4 and for the key 7 in use, after `demo2`. -/
example : ∃ m a, ReachedU (V := Nat) MapImpl.atEnd MapImpl.atFront m a ∧ (∀ e ∈ a.entries, .inl 4 ∉ e.keys) ∧
    (∀ e ∈ a.entries, .inr 4 ∉ e.keys) ∧ ∃ e ∈ a.entries, .inl 7 ∈ e.keys := by
  obtain ⟨m, _, R⟩ := after_failures_unstable (V := Nat) MapImpl.atEnd MapImpl.atFront _ _ .start demo2
    ⟨[⟨10, [.inr 1, .inl 1]⟩, ⟨20, [.inl 7, .inr 2, .inl 2]⟩, ⟨30, [.inr 3, .inl 3]⟩], 0⟩
    [.index (some 0), .index (some 1), .index (some 2), .bool true] (by decide)
  exact ⟨m, _, R, by simp, by simp, by simp⟩

/-- C88 and C89 fail with stable storage, in every state, if the constructor of the element throws: the container can then
be neither cleared nor destroyed, and `back()` refers to an element that does not exist. -/
theorem element_throw_violation (N : Nat) (i1 : MapImpl K1) (i2 : MapImpl K2)
    (m : DMV (Verif.Block.Vector.Vec × Heap V) K1 K2) (a : Ideal (K1 ⊕ K2) V) (h : ReachedS N i1 i2 m a) (k1 : K1) (k2 : K2)
    (x : V) (hk1 : ∀ e ∈ a.entries, .inl k1 ∉ e.keys) (hk2 : ∀ e ∈ a.entries, .inr k2 ∉ e.keys) (op : Op K1 K2 V)
    (hop : op ∈ [.insert (some k1) (some k2) x, .insert (some k1) none x, .insert none (some k2) x, .insert none none x,
      .insertOrAssign k1 k2 x, .insertOrAssignOne (.inl k1) x, .insertOrAssignOne (.inr k2) x]) :
    ∃ m', execFault (stableEnv N i1 i2) (stableFaults N V) m op (.storage .element) = some (true, m') ∧
      exec (stableEnv N i1 i2) m' .clear = none ∧ Verif.Block.Vector.Vec.freeAll N m'.data.1 m'.data.2 = none ∧
      exec (stableEnv N i1 i2) m' .back = none ∧
      exec (stableEnv N i1 i2) m' .size = some (m', .num a.entries.length) ∧
      (a.entries ≠ [] → exec (stableEnv N i1 i2) m' .apply = none) := by
  have v := h.inv (L := stableLawful N V) (stableFailing N V) (stableStarts N V)
  have f1 := mem_lookup hk1; rw [lookup_inl v] at f1
  have f2 := mem_lookup hk2; rw [lookup_inr v] at f2
  obtain ⟨s', e, h1, h2, h3, h4, h5⟩ := stable_element v.rep x
  simp only at e
  refine ⟨{ m with data := s' }, ?_, ?_, h2, ?_, ?_, ?_⟩
  · simp only [List.mem_cons, List.not_mem_nil, or_false] at hop
    rcases hop with rfl | rfl | rfl | rfl | rfl | rfl | rfl <;>
      simp [execFault, DMV.insertFault, DMV.insert1Fault, DMV.insert2Fault, DMV.insertNoKeyFault,
        DMV.insertOrAssignFault, DMV.insertOrAssign1Fault, DMV.insertOrAssign2Fault, f1, f2, e]
  · simp only [exec, DMV.clear, stableEnv, h1, Option.map_none]
  · simp only [exec, DMV.back, stableEnv, h3, Option.map_none]
  · simp only [exec, DMV.size, stableEnv, h4, List.length_map]
  · intro hne
    simp only [exec, DMV.apply, stableEnv, h5 (by simpa using hne), Option.map_none]

example : ∃ m a, ReachedS (V := Nat) 1 MapImpl.atEnd MapImpl.atFront m a ∧ (∀ e ∈ a.entries, .inl 4 ∉ e.keys) ∧
    (∀ e ∈ a.entries, .inr 4 ∉ e.keys) ∧ a.entries ≠ [] := by
  obtain ⟨m, _, R⟩ := after_failures_stable_partial (V := Nat) 1 MapImpl.atEnd MapImpl.atFront _ _ .start demo2
    ⟨[⟨10, [.inr 1, .inl 1]⟩, ⟨20, [.inl 7, .inr 2, .inl 2]⟩, ⟨30, [.inr 3, .inl 3]⟩], 64⟩
    [.index (some 0), .index (some 1), .index (some 2), .bool true] (by decide) (by decide)
  exact ⟨m, _, R, by simp, by simp, by simp⟩

end Verif.Mapped.Dual
