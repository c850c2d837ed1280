import Verif.Mapped.Vector.Throw
import Verif.Mapped.Vector.Props

/-
C86, C87: exceptions inside calls of a MappedVector.
-/
namespace Verif.Mapped.Vector
open Verif.Mapped Verif.Block

/-- States a program can reach if any call may throw, at any point at which the storage tolerates it (`tolerated`), and
goes on; `a` is what the container should hold: calls that throw leave what `left` says. -/
inductive Reached {S K V : Type} [DecidableEq K] (E : Env S K V) (flt : Faults S V) (kind : Kind) :
    MV S K → Ideal K V → Prop where
  | start : Reached E flt kind (MV.init E) Ideal.empty
  | call {m m' a a' op o} (h : Reached E flt kind m a) (hc : careful kind E.unset a op = true)
      (hi : ideal kind a op = some (a', o)) (he : exec E m op = some (m', o)) : Reached E flt kind m' a'
  | threw {m m' a a' op o f} (h : Reached E flt kind m a) (hc : careful kind E.unset a op = true)
      (hi : ideal kind a op = some (a', o)) (hf : tolerated kind a f = true)
      (he : execFault E flt m op f = some (true, m')) : Reached E flt kind m' (left kind a op f)

section
variable {S K V : Type} [DecidableEq K] {E : Env S K V} {flt : Faults S V} {kind : Kind}

theorem Reached.inv {L : Lawful E.st kind} (Q : L.Failing flt) (Z : L.Starts) {m : MV S K} {a : Ideal K V}
    (h : Reached E flt kind m a) : Inv L m a := by
  induction h with
  | start => exact Inv.init Z
  | call _ hc hi he v =>
    obtain ⟨m1, e1, v1, _⟩ := step v hc hi
    rw [he] at e1; cases e1
    exact v1
  | threw _ hc hi hf he v =>
    rcases fails Q v hc hi hf with ⟨m1, e1, v1, _⟩ | ⟨m1, e1, _⟩
    · rw [he] at e1; cases e1
      exact v1
    · rw [he] at e1; cases e1

theorem Reached.fail {L : Lawful E.st kind} (Q : L.Failing flt) (Z : L.Starts) {m : MV S K} {a : Ideal K V}
    (h : Reached E flt kind m a) {op : Op K V} {f : Fault V} (hc : careful kind E.unset a op = true) {a' : Ideal K V}
    {o : Obs V} (hi : ideal kind a op = some (a', o)) (hf : tolerated kind a f = true) :
    (∃ m', execFault E flt m op f = some (false, m') ∧ exec E m op = some (m', o)) ∨
    (∃ m', execFault E flt m op f = some (true, m') ∧ Reached E flt kind m' (left kind a op f) ∧
      ∀ i, i < a.entries.length → E.st.addr m'.data i = E.st.addr m.data i) := by
  rcases fails Q (h.inv Q Z) hc hi hf with ⟨m1, e1, _, ad⟩ | h1
  · exact .inr ⟨m1, e1, .threw h hc hi hf e1, ad⟩
  · exact .inl h1

theorem Reached.runs {L : Lawful E.st kind} (Q : L.Failing flt) (Z : L.Starts) (ops : List (Op K V)) {m : MV S K}
    {a : Ideal K V} (h : Reached E flt kind m a) {a' os} (hi : idealRun kind a ops = some (a', os))
    (hc : carefulRun kind E.unset a ops = true) : ∃ m', run E m ops = some (m', os) ∧ Reached E flt kind m' a' := by
  induction ops generalizing m a os with
  | nil => cases hi; exact ⟨m, rfl, h⟩
  | cons op ops ih =>
    simp only [idealRun, Option.bind_eq_some_iff, Option.map_eq_some_iff] at hi
    obtain ⟨⟨a1, o⟩, h1, ⟨a2, os2⟩, h2, h3⟩ := hi
    cases h3
    simp only [carefulRun, h1, Bool.and_eq_true] at hc
    obtain ⟨m1, e1, _⟩ := step (h.inv Q Z) hc.1 h1
    obtain ⟨m2, e2, R⟩ := ih (.call h hc.1 h1 e1) h2 hc.2
    exact ⟨m2, by simp only [run, e1, Option.bind_some, e2, Option.map_some], R⟩

end

variable {K V : Type} [DecidableEq K]

/-- reachable with vector storage -/
abbrev ReachedU (impl : MapImpl K) (unset : Option K) : MV (List V) K → Ideal K V → Prop :=
  Reached (unstableEnv impl unset) (vectorFaults V) .unstable

/-- reachable with stable storage -/
abbrev ReachedS (N : Nat) (impl : MapImpl K) (unset : Option K) :
    MV (Verif.Block.Vector.Vec × Heap V) K → Ideal K V → Prop :=
  Reached (stableEnv N impl unset) (stableFaults N V) (.stable N)

/-! ## C87: the container can be used after an exception -/

/-- C87, vector storage: whatever throws in whatever call, either the call did not get to it and is an ordinary one, or
the container then holds what `left` says. -/
theorem failure_unstable (impl : MapImpl K) (unset : Option K) (m : MV (List V) K) (a : Ideal K V)
    (h : ReachedU impl unset m a) (op : Op K V) (f : Fault V) (hc : careful .unstable unset a op = true) (a' : Ideal K V)
    (o : Obs V) (hi : ideal .unstable a op = some (a', o)) (hf : tolerated .unstable a f = true) :
    (∃ m', execFault (unstableEnv impl unset) (vectorFaults V) m op f = some (false, m') ∧
      exec (unstableEnv impl unset) m op = some (m', o)) ∨
    (∃ m', execFault (unstableEnv impl unset) (vectorFaults V) m op f = some (true, m') ∧
      ReachedU impl unset m' (left .unstable a op f)) := by
  rcases h.fail (L := vectorLawful V) (vectorFailing V) (vectorStarts V) hc hi hf with h1 | ⟨m', h1, h2, _⟩
  · exact .inl h1
  · exact .inr ⟨m', h1, h2⟩

/-- The same for stable storage, where moreover all elements stay where they are.  Missing: failures the storage does not
survive (`tolerated`), see `element_throw_violation`. -/
theorem failure_stable_partial (N : Nat) (impl : MapImpl K) (unset : Option K)
    (m : MV (Verif.Block.Vector.Vec × Heap V) K) (a : Ideal K V)
    (h : ReachedS N impl unset m a) (op : Op K V) (f : Fault V) (hc : careful (.stable N) unset a op = true)
    (a' : Ideal K V) (o : Obs V) (hi : ideal (.stable N) a op = some (a', o)) (hf : tolerated (.stable N) a f = true) :
    (∃ m', execFault (stableEnv N impl unset) (stableFaults N V) m op f = some (false, m') ∧
      exec (stableEnv N impl unset) m op = some (m', o)) ∨
    (∃ m', execFault (stableEnv N impl unset) (stableFaults N V) m op f = some (true, m') ∧
      ReachedS N impl unset m' (left (.stable N) a op f) ∧
      ∀ i, i < a.entries.length → (stableStore N V).addr m'.data i = (stableStore N V).addr m.data i) :=
  h.fail (L := stableLawful N V) (stableFailing N V) (stableStarts N V) hc hi hf

/-- C87: after any number of exceptions every careful program goes on as the specification says, vector storage. -/
theorem after_failures_unstable_partial (impl : MapImpl K) (unset : Option K) (m : MV (List V) K) (a : Ideal K V)
    (h : ReachedU impl unset m a) (ops : List (Op K V)) (a' : Ideal K V) (os : List (Obs V))
    (hi : idealRun .unstable a ops = some (a', os)) (hc : carefulRun .unstable unset a ops = true) :
    ∃ m', run (unstableEnv impl unset) m ops = some (m', os) ∧ ReachedU impl unset m' a' :=
  h.runs (L := vectorLawful V) (vectorFailing V) (vectorStarts V) ops hi hc

/-- The same for stable storage. -/
theorem after_failures_stable_partial (N : Nat) (impl : MapImpl K) (unset : Option K)
    (m : MV (Verif.Block.Vector.Vec × Heap V) K) (a : Ideal K V)
    (h : ReachedS N impl unset m a) (ops : List (Op K V)) (a' : Ideal K V) (os : List (Obs V))
    (hi : idealRun (.stable N) a ops = some (a', os)) (hc : carefulRun (.stable N) unset a ops = true) :
    ∃ m', run (stableEnv N impl unset) m ops = some (m', os) ∧ ReachedS N impl unset m' a' :=
  h.runs (L := stableLawful N V) (stableFailing N V) (stableStarts N V) ops hi hc

/-- Three elements, then `modify` throws for the second and leaves 0, then `insert_or_assign` throws and leaves 77, then an
insertion whose key cannot be stored. -/
example :
    let E := unstableEnv (K := Nat) (V := Nat) MapImpl.atEnd none
    ((run E (MV.init E) demo2).bind fun r =>
      (execFault E (vectorFaults Nat) r.1 (.modify (· + 5)) (.visitor 1 0)).bind fun s =>
      (execFault E (vectorFaults Nat) s.2 (.insertOrAssign 3 8) (.assign 77)).bind fun t =>
      (execFault E (vectorFaults Nat) t.2 (.insert 4 8) .map).bind fun u =>
      (run E u.2 [.apply, .find 7, .find 4, .insert 5 9, .find 5]).map fun w => (s.1, t.1, u.1, w.2)) =
    some (true, true, true, [.vals [15, 0, 77, 8], .found (some 77), .found none, .index (some 4), .found (some 9)]) := by
  decide
example :
    let E := stableEnv (K := Nat) (V := Nat) 1 MapImpl.atEnd none
    ((run E (MV.init E) demo2).bind fun r =>
      (execFault E (stableFaults 1 Nat) r.1 (.modify (· + 5)) (.visitor 1 0)).bind fun s =>
      (execFault E (stableFaults 1 Nat) s.2 (.insert 4 8) .map).bind fun u =>
      (execFault E (stableFaults 1 Nat) u.2 (.insert 5 9) (.storage .block)).bind fun t =>
      (run E t.2 [.apply, .find 7, .find 5, .insert 5 9, .find 5]).map fun w => (s.1, u.1, t.1, w.2)) =
    some (true, true, true, [.vals [15, 0, 30, 8], .found (some 30), .found none, .index (some 4), .found (some 9)]) := by
  decide

/-! ## C86: calls that throw have no effect -/

/-- C86, as far as it holds: if what throws is `emplace_back` or the construction of the value to be assigned, or storing a
search term in `addSearchTermForIndex`, the container holds what it held, so that by `after_failures_unstable_partial` and
`after_failures_stable_partial` every later call returns what it would have returned (`reserved` influences no result). -/
theorem no_effect_partial (kind : Kind) (a : Ideal K V) (op : Op K V) (f : Fault V)
    (hf : (∃ g, f = .storage g) ∨ f = .value ∨ (∃ k i, op = .addTerm k i ∧ f = .map)) :
    (left kind a op f).entries = a.entries := by
  rcases hf with ⟨g, rfl⟩ | rfl | ⟨k, i, rfl, rfl⟩
  · cases op <;> rfl
  · cases op <;> rfl
  · rfl

theorem carefulRun_some (kind : Kind) (unset : Option K) (ops : List (Op K V)) (a : Ideal K V)
    (h : carefulRun kind unset a ops = true) : ∃ a' os, idealRun kind a ops = some (a', os) := by
  induction ops generalizing a with
  | nil => exact ⟨a, [], rfl⟩
  | cons op ops ih =>
    simp only [carefulRun, Bool.and_eq_true] at h
    cases h1 : ideal kind a op with
    | none => rw [h1] at h; exact absurd h.2 (by simp)
    | some q =>
      rw [h1] at h
      obtain ⟨a2, os, e⟩ := ih q.1 h.2
      exact ⟨a2, q.2 :: os, by simp only [idealRun, h1, e, Option.bind_some, Option.map_some]⟩

/-- C86, as far as it holds, as the client sees it: such a call leaves a container on which every later program returns what it
would have returned without the call, as long as the program makes no calls the code does not handle (`careful`: it
depends on how much memory has been reserved, therefore it is required for both). -/
theorem no_effect_runs_partial {S : Type} (E : Env S K V) (kind : Kind) (L : Lawful E.st kind) (flt : Faults S V)
    (Q : L.Failing flt) (Z : L.Starts) (m m' : MV S K) (a : Ideal K V) (r : Reached E flt kind m a)
    (op : Op K V) (f : Fault V) (hc : careful kind E.unset a op = true) (a' : Ideal K V) (o : Vector.Obs V)
    (hi : ideal kind a op = some (a', o)) (hf : tolerated kind a f = true)
    (hl : (∃ g, f = .storage g) ∨ f = .value ∨ (∃ k i, op = .addTerm k i ∧ f = .map))
    (he : execFault E flt m op f = some (true, m')) :
    ∃ b, Reached E flt kind m' b ∧ b.entries = a.entries ∧
      ∀ ops, carefulRun kind E.unset a ops = true → carefulRun kind E.unset b ops = true →
        (run E m' ops).map (·.2) = (run E m ops).map (·.2) := by
  have hn := no_effect_partial kind a op f hl
  have R : Reached E flt kind m' (left kind a op f) := .threw r hc hi hf he
  refine ⟨_, R, hn, fun ops h1 h2 => ?_⟩
  obtain ⟨a1, os1, e1⟩ := carefulRun_some kind E.unset ops a h1
  obtain ⟨a2, os2, e2⟩ := carefulRun_some kind E.unset ops _ h2
  have hs := idealRun_entries kind ops _ _ hn
  obtain ⟨m1, x1, _⟩ := r.runs Q Z ops e1 h1
  obtain ⟨m2, x2, _⟩ := R.runs Q Z ops e2 h2
  rw [x1, x2]
  rw [e1, e2] at hs
  simpa using hs

/-- C86 fails, in every state and for both storages, if the search term cannot be stored: `insert(k, x)` and
`insert_or_assign(k, x)` throw, but `x` has become an element, without search term; inserting it again makes a second
one. -/
theorem map_throw_violation {S : Type} (E : Env S K V) (kind : Kind) (L : Lawful E.st kind) (flt : Faults S V)
    (Q : L.Failing flt) (Z : L.Starts) (m : MV S K) (a : Ideal K V) (h : Reached E flt kind m a) (k : K) (x : V)
    (hk : ∀ e ∈ a.entries, k ∉ e.keys) (op : Op K V) (hop : op = .insert k x ∨ op = .insertOrAssign k x) :
    ∃ m', execFault E flt m op .map = some (true, m') ∧ Reached E flt kind m' (a.append kind x []) ∧
      m'.size E = a.entries.length + 1 ∧ m'.get E a.entries.length = some x ∧
      ∃ m'', exec E m' op = some (m'', .index (some (a.entries.length + 1))) ∧ m''.size E = a.entries.length + 2 ∧
        m''.get E (a.entries.length + 1) = some x ∧ m''.get E a.entries.length = some x := by
  have v := h.inv Q Z
  have hl : a.lookup k = none := by
    rw [v.lookup_eq, v.binds.none_iff]
    intro ks hks
    obtain ⟨e, he, rfl⟩ := List.mem_map.1 hks
    exact hk e he
  have hid : ideal kind a op = some (a.append kind x [k], .index (some a.entries.length)) := by
    rcases hop with rfl | rfl <;> simp only [ideal, hl]
  have hcf : ∀ b, careful kind E.unset b op = true := by rcases hop with rfl | rfl <;> exact fun _ => rfl
  have hleft : left kind a op .map = a.append kind x [] := by rcases hop with rfl | rfl <;> rfl
  have hl2 : (a.append kind x []).lookup k = none := by
    simp only [Ideal.lookup, Ideal.append, List.findIdx?_eq_none_iff, decide_eq_false_iff_not] at hl ⊢
    intro e he
    rcases List.mem_append.1 he with h1 | h1
    · exact hl e h1
    · rw [List.mem_singleton.1 h1]; simp
  have hid2 : ideal kind (a.append kind x []) op =
      some ((a.append kind x []).append kind x [k], .index (some (a.entries.length + 1))) := by
    have hlen : (a.append kind x []).entries.length = a.entries.length + 1 := by simp [Ideal.append]
    rcases hop with rfl | rfl <;> simp only [ideal, hl2, hlen]
  have get : ∀ {m : MV S K} {a : Ideal K V} {i : Nat} {e : Entry K V}, Inv L m a → a.entries[i]? = some e →
      m.get E i = some e.value := by
    intro m a i e v he
    have hi : i < (a.entries.map (·.value)).length := by simpa using (List.getElem?_eq_some_iff.1 he).1
    rw [MV.get, L.get hi v.rep, List.getElem_map, (List.getElem?_eq_some_iff.1 he).2]
  rcases h.fail Q Z (hcf a) hid (f := .map) rfl with ⟨m', e, _⟩ | ⟨m', e, R, _⟩
  · exfalso
    rw [v.lookup_eq] at hl
    obtain ⟨d, ed, _⟩ := L.push x v.rep
    rcases hop with rfl | rfl <;> simp [execFault, hl, ed] at e
  · rw [hleft] at R
    have v1 := R.inv Q Z
    obtain ⟨m'', e2, v2, _⟩ := step v1 (hcf _) hid2
    refine ⟨m', e, R, ?_, ?_, m'', e2, ?_, ?_, ?_⟩
    · rw [MV.size, v1.size_eq]; simp [Ideal.append]
    · exact get v1 (e := ⟨x, []⟩) (by simp [Ideal.append])
    · rw [MV.size, v2.size_eq]; simp [Ideal.append]
    · exact get v2 (e := ⟨x, [k]⟩) (by simp [Ideal.append])
    · exact get v2 (e := ⟨x, []⟩) (by simp [Ideal.append])

/-- The hypotheses hold, for example, for key 4 after `demo2`. -/
example : ∃ m a, ReachedU (V := Nat) MapImpl.atEnd none m a ∧ ∀ e ∈ a.entries, 4 ∉ e.keys := by
  obtain ⟨m, _, R⟩ := after_failures_unstable_partial MapImpl.atEnd none _ _ .start demo2
    ⟨[⟨10, [1]⟩, ⟨20, [2]⟩, ⟨30, [7, 3]⟩], 0⟩ [.index (some 0), .index (some 1), .index (some 2), .bool true]
    (by decide) (by decide)
  exact ⟨m, _, R, by decide⟩

/-- C86 and C87 fail with stable storage, in every state, if the constructor of the element throws: the container can then
be neither cleared nor destroyed, and `back()` refers to an element that does not exist. -/
theorem element_throw_violation (N : Nat) (impl : MapImpl K) (unset : Option K)
    (m : MV (Verif.Block.Vector.Vec × Heap V) K) (a : Ideal K V) (h : ReachedS N impl unset m a) (k : K) (x : V)
    (hk : ∀ e ∈ a.entries, k ∉ e.keys) (op : Op K V)
    (hop : op = .insert k x ∨ op = .insertOrAssign k x ∨ op = .insertNoKey x) :
    ∃ m', execFault (stableEnv N impl unset) (stableFaults N V) m op (.storage .element) = some (true, m') ∧
      exec (stableEnv N impl unset) m' .clear = none ∧ Verif.Block.Vector.Vec.freeAll N m'.data.1 m'.data.2 = none ∧
      exec (stableEnv N impl unset) m' .back = none ∧
      exec (stableEnv N impl unset) m' .size = some (m', .num a.entries.length) ∧
      (a.entries ≠ [] → exec (stableEnv N impl unset) m' .apply = none) := by
  have v := h.inv (L := stableLawful N V) (stableFailing N V) (stableStarts N V)
  have hl : FMap.find m.lookup k = none := by
    rw [v.binds.none_iff]
    intro ks hks
    obtain ⟨e, he, rfl⟩ := List.mem_map.1 hks
    exact hk e he
  obtain ⟨s', e, h1, h2, h3, h4, h5⟩ := stable_element v.rep x
  refine ⟨⟨s', m.lookup⟩, ?_, ?_, h2, ?_, ?_, ?_⟩
  · rcases hop with rfl | rfl | rfl <;> simp [execFault, hl, e]
  · simp only [exec, MV.clear, stableEnv, h1, Option.map_none]
  · simp only [exec, MV.back, stableEnv, h3, Option.map_none]
  · simp only [exec, MV.size, stableEnv, h4, List.length_map]
  · intro hne
    simp only [exec, MV.apply, stableEnv, h5 (by simpa using hne), Option.map_none]

example : ∃ m a, ReachedS (V := Nat) 1 MapImpl.atEnd none m a ∧ (∀ e ∈ a.entries, 4 ∉ e.keys) ∧ a.entries ≠ [] := by
  obtain ⟨m, _, R⟩ := after_failures_stable_partial 1 MapImpl.atEnd none _ _ .start demo2
    ⟨[⟨10, [1]⟩, ⟨20, [2]⟩, ⟨30, [7, 3]⟩], 64⟩ [.index (some 0), .index (some 1), .index (some 2), .bool true]
    (by decide) (by decide)
  exact ⟨m, _, R, by decide, by decide⟩

end Verif.Mapped.Vector
