import Verif.Mapped.Vector.Spec
import Verif.Mapped.Binds

/-
Helper lemmas for MappedVector: the code simulates the specification.
-/
namespace Verif.Mapped.Vector
open Verif.Mapped

variable {S K V : Type} [DecidableEq K] {E : Env S K V} {kind : Kind} (L : Lawful E.st kind)

/-- the container represents the ideal one -/
structure Inv (m : MV S K) (a : Ideal K V) : Prop where
  rep : L.Rep m.data (a.entries.map (·.value)) a.reserved
  binds : Binds m.lookup (a.entries.map (·.keys))

variable {L} {m : MV S K} {a : Ideal K V}

theorem Inv.init (h0 : L.Starts) : Inv L (MV.init E) ⟨[], 0⟩ := ⟨h0.start, .nil⟩

theorem Inv.lookup_eq (v : Inv L m a) (k : K) : a.lookup k = FMap.find m.lookup k := by
  rw [← v.binds.findIdx, Ideal.lookup, List.findIdx?_map]; rfl

theorem Inv.size_eq (v : Inv L m a) : E.st.size m.data = a.entries.length := by
  rw [L.size v.rep, List.length_map]

theorem find_of_lookup (a : Ideal K V) (k : K) :
    (a.entries.find? fun e => decide (k ∈ e.keys)) = (a.lookup k).bind fun i => a.entries[i]? := by
  rw [Ideal.lookup]
  generalize (fun e : Entry K V => decide (k ∈ e.keys)) = p
  induction a.entries with
  | nil => rfl
  | cons e es ih =>
    rw [List.find?_cons, List.findIdx?_cons]
    cases h : p e with
    | true => simp
    | false =>
      simp only [Bool.false_eq_true, if_false]
      rw [ih]
      cases es.findIdx? p <;> simp

omit [DecidableEq K] in
theorem map_modify_value (es : List (Entry K V)) (i : Nat) (x : V) :
    (es.modify i fun e => { e with value := x }).map (·.value) = (es.map (·.value)).set i x := by
  apply List.ext_getElem?
  intro j
  simp only [List.getElem?_map, List.getElem?_modify, List.getElem?_set, List.length_map]
  by_cases h : i = j
  · subst h
    by_cases h2 : i < es.length <;> simp [h2]
  · simp [h]

omit [DecidableEq K] in
theorem map_modify_keys (es : List (Entry K V)) (i : Nat) (f : Entry K V → V) :
    (es.modify i fun e => { e with value := f e }).map (·.keys) = es.map (·.keys) := by
  apply List.ext_getElem?
  intro j
  simp only [List.getElem?_map, List.getElem?_modify]
  cases es[j]? with
  | none => rfl
  | some e => by_cases h : i = j <;> simp [h]

omit [DecidableEq K] in
theorem modify_keys_value (es : List (Entry K V)) (i : Nat) (f : List K → List K) :
    (es.modify i fun e => { e with keys := f e.keys }).map (·.value) = es.map (·.value) := by
  apply List.ext_getElem?
  intro j
  simp only [List.getElem?_map, List.getElem?_modify]
  cases es[j]? with
  | none => rfl
  | some e => by_cases h : i = j <;> simp [h]

omit [DecidableEq K] in
theorem modify_keys_keys (es : List (Entry K V)) (i : Nat) (f : List K → List K) :
    (es.modify i fun e => { e with keys := f e.keys }).map (·.keys) = (es.map (·.keys)).modify i f := by
  apply List.ext_getElem?
  intro j
  simp only [List.getElem?_map, List.getElem?_modify]
  cases es[j]? with
  | none => rfl
  | some e => by_cases h : i = j <;> simp [h]

omit [DecidableEq K] in
/-- the loop of removeIndex on the map -/
theorem shiftLoop_fst (erased : Bool) (index : Nat) : ∀ (l : FMap K) (ind : Option K),
    (MV.shiftLoop erased index l ind).1 =
      l.map fun e => (e.1, if erased = true then Binds.shift index e.2 else e.2)
  | [], _ => rfl
  | e :: l, ind => by
    rw [MV.shiftLoop]
    split
    · rename_i h
      simp only
      rw [shiftLoop_fst erased index l, List.map_cons]
      simp [h.1, Binds.shift, h.2]
    · rename_i h
      have : (e.1, if erased = true then Binds.shift index e.2 else e.2) = e := by
        cases erased with
        | false => rfl
        | true =>
          have : ¬ e.2 > index := fun h2 => h ⟨rfl, h2⟩
          simp [Binds.shift, this]
      rw [List.map_cons, this]
      split <;> simp only [shiftLoop_fst erased index l]

omit [DecidableEq K] in
/-- the key remembered by the loop -/
theorem shiftLoop_snd (erased : Bool) (index : Nat) {k : K} : ∀ (l : FMap K) (ind : Option K),
    (∀ e ∈ l, e.2 = index → e.1 = k) →
    (MV.shiftLoop erased index l ind).2 = if (∃ e ∈ l, e.2 = index) then some k else ind
  | [], ind, _ => by simp [MV.shiftLoop]
  | e :: l, ind, h => by
    rw [MV.shiftLoop]
    have ih := shiftLoop_snd erased index (k := k) l
    have hl : ∀ e ∈ l, e.2 = index → e.1 = k := fun e he => h e (List.mem_cons_of_mem _ he)
    split
    · rename_i h1
      rw [ih ind hl]
      have h2 : e.2 ≠ index := by omega
      have : (∃ e' ∈ e :: l, e'.2 = index) ↔ ∃ e ∈ l, e.2 = index := by simp [h2]
      simp only [this]
    · split
      · rename_i h2
        rw [ih _ hl, h e (by simp) h2]
        have : ∃ e' ∈ e :: l, e'.2 = index := ⟨e, by simp, h2⟩
        rw [if_pos this]
        split <;> rfl
      · rename_i h2
        rw [ih ind hl]
        have : (∃ e' ∈ e :: l, e'.2 = index) ↔ ∃ e ∈ l, e.2 = index := by simp [h2]
        simp only [this]

theorem Inv.append (v : Inv L m a) (x : V) (l : FMap K) (ks : List K)
    (hb : Binds l (a.entries.map (·.keys) ++ [ks])) :
    ∃ d, E.st.push m.data x = some d ∧ Inv L ⟨d, l⟩ (a.append kind x ks) ∧
      ∀ i, i < a.entries.length → E.st.addr d i = E.st.addr m.data i := by
  obtain ⟨d, e, r, f⟩ := L.push x v.rep
  refine ⟨d, e, ⟨?_, ?_⟩, by simpa using f⟩
  · simpa [Ideal.append] using r
  · simpa [Ideal.append] using hb

theorem Inv.setValue (v : Inv L m a) {i : Nat} (hi : i < a.entries.length) (x : V) :
    ∃ d, E.st.set m.data i x = some d ∧
      Inv L ⟨d, m.lookup⟩ { a with entries := a.entries.modify i fun e => { e with value := x } } ∧
      ∀ j, E.st.addr d j = E.st.addr m.data j := by
  obtain ⟨d, e, r, f⟩ := L.set (by simpa using hi) x v.rep
  refine ⟨d, e, ⟨?_, ?_⟩, f⟩
  · rw [map_modify_value]; exact r
  · rw [map_modify_keys _ _ fun _ => x]; exact v.binds

theorem Inv.mapValue {σ : Type} (v : Inv L m a) (F : σ → V → σ × V) (z : σ)
    (ha : kind.iterable a.reserved a.entries.length = true) :
    ∃ d es, E.st.visit F z m.data = some ((visitList F z (a.entries.map (·.value))).1, d) ∧
      es.map (·.value) = (visitList F z (a.entries.map (·.value))).2 ∧ es.map (·.keys) = a.entries.map (·.keys) ∧
      Inv L ⟨d, m.lookup⟩ { a with entries := es } ∧ ∀ j, E.st.addr d j = E.st.addr m.data j := by
  obtain ⟨d, e, r, f⟩ := L.visit F z v.rep (by simpa using ha)
  have hlen := visitList_length F (a.entries.map (·.value)) z
  have h1 : ((visitList F z (a.entries.map (·.value))).2.zipWith Entry.mk (a.entries.map (·.keys))).map (·.value) =
      (visitList F z (a.entries.map (·.value))).2 := by
    rw [List.map_zipWith]
    apply List.ext_getElem
    · simp [hlen]
    · intro i h1 h2; simp
  have h2 : ((visitList F z (a.entries.map (·.value))).2.zipWith Entry.mk (a.entries.map (·.keys))).map (·.keys) =
      a.entries.map (·.keys) := by
    rw [List.map_zipWith]
    apply List.ext_getElem
    · simp [hlen]
    · intro i h1 h2; simp
  exact ⟨d, _, e, h1, h2, ⟨by rw [h1]; exact r, by rw [h2]; exact v.binds⟩, f⟩

theorem visitList_map {V : Type} (f : V → V) : ∀ xs : List V, (visitList (fun (_ : Unit) x => ((), f x)) () xs).2 = xs.map f
  | [] => rfl
  | x :: xs => by rw [visitList]; simp [visitList_map f xs]

omit [DecidableEq K] in
theorem entries_eq {es es' : List (Entry K V)} (h1 : es.map (·.value) = es'.map (·.value))
    (h2 : es.map (·.keys) = es'.map (·.keys)) : es = es' := by
  apply List.ext_getElem?
  intro i
  have e1 := congrArg (fun l => l[i]?) h1
  have e2 := congrArg (fun l => l[i]?) h2
  simp only [List.getElem?_map] at e1 e2
  cases h3 : es[i]? with
  | none =>
    cases h4 : es'[i]? with
    | none => rfl
    | some e => simp [h3, h4] at e1
  | some e =>
    cases h4 : es'[i]? with
    | none => simp [h3, h4] at e1
    | some e' =>
      simp [h3, h4] at e1 e2
      cases e; cases e'; simp_all

/-- removal of element `i` from storage, with a map in which exactly its keys are gone -/
theorem Inv.dropEntry (v : Inv L m a) {i : Nat} (hi : i < a.entries.length) {l : FMap K}
    (w : FMap.WF l)
    (h : ∀ k, FMap.find l k = if FMap.find m.lookup k = some i then none else
      (FMap.find m.lookup k).map
        (fun j => if (!kind.isStable || decide (i = a.entries.length - 1)) = true then Binds.shift i j else j)) :
    ∃ d, E.st.erase m.data i = some (d, !kind.isStable || decide (i = a.entries.length - 1)) ∧
      Inv L ⟨d, l⟩ (a.drop kind i) ∧ ∀ k, k < (a.drop kind i).entries.length → E.st.addr d k = E.st.addr m.data k := by
  obtain ⟨d, e, r, f⟩ := L.erase (by simpa using hi) v.rep
  simp only [List.length_map] at e
  suffices key : Inv L ⟨d, l⟩ (a.drop kind i) from
    ⟨d, e, key, fun k hk => f k (by rw [← L.size r]; exact key.size_eq ▸ hk)⟩
  unfold Ideal.drop
  by_cases hc : kind.isStable = true ∧ i + 1 ≠ a.entries.length
  · rw [if_pos hc]
    have hne : i ≠ a.entries.length - 1 := by omega
    refine ⟨?_, ?_⟩
    · have : Kind.erase kind (a.entries.map (·.value)) i = a.entries.map (·.value) := by
        simp [Kind.erase, hc.1, hne]
      rw [this] at r
      show L.Rep d ((a.entries.modify i fun e => { e with keys := [] }).map (·.value)) a.reserved
      rw [modify_keys_value _ _ fun _ => []]; exact r
    · rw [modify_keys_keys _ _ fun _ => []]
      refine v.binds.clearIdx w fun k => ?_
      rw [h]
      simp only [hc.1, hne, Bool.not_true, decide_false, Bool.or_self, Bool.false_eq_true, if_false]
      split <;> simp
  · rw [if_neg hc]
    have hb : (!kind.isStable || decide (i = a.entries.length - 1)) = true := by
      cases hs : kind.isStable with
      | false => rfl
      | true =>
        have : ¬ i + 1 ≠ a.entries.length := fun h => hc ⟨hs, h⟩
        simp; omega
    refine ⟨?_, ?_⟩
    · have : Kind.erase kind (a.entries.map (·.value)) i = (a.entries.eraseIdx i).map (·.value) := by
        unfold Kind.erase
        split
        · rename_i hs
          have : i = a.entries.length - 1 := by simpa [hs] using hb
          have h2 : i = (a.entries.map (·.value)).length - 1 := by simpa using this
          rw [if_pos h2, ← List.eraseIdx_map]; exact List.dropLast_eq_eraseIdx (by simp; omega)
        · rw [List.eraseIdx_map]
      rw [this] at r; exact r
    · rw [← List.eraseIdx_map]
      refine v.binds.eraseIdx w fun k => ?_
      rw [h, hb]; rfl

/-- does the map change as `remove` changes it? -/
theorem Inv.removeKey (v : Inv L m a) {i : Nat} {k : K} (hi : a.entries[i]? = some ⟨x, [k]⟩) (sh : Bool) (k' : K) :
    FMap.find (FMap.erase (m.lookup.map fun e => (e.1, if sh = true then Binds.shift i e.2 else e.2)) k) k' =
      if FMap.find m.lookup k' = some i then none else
      (FMap.find m.lookup k').map fun j => if sh = true then Binds.shift i j else j := by
  rw [FMap.find_erase (FMap.mapVal_wf v.binds.wf (fun j => if sh = true then Binds.shift i j else j)),
    FMap.find_mapVal v.binds.wf (fun j => if sh = true then Binds.shift i j else j)]
  have := v.binds.single (i := i) (k := k) (by simp [hi]) k'
  by_cases h : k' = k
  · rw [if_pos h, if_pos (this.2 h)]
  · rw [if_neg h, if_neg (fun e => h (this.1 e))]

/-- every careful call is simulated; for stable storage remaining elements keep their address -/
theorem step (v : Inv L m a) {op : Op K V} (hc : careful kind E.unset a op = true) {a' : Ideal K V} {o : Obs V}
    (hi : ideal kind a op = some (a', o)) :
    ∃ m', exec E m op = some (m', o) ∧ Inv L m' a' ∧
      ∀ i, i < a.entries.length → i < a'.entries.length → E.st.addr m'.data i = E.st.addr m.data i := by
  have hsz := v.size_eq
  cases op with
  | insert k x =>
    simp only [ideal, v.lookup_eq] at hi
    simp only [exec, MV.insert]
    cases hf : FMap.find m.lookup k with
    | some i => rw [hf] at hi; cases hi; exact ⟨m, rfl, v, fun _ _ _ => rfl⟩
    | none =>
      rw [hf] at hi; cases hi
      have hb := v.binds.append (I := E.impl) hf
      obtain ⟨d, e, r, f'⟩ := v.append x _ _ hb
      simp only [List.length_map] at r
      refine ⟨_, ?_, r, fun i h _ => f' i h⟩
      simp only [Option.isSome_none, Bool.false_eq_true, if_false, e, Option.map_some, hsz]
  | insertNoKey x =>
    cases hi
    obtain ⟨d, e, r, f'⟩ := v.append x _ _ v.binds.append_nil
    exact ⟨_, by simp only [exec, MV.insertNoKey, e, Option.map_some, hsz], r, fun i h _ => f' i h⟩
  | insertOrAssign k x =>
    simp only [ideal, v.lookup_eq] at hi
    simp only [exec, MV.insertOrAssign]
    cases hf : FMap.find m.lookup k with
    | some i =>
      rw [hf] at hi; cases hi
      obtain ⟨d, e, r, f'⟩ := v.setValue (by simpa using v.binds.lt hf) x
      exact ⟨_, by simp only [e, Option.map_some], r, fun i _ _ => f' i⟩
    | none =>
      rw [hf] at hi; cases hi
      have hb := v.binds.append (I := E.impl) hf
      obtain ⟨d, e, r, f'⟩ := v.append x _ _ hb
      simp only [List.length_map] at r
      exact ⟨_, by simp only [e, Option.map_some, hsz], r, fun i h _ => f' i h⟩
  | find k =>
    simp only [ideal, find_of_lookup, v.lookup_eq, Option.some.injEq, Prod.mk.injEq] at hi
    obtain ⟨rfl, rfl⟩ := hi
    simp only [careful, v.lookup_eq] at hc
    simp only [exec, MV.find]
    cases hf : FMap.find m.lookup k with
    | some i =>
      have hl : i < a.entries.length := by simpa using v.binds.lt hf
      refine ⟨m, ?_, v, fun _ _ _ => rfl⟩
      simp only [L.iterAt (show i < (a.entries.map (·.value)).length by simpa using hl) v.rep, Option.map_some,
        Option.bind_some, List.getElem?_eq_getElem hl, List.getElem_map]
    | none =>
      rw [hf] at hc
      refine ⟨m, ?_, v, fun _ _ _ => rfl⟩
      simp only [L.endOk v.rep (by simpa using hc), Option.map_some, Option.bind_none, Option.map_none]
  | get i =>
    simp only [ideal, Option.map_eq_some_iff] at hi
    obtain ⟨e, h1, h2⟩ := hi
    cases h2
    obtain ⟨hl, rfl⟩ := List.getElem?_eq_some_iff.1 h1
    refine ⟨m, ?_, v, fun _ _ _ => rfl⟩
    simp only [exec, MV.get, L.get (show i < (a.entries.map (·.value)).length by simpa using hl) v.rep,
      Option.map_some, List.getElem_map]
  | set i x =>
    simp only [ideal] at hi
    split at hi
    · rename_i hl
      cases hi
      obtain ⟨d, e, r, f'⟩ := v.setValue hl x
      exact ⟨_, by simp only [exec, MV.set, e, Option.map_some], r, fun i _ _ => f' i⟩
    · cases hi
  | «at» i =>
    simp only [ideal, Option.some.injEq, Prod.mk.injEq] at hi
    obtain ⟨rfl, rfl⟩ := hi
    refine ⟨m, ?_, v, fun _ _ _ => rfl⟩
    simp only [exec, MV.at?, hsz]
    by_cases hl : i < a.entries.length
    · rw [if_neg (by omega), L.get (show i < (a.entries.map (·.value)).length by simpa using hl) v.rep]
      simp [List.getElem?_eq_getElem hl]
    · rw [if_pos (by omega), List.getElem?_eq_none (by omega)]; rfl
  | back =>
    simp only [ideal, Option.map_eq_some_iff] at hi
    obtain ⟨e, h1, h2⟩ := hi
    cases h2
    refine ⟨m, ?_, v, fun _ _ _ => rfl⟩
    have hne : a.entries ≠ [] := by rintro h; simp [h] at h1
    have hg : e = a.entries.getLast hne := by
      rw [List.getLast?_eq_some_getLast hne] at h1; exact (Option.some.inj h1).symm
    simp only [exec, MV.back, L.back (by simpa using hne) v.rep, Option.map_some, List.getLast_map, ← hg]
  | addTerm k i =>
    simp only [ideal, v.lookup_eq] at hi
    simp only [exec, MV.addSearchTermForIndex, hsz]
    by_cases hl : i < a.entries.length
    · rw [if_pos hl]
      cases hf : FMap.find m.lookup k with
      | some j =>
        rw [hf, if_neg (by simp)] at hi
        cases hi
        refine ⟨m, ?_, v, fun _ _ _ => rfl⟩
        simp [FMap.emplace, hf]
      | none =>
        rw [hf, if_pos ⟨hl, rfl⟩] at hi
        cases hi
        refine ⟨⟨m.data, (FMap.emplace E.impl m.lookup k i).1⟩, ?_, ⟨?_, ?_⟩, fun _ _ _ => rfl⟩
        · simp [FMap.emplace, hf]
        · rw [modify_keys_value _ _ fun ks => k :: ks]; exact v.rep
        · rw [modify_keys_keys _ _ fun ks => k :: ks]; exact v.binds.add hf (by simpa using hl)
    · rw [if_neg hl]
      rw [if_neg (by simp [hl])] at hi
      cases hi
      exact ⟨m, rfl, v, fun _ _ _ => rfl⟩
  | removeIndex i =>
    simp only [ideal] at hi
    simp only [exec, MV.removeIndex, hsz]
    by_cases hl : i < a.entries.length
    · rw [if_pos hl] at hi
      cases hi
      rw [if_neg (by omega)]
      simp only [careful, List.getElem?_eq_getElem hl, Bool.or_eq_true, decide_eq_true_eq, Bool.and_eq_true,
        List.isEmpty_iff] at hc
      rcases hc with hc | ⟨hc1, hc2⟩
      · obtain ⟨k, hk⟩ := List.length_eq_one_iff.1 hc
        have he : a.entries[i]? = some ⟨a.entries[i].value, [k]⟩ := by
          rw [List.getElem?_eq_getElem hl, ← hk]
        have hkk := v.binds.single (i := i) (k := k) (by simp [he])
        obtain ⟨d, e, r, f'⟩ := v.dropEntry hl (FMap.erase_wf (FMap.mapVal_wf v.binds.wf
            (fun j => if (!kind.isStable || decide (i = a.entries.length - 1)) = true then Binds.shift i j else j)) k)
          (v.removeKey he _)
        have hs := shiftLoop_snd (!kind.isStable || decide (i = a.entries.length - 1)) i (k := k) m.lookup E.unset
          (fun e he h => (hkk e.1).1 (by rw [FMap.find_eq_some v.binds.wf, ← h]; exact he))
        rw [if_pos ⟨(k, i), (FMap.find_eq_some v.binds.wf).1 ((hkk k).2 rfl), rfl⟩] at hs
        refine ⟨_, ?_, r, fun j _ h => f' j h⟩
        simp only [e, Option.bind_some, shiftLoop_fst, hs, Option.map_some]
        rw [if_pos]
        rw [FMap.find_mapVal v.binds.wf
          (fun j => if (!kind.isStable || decide (i = a.entries.length - 1)) = true then Binds.shift i j else j),
          (hkk k).2 rfl]
        rfl
      · cases hu : E.unset with
        | none => rw [hu] at hc2; cases hc2
        | some u =>
          rw [hu] at hc2
          simp only [v.lookup_eq] at hc2
          have hun : FMap.find m.lookup u = none := by simpa using hc2
          have hno := v.binds.noKey (i := i) (by simp [List.getElem?_eq_getElem hl, hc1])
          obtain ⟨d, e, r, f'⟩ := v.dropEntry hl (FMap.mapVal_wf v.binds.wf
              (fun j => if (!kind.isStable || decide (i = a.entries.length - 1)) = true then Binds.shift i j else j))
            (fun k' => by
              rw [FMap.find_mapVal v.binds.wf
                (fun j => if (!kind.isStable || decide (i = a.entries.length - 1)) = true then Binds.shift i j else j),
                if_neg (hno k')])
          have hs := shiftLoop_snd (!kind.isStable || decide (i = a.entries.length - 1)) i (k := u) m.lookup (some u)
            (fun e he h => absurd (by rw [FMap.find_eq_some v.binds.wf, ← h]; exact he) (hno e.1))
          rw [ite_self] at hs
          refine ⟨_, ?_, r, fun j _ h => f' j h⟩
          simp only [e, Option.bind_some, shiftLoop_fst, hs, Option.map_some]
          rw [if_neg]
          rw [FMap.find_mapVal v.binds.wf
            (fun j => if (!kind.isStable || decide (i = a.entries.length - 1)) = true then Binds.shift i j else j), hun]
          simp
    · rw [if_neg hl] at hi
      cases hi
      rw [if_pos (by omega)]
      exact ⟨m, rfl, v, fun _ _ _ => rfl⟩
  | remove k =>
    simp only [careful, find_of_lookup] at hc
    simp only [ideal] at hi
    rw [v.lookup_eq] at hi hc
    simp only [exec, MV.remove]
    cases hf : FMap.find m.lookup k with
    | none => rw [hf] at hi; cases hi; exact ⟨m, rfl, v, fun _ _ _ => rfl⟩
    | some i =>
      rw [hf] at hi; cases hi
      have hl : i < a.entries.length := by simpa using v.binds.lt hf
      rw [hf] at hc
      simp only [Option.bind_some, List.getElem?_eq_getElem hl, decide_eq_true_eq] at hc
      obtain ⟨k2, hk⟩ := List.length_eq_one_iff.1 hc
      have he : a.entries[i]? = some ⟨a.entries[i].value, [k2]⟩ := by
        rw [List.getElem?_eq_getElem hl, ← hk]
      have hkk := v.binds.single (i := i) (k := k2) (by simp [he])
      obtain rfl := (hkk k).1 hf
      obtain ⟨d, e, r, f'⟩ := v.dropEntry hl (FMap.erase_wf (FMap.mapVal_wf v.binds.wf
          (fun j => if (!kind.isStable || decide (i = a.entries.length - 1)) = true then Binds.shift i j else j)) k)
        (v.removeKey he _)
      refine ⟨_, ?_, r, fun j _ h => f' j h⟩
      simp only [e, Option.map_some]
      split
      · rfl
      · simp
  | apply =>
    simp only [ideal, Option.some.injEq, Prod.mk.injEq] at hi
    obtain ⟨rfl, rfl⟩ := hi
    refine ⟨m, ?_, v, fun _ _ _ => rfl⟩
    simp only [exec, MV.apply, L.all v.rep (by simpa [careful] using hc), Option.map_some]
  | modify f =>
    cases hi
    obtain ⟨d, es, e, h1, h2, r, f'⟩ := v.mapValue (fun (_ : Unit) x => ((), f x)) () (by simpa [careful] using hc)
    refine ⟨⟨d, m.lookup⟩, by simp only [exec, MV.modify, e, Option.map_some], ?_, by intro i _ _; exact f' i⟩
    rw [visitList_map, List.map_map] at h1
    have : es = a.entries.map fun e => { e with value := f e.value } :=
      entries_eq (by rw [h1, List.map_map]; rfl) (by rw [h2, List.map_map]; rfl)
    rw [← this]; exact r
  | transform f =>
    cases hi
    obtain ⟨d, es, e, h1, h2, r, f'⟩ := v.mapValue (fun (_ : Unit) x => ((), f x)) () (by simpa [careful] using hc)
    refine ⟨⟨d, m.lookup⟩, by simp only [exec, MV.transform, e, Option.map_some], ?_, by intro i _ _; exact f' i⟩
    rw [visitList_map, List.map_map] at h1
    have : es = a.entries.map fun e => { e with value := f e.value } :=
      entries_eq (by rw [h1, List.map_map]; rfl) (by rw [h2, List.map_map]; rfl)
    rw [← this]; exact r
  | size => cases hi; exact ⟨m, by simp only [exec, MV.size, hsz], v, fun _ _ _ => rfl⟩
  | clear =>
    cases hi
    obtain ⟨d, e, r⟩ := L.clear v.rep
    exact ⟨⟨d, []⟩, by simp only [exec, MV.clear, e, Option.map_some], ⟨r, .nil⟩, fun i _ h => absurd h (Nat.not_lt_zero i)⟩

theorem simulate (ops : List (Op K V)) : ∀ {m : MV S K} {a : Ideal K V}, Inv L m a →
    carefulRun kind E.unset a ops = true → ∀ {a' os}, idealRun kind a ops = some (a', os) →
    ∃ m', run E m ops = some (m', os) ∧ Inv L m' a' := by
  induction ops with
  | nil => intro m a v _ a' os hi; cases hi; exact ⟨m, rfl, v⟩
  | cons op ops ih =>
    intro m a v hc a' os hi
    simp only [idealRun, Option.bind_eq_some_iff, Option.map_eq_some_iff] at hi
    obtain ⟨⟨a1, o⟩, h1, ⟨a2, os2⟩, h2, h3⟩ := hi
    cases h3
    simp only [carefulRun, h1, Bool.and_eq_true] at hc
    obtain ⟨m1, e1, v1, _⟩ := step v hc.1 h1
    obtain ⟨m2, e2, v2⟩ := ih v1 hc.2 h2
    exact ⟨m2, by simp only [run, e1, Option.bind_some, e2, Option.map_some], v2⟩

end Verif.Mapped.Vector
