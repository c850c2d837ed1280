import Verif.Mapped.Pointer.Own
import Verif.Mapped.Vector.Lemmas

/-
Helper lemmas for MappedPointerVector: the code simulates the specification.
-/
namespace Verif.Mapped.Pointer
open Verif.Mapped

variable {K V : Type} [DecidableEq K] {I : MapImpl K} {unset : Option K}

/-- the container represents the ideal one -/
structure Inv (w : World K V) (a : Ideal K V) : Prop where
  data : w.pv.data = a.entries.map fun e => e.obj.map (·.1)
  binds : Binds w.pv.lookup (a.entries.map (·.keys))
  own : Own w.heap (a.entries.map (·.obj))
  next : w.heap.next = a.made

variable {w : World K V} {a : Ideal K V}

theorem Inv.init : Inv (World.init : World K V) ⟨[], 0⟩ := ⟨rfl, .nil, .nil, rfl⟩

theorem Inv.lookup_eq (v : Inv w a) (k : K) : a.lookup k = FMap.find w.pv.lookup k := by
  rw [← v.binds.findIdx, Ideal.lookup, List.findIdx?_map]; rfl

theorem Inv.size_eq (v : Inv w a) : w.pv.data.length = a.entries.length := by rw [v.data, List.length_map]

theorem find_of_lookup (a : Ideal K V) (k : K) :
    (a.entries.find? fun e => decide (k ∈ e.keys)) = (a.lookup k).bind fun i => a.entries[i]? := by
  rw [Ideal.lookup]
  generalize (fun e : Entry K V => decide (k ∈ e.keys)) = p
  induction a.entries with
  | nil => rfl
  | cons e es ih =>
    rw [List.find?_cons, List.findIdx?_cons]
    cases h : p e with
    | true => simp
    | false =>
      simp only [Bool.false_eq_true, if_false]
      rw [ih]
      cases es.findIdx? p <;> simp

theorem Inv.obj_at (v : Inv w a) {i : Nat} (hi : i < a.entries.length) :
    w.pv.data[i]? = some ((a.entries[i]).obj.map (·.1)) ∧ w.heap.read ((a.entries[i]).obj.map (·.1)) = some (a.entries[i]).obj := by
  refine ⟨by rw [v.data]; simp [List.getElem?_eq_getElem hi], v.own.read ?_⟩
  exact List.mem_map.2 ⟨_, List.getElem_mem hi, rfl⟩

theorem Inv.append (v : Inv w a) (x : Option V) {l : FMap K} {ks : List K}
    (hb : Binds l (a.entries.map (·.keys) ++ [ks])) :
    Inv ⟨⟨w.pv.data ++ [(w.heap.makeOpt x).2], l⟩, (w.heap.makeOpt x).1⟩ (a.append x ks) := by
  refine ⟨?_, ?_, ?_, ?_⟩
  · simp only [Ideal.append, List.map_append, List.map_cons, List.map_nil, v.data, Own.makeOpt_name, v.next]
  · simpa [Ideal.append] using hb
  · simpa [Ideal.append, v.next] using v.own.append x
  · simp only [Ideal.append]; rw [Own.makeOpt_next, v.next]

omit [DecidableEq K] in
theorem map_modify_obj (es : List (Entry K V)) (i : Nat) (o : Option (Nat × V)) :
    (es.modify i fun e => { e with obj := o }).map (·.obj) = (es.map (·.obj)).set i o := by
  apply List.ext_getElem?
  intro j
  simp only [List.getElem?_map, List.getElem?_modify, List.getElem?_set, List.length_map]
  by_cases h : i = j
  · subst h
    by_cases h2 : i < es.length <;> simp [h2]
  · simp [h]

omit [DecidableEq K] in
theorem map_modify_name (es : List (Entry K V)) (i : Nat) (o : Option (Nat × V)) :
    ((es.modify i fun e => { e with obj := o }).map fun e => e.obj.map (·.1)) =
      (es.map fun e => e.obj.map (·.1)).set i (o.map (·.1)) := by
  have := congrArg (List.map fun o : Option (Nat × V) => o.map (·.1)) (map_modify_obj es i o)
  rw [List.map_map, List.map_set, List.map_map] at this
  exact this

omit [DecidableEq K] in
theorem map_modify_keys (es : List (Entry K V)) (i : Nat) (o : Option (Nat × V)) :
    (es.modify i fun e => { e with obj := o }).map (·.keys) = es.map (·.keys) := by
  apply List.ext_getElem?
  intro j
  simp only [List.getElem?_map, List.getElem?_modify]
  cases es[j]? with
  | none => rfl
  | some e => by_cases h : i = j <;> simp [h]

omit [DecidableEq K] in
theorem modify_keys_obj (es : List (Entry K V)) (i : Nat) (f : List K → List K) :
    (es.modify i fun e => { e with keys := f e.keys }).map (·.obj) = es.map (·.obj) := by
  apply List.ext_getElem?
  intro j
  simp only [List.getElem?_map, List.getElem?_modify]
  cases es[j]? with
  | none => rfl
  | some e => by_cases h : i = j <;> simp [h]

omit [DecidableEq K] in
theorem modify_keys_keys (es : List (Entry K V)) (i : Nat) (f : List K → List K) :
    (es.modify i fun e => { e with keys := f e.keys }).map (·.keys) = (es.map (·.keys)).modify i f := by
  apply List.ext_getElem?
  intro j
  simp only [List.getElem?_map, List.getElem?_modify]
  cases es[j]? with
  | none => rfl
  | some e => by_cases h : i = j <;> simp [h]

theorem Inv.assign (v : Inv w a) {i : Nat} (hi : i < a.entries.length) (x : Option V) :
    ∃ h', w.pv.assignAt (w.heap.makeOpt x).1 i (w.heap.makeOpt x).2 =
        some (⟨w.pv.data.set i (w.heap.makeOpt x).2, w.pv.lookup⟩, h') ∧
      Inv ⟨⟨w.pv.data.set i (w.heap.makeOpt x).2, w.pv.lookup⟩, h'⟩ (a.assign i x) := by
  obtain ⟨h', e, o⟩ := Own.set_of_append (i := i) (o := (a.entries[i]).obj)
    (by simp [List.getElem?_eq_getElem hi]) (v.own.append x)
  refine ⟨h', ?_, ?_, ?_, ?_, ?_⟩
  · simp only [PV.assignAt, (v.obj_at hi).1, Option.bind_some, e, Option.map_some]
  · simp only [Ideal.assign]
    rw [map_modify_name, v.data, Own.makeOpt_name, v.next]
  · simp only [Ideal.assign]
    rw [map_modify_keys]; exact v.binds
  · simp only [Ideal.assign]
    rw [map_modify_obj, ← v.next]; exact o
  · simp only [Ideal.assign]
    rw [Own.delete_next e, Own.makeOpt_next, v.next]

theorem Inv.erase (v : Inv w a) {i : Nat} (hi : i < a.entries.length) {l : FMap K} (wf : FMap.WF l)
    (h : ∀ k, FMap.find l k = if FMap.find w.pv.lookup k = some i then none else
      (FMap.find w.pv.lookup k).map (Binds.shift i)) :
    ∃ h', w.pv.eraseAt w.heap i = some (w.pv.data.eraseIdx i, h') ∧
      Inv ⟨⟨w.pv.data.eraseIdx i, l⟩, h'⟩ { a with entries := a.entries.eraseIdx i } := by
  obtain ⟨h', e, o⟩ := v.own.erase (i := i) (o := (a.entries[i]).obj) (by simp [List.getElem?_eq_getElem hi])
  refine ⟨h', ?_, ?_, ?_, ?_, ?_⟩
  · simp only [PV.eraseAt, (v.obj_at hi).1, Option.bind_some, e, Option.map_some]
  · show w.pv.data.eraseIdx i = _
    rw [v.data, List.eraseIdx_map]
  · show Binds l ((a.entries.eraseIdx i).map _)
    rw [← List.eraseIdx_map]; exact v.binds.eraseIdx wf h
  · show Own h' ((a.entries.eraseIdx i).map _)
    rw [← List.eraseIdx_map]; exact o
  · exact (Own.delete_next e).trans v.next

/-- every careful call is simulated -/
theorem step (v : Inv w a) {op : Op K V} (hc : careful unset a op = true) {a' : Ideal K V} {o : Obs V}
    (hi : ideal a op = some (a', o)) : ∃ w', exec I unset w op = some (w', o) ∧ Inv w' a' := by
  have hsz := v.size_eq
  cases op with
  | insertPtr k x =>
    simp only [ideal, v.lookup_eq] at hi
    simp only [exec, PV.insertPtr]
    cases hf : FMap.find w.pv.lookup k with
    | some i =>
      rw [hf] at hi; cases hi
      obtain ⟨h', e, o, n⟩ := v.own.makeDelete x
      refine ⟨⟨w.pv, h'⟩, ?_, v.data, v.binds, o, by rw [n, v.next]⟩
      simp [e]
    | none =>
      rw [hf] at hi; cases hi
      have hb := v.binds.append (I := I) hf
      have r := v.append x hb
      simp only [List.length_map] at r
      exact ⟨_, by simp [hsz], r⟩
  | insert k x =>
    simp only [ideal, v.lookup_eq] at hi
    simp only [exec, PV.insert]
    cases hf : FMap.find w.pv.lookup k with
    | some i => rw [hf] at hi; cases hi; exact ⟨w, by simp, v⟩
    | none =>
      rw [hf] at hi; cases hi
      have hb := v.binds.append (I := I) hf
      have r := v.append (some x) hb
      simp only [List.length_map] at r
      exact ⟨_, by simp [hsz, Objs.makeOpt], r⟩
  | insertNoKey x =>
    cases hi
    exact ⟨_, by simp [exec, PV.insertNoKey, hsz, Objs.makeOpt], v.append (some x) v.binds.append_nil⟩
  | assignPtr k x =>
    simp only [ideal, v.lookup_eq] at hi
    simp only [exec, PV.insertOrAssignPtr]
    cases hf : FMap.find w.pv.lookup k with
    | some i =>
      rw [hf] at hi; cases hi
      obtain ⟨h', e, r⟩ := v.assign (by simpa using v.binds.lt hf) x
      exact ⟨_, by simp only [e, Option.map_some], r⟩
    | none =>
      rw [hf] at hi; cases hi
      have hb := v.binds.append (I := I) hf
      have r := v.append x hb
      simp only [List.length_map] at r
      exact ⟨_, by simp [hsz], r⟩
  | assign k x =>
    simp only [ideal, v.lookup_eq] at hi
    simp only [exec, PV.insertOrAssign]
    cases hf : FMap.find w.pv.lookup k with
    | some i =>
      rw [hf] at hi; cases hi
      obtain ⟨h', e, r⟩ := v.assign (by simpa using v.binds.lt hf) (some x)
      simp only [Objs.makeOpt] at e r
      exact ⟨_, by simp only [e, Option.map_some], r⟩
    | none =>
      rw [hf] at hi; cases hi
      have hb := v.binds.append (I := I) hf
      have r := v.append (some x) hb
      simp only [List.length_map] at r
      exact ⟨_, by simp [hsz, Objs.makeOpt], r⟩
  | find k =>
    simp only [ideal, find_of_lookup, v.lookup_eq, Option.some.injEq, Prod.mk.injEq] at hi
    obtain ⟨rfl, rfl⟩ := hi
    simp only [exec, PV.find]
    refine ⟨w, ?_, v⟩
    cases hf : FMap.find w.pv.lookup k with
    | some i =>
      have hl : i < a.entries.length := by simpa using v.binds.lt hf
      simp only [(v.obj_at hl).1, Option.bind_some, (v.obj_at hl).2, Option.map_some, List.getElem?_eq_getElem hl]
    | none => rfl
  | get i =>
    simp only [ideal, Option.some.injEq, Prod.mk.injEq] at hi
    obtain ⟨rfl, rfl⟩ := hi
    refine ⟨w, ?_, v⟩
    simp only [exec, PV.get, hsz]
    by_cases hl : i < a.entries.length
    · simp only [if_pos hl, (v.obj_at hl).1, Option.bind_some, (v.obj_at hl).2, Option.map_some,
        List.getElem?_eq_getElem hl]
    · rw [if_neg hl, List.getElem?_eq_none (by omega)]; rfl
  | write i x =>
    simp only [ideal, Option.map_eq_some_iff, Option.bind_eq_some_iff] at hi
    obtain ⟨⟨p, y⟩, ⟨e, h1, h2⟩, h3⟩ := hi
    cases h3
    obtain ⟨hl, rfl⟩ := List.getElem?_eq_some_iff.1 h1
    obtain ⟨h', e, o, n⟩ := v.own.write (i := i) (p := p) (x := y) (by simp [List.getElem?_eq_getElem hl, h2]) x
    refine ⟨⟨w.pv, h'⟩, ?_, ?_, ?_, ?_, n.trans v.next⟩
    · simp only [exec, PV.get, hsz, if_pos hl, (v.obj_at hl).1, Option.bind_some, h2, Option.map_some, e]
    · simp only
      rw [map_modify_name, v.data]
      apply List.ext_getElem?
      intro j
      rw [List.getElem?_set]
      split
      · rename_i hij; subst hij
        rw [List.getElem?_map, h1, List.length_map, if_pos hl]
        simp [h2]
      · rfl
    · simp only
      rw [map_modify_keys]; exact v.binds
    · simp only
      rw [map_modify_obj]; exact o
  | back =>
    simp only [ideal, Option.map_eq_some_iff] at hi
    obtain ⟨e, h1, h2⟩ := hi
    cases h2
    refine ⟨w, ?_, v⟩
    have hb : w.pv.data.getLast? = some (e.obj.map (·.1)) := by rw [v.data, List.getLast?_map, h1]; rfl
    have hm : e ∈ a.entries := List.mem_of_getLast? h1
    simp only [exec, PV.back, hb, Option.bind_some, v.own.read (List.mem_map.2 ⟨e, hm, rfl⟩), Option.map_some]
  | addTerm k i =>
    simp only [ideal, v.lookup_eq] at hi
    simp only [exec, PV.addSearchTermForIndex, hsz]
    by_cases hl : i < a.entries.length
    · rw [if_pos hl]
      cases hf : FMap.find w.pv.lookup k with
      | some j =>
        rw [hf, if_neg (by simp)] at hi
        cases hi
        refine ⟨w, ?_, v⟩
        simp [FMap.emplace, hf]
      | none =>
        rw [hf, if_pos ⟨hl, rfl⟩] at hi
        cases hi
        refine ⟨⟨⟨w.pv.data, (FMap.emplace I w.pv.lookup k i).1⟩, w.heap⟩, ?_, ?_, ?_, ?_, v.next⟩
        · simp [FMap.emplace, hf]
        · simp only
          rw [v.data]
          have := congrArg (List.map fun o : Option (Nat × V) => o.map (·.1)) (modify_keys_obj a.entries i fun ks => k :: ks)
          rw [List.map_map, List.map_map] at this
          exact this.symm
        · simp only
          rw [modify_keys_keys _ _ fun ks => k :: ks]; exact v.binds.add hf (by simpa using hl)
        · simp only
          rw [modify_keys_obj _ _ fun ks => k :: ks]; exact v.own
    · rw [if_neg hl]
      rw [if_neg (by simp [hl])] at hi
      cases hi
      exact ⟨w, rfl, v⟩
  | removeIndex i =>
    cases hi
    simp only [exec, PV.removeIndex, hsz]
    by_cases hl : i < a.entries.length
    · rw [if_neg (by omega)]
      simp only [careful, List.getElem?_eq_getElem hl, Bool.or_eq_true, decide_eq_true_eq, Bool.and_eq_true,
        List.isEmpty_iff] at hc
      rcases hc with hc | ⟨hc1, hc2⟩
      · obtain ⟨k, hk⟩ := List.length_eq_one_iff.1 hc
        have he : (a.entries.map (·.keys))[i]? = some [k] := by simp [List.getElem?_eq_getElem hl, hk]
        have hkk := v.binds.single he
        obtain ⟨h', e, r⟩ := v.erase hl (FMap.erase_wf (FMap.mapVal_wf v.binds.wf (Binds.shift i)) k)
          (v.binds.find_removed he true)
        have hs := Vector.shiftLoop_snd true i (k := k) w.pv.lookup unset
          (fun e he h => (hkk e.1).1 (by rw [FMap.find_eq_some v.binds.wf, ← h]; exact he))
        rw [if_pos ⟨(k, i), (FMap.find_eq_some v.binds.wf).1 ((hkk k).2 rfl), rfl⟩] at hs
        refine ⟨_, ?_, r⟩
        simp only [e, Option.bind_some, Vector.shiftLoop_fst, hs, Option.map_some, if_true]
        rw [if_pos]
        rw [FMap.find_mapVal v.binds.wf (Binds.shift i), (hkk k).2 rfl]
        rfl
      · cases unset with
        | none => cases hc2
        | some u =>
          simp only [v.lookup_eq] at hc2
          have hun : FMap.find w.pv.lookup u = none := by simpa using hc2
          have hno := v.binds.noKey (i := i) (by simp [List.getElem?_eq_getElem hl, hc1])
          obtain ⟨h', e, r⟩ := v.erase hl (FMap.mapVal_wf v.binds.wf (Binds.shift i))
            (fun k' => by rw [FMap.find_mapVal v.binds.wf (Binds.shift i), if_neg (hno k')])
          have hs := Vector.shiftLoop_snd true i (k := u) w.pv.lookup (some u)
            (fun e he h => absurd (by rw [FMap.find_eq_some v.binds.wf, ← h]; exact he) (hno e.1))
          rw [ite_self] at hs
          refine ⟨_, ?_, r⟩
          simp only [e, Option.bind_some, Vector.shiftLoop_fst, hs, Option.map_some, if_true]
          rw [if_neg]
          rw [FMap.find_mapVal v.binds.wf (Binds.shift i), hun]
          simp
    · rw [if_pos (by omega), List.eraseIdx_of_length_le (by omega)]
      exact ⟨w, rfl, v⟩
  | remove k =>
    simp only [careful, find_of_lookup] at hc
    simp only [ideal] at hi
    rw [v.lookup_eq] at hi hc
    simp only [exec, PV.remove]
    cases hf : FMap.find w.pv.lookup k with
    | none => rw [hf] at hi; cases hi; exact ⟨w, rfl, v⟩
    | some i =>
      rw [hf] at hi; cases hi
      have hl : i < a.entries.length := by simpa using v.binds.lt hf
      rw [hf] at hc
      simp only [Option.bind_some, List.getElem?_eq_getElem hl, decide_eq_true_eq] at hc
      obtain ⟨k2, hk⟩ := List.length_eq_one_iff.1 hc
      have he : (a.entries.map (·.keys))[i]? = some [k2] := by simp [List.getElem?_eq_getElem hl, hk]
      obtain rfl := (v.binds.single he k).1 hf
      obtain ⟨h', e, r⟩ := v.erase hl (FMap.erase_wf (FMap.mapVal_wf v.binds.wf (Binds.shift i)) k)
        (v.binds.find_removed he true)
      exact ⟨_, by simp only [e, Option.map_some]; rfl, r⟩
  | apply =>
    cases hi
    refine ⟨w, ?_, v⟩
    have := v.own.readAll
    rw [List.map_map] at this
    simp only [exec, PV.apply, v.data]
    rw [show (List.map (fun e : Entry K V => e.obj.map (·.1)) a.entries) =
      List.map ((fun o => Option.map (fun x : Nat × V => x.1) o) ∘ fun x => x.obj) a.entries from rfl, this]
    rfl
  | size => cases hi; exact ⟨w, by simp only [exec, PV.size, hsz], v⟩
  | clear =>
    cases hi
    obtain ⟨h', e, o, n⟩ := v.own.deleteAll
    rw [List.map_map] at e
    refine ⟨⟨⟨[], []⟩, h'⟩, ?_, rfl, .nil, o, n.trans v.next⟩
    simp only [exec, PV.clear, v.data]
    rw [show (List.map (fun e : Entry K V => e.obj.map (·.1)) a.entries) =
      List.map ((fun o => Option.map (fun x : Nat × V => x.1) o) ∘ fun x => x.obj) a.entries from rfl, e]
    rfl

theorem simulate (ops : List (Op K V)) : ∀ {w : World K V} {a : Ideal K V}, Inv w a →
    carefulRun unset a ops = true → ∀ {a' os}, idealRun a ops = some (a', os) →
    ∃ w', run I unset w ops = some (w', os) ∧ Inv w' a' := by
  induction ops with
  | nil => intro w a v _ a' os hi; cases hi; exact ⟨w, rfl, v⟩
  | cons op ops ih =>
    intro w a v hc a' os hi
    simp only [idealRun, Option.bind_eq_some_iff, Option.map_eq_some_iff] at hi
    obtain ⟨⟨a1, o⟩, h1, ⟨a2, os2⟩, h2, h3⟩ := hi
    cases h3
    simp only [carefulRun, h1, Bool.and_eq_true] at hc
    obtain ⟨w1, e1, v1⟩ := step (I := I) v hc.1 h1
    obtain ⟨w2, e2, v2⟩ := ih v1 hc.2 h2
    exact ⟨w2, by simp only [run, e1, Option.bind_some, e2, Option.map_some], v2⟩

end Verif.Mapped.Pointer
