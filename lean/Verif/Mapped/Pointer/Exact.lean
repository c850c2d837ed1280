import Verif.Mapped.Pointer.ExactSpec
import Verif.Mapped.Pointer.Lemmas
import Verif.Mapped.Vector.Exact

/-
Helper lemmas for C129: MappedPointerVector in every history.
-/
namespace Verif.Mapped.Pointer
open Verif.Mapped

variable {K V : Type} [DecidableEq K] {I : MapImpl K} {unset : Option K}

/-- the container is the described one -/
structure Abs (w : World K V) (a : Actual K V) : Prop where
  data : w.pv.data = a.objs.map fun o => o.map (·.1)
  wf : FMap.WF w.pv.lookup
  index : ∀ k, FMap.find w.pv.lookup k = a.index k
  le : ∀ k i, a.index k = some i → i ≤ a.objs.length
  own : Own w.heap a.objs
  next : w.heap.next = a.made

variable {w : World K V} {a : Actual K V}

theorem Abs.init : Abs (World.init : World K V) Actual.empty :=
  ⟨rfl, .nil, fun _ => rfl, (fun _ _ h => by cases h), .nil, rfl⟩

theorem Abs.size (v : Abs w a) : w.pv.data.length = a.objs.length := by rw [v.data, List.length_map]

theorem Abs.obj_at (v : Abs w a) {i : Nat} (hi : i < a.objs.length) :
    w.pv.data[i]? = some (a.objs[i].map (·.1)) ∧ w.heap.read (a.objs[i].map (·.1)) = some a.objs[i] :=
  ⟨by rw [v.data]; simp [List.getElem?_eq_getElem hi], v.own.read (List.getElem_mem hi)⟩

theorem Abs.append (v : Abs w a) (x : Option V) :
    Abs ⟨⟨w.pv.data ++ [(w.heap.makeOpt x).2], w.pv.lookup⟩, (w.heap.makeOpt x).1⟩ (a.append x) := by
  refine ⟨?_, v.wf, v.index, fun k i h => Nat.le_trans (v.le k i h) (by simp [Actual.append]), ?_, ?_⟩
  · simp only [Actual.append, List.map_append, List.map_cons, List.map_nil, v.data, Own.makeOpt_name, v.next]
  · simpa [Actual.append, v.next] using v.own.append x
  · simp only [Actual.append]; rw [Own.makeOpt_next, v.next]

theorem Abs.bind (v : Abs w a) {k : K} {i : Nat} (hk : a.index k = none) (hi : i ≤ a.objs.length) :
    Abs ⟨⟨w.pv.data, (FMap.emplace I w.pv.lookup k i).1⟩, w.heap⟩ (a.bind k i) := by
  refine ⟨v.data, FMap.emplace_wf v.wf k i, fun k' => ?_, fun k' j h => ?_, v.own, v.next⟩
  · rw [FMap.find_emplace v.wf, v.index, v.index, hk]
    simp [Actual.bind]
  · simp only [Actual.bind] at h
    split at h
    · cases h; exact hi
    · exact v.le _ _ h

theorem Abs.new (v : Abs w a) {k : K} (x : Option V) (hk : a.index k = none) :
    Abs ⟨⟨w.pv.data ++ [(w.heap.makeOpt x).2], (FMap.emplace I w.pv.lookup k w.pv.data.length).1⟩, (w.heap.makeOpt x).1⟩
      ((a.append x).bind k a.objs.length) := by
  have := (v.append x).bind (I := I) (k := k) (i := a.objs.length) hk (by simp [Actual.append])
  rw [v.size]; exact this

theorem Abs.assign (v : Abs w a) {i : Nat} (hi : i < a.objs.length) (x : Option V) :
    ∃ h', w.pv.assignAt (w.heap.makeOpt x).1 i (w.heap.makeOpt x).2 =
        some (⟨w.pv.data.set i (w.heap.makeOpt x).2, w.pv.lookup⟩, h') ∧
      Abs ⟨⟨w.pv.data.set i (w.heap.makeOpt x).2, w.pv.lookup⟩, h'⟩ (a.assign i x) := by
  obtain ⟨h', e, o⟩ := Own.set_of_append (i := i) (o := a.objs[i]) (List.getElem?_eq_getElem hi) (v.own.append x)
  refine ⟨h', ?_, ?_, v.wf, v.index, fun k j h => Nat.le_trans (v.le k j h) (by simp [Actual.assign]), ?_, ?_⟩
  · simp only [PV.assignAt, (v.obj_at hi).1, Option.bind_some, e, Option.map_some]
  · simp only [Actual.assign]
    rw [List.map_set, v.data, Own.makeOpt_name, v.next]
  · simp only [Actual.assign]
    rw [← v.next]; exact o
  · simp only [Actual.assign]
    rw [Own.delete_next e, Own.makeOpt_next, v.next]

/-- taking out an object and forgetting a term -/
theorem Abs.takeOut (v : Abs w a) {i : Nat} (hi : i < a.objs.length) (k : K) :
    ∃ h', w.pv.eraseAt w.heap i = some (w.pv.data.eraseIdx i, h') ∧
      Abs ⟨⟨w.pv.data.eraseIdx i, FMap.erase (w.pv.lookup.map fun e => (e.1, if e.2 > i then e.2 - 1 else e.2)) k⟩, h'⟩
        ((a.takeOut i).forget k) := by
  obtain ⟨h', e, o⟩ := v.own.erase (i := i) (o := a.objs[i]) (List.getElem?_eq_getElem hi)
  have hwf := FMap.mapVal_wf v.wf (fun j => if j > i then j - 1 else j)
  refine ⟨h', ?_, ?_, FMap.erase_wf hwf k, fun k' => ?_, fun k' j hj => ?_, o, (Own.delete_next e).trans v.next⟩
  · simp only [PV.eraseAt, (v.obj_at hi).1, Option.bind_some, e, Option.map_some]
  · show w.pv.data.eraseIdx i = _
    rw [v.data, List.eraseIdx_map]; rfl
  · rw [FMap.find_erase hwf, FMap.find_mapVal v.wf (fun j => if j > i then j - 1 else j), v.index]
    simp only [Actual.forget, Actual.takeOut]
  · simp only [Actual.forget, Actual.takeOut] at hj ⊢
    split at hj
    · cases hj
    · simp only [Option.map_eq_some_iff] at hj
      obtain ⟨j0, h1, h2⟩ := hj
      have := v.le _ _ h1
      rw [List.length_eraseIdx_of_lt hi]
      split at h2 <;> omega

/-- every safe call does what the description says -/
theorem exact_step (v : Abs w a) {op : Op K V} (hs : safe unset a op) :
    ∃ w' a' o, exec I unset w op = some (w', o) ∧ Step unset a op a' o ∧ Abs w' a' := by
  have hsz := v.size
  cases op with
  | insertPtr k x =>
    simp only [exec, PV.insertPtr, Step, v.index]
    cases hf : a.index k with
    | some i =>
      obtain ⟨h', e, o, n⟩ := v.own.makeDelete x
      exact ⟨⟨w.pv, h'⟩, { a with made := a.made + count x }, _, by simp [e], ⟨rfl, rfl⟩, v.data, v.wf, v.index, v.le, o,
        by rw [n, v.next]⟩
    | none => exact ⟨_, _, _, by simp [hsz], ⟨rfl, rfl⟩, hsz ▸ v.new (I := I) x hf⟩
  | insert k x =>
    simp only [exec, PV.insert, Step, v.index]
    cases hf : a.index k with
    | some i => exact ⟨w, a, _, rfl, ⟨rfl, rfl⟩, v⟩
    | none => exact ⟨_, _, _, by simp [hsz]; exact ⟨rfl, rfl⟩, ⟨rfl, rfl⟩, hsz ▸ v.new (I := I) (some x) hf⟩
  | insertNoKey x =>
    exact ⟨_, _, _, by simp [exec, PV.insertNoKey, hsz]; exact ⟨rfl, rfl⟩, ⟨rfl, rfl⟩, v.append (some x)⟩
  | assignPtr k x =>
    simp only [exec, PV.insertOrAssignPtr, Step, v.index]
    cases hf : a.index k with
    | some i =>
      obtain ⟨h', e, r⟩ := v.assign (hs i hf) x
      exact ⟨_, _, _, by simp only [e, Option.map_some], ⟨rfl, rfl⟩, r⟩
    | none => exact ⟨_, _, _, by simp [hsz], ⟨rfl, rfl⟩, hsz ▸ v.new (I := I) x hf⟩
  | assign k x =>
    simp only [exec, PV.insertOrAssign, Step, v.index]
    cases hf : a.index k with
    | some i =>
      obtain ⟨h', e, r⟩ := v.assign (hs i hf) (some x)
      simp only [Objs.makeOpt] at e r
      exact ⟨_, _, _, by simp only [e, Option.map_some], ⟨rfl, rfl⟩, r⟩
    | none => exact ⟨_, _, _, by simp [hsz]; exact ⟨rfl, rfl⟩, ⟨rfl, rfl⟩, hsz ▸ v.new (I := I) (some x) hf⟩
  | find k =>
    simp only [exec, PV.find, Step, v.index]
    cases hf : a.index k with
    | none => exact ⟨w, a, _, rfl, ⟨rfl, rfl⟩, v⟩
    | some i =>
      have hl := hs i hf
      refine ⟨w, a, .ptr a.objs[i], ?_, ⟨rfl, by simp [List.getElem?_eq_getElem hl]⟩, v⟩
      simp only [(v.obj_at hl).1, Option.bind_some, (v.obj_at hl).2, Option.map_some]
  | get i =>
    refine ⟨w, a, _, ?_, ⟨rfl, rfl⟩, v⟩
    simp only [exec, PV.get, hsz]
    by_cases hl : i < a.objs.length
    · simp only [if_pos hl, (v.obj_at hl).1, Option.bind_some, (v.obj_at hl).2, Option.map_some,
        List.getElem?_eq_getElem hl, id]
    · rw [if_neg hl, List.getElem?_eq_none (by omega)]; rfl
  | write i x =>
    simp only [safe, Option.isSome_iff_exists, Option.bind_eq_some_iff] at hs
    obtain ⟨⟨p, y⟩, o, h1, h2⟩ := hs
    obtain rfl : o = some (p, y) := h2
    obtain ⟨hl, hg⟩ := List.getElem?_eq_some_iff.1 h1
    obtain ⟨h', e, o, n⟩ := v.own.write h1 x
    refine ⟨⟨w.pv, h'⟩, { a with objs := a.objs.set i (some (p, x)) }, .done, ?_, ⟨(p, y), by simp [h1], rfl, rfl⟩, ?_, v.wf,
      v.index, fun k j h => Nat.le_trans (v.le k j h) (by simp), o, n.trans v.next⟩
    · simp only [exec, PV.get, hsz, if_pos hl, (v.obj_at hl).1, Option.bind_some, hg, Option.map_some, e]
    · simp only
      rw [List.map_set, v.data]
      apply List.ext_getElem?
      intro j
      rw [List.getElem?_set]
      split
      · rename_i hij; subst hij
        rw [List.getElem?_map, h1, List.length_map, if_pos hl]; rfl
      · rfl
  | back =>
    refine ⟨w, a, .ptr (a.objs.getLast hs), ?_, ⟨rfl, by simp [List.getLast?_eq_some_getLast hs]⟩, v⟩
    have hb : w.pv.data.getLast? = some ((a.objs.getLast hs).map (·.1)) := by
      rw [v.data, List.getLast?_map, List.getLast?_eq_some_getLast hs]; rfl
    simp only [exec, PV.back, hb, Option.bind_some, v.own.read (List.getLast_mem hs), Option.map_some]
  | addTerm k i =>
    simp only [exec, PV.addSearchTermForIndex, hsz, Step]
    by_cases hl : i < a.objs.length
    · rw [if_pos hl]
      cases hf : a.index k with
      | some j =>
        refine ⟨w, a, .bool false, ?_, ?_, v⟩
        · simp [FMap.emplace, v.index, hf]
        · rw [if_neg (by simp)]; exact ⟨rfl, rfl⟩
      | none =>
        refine ⟨_, a.bind k i, .bool true, ?_, ?_, v.bind (I := I) hf (Nat.le_of_lt hl)⟩
        · simp [FMap.emplace, v.index, hf]
        · rw [if_pos ⟨hl, rfl⟩]; exact ⟨rfl, rfl⟩
    · rw [if_neg hl]
      refine ⟨w, a, .bool false, rfl, ?_, v⟩
      rw [if_neg (by simp [hl])]; exact ⟨rfl, rfl⟩
  | removeIndex i =>
    simp only [exec, PV.removeIndex, hsz, Step]
    by_cases hl : i < a.objs.length
    · simp only [if_pos hl]
      rw [if_neg (by omega)]
      have hpick := Vector.shiftLoop_pick true i w.pv.lookup unset
      obtain ⟨k, hk, hk1, hk2⟩ : ∃ k, (Vector.MV.shiftLoop true i w.pv.lookup unset).2 = some k ∧
          ((∃ k', a.index k' = some i) → a.index k = some i) ∧ ((∀ k', a.index k' ≠ some i) → unset = some k) := by
        by_cases hx : ∃ k', a.index k' = some i
        · obtain ⟨k', hk'⟩ := hx
          obtain ⟨e, h1, h2, h3⟩ := hpick.1 ⟨(k', i), (FMap.find_eq_some v.wf).1 ((v.index k').trans hk'), rfl⟩
          refine ⟨e.1, h3, fun _ => ?_, fun h => absurd hk' (h k')⟩
          rw [← v.index, FMap.find_eq_some v.wf, ← h2]; exact h1
        · have hu : unset ≠ none := (hs hl).resolve_left hx
          obtain ⟨u, hu⟩ := Option.ne_none_iff_exists'.1 hu
          refine ⟨u, ?_, fun h => absurd h hx, fun _ => hu⟩
          rw [hpick.2 fun e he h => hx ⟨e.1, by rw [← v.index, FMap.find_eq_some v.wf, ← h]; exact he⟩, hu]
      obtain ⟨h', e, r⟩ := v.takeOut hl k
      refine ⟨_, _, .done, ?_, ⟨k, hk1, hk2, rfl, rfl⟩, r⟩
      simp only [e, Option.bind_some, Vector.shiftLoop_fst, hk, Option.map_some, if_true]
      rw [Vector.erase_if_present]
      rfl
    · rw [if_pos (by omega)]
      simp only [if_neg hl]
      exact ⟨w, a, _, rfl, ⟨rfl, rfl⟩, v⟩
  | remove k =>
    simp only [exec, PV.remove, Step, v.index]
    cases hf : a.index k with
    | none => exact ⟨w, a, _, rfl, ⟨rfl, rfl⟩, v⟩
    | some i =>
      obtain ⟨h', e, r⟩ := v.takeOut (hs i hf) k
      exact ⟨_, _, _, by simp only [e, Option.map_some], ⟨rfl, rfl⟩, r⟩
  | apply =>
    refine ⟨w, a, _, ?_, ⟨rfl, rfl⟩, v⟩
    simp only [exec, PV.apply, v.data, v.own.readAll, Option.map_some]
  | size => exact ⟨w, a, _, by simp only [exec, PV.size, hsz], ⟨rfl, rfl⟩, v⟩
  | clear =>
    obtain ⟨h', e, o, n⟩ := v.own.deleteAll
    refine ⟨⟨⟨[], []⟩, h'⟩, { a with objs := [], index := fun _ => none }, .done, ?_, ⟨rfl, rfl⟩, rfl, .nil, fun _ => rfl, by simp, o, n.trans v.next⟩
    simp only [exec, PV.clear, v.data, e, Option.map_some]

/-- a call that is not safe has undefined behaviour -/
theorem unsafe_undefined (v : Abs w a) {op : Op K V} (hs : ¬ safe unset a op) : exec I unset w op = none := by
  have hsz := v.size
  have gone : ∀ {i}, ¬ i < a.objs.length → w.pv.data[i]? = none := fun h => List.getElem?_eq_none (by omega)
  cases op with
  | write i x =>
    simp only [safe, Bool.not_eq_true, Option.isSome_eq_false_iff, Option.isNone_iff_eq_none] at hs
    simp only [exec, PV.get, hsz]
    by_cases hl : i < a.objs.length
    · simp only [List.getElem?_eq_getElem hl, Option.bind_some, id] at hs
      simp only [if_pos hl, (v.obj_at hl).1, Option.bind_some, hs, Option.map_none, Option.bind_none]
    · simp [hl]
  | back =>
    simp only [safe, ne_eq, Decidable.not_not] at hs
    simp [exec, PV.back, v.data, hs]
  | assignPtr k x =>
    simp only [safe, not_forall] at hs
    obtain ⟨i, h1, h2⟩ := hs
    simp [exec, PV.insertOrAssignPtr, PV.assignAt, v.index, h1, gone h2]
  | assign k x =>
    simp only [safe, not_forall] at hs
    obtain ⟨i, h1, h2⟩ := hs
    simp [exec, PV.insertOrAssign, PV.assignAt, v.index, h1, gone h2]
  | find k =>
    simp only [safe, not_forall] at hs
    obtain ⟨i, h1, h2⟩ := hs
    simp [exec, PV.find, v.index, h1, gone h2]
  | remove k =>
    simp only [safe, not_forall] at hs
    obtain ⟨i, h1, h2⟩ := hs
    simp [exec, PV.remove, PV.eraseAt, v.index, h1, gone h2]
  | removeIndex i =>
    simp only [safe, not_forall, not_or, ne_eq, Decidable.not_not] at hs
    obtain ⟨h1, h2, h3⟩ := hs
    subst h3
    have hp := (Vector.shiftLoop_pick true i w.pv.lookup none).2 fun e he h => h2 ⟨e.1, by
      rw [← v.index, FMap.find_eq_some v.wf, ← h]; exact he⟩
    simp only [exec, PV.removeIndex, hsz, if_neg (Nat.not_le.2 h1), ge_iff_le, hp, Option.map_none]
    cases PV.eraseAt w.pv w.heap i <;> rfl
  | _ => exact absurd trivial hs

end Verif.Mapped.Pointer
