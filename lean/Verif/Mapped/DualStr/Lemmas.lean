import Verif.Mapped.Str.Lemmas
import Verif.Mapped.Dual.Lemmas
import Verif.Mapped.DualStr.Spec

/-
Helper lemmas for DualStringMappedVector: a careful call does what the call of a DualMappedVector with `std::string`
keys does.
-/
namespace Verif.Mapped.DualStr
open Verif.Mapped Verif.Block Verif.Block.Vector
open Verif.Mapped.Vector (Obs Ideal Entry MV)
open Verif.Mapped.Dual (DMV collect eraseAll attach assign ideal idealRun)
open Verif.Mapped.Str (Ctx View text SRep SRepC strings nameOf find_strings mem_find strings_erase)

/-! ### the temporary vectors -/

theorem fold_push {K : Type} (N : Nat) : ∀ (ks xs : List K) (s : Vec × Heap K) (r : Nat),
    StableLaws.Rep N s xs r → r = reservedFor N xs.length →
    ∃ s', ks.foldlM (stableStore N K).push s = some s' ∧
      StableLaws.Rep N s' (xs ++ ks) (reservedFor N (xs ++ ks).length)
  | [], xs, s, r, rep, hr => ⟨s, rfl, by simp only [List.append_nil]; exact hr ▸ rep⟩
  | k :: ks, xs, s, r, rep, hr => by
    obtain ⟨s1, e1, rep1, _⟩ := (stableLawful N K).push k rep
    obtain ⟨s2, e2, rep2⟩ := fold_push N ks (xs ++ [k]) s1 _ rep1 (by
      rw [hr, List.length_append]; rfl)
    refine ⟨s2, ?_, by rw [List.append_assoc] at rep2; exact rep2⟩
    rw [List.foldlM_cons, e1]; exact e2

theorem traverse_eq {K : Type} (N : Nat) (ks : List K)
    (h : Kind.iterable (.stable N) (reservedFor N ks.length) ks.length = true) : traverse N ks = some ks := by
  obtain ⟨s, e, rep⟩ := fold_push N ks [] _ 0 (stableStarts N K).start rfl
  rw [traverse, e]
  exact (stableLawful N K).all rep h

/-- Fewer terms than the first 64 blocks hold: nothing to worry about. -/
theorem reservedFor_small (N : Nat) : ∀ n, n ≤ 64 * 2 ^ N → reservedFor N n = if n = 0 then 0 else 64
  | 0, _ => rfl
  | n + 1, h => by
    have ih := reservedFor_small N n (by omega)
    rw [reservedFor, ih]
    simp only [Kind.reserve]
    by_cases h0 : n = 0
    · simp [h0]
    · rw [if_neg h0, if_neg (by omega)]; simp

theorem iterable_small (N n : Nat) (h : n < 64 * 2 ^ N) : Kind.iterable (.stable N) (reservedFor N n) n = true := by
  rw [reservedFor_small N n (by omega)]
  by_cases h0 : n = 0
  · simp [h0, Kind.iterable]
  · simp [h0, Kind.iterable, h]

variable {S K2 V : Type} [DecidableEq K2] {E : Env S K2 V}

/-- the DualMappedVector with the same storage and the strings as keys -/
abbrev DSV.base (E : Env S K2 V) (m : DSV S K2) (h : Heap String) : DMV S String K2 :=
  ⟨m.data, strings E.order h m.lookup1, m.lookup2⟩

/-- its parameters; `J`: order of the first map -/
abbrev Env.base (E : Env S K2 V) (J : MapImpl String) : Dual.Env S String K2 V := ⟨E.st, J, E.impl2⟩

/-- all views are good -/
def DSV.OkC (E : Env S K2 V) (X : Ctx E.order) (m : DSV S K2) (h : Heap String) : Prop :=
  SRepC E.hash X m.names h m.lookup1

/-- all views are good -/
abbrev DSV.Ok (E : Env S K2 V) (m : DSV S K2) (h : Heap String) : Prop := m.OkC E .none h

variable {X : Ctx E.order}

theorem collect_strings (N : Nat) (h : Heap String) (er : Bool) (index : Nat) : ∀ l : FMap View,
    collect er index (strings N h l) = (strings N h (collect er index l).1, (collect er index l).2.map (nameOf N h))
  | [] => rfl
  | e :: l => by
    have hs : strings N h (e :: l) = (nameOf N h e.1, e.2) :: strings N h l := rfl
    rw [hs, collect, collect, collect_strings N h er index l]
    split
    · rfl
    · split <;> rfl

theorem eraseViews_eq {names : Vec} {h : Heap String} {hash : String → Nat} {N : Nat} {X : Ctx N} : ∀ (vs : List View) (l : FMap View),
    SRepC hash X names h l → FMap.WF (strings N h l) → (∀ v ∈ vs, text N h v = some (nameOf N h v)) →
    ∃ l', eraseViews hash N h vs l = some l' ∧ strings N h l' = eraseAll (vs.map (nameOf N h)) (strings N h l) ∧
      ∀ v ∈ l'.map (·.1), v ∈ l.map (·.1)
  | [], l, _, _, _ => ⟨l, rfl, rfl, fun _ h => h⟩
  | v :: vs, l, w, wf, ht => by
    rw [eraseViews, ht v (by simp)]
    simp only [Option.bind_some, w.find_eq, List.map_cons, eraseAll, find_strings, Option.isSome_map]
    have hvs := fun u hu => ht u (List.mem_cons_of_mem _ hu)
    cases hf : l.find? fun e => decide (nameOf N h e.1 = nameOf N h v) with
    | none =>
      obtain ⟨l', e1, e2, e3⟩ := eraseViews_eq vs l w wf hvs
      exact ⟨l', e1, by rw [e2]; simp, e3⟩
    | some e =>
      obtain ⟨m1, m2⟩ := mem_find hf
      have hk : ∀ u ∈ (FMap.erase l e.1).map (·.1), u ∈ l.map (·.1) :=
        fun u hu => (List.Sublist.map _ List.filter_sublist).subset hu
      have he := strings_erase wf m1
      obtain ⟨l', e1, e2, e3⟩ := eraseViews_eq vs (FMap.erase l e.1) (w.keys hk) (by rw [he]; exact FMap.erase_wf wf _) hvs
      refine ⟨l', e1, ?_, fun u hu => hk u (e3 u hu)⟩
      rw [e2, he, m2]; simp

omit [DecidableEq K2] in
theorem addName1_lift {m : DSV S K2} {h : Heap String} (w : m.OkC E X h) (k : String) (i : Nat) :
    ∃ J n h', m.addName1 E h k i = some (n, h', ((m.base E h).emplace1 (E.base J) k i).2) ∧ n.OkC E X h' ∧
      n.base E h' = ((m.base E h).emplace1 (E.base J) k i).1 ∧ n.data = m.data ∧ n.lookup2 = m.lookup2 := by
  obtain ⟨names', h', v, e1, e2, e3, e4⟩ := SRepC.addName w k
  obtain ⟨J, l', f1, f2, f3⟩ := Str.emplace_eq (I := E.impl1) (l := m.lookup1) (v := v) (i := i)
    (e4 _ (by intro u hu; simp at hu ⊢; tauto)) e3
  refine ⟨J, { m with names := names', lookup1 := l' }, h', ?_, e4 _ f3, ?_, rfl, rfl⟩
  · simp only [DSV.addName1, e1, Option.bind_some, f1, Option.map_some, DMV.emplace1, e2]
  · simp only [DSV.base, DMV.emplace1, f2, e2]

theorem put_of_none {K : Type} [DecidableEq K] {I : MapImpl K} {m : FMap K} {k : K} {i : Nat} (h : FMap.find m k = none) :
    FMap.put I m k i = (FMap.emplace I m k i).1 := by
  simp [FMap.put, FMap.emplace, h]

/-- `add` for a new name is the end of DualMappedVector's insertion. -/
theorem add_lift {m : DSV S K2} {h : Heap String} (w : m.OkC E X h) (k1 : String) (k2 : K2) (x : V)
    (hk : FMap.find (strings E.order h m.lookup1) k1 = none) :
    ∃ J : MapImpl String, ∀ d, E.st.push m.data x = some d → ∃ n h', m.add E h k1 k2 x = some (n, h', E.st.size m.data) ∧ n.OkC E X h' ∧
      n.base E h' = ⟨d, FMap.put J (strings E.order h m.lookup1) k1 (E.st.size m.data),
        FMap.put E.impl2 m.lookup2 k2 (E.st.size m.data)⟩ := by
  by_cases hd : ∃ d, E.st.push m.data x = some d
  · obtain ⟨d, hd⟩ := hd
    have wd : DSV.OkC E X { m with data := d } h := w
    obtain ⟨J, n, h', e1, ok, e2, e3, e4⟩ := addName1_lift wd k1 (E.st.size m.data)
    refine ⟨J, fun d' hd' => ?_⟩
    rw [hd] at hd'; cases hd'
    refine ⟨{ n with lookup2 := FMap.put E.impl2 n.lookup2 k2 (E.st.size m.data) }, h', ?_, ok, ?_⟩
    · simp only [DSV.add, hd, Option.bind_some, e1, Option.map_some]
    · have e5 : strings E.order h' n.lookup1 = (FMap.emplace J (strings E.order h m.lookup1) k1 (E.st.size m.data)).1 :=
        congrArg DMV.lookup1 e2
      rw [put_of_none hk, ← e5]
      simp only [DSV.base, e4, e3]
  · exact ⟨MapImpl.atEnd, fun d h => absurd ⟨d, h⟩ hd⟩

omit [DecidableEq K2] in
theorem addFirst_lift {m : DSV S K2} {h : Heap String} (w : m.OkC E X h) (k1 : String) (x : V) :
    ∃ J : MapImpl String, ∀ d, E.st.push m.data x = some d → ∃ n h', m.addFirst E h k1 x = some (n, h', E.st.size m.data) ∧ n.OkC E X h' ∧
      n.base E h' = ⟨d, (FMap.emplace J (strings E.order h m.lookup1) k1 (E.st.size m.data)).1, m.lookup2⟩ := by
  by_cases hd : ∃ d, E.st.push m.data x = some d
  · obtain ⟨d, hd⟩ := hd
    have wd : DSV.OkC E X { m with data := d } h := w
    obtain ⟨J, n, h', e1, ok, e2, e3, e4⟩ := addName1_lift wd k1 (E.st.size m.data)
    refine ⟨J, fun d' hd' => ?_⟩
    rw [hd] at hd'; cases hd'
    exact ⟨n, h', by simp only [DSV.addFirst, hd, Option.bind_some, e1, Option.map_some], ok, e2⟩
  · exact ⟨MapImpl.atEnd, fun d h => absurd ⟨d, h⟩ hd⟩

theorem removeIndex_lift {m : DSV S K2} {h : Heap String} (w : m.OkC E X h) (wf : FMap.WF (strings E.order h m.lookup1)) (i : Nat)
    (ht : ∀ er, traverse E.order (collect er i m.lookup1).2 = some (collect er i m.lookup1).2 ∧
      traverse E.order (collect er i m.lookup2).2 = some (collect er i m.lookup2).2) (J : MapImpl String) :
    ∀ m', (m.base E h).removeIndex (E.base J) i = some m' → ∃ n, m.removeIndex E h i = some n ∧ n.OkC E X h ∧ n.base E h = m' := by
  intro m' he
  simp only [DMV.removeIndex] at he
  simp only [DSV.removeIndex]
  by_cases h1 : i ≥ E.st.size m.data
  · rw [if_pos h1] at he ⊢; cases he
    exact ⟨m, rfl, w, rfl⟩
  · rw [if_neg h1] at he ⊢
    obtain ⟨r, h2, h3⟩ := Option.map_eq_some_iff.1 he
    obtain ⟨t1, t2⟩ := ht r.2
    rw [collect_strings] at h3
    simp only [h2, Option.bind_some, t1, t2, Option.map_some]
    have hfst := Dual.collect_fst r.2 i m.lookup1
    have hks : (collect r.2 i m.lookup1).1.map (·.1) = m.lookup1.map (·.1) := by
      rw [hfst, List.map_map]; rfl
    have wl : SRepC E.hash X m.names h (collect r.2 i m.lookup1).1 :=
      SRepC.keys w (by rw [hks]; exact fun _ h => h)
    have wfl : FMap.WF (strings E.order h (collect r.2 i m.lookup1).1) := by
      rw [hfst, Str.strings_mapVal m.lookup1 (fun j => if r.2 = true then Binds.shift i j else j)]
      exact FMap.mapVal_wf wf (fun j => if r.2 = true then Binds.shift i j else j)
    have hvs : ∀ v ∈ (collect r.2 i m.lookup1).2, text E.order h v = some (nameOf E.order h v) := by
      intro v hv
      rw [Dual.collect_snd] at hv
      exact (SRepC.text w (List.mem_map.2 ⟨_, hv, rfl⟩)).1
    obtain ⟨l', e1, e2, e3⟩ := eraseViews_eq _ _ wl wfl hvs
    refine ⟨{ m with data := r.1, lookup1 := l', lookup2 := eraseAll (collect r.2 i m.lookup2).2 (collect r.2 i m.lookup2).1 },
      by rw [e1]; rfl, wl.keys e3, ?_⟩
    subst h3
    show DMV.mk _ (strings E.order h l') _ = _
    rw [e2]

/-- the temporary vectors of a removal of element `i` can be traversed -/
def Fit (E : Env S K2 V) (m : DSV S K2) (i : Nat) : Prop :=
  ∀ er, traverse E.order (collect er i m.lookup1).2 = some (collect er i m.lookup1).2 ∧
      traverse E.order (collect er i m.lookup2).2 = some (collect er i m.lookup2).2

set_option linter.unusedSimpArgs false in
/-- Every careful call does what the call of the DualMappedVector does, for some behaviour of its first map. -/
theorem lift {m : DSV S K2} {h : Heap String} (w : m.OkC E X h) (wf : FMap.WF (strings E.order h m.lookup1)) (op : Op K2 V)
    (hins : ∀ k1 k2 x, op = .insert (some k1) (some k2) x →
      FMap.find (strings E.order h m.lookup1) k1 = none ∨ (FMap.find m.lookup2 k2).isSome = true)
    (hfit : ∀ i, (op = .removeIndex i ∨ (∃ k, op = .remove (.inl k) ∧ FMap.find (strings E.order h m.lookup1) k = some i) ∨
      ∃ k, op = .remove (.inr k) ∧ FMap.find m.lookup2 k = some i) → i < E.st.size m.data → Fit E m i) :
    ∃ J, ∀ m' o, Dual.exec (E.base J) (m.base E h) op = some (m', o) →
      ∃ n h', exec E m h op = some (n, h', o) ∧ n.OkC E X h' ∧ n.base E h' = m' := by
  have hf := fun k => SRepC.find_eq w k
  have hs := fun k => find_strings (N := E.order) (h := h) m.lookup1 k
  have hrem : ∀ i, (i < E.st.size m.data → Fit E m i) → ∀ J m', (m.base E h).removeIndex (E.base J) i = some m' →
      ∃ n, m.removeIndex E h i = some n ∧ n.OkC E X h ∧ n.base E h = m' := by
    intro i hi J m' he
    by_cases hl : i < E.st.size m.data
    · exact removeIndex_lift w wf i (hi hl) J m' he
    · simp only [DMV.removeIndex] at he
      rw [if_pos (by omega)] at he; cases he
      exact ⟨m, by simp only [DSV.removeIndex]; rw [if_pos (by omega)], w, rfl⟩
  cases op with
  | insert o1 o2 x =>
    cases o1 with
    | none =>
      refine ⟨MapImpl.atEnd, fun m' o he => ?_⟩
      cases o2 with
      | none =>
        simp only [Dual.exec, DMV.insertNoKey, DSV.base, Env.base, Option.map_map, Option.map_eq_some_iff, Function.comp] at he
        obtain ⟨d, h2, h3⟩ := he
        cases h3
        exact ⟨{ m with data := d }, h, by simp [exec, DSV.insertNoKey, h2], w, rfl⟩
      | some k2 =>
        simp only [Dual.exec, DMV.insert2, DSV.base, Env.base] at he
        simp only [exec, DSV.insert2]
        split at he
        · rename_i h1
          rw [if_pos h1]; cases he
          exact ⟨m, h, rfl, w, rfl⟩
        · rename_i h1
          rw [if_neg h1]
          simp only [Option.map_map, Option.map_eq_some_iff, Function.comp] at he
          obtain ⟨d, h2, h3⟩ := he
          cases h3
          exact ⟨{ m with data := d, lookup2 := _ }, h, by simp only [h2, Option.map_some], w, rfl⟩
    | some k1 =>
      cases o2 with
      | none =>
        obtain ⟨J, hJ⟩ := addFirst_lift w k1 x
        refine ⟨J, fun m' o he => ?_⟩
        simp only [Dual.exec, DMV.insert1, DSV.base, Env.base, hs, Option.isSome_map] at he
        simp only [exec, DSV.insert1, hf, Option.bind_some]
        split at he
        · rename_i h1
          rw [if_pos h1]; cases he
          exact ⟨m, h, rfl, w, rfl⟩
        · rename_i h1
          rw [if_neg h1]
          simp only [Option.map_map, Option.map_eq_some_iff, Function.comp] at he
          obtain ⟨d, h2, h3⟩ := he
          cases h3
          obtain ⟨n, h', e1, e2, e3⟩ := hJ d h2
          exact ⟨n, h', by simp [e1], e2, e3⟩
      | some k2 =>
        by_cases hk : FMap.find (strings E.order h m.lookup1) k1 = none
        · obtain ⟨J, hJ⟩ := add_lift w k1 k2 x hk
          refine ⟨J, fun m' o he => ?_⟩
          simp only [Dual.exec, DMV.insert, DSV.base, Env.base, hs, Option.isSome_map] at he
          simp only [exec, DSV.insert, hf, Option.bind_some]
          split at he
          · rename_i h1
            rw [if_pos h1]; cases he
            exact ⟨m, h, rfl, w, rfl⟩
          · rename_i h1
            rw [if_neg h1]
            simp only [Option.map_map, Option.map_eq_some_iff, Function.comp] at he
            obtain ⟨d, h2, h3⟩ := he
            cases h3
            obtain ⟨n, h', e1, e2, e3⟩ := hJ d h2
            exact ⟨n, h', by simp [e1], e2, e3⟩
        · have h2 := (hins k1 k2 x rfl).resolve_left hk
          refine ⟨MapImpl.atEnd, fun m' o he => ?_⟩
          rw [hs] at hk
          have h1 : (m.lookup1.find? fun e => decide (nameOf E.order h e.1 = k1)).isSome = true := by
            cases hq : m.lookup1.find? fun e => decide (nameOf E.order h e.1 = k1) with
            | none => rw [hq] at hk; exact absurd rfl hk
            | some e => rfl
          simp only [Dual.exec, DMV.insert, DSV.base, Env.base, hs, Option.isSome_map] at he
          simp only [exec, DSV.insert, hf, Option.bind_some]
          rw [if_pos ⟨h1, h2⟩] at he ⊢
          cases he
          exact ⟨m, h, rfl, w, rfl⟩
  | insertOrAssign k1 k2 x =>
    cases hfd : m.lookup1.find? fun e => decide (nameOf E.order h e.1 = k1) with
    | some e =>
      refine ⟨MapImpl.atEnd, fun m' o he => ?_⟩
      simp only [Dual.exec, DMV.insertOrAssign, DSV.base, Env.base, hs, hfd, Option.map_some, Option.map_map,
        Option.map_eq_some_iff, Function.comp] at he
      obtain ⟨d, h2, h3⟩ := he
      cases h3
      exact ⟨{ m with data := d, lookup2 := _ }, h, by
        simp only [exec, DSV.insertOrAssign, hf, hfd, Option.bind_some, h2, Option.map_some]; rfl, w, rfl⟩
    | none =>
      obtain ⟨J, hJ⟩ := add_lift w k1 k2 x (by rw [hs, hfd]; rfl)
      refine ⟨J, fun m' o he => ?_⟩
      simp only [Dual.exec, DMV.insertOrAssign, DSV.base, Env.base, hs, hfd, Option.map_none, Option.map_map,
        Option.map_eq_some_iff, Function.comp] at he
      obtain ⟨d, h2, h3⟩ := he
      cases h3
      obtain ⟨n, h', e1, e2, e3⟩ := hJ d h2
      exact ⟨n, h', by simp only [exec, DSV.insertOrAssign, hf, hfd, Option.bind_some, e1, Option.map_some], e2, e3⟩
  | insertOrAssignOne k x =>
    cases k with
    | inl k =>
      obtain ⟨J, hJ⟩ := addFirst_lift w k x
      refine ⟨J, fun m' o he => ?_⟩
      simp only [Dual.exec, DMV.insertOrAssign1, DSV.base, Env.base, hs] at he
      simp only [exec, DSV.insertOrAssign1, hf, Option.bind_some]
      cases hfd : m.lookup1.find? fun e => decide (nameOf E.order h e.1 = k) with
      | some e =>
        simp only [hfd, Option.map_some, Option.map_map, Option.map_eq_some_iff, Function.comp] at he
        obtain ⟨d, h2, h3⟩ := he
        cases h3
        exact ⟨{ m with data := d }, h, by simp [h2], w, rfl⟩
      | none =>
        simp only [hfd, Option.map_none, Option.map_map, Option.map_eq_some_iff, Function.comp] at he
        obtain ⟨d, h2, h3⟩ := he
        cases h3
        obtain ⟨n, h', e1, e2, e3⟩ := hJ d h2
        exact ⟨n, h', by simp [e1], e2, e3⟩
    | inr k =>
      refine ⟨MapImpl.atEnd, fun m' o he => ?_⟩
      simp only [Dual.exec, DMV.insertOrAssign2, DSV.base, Env.base] at he
      simp only [exec, DSV.insertOrAssign2]
      cases hfd : FMap.find m.lookup2 k with
      | some i =>
        simp only [hfd, Option.map_map, Option.map_eq_some_iff, Function.comp] at he
        obtain ⟨d, h2, h3⟩ := he
        cases h3
        exact ⟨{ m with data := d }, h, by simp [h2], w, rfl⟩
      | none =>
        simp only [hfd, Option.map_map, Option.map_eq_some_iff, Function.comp] at he
        obtain ⟨d, h2, h3⟩ := he
        cases h3
        exact ⟨{ m with data := d, lookup2 := _ }, h, by simp only [h2, Option.map_some], w, rfl⟩
  | addTermForIndex k i =>
    cases k with
    | inl k =>
      obtain ⟨J, n, h', e1, ok, e2, _, _⟩ := addName1_lift w k i
      refine ⟨J, fun m' o he => ?_⟩
      simp only [Dual.exec, DMV.addTermForIndex1] at he
      simp only [exec, DSV.addTermForIndex1]
      split at he
      · rename_i h1
        rw [if_pos h1]; cases he
        exact ⟨n, h', by rw [e1]; rfl, ok, e2⟩
      · rename_i h1
        rw [if_neg h1]; cases he
        exact ⟨m, h, rfl, w, rfl⟩
    | inr k =>
      refine ⟨MapImpl.atEnd, fun m' o he => ?_⟩
      simp only [Dual.exec, DMV.addTermForIndex2] at he
      simp only [exec, DSV.addTermForIndex2]
      split at he
      · rename_i h1
        rw [if_pos h1]; cases he
        exact ⟨_, h, rfl, w, rfl⟩
      · rename_i h1
        rw [if_neg h1]; cases he
        exact ⟨m, h, rfl, w, rfl⟩
  | addTerm k ex =>
    cases k with
    | inl k =>
      cases ex with
      | inl ex =>
        cases hfd : m.lookup1.find? fun e => decide (nameOf E.order h e.1 = ex) with
        | none =>
          refine ⟨MapImpl.atEnd, fun m' o he => ?_⟩
          simp only [Dual.exec, DMV.addTerm11, hs, hfd, Option.map_none] at he
          cases he
          exact ⟨m, h, by simp only [exec, DSV.addTerm11, hf, hfd, Option.bind_some]; rfl, w, rfl⟩
        | some e =>
          obtain ⟨J, n, h', e1, ok, e2, _, _⟩ := addName1_lift w k e.2
          refine ⟨J, fun m' o he => ?_⟩
          simp only [Dual.exec, DMV.addTerm11, hs, hfd, Option.map_some] at he
          cases he
          exact ⟨n, h', by simp only [exec, DSV.addTerm11, hf, hfd, Option.bind_some, e1]; rfl, ok, e2⟩
      | inr ex =>
        cases hfd : FMap.find m.lookup2 ex with
        | none =>
          refine ⟨MapImpl.atEnd, fun m' o he => ?_⟩
          simp only [Dual.exec, DMV.addTerm12, hfd] at he
          cases he
          exact ⟨m, h, by simp only [exec, DSV.addTerm12, hfd]; rfl, w, rfl⟩
        | some i =>
          obtain ⟨J, n, h', e1, ok, e2, _, _⟩ := addName1_lift w k i
          refine ⟨J, fun m' o he => ?_⟩
          simp only [Dual.exec, DMV.addTerm12, hfd] at he
          cases he
          exact ⟨n, h', by simp only [exec, DSV.addTerm12, hfd, e1]; rfl, ok, e2⟩
    | inr k =>
      refine ⟨MapImpl.atEnd, fun m' o he => ?_⟩
      cases ex with
      | inl ex =>
        cases hfd : m.lookup1.find? fun e => decide (nameOf E.order h e.1 = ex) with
        | none =>
          simp only [Dual.exec, DMV.addTerm21, hs, hfd, Option.map_none] at he
          cases he
          exact ⟨m, h, by simp only [exec, DSV.addTerm21, hf, hfd, Option.map_some], w, rfl⟩
        | some e =>
          simp only [Dual.exec, DMV.addTerm21, hs, hfd, Option.map_some] at he
          cases he
          exact ⟨(m.emplace2 E k e.2).1, h, by simp only [exec, DSV.addTerm21, hf, hfd, Option.map_some]; rfl, w, rfl⟩
      | inr ex =>
        cases hfd : FMap.find m.lookup2 ex with
        | none =>
          simp only [Dual.exec, DMV.addTerm22, hfd] at he
          cases he
          exact ⟨m, h, by simp only [exec, DSV.addTerm22, hfd], w, rfl⟩
        | some i =>
          simp only [Dual.exec, DMV.addTerm22, hfd] at he
          cases he
          exact ⟨(m.emplace2 E k i).1, h, by simp only [exec, DSV.addTerm22, hfd]; rfl, w, rfl⟩
  | find k =>
    refine ⟨MapImpl.atEnd, fun m' o he => ?_⟩
    cases k with
    | inl k =>
      simp only [Dual.exec, DMV.find1, DSV.base, Env.base, hs, Option.map_eq_some_iff] at he
      obtain ⟨r, h2, h3⟩ := he
      cases h3
      refine ⟨m, h, ?_, w, rfl⟩
      simp only [exec, DSV.find1, hf, Option.bind_some]
      cases hfd : m.lookup1.find? fun e => decide (nameOf E.order h e.1 = k) with
      | some e => simp only [hfd, Option.map_some] at h2; simp [h2]
      | none => simp only [hfd, Option.map_none] at h2; simp [h2]
    | inr k =>
      simp only [Dual.exec, DMV.find2, DSV.base, Env.base, Option.map_eq_some_iff] at he
      obtain ⟨r, h2, h3⟩ := he
      cases h3
      refine ⟨m, h, ?_, w, rfl⟩
      have : m.find2 E k = some r := h2
      simp only [exec, this, Option.map_some]
  | removeIndex i =>
    refine ⟨MapImpl.atEnd, fun m' o he => ?_⟩
    simp only [Dual.exec, Option.map_eq_some_iff] at he
    obtain ⟨r, h2, h3⟩ := he
    cases h3
    obtain ⟨n, e1, ok, e2⟩ := hrem i (hfit i (.inl rfl)) MapImpl.atEnd _ h2
    exact ⟨n, h, by simp only [exec, e1, Option.map_some], ok, e2⟩
  | remove k =>
    refine ⟨MapImpl.atEnd, fun m' o he => ?_⟩
    cases k with
    | inl k =>
      simp only [Dual.exec, DMV.remove1, hs, Option.map_eq_some_iff] at he
      obtain ⟨r, h2, h3⟩ := he
      cases h3
      simp only [exec, DSV.remove1, hf, Option.bind_some]
      cases hfd : m.lookup1.find? fun e => decide (nameOf E.order h e.1 = k) with
      | none =>
        simp only [hfd, Option.map_none] at h2
        cases h2
        exact ⟨m, h, rfl, w, rfl⟩
      | some e =>
        simp only [hfd, Option.map_some] at h2
        obtain ⟨n, e1, ok, e2⟩ := hrem e.2 (hfit e.2 (.inr (.inl ⟨k, rfl, by rw [hs, hfd]; rfl⟩))) MapImpl.atEnd _ h2
        exact ⟨n, h, by simp only [e1, Option.map_some], ok, e2⟩
    | inr k =>
      simp only [Dual.exec, DMV.remove2, Option.map_eq_some_iff] at he
      obtain ⟨r, h2, h3⟩ := he
      cases h3
      simp only [exec, DSV.remove2]
      cases hfd : FMap.find m.lookup2 k with
      | none =>
        simp only [hfd] at h2
        cases h2
        exact ⟨m, h, rfl, w, rfl⟩
      | some i =>
        simp only [hfd] at h2
        obtain ⟨n, e1, ok, e2⟩ := hrem i (hfit i (.inr (.inr ⟨k, rfl, hfd⟩))) MapImpl.atEnd _ h2
        exact ⟨n, h, by simp only [e1, Option.map_some], ok, e2⟩
  | get i =>
    refine ⟨MapImpl.atEnd, fun m' o he => ?_⟩
    simp only [Dual.exec, DMV.get, DSV.base, Env.base, Option.map_eq_some_iff] at he
    obtain ⟨r, h2, h3⟩ := he
    cases h3
    exact ⟨m, h, by simp [exec, DSV.get, h2], w, rfl⟩
  | set i x =>
    refine ⟨MapImpl.atEnd, fun m' o he => ?_⟩
    simp only [Dual.exec, DMV.set, DSV.base, Env.base, Option.map_map, Option.map_eq_some_iff, Function.comp] at he
    obtain ⟨d, h2, h3⟩ := he
    cases h3
    exact ⟨{ m with data := d }, h, by simp [exec, DSV.set, h2], w, rfl⟩
  | «at» i =>
    refine ⟨MapImpl.atEnd, fun m' o he => ?_⟩
    simp only [Dual.exec, Option.map_eq_some_iff] at he
    obtain ⟨r, h2, h3⟩ := he
    cases h3
    have h2 : m.at? E i = some r := h2
    exact ⟨m, h, by cases r <;> simp [exec, h2], w, rfl⟩
  | back =>
    refine ⟨MapImpl.atEnd, fun m' o he => ?_⟩
    simp only [Dual.exec, DMV.back, DSV.base, Env.base, Option.map_eq_some_iff] at he
    obtain ⟨r, h2, h3⟩ := he
    cases h3
    exact ⟨m, h, by simp [exec, DSV.back, h2], w, rfl⟩
  | apply =>
    refine ⟨MapImpl.atEnd, fun m' o he => ?_⟩
    simp only [Dual.exec, DMV.apply, DSV.base, Env.base, Option.map_eq_some_iff] at he
    obtain ⟨r, h2, h3⟩ := he
    cases h3
    exact ⟨m, h, by simp [exec, DSV.apply, h2], w, rfl⟩
  | modify f =>
    refine ⟨MapImpl.atEnd, fun m' o he => ?_⟩
    simp only [Dual.exec, DMV.modify, DSV.base, Env.base, Option.map_map, Option.map_eq_some_iff, Function.comp] at he
    obtain ⟨r, h2, h3⟩ := he
    cases h3
    exact ⟨{ m with data := r.2 }, h, by simp [exec, DSV.modify, h2], w, rfl⟩
  | transform f =>
    refine ⟨MapImpl.atEnd, fun m' o he => ?_⟩
    simp only [Dual.exec, DMV.transform, DSV.base, Env.base, Option.map_map, Option.map_eq_some_iff, Function.comp] at he
    obtain ⟨r, h2, h3⟩ := he
    cases h3
    exact ⟨{ m with data := r.2 }, h, by simp [exec, DSV.transform, h2], w, rfl⟩
  | size =>
    refine ⟨MapImpl.atEnd, fun m' o he => ?_⟩
    simp only [Dual.exec, DMV.size, DSV.base, Env.base] at he
    cases he
    exact ⟨m, h, rfl, w, rfl⟩
  | clear =>
    refine ⟨MapImpl.atEnd, fun m' o he => ?_⟩
    simp only [Dual.exec, DMV.clear, DSV.base, Env.base, Option.map_map, Option.map_eq_some_iff, Function.comp] at he
    obtain ⟨d, h2, h3⟩ := he
    cases h3
    exact ⟨{ m with data := d, lookup1 := [], lookup2 := [] }, h, by simp [exec, DSV.clear, h2], SRepC.keys w (by simp), rfl⟩

/-! ### simulation -/

variable {kind : Kind} (L : Lawful E.st kind)

/-- The container represents the ideal one; no element has a search term twice. -/
structure InvC (X : Ctx E.order) (m : DSV S K2) (h : Heap String) (a : Ideal (String ⊕ K2) V) : Prop where
  ok : m.OkC E X h
  base : Dual.Inv (E := E.base MapImpl.atEnd) L (m.base E h) a
  nodup : ∀ e ∈ a.entries, e.keys.Nodup

/-- a container on its own -/
abbrev Inv (m : DSV S K2) (h : Heap String) (a : Ideal (String ⊕ K2) V) : Prop := InvC L .none m h a

variable {L}

omit [DecidableEq K2] in
theorem attach_nodup {K : Type} [DecidableEq K] {a : Ideal K V} (hs : ∀ e ∈ a.entries, e.keys.Nodup) (i : Nat) (k : K) :
    ∀ e ∈ (attach a i k).entries, e.keys.Nodup := by
  intro e he
  unfold attach at he
  obtain ⟨j, hj⟩ := List.mem_iff_getElem?.1 he
  rw [List.getElem?_modify, List.getElem?_map] at hj
  cases h0 : a.entries[j]? with
  | none => rw [h0] at hj; cases hj
  | some e0 =>
    have hn := hs e0 (List.mem_of_getElem? h0)
    rw [h0] at hj
    by_cases hij : i = j
    · simp only [Option.map_some, if_pos hij, Option.map_eq_map, Option.some.injEq] at hj
      subst hj
      simp only [List.nodup_cons]
      exact ⟨by simp, hn.filter _⟩
    · simp only [Option.map_some, if_neg hij, Option.map_eq_map, Option.some.injEq] at hj
      subst hj
      exact hn.filter _

omit [DecidableEq K2] in
theorem modify_nodup {K : Type} {l : List (Entry K V)} (hs : ∀ e ∈ l, e.keys.Nodup) (i : Nat)
    (f : Entry K V → Entry K V) (hf : ∀ e, (f e).keys = e.keys ∨ (f e).keys = []) :
    ∀ e ∈ l.modify i f, e.keys.Nodup := by
  intro e he
  obtain ⟨j, hj⟩ := List.mem_iff_getElem?.1 he
  rw [List.getElem?_modify] at hj
  obtain ⟨e0, h0, rfl⟩ := Option.map_eq_some_iff.1 hj
  have := hs e0 (List.mem_of_getElem? h0)
  split
  · rcases hf e0 with h | h <;> simp [h, this]
  · exact this

omit E in
theorem nodup_step {a a' : Ideal (String ⊕ K2) V} {op : Op K2 V} {o : Obs V} (hs : ∀ e ∈ a.entries, e.keys.Nodup)
    (hi : ideal kind a op = some (a', o)) : ∀ e ∈ a'.entries, e.keys.Nodup := by
  have happ : ∀ (x : V) (ks : List (String ⊕ K2)), ks.Nodup → ∀ e ∈ (a.append kind x ks).entries, e.keys.Nodup := by
    intro x ks hk e he
    simp only [Ideal.append, List.mem_append, List.mem_singleton] at he
    rcases he with he | rfl
    · exact hs e he
    · exact hk
  have hdrop : ∀ i, ∀ e ∈ (a.drop kind i).entries, e.keys.Nodup := by
    intro i e he
    unfold Ideal.drop at he
    split at he
    · exact modify_nodup hs i _ (fun e => .inr rfl) e he
    · exact hs e (List.mem_of_mem_eraseIdx he)
  have hass : ∀ i x, ∀ e ∈ (assign a i x).entries, e.keys.Nodup := fun i x => modify_nodup hs i _ fun e => .inl rfl
  have hmap : ∀ f : V → V, ∀ e ∈ a.entries.map (fun e => ({ e with value := f e.value } : Entry (String ⊕ K2) V)), e.keys.Nodup := by
    intro f e he
    obtain ⟨e0, h0, rfl⟩ := List.mem_map.1 he
    exact hs e0 h0
  cases op with
  | insert o1 o2 x =>
    cases o1 <;> cases o2 <;> simp only [ideal] at hi
    · cases hi; exact happ _ _ (by simp)
    · split at hi <;> cases hi; exacts [hs, happ _ _ (by simp)]
    · split at hi <;> cases hi; exacts [hs, happ _ _ (by simp)]
    · split at hi <;> cases hi; exacts [hs, attach_nodup (attach_nodup (happ _ _ (by simp)) _ _) _ _]
  | insertOrAssign k1 k2 x =>
    simp only [ideal] at hi
    split at hi <;> cases hi
    exacts [attach_nodup (hass _ _) _ _, attach_nodup (attach_nodup (happ _ _ (by simp)) _ _) _ _]
  | insertOrAssignOne k x =>
    simp only [ideal] at hi
    split at hi <;> cases hi
    exacts [hass _ _, happ _ _ (by simp)]
  | addTermForIndex k i =>
    simp only [ideal] at hi
    split at hi <;> cases hi
    exacts [attach_nodup hs _ _, hs]
  | addTerm k ex =>
    simp only [ideal] at hi
    split at hi
    · split at hi <;> cases hi
      exacts [attach_nodup hs _ _, hs]
    · cases hi; exact hs
  | find k => cases hi; exact hs
  | removeIndex i => simp only [ideal] at hi; split at hi <;> cases hi; exacts [hdrop _, hs]
  | remove k => simp only [ideal] at hi; split at hi <;> cases hi; exacts [hdrop _, hs]
  | get i => simp only [ideal] at hi; obtain ⟨_, _, h3⟩ := Option.map_eq_some_iff.1 hi; cases h3; exact hs
  | set i x => simp only [ideal] at hi; split at hi <;> cases hi; exact hass _ _
  | «at» i => cases hi; exact hs
  | back => simp only [ideal] at hi; obtain ⟨_, _, h3⟩ := Option.map_eq_some_iff.1 hi; cases h3; exact hs
  | apply => cases hi; exact hs
  | modify f => cases hi; exact hmap f
  | transform f => cases hi; exact hmap f
  | size => cases hi; exact hs
  | clear => cases hi; simp

/-- the number of keys collected in a removal -/
theorem collect_length {K : Type} [DecidableEq K] {m : FMap K} (w : FMap.WF m) (er : Bool) (i : Nat) {ks : List K}
    (hn : ks.Nodup) (h : ∀ k, k ∈ ks ↔ FMap.find m k = some i) : (collect er i m).2.length = ks.length := by
  have hsub : ∀ m : FMap K, ((collect er i m).2).Sublist (m.map (·.1)) := by
    intro m
    induction m with
    | nil => exact .slnil
    | cons e m ih =>
      rw [collect, List.map_cons]
      split
      · exact ih.cons _
      · split
        · exact ih.cons_cons _
        · exact ih.cons _
  apply List.Perm.length_eq
  rw [List.perm_ext_iff_of_nodup (List.Nodup.sublist (hsub m) w) hn]
  intro k
  rw [Dual.collect_snd, h, FMap.find_eq_some w]

theorem fit_of_fits {m : DSV S K2} {h : Heap String} {a : Ideal (String ⊕ K2) V} (v : InvC L X m h a) {i : Nat}
    {e : Entry (String ⊕ K2) V} (hi : a.entries[i]? = some e) (hf : fits E.order e = true) : Fit E m i := by
  intro er
  have hn := v.nodup e (List.mem_of_getElem? hi)
  have w := Dual.join_wf.1 v.base.binds.wf
  simp only [fits, Bool.and_eq_true] at hf
  have hlk : ∀ k, a.lookup k = some i ↔ k ∈ e.keys := by
    intro k
    rw [Dual.lookup_iff v.base k i]
    constructor
    · rintro ⟨e', h1, h2⟩; rw [hi] at h1; cases h1; exact h2
    · exact fun h => ⟨e, hi, h⟩
  have l1 : (collect er i m.lookup1).2.length = (e.keys.filterMap Sum.getLeft?).length := by
    have := collect_length w.1 er i (ks := e.keys.filterMap Sum.getLeft?)
      (hn.filterMap (by intro x y z hx hy; cases x <;> cases y <;> simp_all)) (by
        intro k
        rw [← Dual.lookup_inl v.base, hlk]
        simp only [List.mem_filterMap]
        constructor
        · rintro ⟨x, h1, h2⟩; cases x <;> simp_all
        · exact fun h => ⟨_, h, rfl⟩)
    rw [← this, collect_strings, List.length_map]
  have l2 : (collect er i m.lookup2).2.length = (e.keys.filterMap Sum.getRight?).length :=
    collect_length w.2 er i (ks := e.keys.filterMap Sum.getRight?)
      (hn.filterMap (by intro x y z hx hy; cases x <;> cases y <;> simp_all)) (by
        intro k
        rw [← Dual.lookup_inr v.base, hlk]
        simp only [List.mem_filterMap]
        constructor
        · rintro ⟨x, h1, h2⟩; cases x <;> simp_all
        · exact fun h => ⟨_, h, rfl⟩)
  exact ⟨traverse_eq _ _ (by rw [l1]; exact hf.1), traverse_eq _ _ (by rw [l2]; exact hf.2)⟩

theorem careful_base {N : Nat} {a : Ideal (String ⊕ K2) V} {op : Op K2 V} (hc : careful N kind a op = true) :
    Dual.careful kind a op = true := by
  cases op with
  | insert o1 o2 x => rfl
  | removeIndex i => rfl
  | remove k => rfl
  | _ => exact hc

theorem step {m : DSV S K2} {h : Heap String} {a : Ideal (String ⊕ K2) V} (v : InvC L X m h a) {op : Op K2 V}
    (hc : careful E.order kind a op = true) {a' : Ideal (String ⊕ K2) V} {o : Obs V} (hi : ideal kind a op = some (a', o)) :
    ∃ m' h', exec E m h op = some (m', h', o) ∧ InvC L X m' h' a' := by
  have w := Dual.join_wf.1 v.base.binds.wf
  have hsz : E.st.size m.data = a.entries.length := v.base.size_eq
  obtain ⟨J, hJ⟩ := lift v.ok w.1 op (by
      rintro k1 k2 x rfl
      simp only [careful, Bool.or_eq_true] at hc
      rcases hc with hc | hc
      · left
        rw [← Dual.lookup_inl v.base k1]; simpa using hc
      · right
        rw [← Dual.lookup_inr v.base k2]; exact hc)
    (by
      intro i hop hl
      rw [hsz] at hl
      refine fit_of_fits v (List.getElem?_eq_getElem hl) ?_
      rcases hop with rfl | ⟨k, rfl, hk⟩ | ⟨k, rfl, hk⟩
      · simp only [careful, List.getElem?_eq_getElem hl] at hc; exact hc
      · rw [← Dual.lookup_inl v.base k] at hk
        simp only [careful, hk, Option.bind_some, List.getElem?_eq_getElem hl] at hc; exact hc
      · rw [← Dual.lookup_inr v.base k] at hk
        simp only [careful, hk, Option.bind_some, List.getElem?_eq_getElem hl] at hc; exact hc)
  have vb : Dual.Inv (E := E.base J) L (m.base E h) a := ⟨v.base.rep, v.base.binds⟩
  obtain ⟨m1, e1, v1, _⟩ := Dual.step vb (careful_base hc) hi
  obtain ⟨n, h', e2, ok, rfl⟩ := hJ m1 o e1
  exact ⟨n, h', e2, ok, ⟨v1.rep, v1.binds⟩, nodup_step v.nodup hi⟩

theorem InvC.init (h0 : L.Starts) : Inv L (DSV.init E) Heap.empty ⟨[], 0⟩ :=
  ⟨SRepC.init, Dual.init_inv (E := E.base MapImpl.atEnd) ⟨h0.start⟩, by simp⟩

theorem simulate (ops : List (Op K2 V)) : ∀ {m : DSV S K2} {h : Heap String} {a : Ideal (String ⊕ K2) V}, Inv L m h a →
    carefulRun E.order kind a ops = true → ∀ {a' os}, idealRun kind a ops = some (a', os) →
    ∃ m' h', run E m h ops = some (m', h', os) ∧ Inv L m' h' a' := by
  induction ops with
  | nil => intro m h a v _ a' os hi; cases hi; exact ⟨m, h, rfl, v⟩
  | cons op ops ih =>
    intro m h a v hc a' os hi
    simp only [idealRun, Option.bind_eq_some_iff, Option.map_eq_some_iff] at hi
    obtain ⟨⟨a1, o⟩, h1, ⟨a2, os2⟩, h2, h3⟩ := hi
    cases h3
    simp only [carefulRun, h1, Bool.and_eq_true] at hc
    obtain ⟨m1, hh1, e1, v1⟩ := step v hc.1 h1
    obtain ⟨m2, hh2, e2, v2⟩ := ih v1 hc.2 h2
    exact ⟨m2, hh2, by simp only [run, e1, Option.bind_some, e2, Option.map_some], v2⟩

end Verif.Mapped.DualStr
