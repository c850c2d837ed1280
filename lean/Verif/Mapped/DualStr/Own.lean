import Verif.Mapped.Str.Own
import Verif.Mapped.DualStr.Lemmas

/-
Helper lemmas: no call leaves a key of the first map that is not a view of one of the container's own strings, and the
keys have different contents.
-/
namespace Verif.Mapped.DualStr
open Verif.Mapped Verif.Block Verif.Block.Vector
open Verif.Mapped.Vector (Obs Ideal)
open Verif.Mapped.Dual (DMV collect)
open Verif.Mapped.Str (View SRep SRepC strings)

variable {S K2 V : Type} [DecidableEq K2] {E : Env S K2 V}

omit [DecidableEq K2] in
/-- all keys are views of own strings, with different contents -/
structure DSV.Fine (E : Env S K2 V) (m : DSV S K2) (h : Heap String) : Prop where
  ok : m.Ok E h
  wf : FMap.WF (strings E.order h m.lookup1)

omit [DecidableEq K2] in
theorem DSV.Fine.other {m : DSV S K2} {h : Heap String} (f : m.Fine E h) (d : S) (l : FMap K2) :
    DSV.Fine E { m with data := d, lookup2 := l } h := ⟨f.ok, f.wf⟩

omit [DecidableEq K2] in
theorem DSV.Fine.addName1 {m : DSV S K2} {h : Heap String} (f : m.Fine E h) {k : String} {i : Nat}
    {r : DSV S K2 × Heap String × Bool} (he : m.addName1 E h k i = some r) : r.1.Fine E r.2.1 := by
  obtain ⟨J, n, h', e1, ok, e2, _, _⟩ := addName1_lift f.ok k i
  rw [he] at e1; cases e1
  refine ⟨ok, ?_⟩
  have : strings E.order h' n.lookup1 = _ := congrArg DMV.lookup1 e2
  rw [this]
  exact FMap.emplace_wf f.wf _ _

theorem DSV.Fine.add {m : DSV S K2} {h : Heap String} (f : m.Fine E h) {k1 : String} {k2 : K2} {x : V}
    {r : DSV S K2 × Heap String × Nat} (he : m.add E h k1 k2 x = some r) : r.1.Fine E r.2.1 := by
  simp only [DSV.add, Option.bind_eq_some_iff, Option.map_eq_some_iff] at he
  obtain ⟨d, _, q, h1, h2⟩ := he
  subst h2
  have := (f.other d m.lookup2).addName1 h1
  exact this.other _ _

omit [DecidableEq K2] in
theorem DSV.Fine.addFirst {m : DSV S K2} {h : Heap String} (f : m.Fine E h) {k1 : String} {x : V}
    {r : DSV S K2 × Heap String × Nat} (he : m.addFirst E h k1 x = some r) : r.1.Fine E r.2.1 := by
  simp only [DSV.addFirst, Option.bind_eq_some_iff, Option.map_eq_some_iff] at he
  obtain ⟨d, _, q, h1, h2⟩ := he
  subst h2
  exact (f.other d m.lookup2).addName1 h1

theorem eraseViews_sub {hash : String → Nat} {N : Nat} {h : Heap String} : ∀ (vs : List View) {l l' : FMap View},
    eraseViews hash N h vs l = some l' → FMap.WF (strings N h l) →
    FMap.WF (strings N h l') ∧ ∀ u ∈ l'.map (·.1), u ∈ l.map (·.1)
  | [], l, l', he, w => by cases he; exact ⟨w, fun _ h => h⟩
  | v :: vs, l, l', he, w => by
    simp only [eraseViews, Option.bind_eq_some_iff] at he
    obtain ⟨k, _, f, _, h3⟩ := he
    cases f with
    | none => exact eraseViews_sub vs h3 w
    | some e =>
      obtain ⟨w', hs⟩ := eraseViews_sub vs h3 (Str.strings_erase_wf w e.1)
      exact ⟨w', fun u hu => (List.Sublist.map _ List.filter_sublist).subset (hs u hu)⟩

theorem DSV.Fine.removeIndex {m m' : DSV S K2} {h : Heap String} (f : m.Fine E h) {i : Nat}
    (he : m.removeIndex E h i = some m') : m'.Fine E h := by
  simp only [DSV.removeIndex] at he
  split at he
  · cases he; exact f
  · simp only [Option.bind_eq_some_iff, Option.map_eq_some_iff] at he
    obtain ⟨q, _, ind1, _, l1, h1, ind2, _, h3⟩ := he
    subst h3
    have hfst := Dual.collect_fst q.2 i m.lookup1
    have hks : (collect q.2 i m.lookup1).1.map (·.1) = m.lookup1.map (·.1) := by rw [hfst, List.map_map]; rfl
    have wfl : FMap.WF (strings E.order h (collect q.2 i m.lookup1).1) := by
      rw [hfst, Str.strings_mapVal m.lookup1 (fun j => if q.2 = true then Binds.shift i j else j)]
      exact FMap.mapVal_wf f.wf (fun j => if q.2 = true then Binds.shift i j else j)
    obtain ⟨w', hs⟩ := eraseViews_sub ind1 h1 wfl
    exact ⟨SRepC.keys f.ok fun u hu => hks ▸ hs u hu, w'⟩

theorem Fine.step {m m' : DSV S K2} {h h' : Heap String} {o : Obs V} (f : m.Fine E h) {op : Op K2 V}
    (he : exec E m h op = some (m', h', o)) : m'.Fine E h' := by
  have hd : ∀ d, DSV.Fine E { m with data := d } h := fun d => f.other d m.lookup2
  have h2 : ∀ l, DSV.Fine E { m with lookup2 := l } h := fun l => f.other m.data l
  cases op with
  | insert o1 o2 x =>
    cases o1 <;> cases o2 <;> simp only [exec, Option.map_eq_some_iff] at he <;> obtain ⟨r, h1, h3⟩ := he <;> cases h3
    · obtain ⟨d, _, h4⟩ := Option.map_eq_some_iff.1 h1
      cases h4; exact hd d
    · simp only [DSV.insert2] at h1
      split at h1
      · cases h1; exact f
      · obtain ⟨d, _, h4⟩ := Option.map_eq_some_iff.1 h1
        cases h4; exact f.other _ _
    · simp only [DSV.insert1, Option.bind_eq_some_iff] at h1
      obtain ⟨g, _, h4⟩ := h1
      split at h4
      · cases h4; exact f
      · obtain ⟨d, h5, h6⟩ := Option.map_eq_some_iff.1 h4
        cases h6; exact f.addFirst h5
    · simp only [DSV.insert, Option.bind_eq_some_iff] at h1
      obtain ⟨g, _, h4⟩ := h1
      split at h4
      · cases h4; exact f
      · obtain ⟨d, h5, h6⟩ := Option.map_eq_some_iff.1 h4
        cases h6; exact f.add h5
  | insertOrAssign k1 k2 x =>
    simp only [exec, Option.map_eq_some_iff] at he
    obtain ⟨r, h1, h3⟩ := he
    cases h3
    simp only [DSV.insertOrAssign, Option.bind_eq_some_iff] at h1
    obtain ⟨g, _, h4⟩ := h1
    split at h4
    · obtain ⟨d, h5, h6⟩ := Option.map_eq_some_iff.1 h4
      cases h6; exact f.other _ _
    · exact f.add h4
  | insertOrAssignOne k x =>
    cases k <;> simp only [exec, Option.map_eq_some_iff] at he <;> obtain ⟨r, h1, h3⟩ := he <;> cases h3
    · simp only [DSV.insertOrAssign1, Option.bind_eq_some_iff] at h1
      obtain ⟨g, _, h4⟩ := h1
      split at h4
      · obtain ⟨d, h5, h6⟩ := Option.map_eq_some_iff.1 h4
        cases h6; exact hd _
      · exact f.addFirst h4
    · simp only [DSV.insertOrAssign2] at h1
      split at h1
      · obtain ⟨d, h5, h6⟩ := Option.map_eq_some_iff.1 h1
        cases h6; exact hd _
      · obtain ⟨d, h5, h6⟩ := Option.map_eq_some_iff.1 h1
        cases h6; exact f.other _ _
  | addTermForIndex k i =>
    cases k
    · simp only [exec, Option.map_eq_some_iff] at he
      obtain ⟨r, h1, h3⟩ := he
      cases h3
      simp only [DSV.addTermForIndex1] at h1
      split at h1
      · exact f.addName1 h1
      · cases h1; exact f
    · simp only [exec] at he
      cases he
      simp only [DSV.addTermForIndex2]
      split
      exacts [h2 _, f]
  | addTerm k ex =>
    cases k <;> cases ex <;> simp only [exec, Option.map_eq_some_iff] at he
    · obtain ⟨r, h1, h3⟩ := he
      cases h3
      simp only [DSV.addTerm11, Option.bind_eq_some_iff] at h1
      obtain ⟨g, _, h4⟩ := h1
      split at h4
      · exact f.addName1 h4
      · cases h4; exact f
    · obtain ⟨r, h1, h3⟩ := he
      cases h3
      simp only [DSV.addTerm12] at h1
      split at h1
      · exact f.addName1 h1
      · cases h1; exact f
    · obtain ⟨r, h1, h3⟩ := he
      cases h3
      simp only [DSV.addTerm21, Option.map_eq_some_iff] at h1
      obtain ⟨g, _, h4⟩ := h1
      subst h4
      split
      exacts [h2 _, f]
    · cases he
      simp only [DSV.addTerm22]
      split
      exacts [h2 _, f]
  | find k => cases k <;> obtain ⟨_, _, h2⟩ := Option.map_eq_some_iff.1 he <;> cases h2 <;> exact f
  | removeIndex i => obtain ⟨_, h1, h2⟩ := Option.map_eq_some_iff.1 he; cases h2; exact f.removeIndex h1
  | remove k =>
    cases k <;> obtain ⟨_, h1, h2⟩ := Option.map_eq_some_iff.1 he <;> cases h2
    · simp only [DSV.remove1, Option.bind_eq_some_iff] at h1
      obtain ⟨g, _, h4⟩ := h1
      split at h4
      · cases h4; exact f
      · exact f.removeIndex h4
    · simp only [DSV.remove2] at h1
      split at h1
      · cases h1; exact f
      · exact f.removeIndex h1
  | get i => obtain ⟨_, _, h2⟩ := Option.map_eq_some_iff.1 he; cases h2; exact f
  | set i x =>
    obtain ⟨_, h1, h2⟩ := Option.map_eq_some_iff.1 he
    cases h2
    obtain ⟨d, _, h3⟩ := Option.map_eq_some_iff.1 h1
    cases h3; exact hd d
  | «at» i => obtain ⟨_, _, h2⟩ := Option.map_eq_some_iff.1 he; cases h2; exact f
  | back => obtain ⟨_, _, h2⟩ := Option.map_eq_some_iff.1 he; cases h2; exact f
  | apply => obtain ⟨_, _, h2⟩ := Option.map_eq_some_iff.1 he; cases h2; exact f
  | modify g =>
    obtain ⟨_, h1, h2⟩ := Option.map_eq_some_iff.1 he
    cases h2
    obtain ⟨d, _, h3⟩ := Option.map_eq_some_iff.1 h1
    cases h3; exact hd _
  | transform g =>
    obtain ⟨_, h1, h2⟩ := Option.map_eq_some_iff.1 he
    cases h2
    obtain ⟨d, _, h3⟩ := Option.map_eq_some_iff.1 h1
    cases h3; exact hd _
  | size => cases he; exact f
  | clear =>
    obtain ⟨_, h1, h2⟩ := Option.map_eq_some_iff.1 he
    cases h2
    obtain ⟨d, _, h3⟩ := Option.map_eq_some_iff.1 h1
    cases h3; exact ⟨SRepC.keys f.ok (by simp), .nil⟩

theorem Fine.run (ops : List (Op K2 V)) : ∀ {m m' : DSV S K2} {h h' : Heap String} {os : List (Obs V)}, m.Fine E h →
    run E m h ops = some (m', h', os) → m'.Fine E h' := by
  induction ops with
  | nil => intro m m' h h' os f he; cases he; exact f
  | cons op ops ih =>
    intro m m' h h' os f he
    simp only [DualStr.run, Option.bind_eq_some_iff, Option.map_eq_some_iff] at he
    obtain ⟨⟨m1, h1, o⟩, e1, ⟨m2, h2, os2⟩, e2, e3⟩ := he
    cases e3
    exact ih (Fine.step f e1) e2

omit [DecidableEq K2] in
theorem Fine.init : (DSV.init E).Fine E Heap.empty := ⟨SRepC.init, .nil⟩

/-- a search is that of the container with strings as keys -/
theorem find_base {m : DSV S K2} {h : Heap String} (w : m.Ok E h) (k : String ⊕ K2) (J : MapImpl String) (o : Obs V) :
    exec E m h (.find k) = some (m, h, o) ↔ Dual.exec (E.base J) (m.base E h) (.find k) = some (m.base E h, o) := by
  cases k with
  | inl k =>
    have : m.find1 E h k = (m.base E h).find1 (E.base J) k := by
      simp only [DSV.find1, DMV.find1, SRepC.find_eq w, Str.find_strings, Option.bind_some]
      cases m.lookup1.find? fun e => decide (Str.nameOf E.order h e.1 = k) <;> rfl
    simp only [exec, Dual.exec, this]
    cases (m.base E h).find1 (E.base J) k <;> simp
  | inr k =>
    have : m.find2 E k = (m.base E h).find2 (E.base J) k := rfl
    simp only [exec, Dual.exec, this]
    cases (m.base E h).find2 (E.base J) k <;> simp

/-- insertion when the name is present and the second term is not: an element is added under the second term only -/
theorem insert_present {kind : Kind} {L : Lawful E.st kind} {m : DSV S K2} {h : Heap String} {a : Ideal (String ⊕ K2) V}
    (v : Inv L m h a) {k1 : String} {k2 : K2} (x : V) (h1 : (a.lookup (.inl k1)).isSome = true)
    (h2 : a.lookup (.inr k2) = none) :
    ∃ m' h', m.insert E h k1 k2 x = some (m', h', some a.entries.length) ∧ m'.Ok E h' ∧
      Dual.Inv (E := E.base MapImpl.atEnd) L (m'.base E h')
        (Dual.attach (a.append kind x []) a.entries.length (.inr k2)) := by
  have hsz : E.st.size m.data = a.entries.length := v.base.size_eq
  have w := Dual.join_wf.1 v.base.binds.wf
  rw [Dual.lookup_inl v.base] at h1
  rw [Dual.lookup_inr v.base] at h2
  obtain ⟨d, e, v1, _⟩ := Dual.push_inv v.base x
  have e : E.st.push m.data x = some d := e
  have wd : DSV.Ok E { m with data := d } h := v.ok
  obtain ⟨J, n, h', e1, ok, e2, e3, e4⟩ := addName1_lift wd k1 a.entries.length
  have he : (FMap.emplace J (strings E.order h m.lookup1) k1 a.entries.length).1 = strings E.order h m.lookup1 := by
    rw [FMap.emplace]
    cases hf : FMap.find (strings E.order h m.lookup1) k1 with
    | none => rw [hf] at h1; cases h1
    | some j => simp
  refine ⟨{ n with lookup2 := FMap.put E.impl2 n.lookup2 k2 a.entries.length }, h', ?_, ok, ?_⟩
  · simp only [DSV.insert, SRepC.find_eq v.ok, Option.bind_some]
    rw [if_neg (by rw [h2]; simp)]
    simp only [DSV.add, e, hsz, Option.bind_some, e1, Option.map_some]
  · have v2 := Dual.bind2 v1 (Dual.append_length (kind := kind) a x) (FMap.put_wf w.2 k2 a.entries.length)
      (FMap.find_put (I := E.impl2) w.2 k2 a.entries.length)
    have e5 : strings E.order h' n.lookup1 = strings E.order h m.lookup1 :=
      (congrArg DMV.lookup1 e2).trans he
    have : DSV.base E { n with lookup2 := FMap.put E.impl2 n.lookup2 k2 a.entries.length } h' =
        ⟨d, strings E.order h m.lookup1, FMap.put E.impl2 m.lookup2 k2 a.entries.length⟩ := by
      simp only [DSV.base, e3, e4, e5]
    rw [this]
    exact v2

end Verif.Mapped.DualStr
