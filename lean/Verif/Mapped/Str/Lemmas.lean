import Verif.Mapped.Vector.Lemmas
import Verif.Mapped.Str.Spec

/-
Helper lemmas for StringMappedVector: a call does what the call of a MappedVector with `std::string` keys does.
-/
namespace Verif.Mapped.Str
open Verif.Mapped Verif.Block Verif.Block.Vector
open Verif.Mapped.Vector (Obs Ideal MV)

variable {S V : Type} {E : Env S V}

/-- the MappedVector with the same storage and the strings as keys -/
abbrev SMV.base (E : Env S V) (m : SMV S) (h : Heap String) : MV S String := ⟨m.data, strings E.order h m.lookup⟩

/-- its parameters; `J`: order of the map -/
abbrev Env.base (E : Env S V) (J : MapImpl String) : Vector.Env S String V := ⟨E.st, J, some ""⟩

/-- all views are good, or refer to strings of others -/
def SMV.OkC (E : Env S V) (X : Ctx E.order) (m : SMV S) (h : Heap String) : Prop := SRepC E.hash X m.names h m.lookup

/-- all views are good -/
abbrev SMV.Ok (E : Env S V) (m : SMV S) (h : Heap String) : Prop := m.OkC E .none h

variable {X : Ctx E.order}

theorem shiftLoop_strings (N : Nat) (h : Heap String) (er : Bool) (index : Nat) : ∀ (l : FMap View) (ind : Option View),
    MV.shiftLoop er index (strings N h l) (some ((ind.map (nameOf N h)).getD "")) =
      (strings N h (MV.shiftLoop er index l ind).1, some (((MV.shiftLoop er index l ind).2.map (nameOf N h)).getD ""))
  | [], ind => by simp [MV.shiftLoop, strings]
  | e :: l, ind => by
    have hs : strings N h (e :: l) = (nameOf N h e.1, e.2) :: strings N h l := rfl
    rw [hs, MV.shiftLoop, MV.shiftLoop]
    split
    · rw [shiftLoop_strings N h er index l ind]; rfl
    · split
      · have := shiftLoop_strings N h er index l (some e.1)
        simp only [Option.map_some, Option.getD_some] at this
        rw [this]; rfl
      · rw [shiftLoop_strings N h er index l ind]; rfl

theorem shiftLoop_mem (er : Bool) (index : Nat) {v : View} : ∀ (l : FMap View) (ind : Option View),
    (MV.shiftLoop er index l ind).2 = some v → ind = some v ∨ v ∈ l.map (·.1)
  | [], ind, h => .inl h
  | e :: l, ind, h => by
    rw [MV.shiftLoop] at h
    split at h
    · rcases shiftLoop_mem er index l ind h with h | h
      · exact .inl h
      · exact .inr (by simp at h ⊢; exact .inr h)
    · split at h
      · rcases shiftLoop_mem er index l (some e.1) h with h | h
        · cases h; exact .inr (by simp)
        · exact .inr (by simp at h ⊢; exact .inr h)
      · rcases shiftLoop_mem er index l ind h with h | h
        · exact .inl h
        · exact .inr (by simp at h ⊢; exact .inr h)

theorem indText {m : SMV S} {h : Heap String} (w : m.OkC E X h) (ind : Option View)
    (hm : ∀ v, ind = some v → v ∈ m.lookup.map (·.1)) :
    viewText E.order h ind = some ((ind.map (nameOf E.order h)).getD "") := by
  cases ind with
  | none => rfl
  | some v => exact (SRepC.text w (hm v rfl)).1

theorem add_lift {m : SMV S} {h : Heap String} (w : m.OkC E X h) (k : String) (x : V) :
    ∃ J, ∀ d, E.st.push m.data x = some d → ∃ n h', m.add E h k x = some (n, h', E.st.size m.data) ∧ n.OkC E X h' ∧
      n.base E h' = ⟨d, (FMap.emplace J (strings E.order h m.lookup) k (E.st.size m.data)).1⟩ := by
  obtain ⟨names', h', v, e1, e2, e3, e4⟩ := w.addName k
  obtain ⟨J, l', f1, f2, f3⟩ := emplace_eq (I := E.impl) (l := m.lookup) (v := v) (i := E.st.size m.data)
    (e4 _ (by intro u hu; simp at hu ⊢; tauto)) e3
  refine ⟨J, fun d hd => ⟨⟨d, names', l'⟩, h', ?_, e4 _ f3, ?_⟩⟩
  · simp only [SMV.add, hd, Option.bind_some, e1, f1, Option.map_some]
  · simp only [SMV.base, f2, e2]

set_option linter.unusedSimpArgs false in
/-- Every call does what the call of the MappedVector does, for some behaviour of its map. -/
theorem lift {m : SMV S} {h : Heap String} (w : m.OkC E X h) (wf : FMap.WF (strings E.order h m.lookup)) (op : Op V) :
    ∃ J, ∀ m' o, Vector.exec (E.base J) (m.base E h) op.base = some (m', o) →
      ∃ n h', exec E m h op = some (n, h', o) ∧ n.OkC E X h' ∧ n.base E h' = m' := by
  have hf := fun k => SRepC.find_eq w k
  have hs := fun k => find_strings (N := E.order) (h := h) m.lookup k
  cases op with
  | insert k x =>
    obtain ⟨J, hJ⟩ := add_lift w k x
    refine ⟨J, fun m' o he => ?_⟩
    simp only [Op.base, Vector.exec, MV.insert, SMV.base, Env.base, hs, Option.isSome_map] at he
    simp only [exec, SMV.insert, hf, Option.bind_some]
    split at he
    · rename_i h1
      rw [if_pos h1]; cases he
      exact ⟨m, h, rfl, w, rfl⟩
    · rename_i h1
      rw [if_neg h1]
      simp only [Option.map_map, Option.map_eq_some_iff, Function.comp] at he
      obtain ⟨d, h2, h3⟩ := he
      cases h3
      obtain ⟨n, h', e1, e2, e3⟩ := hJ d h2
      exact ⟨n, h', by simp [e1], e2, e3⟩
  | insertNoKey x =>
    refine ⟨MapImpl.atEnd, fun m' o he => ?_⟩
    simp only [Op.base, Vector.exec, MV.insertNoKey, SMV.base, Env.base, Option.map_map, Option.map_eq_some_iff, Function.comp] at he
    obtain ⟨d, h2, h3⟩ := he
    cases h3
    exact ⟨{ m with data := d }, h, by simp [exec, SMV.insertNoKey, h2], w, rfl⟩
  | insertOrAssign k x =>
    obtain ⟨J, hJ⟩ := add_lift w k x
    refine ⟨J, fun m' o he => ?_⟩
    simp only [Op.base, Vector.exec, MV.insertOrAssign, SMV.base, Env.base, hs] at he
    simp only [exec, SMV.insertOrAssign, hf, Option.bind_some]
    cases hfd : m.lookup.find? fun e => decide (nameOf E.order h e.1 = k) with
    | some e =>
      simp only [hfd, Option.map_some, Option.map_map, Option.map_eq_some_iff, Function.comp] at he
      obtain ⟨d, h2, h3⟩ := he
      cases h3
      exact ⟨{ m with data := d }, h, by simp [h2], w, rfl⟩
    | none =>
      simp only [hfd, Option.map_none, Option.map_map, Option.map_eq_some_iff, Function.comp] at he
      obtain ⟨d, h2, h3⟩ := he
      cases h3
      obtain ⟨n, h', e1, e2, e3⟩ := hJ d h2
      exact ⟨n, h', by simp [e1], e2, e3⟩
  | find k =>
    refine ⟨MapImpl.atEnd, fun m' o he => ?_⟩
    simp only [Op.base, Vector.exec, MV.find, SMV.base, Env.base, hs, Option.map_eq_some_iff] at he
    obtain ⟨r, h2, h3⟩ := he
    cases h3
    refine ⟨m, h, ?_, w, rfl⟩
    simp only [exec, SMV.find, hf, Option.bind_some]
    cases hfd : m.lookup.find? fun e => decide (nameOf E.order h e.1 = k) with
    | some e => simp only [hfd, Option.map_some] at h2; simp [h2]
    | none => simp only [hfd, Option.map_none] at h2; simp [h2]
  | get i =>
    refine ⟨MapImpl.atEnd, fun m' o he => ?_⟩
    simp only [Op.base, Vector.exec, MV.get, SMV.base, Env.base, Option.map_eq_some_iff] at he
    obtain ⟨r, h2, h3⟩ := he
    cases h3
    exact ⟨m, h, by simp [exec, SMV.get, h2], w, rfl⟩
  | set i x =>
    refine ⟨MapImpl.atEnd, fun m' o he => ?_⟩
    simp only [Op.base, Vector.exec, MV.set, SMV.base, Env.base, Option.map_map, Option.map_eq_some_iff, Function.comp] at he
    obtain ⟨d, h2, h3⟩ := he
    cases h3
    exact ⟨{ m with data := d }, h, by simp [exec, SMV.set, h2], w, rfl⟩
  | «at» i =>
    refine ⟨MapImpl.atEnd, fun m' o he => ?_⟩
    simp only [Op.base, Vector.exec, MV.at?, SMV.base, Env.base, Option.map_eq_some_iff] at he
    obtain ⟨r, h2, h3⟩ := he
    cases h3
    have h2 : m.at? E i = some r := h2
    exact ⟨m, h, by cases r <;> simp [exec, h2], w, rfl⟩
  | back =>
    refine ⟨MapImpl.atEnd, fun m' o he => ?_⟩
    simp only [Op.base, Vector.exec, MV.back, SMV.base, Env.base, Option.map_eq_some_iff] at he
    obtain ⟨r, h2, h3⟩ := he
    cases h3
    exact ⟨m, h, by simp [exec, SMV.back, h2], w, rfl⟩
  | removeIndex i =>
    refine ⟨MapImpl.atEnd, fun m' o he => ?_⟩
    simp only [Op.base, Vector.exec, MV.removeIndex, SMV.base, Env.base] at he
    simp only [exec, SMV.removeIndex]
    by_cases h1 : i ≥ E.st.size m.data
    · rw [if_pos h1] at he ⊢; cases he
      exact ⟨m, h, rfl, w, rfl⟩
    · rw [if_neg h1] at he ⊢
      simp only [Option.map_bind, Option.bind_eq_some_iff, Function.comp] at he
      obtain ⟨r, h2, h3⟩ := he
      have hsl := shiftLoop_strings E.order h r.2 i m.lookup none
      have hks : (MV.shiftLoop r.2 i m.lookup none).1.map (·.1) = m.lookup.map (·.1) := by
        rw [Vector.shiftLoop_fst, List.map_map]; rfl
      have hmem := fun v => shiftLoop_mem r.2 i (v := v) m.lookup none
      have hfst := Vector.shiftLoop_fst r.2 i m.lookup none
      simp only [Option.map_none, Option.getD_none] at hsl
      rw [hsl] at h3
      generalize hq : MV.shiftLoop r.2 i m.lookup none = q at *
      obtain ⟨l, ind⟩ := q
      simp only at hks h3 hmem hfst
      have wl : SRepC E.hash X m.names h l := SRepC.keys w (by rw [hks]; exact fun _ h => h)
      have wfl : FMap.WF (strings E.order h l) := by
        rw [hfst, strings_mapVal m.lookup (fun j => if r.2 = true then Binds.shift i j else j)]
        exact FMap.mapVal_wf wf (fun j => if r.2 = true then Binds.shift i j else j)
      have hind := indText w ind fun v hv => (hmem v hv).resolve_left (by simp)
      simp only [h2, Option.bind_some, hq]
      rw [hind]
      simp only [Option.bind_some, wl.find_eq, Option.map_some]
      simp only [Option.map_some, find_strings, Option.isSome_map] at h3
      cases hfd : l.find? fun e => decide (nameOf E.order h e.1 = (Option.map (nameOf E.order h) ind).getD "") with
      | none =>
        simp only [hfd] at h3
        cases h3
        exact ⟨_, h, rfl, wl, rfl⟩
      | some e =>
        simp only [hfd, Option.isSome_some] at h3
        cases h3
        obtain ⟨m1, m2⟩ := mem_find hfd
        refine ⟨_, h, rfl, ?_, ?_⟩
        · exact wl.keys fun u hu => (List.Sublist.map _ List.filter_sublist).subset hu
        · simp only [SMV.base, if_true]
          rw [strings_erase wfl m1, m2]
  | remove k =>
    refine ⟨MapImpl.atEnd, fun m' o he => ?_⟩
    simp only [Op.base, Vector.exec, MV.remove, SMV.base, Env.base, hs] at he
    simp only [exec, SMV.remove, hf, Option.bind_some]
    cases hfd : m.lookup.find? fun e => decide (nameOf E.order h e.1 = k) with
    | none =>
      simp only [hfd, Option.map_none] at he
      cases he
      exact ⟨m, h, rfl, w, rfl⟩
    | some e =>
      simp only [hfd, Option.map_some, Option.map_map, Option.map_eq_some_iff, Function.comp] at he
      obtain ⟨r, h2, h3⟩ := he
      cases h3
      simp only [h2, Option.map_some]
      obtain ⟨m1, m2⟩ := mem_find hfd
      refine ⟨_, h, rfl, ?_, ?_⟩
      · refine SRepC.keys w fun u hu => ?_
        have := (List.Sublist.map _ List.filter_sublist).subset hu
        split at this
        · rw [keys_mapVal _ (fun j => if j > e.2 then j - 1 else j)] at this; exact this
        · exact this
      · simp only [SMV.base]
        cases r.2 with
        | false => simp only [Bool.false_eq_true, if_false]; rw [strings_erase wf m1, m2]
        | true =>
          simp only [if_true]
          rw [← strings_mapVal m.lookup (fun j => if j > e.2 then j - 1 else j)]
          have wf' : FMap.WF (strings E.order h (m.lookup.map fun e' => (e'.1, if e'.2 > e.2 then e'.2 - 1 else e'.2))) := by
            rw [strings_mapVal m.lookup (fun j => if j > e.2 then j - 1 else j)]; exact FMap.mapVal_wf wf (fun j => if j > e.2 then j - 1 else j)
          have := strings_erase wf' (e := (e.1, if e.2 > e.2 then e.2 - 1 else e.2))
            (List.mem_map.2 ⟨e, m1, rfl⟩)
          simp only at this
          rw [this, m2]
  | apply =>
    refine ⟨MapImpl.atEnd, fun m' o he => ?_⟩
    simp only [Op.base, Vector.exec, MV.apply, SMV.base, Env.base, Option.map_eq_some_iff] at he
    obtain ⟨r, h2, h3⟩ := he
    cases h3
    exact ⟨m, h, by simp [exec, SMV.apply, h2], w, rfl⟩
  | modify f =>
    refine ⟨MapImpl.atEnd, fun m' o he => ?_⟩
    simp only [Op.base, Vector.exec, MV.modify, SMV.base, Env.base, Option.map_map, Option.map_eq_some_iff, Function.comp] at he
    obtain ⟨r, h2, h3⟩ := he
    cases h3
    exact ⟨{ m with data := r.2 }, h, by simp [exec, SMV.modify, h2], w, rfl⟩
  | transform f =>
    refine ⟨MapImpl.atEnd, fun m' o he => ?_⟩
    simp only [Op.base, Vector.exec, MV.transform, SMV.base, Env.base, Option.map_map, Option.map_eq_some_iff, Function.comp] at he
    obtain ⟨r, h2, h3⟩ := he
    cases h3
    exact ⟨{ m with data := r.2 }, h, by simp [exec, SMV.transform, h2], w, rfl⟩
  | size =>
    refine ⟨MapImpl.atEnd, fun m' o he => ?_⟩
    simp only [Op.base, Vector.exec, MV.size, SMV.base, Env.base] at he
    cases he
    exact ⟨m, h, rfl, w, rfl⟩
  | clear =>
    refine ⟨MapImpl.atEnd, fun m' o he => ?_⟩
    simp only [Op.base, Vector.exec, MV.clear, SMV.base, Env.base, Option.map_map, Option.map_eq_some_iff, Function.comp] at he
    obtain ⟨d, h2, h3⟩ := he
    cases h3
    exact ⟨{ m with data := d, lookup := [] }, h, by simp [exec, SMV.clear, h2], SRepC.keys w (by simp), rfl⟩

variable {kind : Kind} (L : Lawful E.st kind)

/-- The container represents the ideal one; every element has at most one search term. -/
structure InvC (X : Ctx E.order) (m : SMV S) (h : Heap String) (a : Ideal String V) : Prop where
  ok : m.OkC E X h
  base : Vector.Inv (E := E.base MapImpl.atEnd) L (m.base E h) a
  single : ∀ e ∈ a.entries, e.keys.length ≤ 1

/-- a container on its own -/
abbrev Inv (m : SMV S) (h : Heap String) (a : Ideal String V) : Prop := InvC L .none m h a

variable {L}

omit E in
theorem single_step {a a' : Ideal String V} {op : Op V} {o : Obs V} (hs : ∀ e ∈ a.entries, e.keys.length ≤ 1)
    (hi : ideal kind a op = some (a', o)) : ∀ e ∈ a'.entries, e.keys.length ≤ 1 := by
  have hmod : ∀ (i : Nat) (f : Vector.Entry String V → Vector.Entry String V),
      (∀ e, (f e).keys = e.keys ∨ (f e).keys = []) → ∀ e ∈ a.entries.modify i f, e.keys.length ≤ 1 := by
    intro i f hf e he
    obtain ⟨j, hj⟩ := List.mem_iff_getElem?.1 he
    rw [List.getElem?_modify] at hj
    obtain ⟨e0, h0, rfl⟩ := Option.map_eq_some_iff.1 hj
    have := hs e0 (List.mem_of_getElem? h0)
    split
    · rcases hf e0 with h | h <;> simp [h, this]
    · exact this
  have happ : ∀ (x : V) (ks : List String), ks.length ≤ 1 → ∀ e ∈ (a.append kind x ks).entries, e.keys.length ≤ 1 := by
    intro x ks hk e he
    simp only [Ideal.append, List.mem_append, List.mem_singleton] at he
    rcases he with he | rfl
    · exact hs e he
    · exact hk
  have hdrop : ∀ i, ∀ e ∈ (a.drop kind i).entries, e.keys.length ≤ 1 := by
    intro i e he
    unfold Ideal.drop at he
    split at he
    · exact hmod i _ (fun e => .inr rfl) e he
    · exact hs e (List.mem_of_mem_eraseIdx he)
  cases op <;> simp only [ideal, Op.base, Vector.ideal] at hi
  case insert k x => split at hi <;> cases hi; exacts [hs, happ _ _ (by simp)]
  case insertNoKey x => cases hi; exact happ _ _ (by simp)
  case insertOrAssign k x => split at hi <;> cases hi; exacts [hmod _ _ (fun e => .inl rfl), happ _ _ (by simp)]
  case find => cases hi; exact hs
  case get =>
    obtain ⟨_, _, h3⟩ := Option.map_eq_some_iff.1 hi; cases h3; exact hs
  case set => split at hi <;> cases hi; exact hmod _ _ (fun e => .inl rfl)
  case «at» => cases hi; exact hs
  case back => obtain ⟨_, _, h3⟩ := Option.map_eq_some_iff.1 hi; cases h3; exact hs
  case removeIndex => split at hi <;> cases hi; exacts [hdrop _, hs]
  case remove => split at hi <;> cases hi; exacts [hdrop _, hs]
  case apply => cases hi; exact hs
  case modify =>
    cases hi; intro e he
    obtain ⟨e0, h0, rfl⟩ := List.mem_map.1 he
    exact hs e0 h0
  case transform =>
    cases hi; intro e he
    obtain ⟨e0, h0, rfl⟩ := List.mem_map.1 he
    exact hs e0 h0
  case size => cases hi; exact hs
  case clear => cases hi; simp

omit E in
theorem careful_base {a : Ideal String V} {op : Op V} (hs : ∀ e ∈ a.entries, e.keys.length ≤ 1)
    (hc : careful kind a op = true) : Vector.careful kind (some "") a op.base = true := by
  cases op <;> simp only [Op.base, Vector.careful, careful] at hc ⊢
  case remove k =>
    cases h : a.entries.find? fun e => decide (k ∈ e.keys) with
    | none => rfl
    | some e =>
      have h1 := hs e (List.mem_of_find?_eq_some h)
      have h2 : k ∈ e.keys := by simpa using List.find?_some h
      have := List.length_pos_of_mem h2
      simp only [decide_eq_true_eq]
      omega
  case removeIndex i =>
    cases h : a.entries[i]? with
    | none => rfl
    | some e =>
      have h1 := hs e (List.mem_of_getElem? h)
      simp only [h] at hc
      simp only
      cases hk : e.keys with
      | nil => rw [hk] at hc; simpa using hc
      | cons k ks =>
        rw [hk] at h1
        have : ks = [] := List.length_eq_zero_iff.1 (by simpa using h1)
        simp [this]
  all_goals exact hc

theorem step {m : SMV S} {h : Heap String} {a : Ideal String V} (v : InvC L X m h a) {op : Op V}
    (hc : careful kind a op = true) {a' : Ideal String V} {o : Obs V} (hi : ideal kind a op = some (a', o)) :
    ∃ m' h', exec E m h op = some (m', h', o) ∧ InvC L X m' h' a' := by
  obtain ⟨J, hJ⟩ := lift v.ok v.base.binds.wf op
  have vb : Vector.Inv (E := E.base J) L (m.base E h) a := ⟨v.base.rep, v.base.binds⟩
  obtain ⟨m1, e1, v1, _⟩ := Vector.step vb (careful_base v.single hc) hi
  obtain ⟨n, h', e2, ok, rfl⟩ := hJ m1 o e1
  exact ⟨n, h', e2, ok, ⟨v1.rep, v1.binds⟩, single_step v.single hi⟩

theorem InvC.init (h0 : L.Starts) : Inv L (SMV.init E) Heap.empty ⟨[], 0⟩ :=
  ⟨SRepC.init, Vector.Inv.init (E := E.base MapImpl.atEnd) ⟨h0.start⟩, by simp⟩

theorem simulate (ops : List (Op V)) : ∀ {m : SMV S} {h : Heap String} {a : Ideal String V}, Inv L m h a →
    carefulRun kind a ops = true → ∀ {a' os}, idealRun kind a ops = some (a', os) →
    ∃ m' h', run E m h ops = some (m', h', os) ∧ Inv L m' h' a' := by
  induction ops with
  | nil => intro m h a v _ a' os hi; cases hi; exact ⟨m, h, rfl, v⟩
  | cons op ops ih =>
    intro m h a v hc a' os hi
    simp only [idealRun, List.map_cons, Vector.idealRun, Option.bind_eq_some_iff, Option.map_eq_some_iff] at hi
    obtain ⟨⟨a1, o⟩, h1, ⟨a2, os2⟩, h2, h3⟩ := hi
    cases h3
    have h1' : ideal kind a op = some (a1, o) := h1
    simp only [carefulRun, h1', Bool.and_eq_true] at hc
    obtain ⟨m1, hh1, e1, v1⟩ := step v hc.1 h1'
    obtain ⟨m2, hh2, e2, v2⟩ := ih v1 hc.2 h2
    exact ⟨m2, hh2, by simp only [run, e1, Option.bind_some, e2, Option.map_some], v2⟩

end Verif.Mapped.Str
