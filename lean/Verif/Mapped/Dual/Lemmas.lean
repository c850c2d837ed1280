import Verif.Mapped.Vector.Lemmas
import Verif.Mapped.Dual.Spec

/-
Helper lemmas for DualMappedVector: the two maps together bind the terms of both types; the code simulates the
specification.
-/
namespace Verif.Mapped

namespace Binds
variable {K : Type} [DecidableEq K] {m : FMap K} {kss : List (List K)}

theorem strip_mem {ks : List K} {k k' : K} : k' ∈ ks.filter (· ≠ k) ↔ k' ∈ ks ∧ k' ≠ k := by simp

/-- binding `k` to position `i`, whatever it was bound to before -/
theorem rebind {m' : FMap K} (b : Binds m kss) (w : FMap.WF m') {k : K} {i : Nat} (hi : i < kss.length)
    (h : ∀ k', FMap.find m' k' = if k' = k then some i else FMap.find m k') :
    Binds m' ((kss.map fun ks => ks.filter (· ≠ k)).modify i (k :: ·)) := by
  refine ⟨w, fun k' j => ?_⟩
  rw [h, List.getElem?_modify, List.getElem?_map]
  by_cases hk : k' = k
  · subst hk
    rw [if_pos rfl]
    constructor
    · intro e; cases e
      exact ⟨_, by rw [List.getElem?_eq_getElem hi]; simp only [Option.map_some, if_true]; rfl, by simp⟩
    · rintro ⟨ks, h1, h2⟩
      by_cases hij : i = j
      · rw [hij]
      · cases h3 : kss[j]? with
        | none => rw [h3] at h1; cases h1
        | some ks' =>
          rw [h3] at h1
          simp only [Option.map_some, if_neg hij] at h1
          cases (show some (ks'.filter (· ≠ k')) = some ks from h1)
          simp at h2
  · rw [if_neg hk, b.iff]
    cases h3 : kss[j]? with
    | none => simp
    | some ks =>
      by_cases hij : i = j
      · simp [hij, hk]
      · simp [hij, hk]

end Binds

namespace Dual
open Verif.Mapped.Vector (Obs Ideal Entry MV)

variable {K1 K2 V S : Type} [DecidableEq K1] [DecidableEq K2]

omit [DecidableEq K1] [DecidableEq K2] in
/-- both maps as one -/
def join (m1 : FMap K1) (m2 : FMap K2) : FMap (K1 ⊕ K2) :=
  m1.map (fun e => (.inl e.1, e.2)) ++ m2.map fun e => (.inr e.1, e.2)

omit [DecidableEq K1] [DecidableEq K2] in
theorem join_wf {m1 : FMap K1} {m2 : FMap K2} : FMap.WF (join m1 m2) ↔ FMap.WF m1 ∧ FMap.WF m2 := by
  unfold FMap.WF join
  rw [List.map_append, List.map_map, List.map_map, List.nodup_append]
  have e1 : m1.map ((fun x : (K1 ⊕ K2) × Nat => x.1) ∘ fun e => (.inl e.1, e.2)) = (m1.map (·.1)).map Sum.inl := by
    rw [List.map_map]; rfl
  have e2 : m2.map ((fun x : (K1 ⊕ K2) × Nat => x.1) ∘ fun e => (.inr e.1, e.2)) = (m2.map (·.1)).map Sum.inr := by
    rw [List.map_map]; rfl
  rw [e1, e2, List.nodup_map_iff (fun _ _ h => Sum.inl.inj h), List.nodup_map_iff (fun _ _ h => Sum.inr.inj h)]
  constructor
  · rintro ⟨h1, h2, _⟩; exact ⟨h1, h2⟩
  · rintro ⟨h1, h2⟩
    refine ⟨h1, h2, ?_⟩
    intro a ha b hb e
    obtain ⟨x, _, rfl⟩ := List.mem_map.1 ha
    obtain ⟨y, _, rfl⟩ := List.mem_map.1 hb
    cases e

theorem find_join_inl {m1 : FMap K1} {m2 : FMap K2} (w : FMap.WF (join m1 m2)) (k : K1) :
    FMap.find (join m1 m2) (.inl k) = FMap.find m1 k := by
  apply Option.ext
  intro i
  rw [FMap.find_eq_some w, FMap.find_eq_some (join_wf.1 w).1]
  simp [join]

theorem find_join_inr {m1 : FMap K1} {m2 : FMap K2} (w : FMap.WF (join m1 m2)) (k : K2) :
    FMap.find (join m1 m2) (.inr k) = FMap.find m2 k := by
  apply Option.ext
  intro i
  rw [FMap.find_eq_some w, FMap.find_eq_some (join_wf.1 w).2]
  simp [join]

/-! the loops of removeIndex -/

section
variable {K : Type} [DecidableEq K]

omit [DecidableEq K] in
theorem collect_fst (er : Bool) (index : Nat) : ∀ m : FMap K,
    (collect er index m).1 = m.map fun e => (e.1, if er = true then Binds.shift index e.2 else e.2)
  | [] => rfl
  | e :: m => by
    rw [collect]
    split
    · rename_i h
      simp only [collect_fst er index m, List.map_cons]
      simp [h.1, Binds.shift, h.2]
    · rename_i h
      have : (e.1, if er = true then Binds.shift index e.2 else e.2) = e := by
        cases er with
        | false => rfl
        | true =>
          have : ¬ e.2 > index := fun h2 => h ⟨rfl, h2⟩
          simp [Binds.shift, this]
      rw [List.map_cons, this]
      split <;> simp only [collect_fst er index m]

omit [DecidableEq K] in
theorem collect_snd (er : Bool) (index : Nat) (k : K) : ∀ m : FMap K, k ∈ (collect er index m).2 ↔ (k, index) ∈ m
  | [] => by simp [collect]
  | e :: m => by
    rw [collect]
    have ih := collect_snd er index k m
    obtain ⟨a, b⟩ := e
    split
    · rename_i h
      have : index ≠ b := by simp only at h; omega
      simp [ih, this]
    · split
      · rename_i h; simp only at h; subst h; simp [ih]
      · rename_i h
        simp only at h
        have : index ≠ b := fun e => h e.symm
        simp [ih, this]

theorem eraseAll_wf : ∀ (ks : List K) {m : FMap K}, FMap.WF m → FMap.WF (eraseAll ks m)
  | [], _, w => w
  | k :: ks, m, w => by
    rw [eraseAll]
    apply eraseAll_wf ks
    split
    · exact FMap.erase_wf w k
    · exact w

theorem find_eraseAll : ∀ (ks : List K) {m : FMap K}, FMap.WF m → ∀ k, FMap.find (eraseAll ks m) k =
    if k ∈ ks then none else FMap.find m k
  | [], _, _, k => by simp [eraseAll]
  | k0 :: ks, m, w, k => by
    have step : ∀ k, FMap.find (if (FMap.find m k0).isSome then FMap.erase m k0 else m) k =
        if k = k0 then none else FMap.find m k := by
      intro k
      split
      · rw [FMap.find_erase w]
      · rename_i h
        split
        · rename_i hk; subst hk; simpa using h
        · rfl
    have w' : FMap.WF (if (FMap.find m k0).isSome then FMap.erase m k0 else m) := by
      split
      · exact FMap.erase_wf w k0
      · exact w
    rw [eraseAll, find_eraseAll ks w', step]
    by_cases h1 : k ∈ ks
    · simp [h1]
    · by_cases h2 : k = k0
      · simp [h2]
      · simp [h1, h2]

/-- both loops together -/
theorem find_collected {m : FMap K} (w : FMap.WF m) (er : Bool) (index : Nat) (k : K) :
    FMap.find (eraseAll (collect er index m).2 (collect er index m).1) k =
      if FMap.find m k = some index then none else
      (FMap.find m k).map fun j => if er = true then Binds.shift index j else j := by
  have w' := FMap.mapVal_wf w (fun j => if er = true then Binds.shift index j else j)
  rw [collect_fst, find_eraseAll _ w', FMap.find_mapVal w (fun j => if er = true then Binds.shift index j else j)]
  exact if_congr (by rw [collect_snd, FMap.find_eq_some w]) rfl rfl

theorem collected_wf {m : FMap K} (w : FMap.WF m) (er : Bool) (index : Nat) :
    FMap.WF (eraseAll (collect er index m).2 (collect er index m).1) := by
  refine eraseAll_wf _ ?_
  rw [collect_fst]
  exact FMap.mapVal_wf w (fun j => if er = true then Binds.shift index j else j)

end

/-! simulation -/

variable {E : Env S K1 K2 V} {kind : Kind} (L : Lawful E.st kind)

omit [DecidableEq K1] [DecidableEq K2] in
/-- storage and both maps -/
abbrev DMV.base (m : DMV S K1 K2) : MV S (K1 ⊕ K2) := ⟨m.data, join m.lookup1 m.lookup2⟩

/-- the parameters of a MappedVector with that storage (used for its lemmas about storage only) -/
abbrev Env.base (E : Env S K1 K2 V) : Vector.Env S (K1 ⊕ K2) V := ⟨E.st, MapImpl.atEnd, none⟩

/-- the container represents the ideal one -/
abbrev Inv (m : DMV S K1 K2) (a : Ideal (K1 ⊕ K2) V) : Prop := Vector.Inv (E := E.base) L m.base a

variable {L} {m : DMV S K1 K2} {a : Ideal (K1 ⊕ K2) V}

theorem lookup_inl (v : Inv L m a) (k : K1) : a.lookup (.inl k) = FMap.find m.lookup1 k := by
  rw [Vector.Inv.lookup_eq v, find_join_inl v.binds.wf]

theorem lookup_inr (v : Inv L m a) (k : K2) : a.lookup (.inr k) = FMap.find m.lookup2 k := by
  rw [Vector.Inv.lookup_eq v, find_join_inr v.binds.wf]

omit [DecidableEq K1] [DecidableEq K2] in
theorem attach_keys {K : Type} [DecidableEq K] (a : Ideal K V) (i : Nat) (k : K) :
    (attach a i k).entries.map (·.keys) = ((a.entries.map (·.keys)).map fun ks => ks.filter (· ≠ k)).modify i (k :: ·) := by
  unfold attach
  rw [Vector.modify_keys_keys _ _ (k :: ·), List.map_map, List.map_map]
  rfl

omit [DecidableEq K1] [DecidableEq K2] in
theorem attach_values {K : Type} [DecidableEq K] (a : Ideal K V) (i : Nat) (k : K) :
    (attach a i k).entries.map (·.value) = a.entries.map (·.value) := by
  unfold attach
  rw [Vector.modify_keys_value _ _ (k :: ·), List.map_map]
  rfl

omit [DecidableEq K1] [DecidableEq K2] in
theorem attach_length {K : Type} [DecidableEq K] (a : Ideal K V) (i : Nat) (k : K) :
    (attach a i k).entries.length = a.entries.length := by
  simp [attach]

/-- a map that binds one more term -/
theorem attach_inv {d : S} {l l' : FMap (K1 ⊕ K2)} (v : Vector.Inv (E := E.base) L ⟨d, l⟩ a) {i : Nat}
    (hi : i < a.entries.length) {k : K1 ⊕ K2} (w : FMap.WF l')
    (h : ∀ k', FMap.find l' k' = if k' = k then some i else FMap.find l k') :
    Vector.Inv (E := E.base) L ⟨d, l'⟩ (attach a i k) := by
  refine ⟨?_, ?_⟩
  · rw [attach_values]; exact v.rep
  · rw [attach_keys]; exact v.binds.rebind w (by simpa using hi) h

theorem put1 {m1 : FMap K1} {m2 : FMap K2} (w : FMap.WF (join m1 m2)) (k : K1) (i : Nat) {m1' : FMap K1}
    (w1 : FMap.WF m1') (h : ∀ k', FMap.find m1' k' = if k' = k then some i else FMap.find m1 k') :
    FMap.WF (join m1' m2) ∧ ∀ k', FMap.find (join m1' m2) k' =
      if k' = .inl k then some i else FMap.find (join m1 m2) k' := by
  have w' : FMap.WF (join m1' m2) := join_wf.2 ⟨w1, (join_wf.1 w).2⟩
  refine ⟨w', fun k' => ?_⟩
  cases k' with
  | inl k' => rw [find_join_inl w', find_join_inl w, h]; simp
  | inr k' => rw [find_join_inr w', find_join_inr w]; simp

theorem put2 {m1 : FMap K1} {m2 : FMap K2} (w : FMap.WF (join m1 m2)) (k : K2) (i : Nat) {m2' : FMap K2}
    (w2 : FMap.WF m2') (h : ∀ k', FMap.find m2' k' = if k' = k then some i else FMap.find m2 k') :
    FMap.WF (join m1 m2') ∧ ∀ k', FMap.find (join m1 m2') k' =
      if k' = .inr k then some i else FMap.find (join m1 m2) k' := by
  have w' : FMap.WF (join m1 m2') := join_wf.2 ⟨(join_wf.1 w).1, w2⟩
  refine ⟨w', fun k' => ?_⟩
  cases k' with
  | inl k' => rw [find_join_inl w', find_join_inl w]; simp
  | inr k' => rw [find_join_inr w', find_join_inr w, h]; simp

/-- `lookup1` binds `k` to `i` -/
theorem bind1 (v : Inv L m a) {i : Nat} (hi : i < a.entries.length) {k : K1} {m1' : FMap K1} (w1 : FMap.WF m1')
    (h : ∀ k', FMap.find m1' k' = if k' = k then some i else FMap.find m.lookup1 k') :
    Inv L { m with lookup1 := m1' } (attach a i (.inl k)) := by
  obtain ⟨w, f⟩ := put1 v.binds.wf k i w1 h
  exact attach_inv v hi w f

theorem bind2 (v : Inv L m a) {i : Nat} (hi : i < a.entries.length) {k : K2} {m2' : FMap K2} (w2 : FMap.WF m2')
    (h : ∀ k', FMap.find m2' k' = if k' = k then some i else FMap.find m.lookup2 k') :
    Inv L { m with lookup2 := m2' } (attach a i (.inr k)) := by
  obtain ⟨w, f⟩ := put2 v.binds.wf k i w2 h
  exact attach_inv v hi w f

theorem emplace_new {K : Type} [DecidableEq K] {I : MapImpl K} {m : FMap K} (w : FMap.WF m) {k : K} (i : Nat)
    (h : FMap.find m k = none) (k' : K) :
    FMap.find (FMap.emplace I m k i).1 k' = if k' = k then some i else FMap.find m k' := by
  rw [FMap.find_emplace w]; simp [h]

/-- a new element with one term not in use -/
theorem append_one {K : Type} [DecidableEq K] (a : Ideal K V) (x : V) (k : K) (h : a.lookup k = none) :
    attach (a.append kind x []) a.entries.length k = a.append kind x [k] := by
  have hn : ∀ e ∈ a.entries, k ∉ e.keys := by
    intro e he
    have := List.findIdx?_eq_none_iff.1 h e he
    simpa using this
  have hid : a.entries.map (fun e => ({ e with keys := e.keys.filter (· ≠ k) } : Entry K V)) = a.entries := by
    conv_rhs => rw [← List.map_id a.entries]
    apply List.map_congr_left
    intro e he
    have : e.keys.filter (· ≠ k) = e.keys := by
      rw [List.filter_eq_self]
      intro k' hk'
      have := hn e he
      simp only [decide_eq_true_eq, ne_eq]
      rintro rfl; exact this hk'
    rw [this]; rfl
  unfold attach Ideal.append
  simp only [List.map_append, hid]
  congr 1
  apply List.ext_getElem?
  intro j
  rw [List.getElem?_modify]
  rcases Nat.lt_trichotomy j a.entries.length with h1 | h1 | h1
  · rw [List.getElem?_append_left h1, List.getElem?_append_left h1]
    have : a.entries.length ≠ j := by omega
    simp [this]
  · subst h1; simp
  · rw [List.getElem?_eq_none (by simp; omega), List.getElem?_eq_none (by simp; omega)]; rfl

/-- a new element -/
theorem push_inv (v : Inv L m a) (x : V) :
    ∃ d, E.st.push m.data x = some d ∧ Inv L { m with data := d } (a.append kind x []) ∧
      ∀ i, i < a.entries.length → E.st.addr d i = E.st.addr m.data i :=
  Vector.Inv.append v x _ _ v.binds.append_nil

omit [DecidableEq K1] [DecidableEq K2] in
theorem append_length (a : Ideal (K1 ⊕ K2) V) (x : V) : a.entries.length < (a.append kind x []).entries.length := by
  simp [Ideal.append]

/-- elements keep their address -/
def Still (E : Env S K1 K2 V) (a a' : Ideal (K1 ⊕ K2) V) (m m' : DMV S K1 K2) : Prop :=
  ∀ i, i < a.entries.length → i < a'.entries.length → E.st.addr m'.data i = E.st.addr m.data i

theorem removeIndex_inv (v : Inv L m a) {i : Nat} (hl : i < a.entries.length) :
    ∃ m', m.removeIndex E i = some m' ∧ Inv L m' (a.drop kind i) ∧ Still E a (a.drop kind i) m m' := by
  have hsz : E.st.size m.data = a.entries.length := v.size_eq
  have w1 := (join_wf.1 v.binds.wf).1
  have w2 := (join_wf.1 v.binds.wf).2
  let er := !kind.isStable || decide (i = a.entries.length - 1)
  have wc1 := collected_wf w1 er i
  have wc2 := collected_wf w2 er i
  have wj := join_wf.2 ⟨wc1, wc2⟩
  obtain ⟨d, e, r, f⟩ := Vector.Inv.dropEntry v hl (l := join (eraseAll (collect er i m.lookup1).2 (collect er i m.lookup1).1)
    (eraseAll (collect er i m.lookup2).2 (collect er i m.lookup2).1)) wj (by
      intro k
      cases k with
      | inl k => rw [find_join_inl wj, find_join_inl v.binds.wf, find_collected w1]
      | inr k => rw [find_join_inr wj, find_join_inr v.binds.wf, find_collected w2])
  have e : E.st.erase m.data i = some (d, er) := e
  refine ⟨⟨d, _, _⟩, ?_, r, fun j _ h => f j h⟩
  rw [DMV.removeIndex, hsz, if_neg (by omega), e]
  rfl

omit [DecidableEq K1] [DecidableEq K2] in
theorem value_of {K : Type} [DecidableEq K] (a : Ideal K V) (k : K) :
    valueOf a k = (a.lookup k).bind fun i => (a.entries[i]?).map (·.value) := by
  unfold valueOf
  rw [Vector.find_of_lookup]
  cases a.lookup k <;> rfl

theorem lookup_lt (v : Inv L m a) {k : K1 ⊕ K2} {i : Nat} (h : a.lookup k = some i) : i < a.entries.length := by
  rw [Vector.Inv.lookup_eq v] at h
  simpa using v.binds.lt h

/-- a search -/
theorem find_inv (v : Inv L m a) (k : K1 ⊕ K2) (hc : ((a.lookup k).isSome || kind.iterable a.reserved a.entries.length) = true) :
    (match a.lookup k with
      | some i => E.st.iterAt m.data i
      | none => (E.st.endOk m.data).map fun _ => none) = some (valueOf a k) := by
  rw [value_of]
  cases hf : a.lookup k with
  | some i =>
    have hl := lookup_lt v hf
    simp only
    have := L.iterAt (show i < (a.entries.map (·.value)).length by simpa using hl) v.rep
    rw [this]
    simp [List.getElem?_eq_getElem hl]
  | none =>
    rw [hf] at hc
    simp only
    rw [L.endOk v.rep (by simpa using hc)]
    rfl

theorem add1_inv (v : Inv L m a) {k : K1} {i : Nat} (hi : i < a.entries.length) :
    ∃ a' b, (if a.lookup (.inl k) = none then some (attach a i (.inl k), Obs.bool true) else some (a, .bool false)) =
      some (a', (.bool b : Obs V)) ∧ ∃ m', m.emplace1 E k i = (m', b) ∧ Inv L m' a' ∧ Still E a a' m m' := by
  rw [lookup_inl v]
  have w1 := (join_wf.1 v.binds.wf).1
  cases hf : FMap.find m.lookup1 k with
  | some j =>
    refine ⟨_, _, by rw [if_neg (by simp)], m, ?_, v, fun _ _ _ => rfl⟩
    simp [DMV.emplace1, FMap.emplace, hf]
  | none =>
    refine ⟨_, _, by rw [if_pos rfl], _, ?_, bind1 v hi (FMap.emplace_wf w1 k i) (emplace_new (I := E.impl1) w1 i hf), fun _ _ _ => rfl⟩
    simp [DMV.emplace1, FMap.emplace, hf]

theorem add2_inv (v : Inv L m a) {k : K2} {i : Nat} (hi : i < a.entries.length) :
    ∃ a' b, (if a.lookup (.inr k) = none then some (attach a i (.inr k), Obs.bool true) else some (a, .bool false)) =
      some (a', (.bool b : Obs V)) ∧ ∃ m', m.emplace2 E k i = (m', b) ∧ Inv L m' a' ∧ Still E a a' m m' := by
  rw [lookup_inr v]
  have w2 := (join_wf.1 v.binds.wf).2
  cases hf : FMap.find m.lookup2 k with
  | some j =>
    refine ⟨_, _, by rw [if_neg (by simp)], m, ?_, v, fun _ _ _ => rfl⟩
    simp [DMV.emplace2, FMap.emplace, hf]
  | none =>
    refine ⟨_, _, by rw [if_pos rfl], _, ?_, bind2 v hi (FMap.emplace_wf w2 k i) (emplace_new (I := E.impl2) w2 i hf), fun _ _ _ => rfl⟩
    simp [DMV.emplace2, FMap.emplace, hf]

/-- new element with two terms -/
theorem pushBoth_inv (v : Inv L m a) (k1 : K1) (k2 : K2) (x : V) :
    ∃ d, E.st.push m.data x = some d ∧
      Inv L ⟨d, FMap.put E.impl1 m.lookup1 k1 a.entries.length, FMap.put E.impl2 m.lookup2 k2 a.entries.length⟩
        (attach (attach (a.append kind x []) a.entries.length (.inl k1)) a.entries.length (.inr k2)) ∧
      ∀ i, i < a.entries.length → E.st.addr d i = E.st.addr m.data i := by
  obtain ⟨d, e, v1, f⟩ := push_inv v x
  have w := join_wf.1 v.binds.wf
  have hl := append_length (kind := kind) a x
  have v2 := bind1 v1 hl (FMap.put_wf w.1 k1 a.entries.length) (FMap.find_put (I := E.impl1) w.1 k1 a.entries.length)
  have v3 := bind2 v2 (by rw [attach_length]; exact hl) (FMap.put_wf w.2 k2 a.entries.length)
    (FMap.find_put (I := E.impl2) w.2 k2 a.entries.length)
  exact ⟨d, e, v3, f⟩

theorem push1_inv (v : Inv L m a) {k : K1} (h : a.lookup (.inl k) = none) (x : V) :
    ∃ d, E.st.push m.data x = some d ∧
      Inv L { m with data := d, lookup1 := (FMap.emplace E.impl1 m.lookup1 k a.entries.length).1 } (a.append kind x [.inl k]) ∧
      ∀ i, i < a.entries.length → E.st.addr d i = E.st.addr m.data i := by
  obtain ⟨d, e, v1, f⟩ := push_inv v x
  have w := join_wf.1 v.binds.wf
  have v2 := bind1 v1 (append_length (kind := kind) a x) (FMap.emplace_wf w.1 k _)
    (emplace_new (I := E.impl1) w.1 a.entries.length (lookup_inl v k ▸ h))
  rw [append_one a x _ h] at v2
  exact ⟨d, e, v2, f⟩

theorem push2_inv (v : Inv L m a) {k : K2} (h : a.lookup (.inr k) = none) (x : V) :
    ∃ d, E.st.push m.data x = some d ∧
      Inv L { m with data := d, lookup2 := (FMap.emplace E.impl2 m.lookup2 k a.entries.length).1 } (a.append kind x [.inr k]) ∧
      ∀ i, i < a.entries.length → E.st.addr d i = E.st.addr m.data i := by
  obtain ⟨d, e, v1, f⟩ := push_inv v x
  have w := join_wf.1 v.binds.wf
  have v2 := bind2 v1 (append_length (kind := kind) a x) (FMap.emplace_wf w.2 k _)
    (emplace_new (I := E.impl2) w.2 a.entries.length (lookup_inr v k ▸ h))
  rw [append_one a x _ h] at v2
  exact ⟨d, e, v2, f⟩

theorem assign_inv (v : Inv L m a) {i : Nat} (hi : i < a.entries.length) (x : V) :
    ∃ d, E.st.set m.data i x = some d ∧ Inv L { m with data := d } (assign a i x) ∧
      ∀ j, E.st.addr d j = E.st.addr m.data j :=
  Vector.Inv.setValue v hi x

theorem map_inv (v : Inv L m a) (f : V → V) (hc : kind.iterable a.reserved a.entries.length = true) :
    ∃ d, E.st.visit (fun (_ : Unit) x => ((), f x)) () m.data = some ((), d) ∧
      Inv L { m with data := d } { a with entries := a.entries.map fun e => { e with value := f e.value } } ∧
      ∀ j, E.st.addr d j = E.st.addr m.data j := by
  obtain ⟨d, es, e, h1, h2, r, f'⟩ := Vector.Inv.mapValue v (fun (_ : Unit) x => ((), f x)) () hc
  rw [Vector.visitList_map, List.map_map] at h1
  have : es = a.entries.map fun e => { e with value := f e.value } :=
    Vector.entries_eq (by rw [h1, List.map_map]; rfl) (by rw [h2, List.map_map]; rfl)
  rw [← this]; exact ⟨d, e, r, f'⟩

/-- every careful call is simulated; for stable storage remaining elements keep their address -/
theorem step (v : Inv L m a) {op : Op K1 K2 V} (hc : careful kind a op = true) {a' : Ideal (K1 ⊕ K2) V} {o : Obs V}
    (hi : ideal kind a op = some (a', o)) : ∃ m', exec E m op = some (m', o) ∧ Inv L m' a' ∧ Still E a a' m m' := by
  have hsz : E.st.size m.data = a.entries.length := v.size_eq
  cases op with
  | insert o1 o2 x =>
    cases o1 with
    | none =>
      cases o2 with
      | none =>
        cases hi
        obtain ⟨d, e, r, f⟩ := push_inv v x
        exact ⟨_, by simp only [exec, DMV.insertNoKey, e, Option.map_some, hsz], r, fun i h _ => f i h⟩
      | some k2 =>
        simp only [ideal] at hi
        simp only [exec, DMV.insert2, ← lookup_inr v]
        split at hi
        · rename_i h; cases hi; rw [if_pos h]; exact ⟨m, rfl, v, fun _ _ _ => rfl⟩
        · rename_i h; cases hi; rw [if_neg h]
          obtain ⟨d, e, r, f⟩ := push2_inv v (by simpa using h) x
          exact ⟨_, by simp only [e, Option.map_some, hsz], r, fun i h _ => f i h⟩
    | some k1 =>
      cases o2 with
      | none =>
        simp only [ideal] at hi
        simp only [exec, DMV.insert1, ← lookup_inl v]
        split at hi
        · rename_i h; cases hi; rw [if_pos h]; exact ⟨m, rfl, v, fun _ _ _ => rfl⟩
        · rename_i h; cases hi; rw [if_neg h]
          obtain ⟨d, e, r, f⟩ := push1_inv v (by simpa using h) x
          exact ⟨_, by simp only [e, Option.map_some, hsz], r, fun i h _ => f i h⟩
      | some k2 =>
        simp only [ideal] at hi
        simp only [exec, DMV.insert, ← lookup_inl v, ← lookup_inr v]
        split at hi
        · rename_i h; cases hi; rw [if_pos h]; exact ⟨m, rfl, v, fun _ _ _ => rfl⟩
        · rename_i h; cases hi; rw [if_neg h]
          obtain ⟨d, e, r, f⟩ := pushBoth_inv v k1 k2 x
          exact ⟨_, by simp only [e, Option.map_some, hsz], r, fun i h _ => f i h⟩
  | insertOrAssign k1 k2 x =>
    simp only [ideal] at hi
    simp only [exec, DMV.insertOrAssign, ← lookup_inl v]
    cases hf : a.lookup (.inl k1) with
    | some i =>
      rw [hf] at hi; cases hi
      have hl := lookup_lt v hf
      obtain ⟨d, e, r, f⟩ := assign_inv v hl x
      have w := join_wf.1 v.binds.wf
      have v2 := bind2 r (i := i) (by simpa [assign] using hl) (FMap.put_wf w.2 k2 i) (FMap.find_put (I := E.impl2) w.2 k2 i)
      exact ⟨_, by simp only [e, Option.map_some], v2, fun i _ _ => f i⟩
    | none =>
      rw [hf] at hi; cases hi
      obtain ⟨d, e, r, f⟩ := pushBoth_inv v k1 k2 x
      exact ⟨_, by simp only [e, Option.map_some, hsz], r, fun i h _ => f i h⟩
  | insertOrAssignOne k x =>
    simp only [ideal] at hi
    cases hf : a.lookup k with
    | some i =>
      rw [hf] at hi; cases hi
      obtain ⟨d, e, r, f⟩ := assign_inv v (lookup_lt v hf) x
      refine ⟨_, ?_, r, fun i _ _ => f i⟩
      cases k with
      | inl k => simp only [exec, DMV.insertOrAssign1, ← lookup_inl v, hf, e, Option.map_some]
      | inr k => simp only [exec, DMV.insertOrAssign2, ← lookup_inr v, hf, e, Option.map_some]
    | none =>
      rw [hf] at hi; cases hi
      cases k with
      | inl k =>
        obtain ⟨d, e, r, f⟩ := push1_inv v hf x
        exact ⟨_, by simp only [exec, DMV.insertOrAssign1, ← lookup_inl v, hf, e, Option.map_some, hsz], r, fun i h _ => f i h⟩
      | inr k =>
        obtain ⟨d, e, r, f⟩ := push2_inv v hf x
        exact ⟨_, by simp only [exec, DMV.insertOrAssign2, ← lookup_inr v, hf, e, Option.map_some, hsz], r, fun i h _ => f i h⟩
  | addTermForIndex k i =>
    simp only [ideal] at hi
    by_cases hl : i < a.entries.length
    · simp only [hl, true_and] at hi
      cases k with
      | inl k =>
        obtain ⟨a1, b, h1, m1, h2, r, f⟩ := add1_inv v (k := k) hl
        rw [h1] at hi; cases hi
        exact ⟨m1, by simp only [exec, DMV.addTermForIndex1, hsz, if_pos hl, h2], r, f⟩
      | inr k =>
        obtain ⟨a1, b, h1, m1, h2, r, f⟩ := add2_inv v (k := k) hl
        rw [h1] at hi; cases hi
        exact ⟨m1, by simp only [exec, DMV.addTermForIndex2, hsz, if_pos hl, h2], r, f⟩
    · rw [if_neg (by simp [hl])] at hi
      cases hi
      refine ⟨m, ?_, v, fun _ _ _ => rfl⟩
      cases k with
      | inl k => simp only [exec, DMV.addTermForIndex1, hsz, if_neg hl]
      | inr k => simp only [exec, DMV.addTermForIndex2, hsz, if_neg hl]
  | addTerm k ex =>
    simp only [ideal] at hi
    cases hf : a.lookup ex with
    | none =>
      rw [hf] at hi; cases hi
      refine ⟨m, ?_, v, fun _ _ _ => rfl⟩
      cases ex with
      | inl ex =>
        rw [lookup_inl v] at hf
        cases k with
        | inl k => simp only [exec, DMV.addTerm11, hf]
        | inr k => simp only [exec, DMV.addTerm21, hf]
      | inr ex =>
        rw [lookup_inr v] at hf
        cases k with
        | inl k => simp only [exec, DMV.addTerm12, hf]
        | inr k => simp only [exec, DMV.addTerm22, hf]
    | some i =>
      rw [hf] at hi
      have hl := lookup_lt v hf
      cases k with
      | inl k =>
        obtain ⟨a1, b, h1, m1, h2, r, f⟩ := add1_inv v (k := k) hl
        simp only at hi
        rw [h1] at hi; cases hi
        refine ⟨m1, ?_, r, f⟩
        cases ex with
        | inl ex => rw [lookup_inl v] at hf; simp only [exec, DMV.addTerm11, hf, h2]
        | inr ex => rw [lookup_inr v] at hf; simp only [exec, DMV.addTerm12, hf, h2]
      | inr k =>
        obtain ⟨a1, b, h1, m1, h2, r, f⟩ := add2_inv v (k := k) hl
        simp only at hi
        rw [h1] at hi; cases hi
        refine ⟨m1, ?_, r, f⟩
        cases ex with
        | inl ex => rw [lookup_inl v] at hf; simp only [exec, DMV.addTerm21, hf, h2]
        | inr ex => rw [lookup_inr v] at hf; simp only [exec, DMV.addTerm22, hf, h2]
  | find k =>
    cases hi
    have := find_inv v k (by simpa [careful] using hc)
    refine ⟨m, ?_, v, fun _ _ _ => rfl⟩
    cases k with
    | inl k => rw [lookup_inl v] at this; simp only [exec, show m.find1 E k = _ from this]; rfl
    | inr k => rw [lookup_inr v] at this; simp only [exec, show m.find2 E k = _ from this]; rfl
  | removeIndex i =>
    simp only [ideal] at hi
    split at hi
    · rename_i hl
      cases hi
      obtain ⟨m', e, r, f⟩ := removeIndex_inv v hl
      exact ⟨m', by simp only [exec, e, Option.map_some], r, f⟩
    · rename_i hl
      cases hi
      refine ⟨m, ?_, v, fun _ _ _ => rfl⟩
      simp only [exec, DMV.removeIndex, hsz]
      rw [if_pos (by omega)]; rfl
  | remove k =>
    simp only [ideal] at hi
    cases hf : a.lookup k with
    | none =>
      rw [hf] at hi; cases hi
      refine ⟨m, ?_, v, fun _ _ _ => rfl⟩
      cases k with
      | inl k => rw [lookup_inl v] at hf; simp only [exec, DMV.remove1, hf]; rfl
      | inr k => rw [lookup_inr v] at hf; simp only [exec, DMV.remove2, hf]; rfl
    | some i =>
      rw [hf] at hi; cases hi
      obtain ⟨m', e, r, f⟩ := removeIndex_inv v (lookup_lt v hf)
      refine ⟨m', ?_, r, f⟩
      cases k with
      | inl k => rw [lookup_inl v] at hf; simp only [exec, DMV.remove1, hf, e]; rfl
      | inr k => rw [lookup_inr v] at hf; simp only [exec, DMV.remove2, hf, e]; rfl
  | get i =>
    simp only [ideal, Option.map_eq_some_iff] at hi
    obtain ⟨e, h1, h2⟩ := hi
    cases h2
    obtain ⟨hl, rfl⟩ := List.getElem?_eq_some_iff.1 h1
    refine ⟨m, ?_, v, fun _ _ _ => rfl⟩
    have := L.get (show i < (a.entries.map (·.value)).length by simpa using hl) v.rep
    simp only [exec, DMV.get]
    rw [this]; simp
  | set i x =>
    simp only [ideal] at hi
    split at hi
    · rename_i hl
      cases hi
      obtain ⟨d, e, r, f⟩ := assign_inv v hl x
      exact ⟨_, by simp only [exec, DMV.set, e, Option.map_some], r, fun i _ _ => f i⟩
    · cases hi
  | «at» i =>
    simp only [ideal, Option.some.injEq, Prod.mk.injEq] at hi
    obtain ⟨rfl, rfl⟩ := hi
    refine ⟨m, ?_, v, fun _ _ _ => rfl⟩
    simp only [exec, DMV.at?, hsz]
    by_cases hl : i < a.entries.length
    · have := L.get (show i < (a.entries.map (·.value)).length by simpa using hl) v.rep
      rw [if_neg (by omega), this]
      simp [List.getElem?_eq_getElem hl]
    · rw [if_pos (by omega), List.getElem?_eq_none (by omega)]; rfl
  | back =>
    simp only [ideal, Option.map_eq_some_iff] at hi
    obtain ⟨e, h1, h2⟩ := hi
    cases h2
    refine ⟨m, ?_, v, fun _ _ _ => rfl⟩
    have hne : a.entries ≠ [] := by rintro h; simp [h] at h1
    have hg : e = a.entries.getLast hne := by
      rw [List.getLast?_eq_some_getLast hne] at h1; exact (Option.some.inj h1).symm
    have := L.back (by simpa using hne) v.rep
    simp only [exec, DMV.back]
    rw [this]
    simp only [Option.map_some, List.getLast_map, ← hg]
  | apply =>
    simp only [ideal, Option.some.injEq, Prod.mk.injEq] at hi
    obtain ⟨rfl, rfl⟩ := hi
    refine ⟨m, ?_, v, fun _ _ _ => rfl⟩
    have := L.all v.rep (by simpa [careful] using hc)
    simp only [exec, DMV.apply]
    rw [this]; rfl
  | modify f =>
    cases hi
    obtain ⟨d, e, r, f'⟩ := map_inv v f (by simpa [careful] using hc)
    exact ⟨_, by simp only [exec, DMV.modify, e, Option.map_some], r, fun i _ _ => f' i⟩
  | transform f =>
    cases hi
    obtain ⟨d, e, r, f'⟩ := map_inv v f (by simpa [careful] using hc)
    exact ⟨_, by simp only [exec, DMV.transform, e, Option.map_some], r, fun i _ _ => f' i⟩
  | size => cases hi; exact ⟨m, by simp only [exec, DMV.size, hsz], v, fun _ _ _ => rfl⟩
  | clear =>
    cases hi
    obtain ⟨d, e, r⟩ := L.clear v.rep
    refine ⟨⟨d, [], []⟩, ?_, ⟨r, .nil⟩, fun i _ h => absurd h (Nat.not_lt_zero i)⟩
    have e : E.st.clear m.data = some d := e
    simp only [exec, DMV.clear, e, Option.map_some]

/-! what a search finds -/

theorem find_exec (v : Inv L m a) (k : K1 ⊕ K2) (hc : ((a.lookup k).isSome || kind.iterable a.reserved a.entries.length) = true) :
    exec E m (.find k) = some (m, .found (valueOf a k)) := by
  have := find_inv v k hc
  cases k with
  | inl k => rw [lookup_inl v] at this; simp only [exec, show m.find1 E k = _ from this]; rfl
  | inr k => rw [lookup_inr v] at this; simp only [exec, show m.find2 E k = _ from this]; rfl

theorem find_iff (v : Inv L m a) (k : K1 ⊕ K2) (y : V) : exec E m (.find k) = some (m, .found (some y)) ↔
    ∃ i, a.lookup k = some i ∧ (a.entries[i]?).map (·.value) = some y := by
  cases hf : a.lookup k with
  | some i =>
    rw [find_exec v k (by simp [hf]), value_of, hf]; simp
  | none =>
    constructor
    · intro h
      cases k with
      | inl k =>
        rw [lookup_inl v] at hf
        simp only [exec, DMV.find1, hf, Option.map_map, Option.map_eq_some_iff] at h
        obtain ⟨_, _, h⟩ := h; cases h
      | inr k =>
        rw [lookup_inr v] at hf
        simp only [exec, DMV.find2, hf, Option.map_map, Option.map_eq_some_iff] at h
        obtain ⟨_, _, h⟩ := h; cases h
    · rintro ⟨i, h, _⟩; cases h

theorem find_none (v : Inv L m a) (k : K1 ⊕ K2) (hi : kind.iterable a.reserved a.entries.length = true)
    (hf : a.lookup k = none) : exec E m (.find k) = some (m, .found none) := by
  rw [find_exec v k (by simp [hi]), value_of, hf]; rfl

theorem lookup_iff (v : Inv L m a) (k : K1 ⊕ K2) (i : Nat) :
    a.lookup k = some i ↔ ∃ e, a.entries[i]? = some e ∧ k ∈ e.keys := by
  rw [Vector.Inv.lookup_eq v, v.binds.iff]
  simp only [List.getElem?_map, Option.map_eq_some_iff]
  constructor
  · rintro ⟨ks, ⟨e, h1, rfl⟩, h2⟩; exact ⟨e, h1, h2⟩
  · rintro ⟨e, h1, h2⟩; exact ⟨_, ⟨e, h1, rfl⟩, h2⟩

theorem lookup_drop (v : Inv L m a) {i : Nat} (hl : i < a.entries.length) (k : K1 ⊕ K2) :
    (a.lookup k = some i → (a.drop kind i).lookup k = none) ∧
    (a.lookup k = none → (a.drop kind i).lookup k = none) ∧
    (∀ j, j ≠ i → a.lookup k = some j → ∃ j', (a.drop kind i).lookup k = some j' ∧
      (a.drop kind i).entries[j']? = a.entries[j]?) := by
  let er := !kind.isStable || decide (i = a.entries.length - 1)
  have w := v.binds.wf
  have wc := collected_wf w er i
  have fc := find_collected w er i
  obtain ⟨d, _, r, _⟩ := Vector.Inv.dropEntry v hl wc fc
  rw [Vector.Inv.lookup_eq r, Vector.Inv.lookup_eq v, fc]
  refine ⟨fun h => by rw [if_pos h], fun h => by rw [if_neg (by rw [h]; simp), h]; rfl, fun j hj h => ?_⟩
  have hlt : j < a.entries.length := by simpa using v.binds.lt h
  rw [if_neg (by rw [h]; simpa using hj), h]
  refine ⟨_, rfl, ?_⟩
  unfold Ideal.drop
  split
  · rename_i hc
    have : er = false := by
      show (!kind.isStable || decide (i = a.entries.length - 1)) = false
      rw [hc.1]; simp; omega
    simp only [this, Bool.false_eq_true, if_false, List.getElem?_modify]
    have : i ≠ j := fun h => hj h.symm
    cases a.entries[j]? <;> simp [this]
  · rename_i hc
    have : er = true := by
      show (!kind.isStable || decide (i = a.entries.length - 1)) = true
      by_cases hs : kind.isStable = true
      · have : i + 1 = a.entries.length := by
          rcases Nat.lt_or_ge (i + 1) a.entries.length with h | h
          · exact absurd ⟨hs, by omega⟩ hc
          · omega
        simp; right; omega
      · simp [hs]
    simp only [this, if_true, List.getElem?_eraseIdx, Binds.shift]
    by_cases h3 : j > i
    · rw [if_pos h3, if_neg (by omega), Nat.sub_add_cancel (by omega)]
    · rw [if_neg h3, if_pos (by omega)]

theorem lookup_attach (v : Inv L m a) {i : Nat} (hi : i < a.entries.length) (k k' : K1 ⊕ K2) :
    (attach a i k).lookup k' = if k' = k then some i else a.lookup k' := by
  have w := FMap.put_wf (I := MapImpl.atEnd) v.binds.wf k i
  have f := FMap.find_put (I := MapImpl.atEnd) v.binds.wf k i
  have v' := attach_inv v hi w f
  rw [Vector.Inv.lookup_eq v', Vector.Inv.lookup_eq v]
  exact f k'

theorem lookup_attach2 (v : Inv L m a) {i i' : Nat} (hi : i < a.entries.length) (hi' : i' < a.entries.length)
    (k1 k2 k' : K1 ⊕ K2) : (attach (attach a i k1) i' k2).lookup k' =
      if k' = k2 then some i' else if k' = k1 then some i else a.lookup k' := by
  have w := FMap.put_wf (I := MapImpl.atEnd) v.binds.wf k1 i
  have f := FMap.find_put (I := MapImpl.atEnd) v.binds.wf k1 i
  have v' := attach_inv v hi w f
  have w2 := FMap.put_wf (I := MapImpl.atEnd) v'.binds.wf k2 i'
  have f2 := FMap.find_put (I := MapImpl.atEnd) v'.binds.wf k2 i'
  have v2 := attach_inv v' (by rw [attach_length]; exact hi') w2 f2
  rw [Vector.Inv.lookup_eq v2, Vector.Inv.lookup_eq v, f2, f]

omit [DecidableEq K1] [DecidableEq K2] in
theorem lookup_append {K : Type} [DecidableEq K] (a : Ideal K V) (x : V) (k : K) :
    (a.append kind x []).lookup k = a.lookup k := by
  unfold Ideal.lookup Ideal.append
  simp only [List.findIdx?_append]
  cases h : List.findIdx? (fun e : Entry K V => decide (k ∈ e.keys)) a.entries <;> simp

omit [DecidableEq K1] [DecidableEq K2] in
theorem lookup_keys {K : Type} [DecidableEq K] (a b : Ideal K V) (h : a.entries.map (·.keys) = b.entries.map (·.keys)) (k : K) :
    a.lookup k = b.lookup k := by
  have : ∀ c : Ideal K V, c.lookup k = (c.entries.map (·.keys)).findIdx? fun ks => decide (k ∈ ks) := by
    intro c; unfold Ideal.lookup; rw [List.findIdx?_map]; rfl
  rw [this, this, h]

omit [DecidableEq K1] [DecidableEq K2] in
theorem assign_keys {K : Type} (a : Ideal K V) (i : Nat) (x : V) :
    (assign a i x).entries.map (·.keys) = a.entries.map (·.keys) := by
  unfold assign
  apply List.ext_getElem?
  intro j
  simp only [List.getElem?_map, List.getElem?_modify]
  cases a.entries[j]? with
  | none => rfl
  | some e => by_cases h : i = j <;> simp [h]

omit [DecidableEq K1] [DecidableEq K2] in
theorem attach_value {K : Type} [DecidableEq K] (a : Ideal K V) (i : Nat) (k : K) (j : Nat) :
    ((attach a i k).entries[j]?).map (·.value) = (a.entries[j]?).map (·.value) := by
  have := congrArg (·[j]?) (attach_values a i k)
  simpa using this

theorem get_eq (v : Inv L m a) {j : Nat} (h : j < a.entries.length) : m.get E j = (a.entries[j]?).map (·.value) := by
  have := L.get (show j < (a.entries.map (·.value)).length by simpa using h) v.rep
  rw [DMV.get, this]; simp [h]

theorem size_eq (v : Inv L m a) : m.size E = a.entries.length := v.size_eq

theorem init_inv (h0 : L.Starts) : Inv L (DMV.init E) ⟨[], 0⟩ := ⟨h0.start, .nil⟩

theorem simulate (ops : List (Op K1 K2 V)) : ∀ {m : DMV S K1 K2} {a : Ideal (K1 ⊕ K2) V}, Inv L m a →
    carefulRun kind a ops = true → ∀ {a' os}, idealRun kind a ops = some (a', os) →
    ∃ m', run E m ops = some (m', os) ∧ Inv L m' a' := by
  induction ops with
  | nil => intro m a v _ a' os hi; cases hi; exact ⟨m, rfl, v⟩
  | cons op ops ih =>
    intro m a v hc a' os hi
    simp only [idealRun, Option.bind_eq_some_iff, Option.map_eq_some_iff] at hi
    obtain ⟨⟨a1, o⟩, h1, ⟨a2, os2⟩, h2, h3⟩ := hi
    cases h3
    simp only [carefulRun, h1, Bool.and_eq_true] at hc
    obtain ⟨m1, e1, v1, _⟩ := step v hc.1 h1
    obtain ⟨m2, e2, v2⟩ := ih v1 hc.2 h2
    exact ⟨m2, by simp only [run, e1, Option.bind_some, e2, Option.map_some], v2⟩

end Dual
end Verif.Mapped
