import Verif.Mapped.Vector.ExactSpec
import Verif.Mapped.Vector.Lemmas

/-
MappedVector in every history: property C128.
-/
namespace Verif.Mapped.Vector
open Verif.Mapped

variable {S K V : Type} [DecidableEq K] {E : Env S K V} {kind : Kind}

/-- what the storages do at their end -/
structure Corner (st : Store S V) (kind : Kind) : Prop where
  iterEnd : ∀ s, st.iterAt s (st.size s) = (st.endOk s).map fun _ => none
  stale : kind.isStable = true → ∀ s i, st.size s ≤ i → st.erase s i = some (s, false)

theorem vectorCorner (V : Type) : Corner (vectorStore V) .unstable :=
  ⟨fun _ => if_pos rfl, fun h => absurd h (by decide)⟩

theorem stableCorner (N : Nat) (V : Type) : Corner (stableStore N V) (.stable N) := by
  refine ⟨fun s => ?_, fun _ s i h => ?_⟩
  · simp only [stableStore, if_true, Option.map_map]; rfl
  · have h : s.1.size ≤ i := h
    simp only [stableStore]
    rw [if_neg (by omega)]

/-- what the storages do not do -/
structure Undef {st : Store S V} {kind : Kind} (L : Lawful st kind) : Prop where
  endOk : ∀ {s xs r}, L.Rep s xs r → kind.iterable r xs.length = false → st.endOk s = none
  all : ∀ {s xs r}, L.Rep s xs r → kind.iterable r xs.length = false → st.all s = none
  visit : ∀ {σ : Type} (F : σ → V → σ × V) (z : σ) {s xs r}, L.Rep s xs r → kind.iterable r xs.length = false →
    st.visit F z s = none
  back : ∀ {s r}, L.Rep s [] r → st.back s = none

open Verif.Block Verif.Block.Vector Verif.Block.Vector.Vec in
theorem stableUndef (N : Nat) (V : Type) : Undef (stableLawful N V) := by
  have hend : ∀ {s : Vec × Heap V} {xs r}, (stableLawful N V).Rep s xs r → Kind.iterable (.stable N) r xs.length = false →
      Vec.iterate N s.1 s.2 = none ∧ end? N s.1 = none := by
    rintro s xs r ⟨us, fs, c, _, hu, rfl⟩ h
    simp only [Kind.iterable, decide_eq_false_iff_not, not_or, Nat.not_lt, ← blockSize_eq] at h
    refine c.iterate_full (Nat.pos_of_ne_zero h.1) (Nat.le_antisymm ?_ h.2)
    rw [c.len]
    exact Nat.le_trans c.csize_le (Nat.mul_le_mul_right _ c.arr.le)
  refine ⟨fun v h => ?_, fun v h => (hend v h).1, fun F z s xs r v h => ?_, ?_⟩
  · simp only [stableStore, (hend v h).2, Option.map_none]
  · simp only [stableStore, (hend v h).2, Option.bind_none]
    cases begin? N s.1 <;> rfl
  · rintro s r ⟨us, fs, c, _, hu, rfl⟩
    have hB := blockSize_pos N
    have h1 := c.size
    have h2 : s.1.csize = 0 := c.len.symm
    simp only [stableStore, Vec.back]
    cases us with
    | nil =>
      have h3 := hu rfl
      have h4 := c.arr.len
      have h5 := c.ne
      have hd : s.1.dataptr = none := by
        cases hd : s.1.dataptr with
        | none => rfl
        | some l =>
          rw [hd] at h4 h5
          simp at h4 h5
          exact absurd (List.length_eq_zero_iff.1 (by omega)) h5
      simp [hd, slotGet]
    | cons u us =>
      have : s.1.bsize = 0 := by
        simp only [List.length_cons, Nat.add_mul] at h1; omega
      rw [if_pos this, h2]
      cases s.1.dataptr <;> simp [slotGet]

variable (L : Lawful E.st kind)

/-- the container is the described one -/
structure Abs (m : MV S K) (a : Actual K V) : Prop where
  rep : L.Rep m.data a.values a.reserved
  wf : FMap.WF m.lookup
  index : ∀ k, FMap.find m.lookup k = a.index k
  le : ∀ k i, a.index k = some i → i ≤ a.values.length

variable {L} {m : MV S K} {a : Actual K V}

omit [DecidableEq K] in
/-- which term `removeIndex` forgets: one that refers to the index if there is one -/
theorem shiftLoop_pick (erased : Bool) (index : Nat) : ∀ (l : FMap K) (ind : Option K),
    ((∃ e ∈ l, e.2 = index) → ∃ e ∈ l, e.2 = index ∧ (MV.shiftLoop erased index l ind).2 = some e.1) ∧
    ((∀ e ∈ l, e.2 ≠ index) → (MV.shiftLoop erased index l ind).2 = ind)
  | [], ind => by simp [MV.shiftLoop]
  | e :: l, ind => by
    rw [MV.shiftLoop]
    split
    · rename_i h
      have ih := shiftLoop_pick erased index l ind
      have hne : e.2 ≠ index := by omega
      refine ⟨fun ⟨e', h1, h2⟩ => ?_, fun h1 => ih.2 fun e' he' => h1 e' (List.mem_cons_of_mem _ he')⟩
      rcases List.mem_cons.1 h1 with rfl | h1
      · exact absurd h2 hne
      · obtain ⟨e'', h3, h4, h5⟩ := ih.1 ⟨e', h1, h2⟩
        exact ⟨e'', List.mem_cons_of_mem _ h3, h4, h5⟩
    · split
      · rename_i h0 h
        have ih := shiftLoop_pick erased index l (some e.1)
        refine ⟨fun _ => ?_, fun h1 => absurd h (h1 e List.mem_cons_self)⟩
        by_cases hx : ∃ e' ∈ l, e'.2 = index
        · obtain ⟨e'', h3, h4, h5⟩ := ih.1 hx
          exact ⟨e'', List.mem_cons_of_mem _ h3, h4, h5⟩
        · exact ⟨e, List.mem_cons_self, h, ih.2 fun e' h1 h2 => hx ⟨e', h1, h2⟩⟩
      · rename_i h0 h
        have ih := shiftLoop_pick erased index l ind
        refine ⟨fun ⟨e', h1, h2⟩ => ?_, fun h1 => ih.2 fun e' he' => h1 e' (List.mem_cons_of_mem _ he')⟩
        rcases List.mem_cons.1 h1 with rfl | h1
        · exact absurd h2 h
        · obtain ⟨e'', h3, h4, h5⟩ := ih.1 ⟨e', h1, h2⟩
          exact ⟨e'', List.mem_cons_of_mem _ h3, h4, h5⟩

/-- erasing an absent term changes nothing -/
theorem erase_if_present (l : FMap K) (k : K) :
    (if (FMap.find l k).isSome = true then FMap.erase l k else l) = FMap.erase l k := by
  split
  · rfl
  · rename_i h
    refine (List.filter_eq_self.2 fun e he => ?_).symm
    simp only [Bool.not_eq_true, Option.isSome_eq_false_iff, Option.isNone_iff_eq_none, FMap.find_eq_none] at h
    simp only [decide_eq_true_eq]
    rintro rfl
    exact h _ he

/-- a new value with or without a new term -/
theorem Abs.append (v : Abs L m a) (x : V) : ∃ d, E.st.push m.data x = some d ∧ Abs L ⟨d, m.lookup⟩ (a.append kind x) := by
  obtain ⟨d, e, r, _⟩ := L.push x v.rep
  exact ⟨d, e, r, v.wf, v.index, fun k i h => Nat.le_trans (v.le k i h) (by simp [Actual.append])⟩

theorem Abs.bind (v : Abs L m a) {k : K} {i : Nat} (hk : a.index k = none) (hi : i ≤ a.values.length) :
    Abs L ⟨m.data, (FMap.emplace E.impl m.lookup k i).1⟩ (a.bind k i) := by
  refine ⟨v.rep, FMap.emplace_wf v.wf k i, fun k' => ?_, fun k' j h => ?_⟩
  · rw [FMap.find_emplace v.wf, v.index, v.index, hk]
    simp [Actual.bind]
  · simp only [Actual.bind] at h
    split at h
    · cases h; exact hi
    · exact v.le _ _ h

theorem Abs.new (v : Abs L m a) {k : K} (x : V) (hk : a.index k = none) : ∃ d, E.st.push m.data x = some d ∧
    Abs L ⟨d, (FMap.emplace E.impl m.lookup k a.values.length).1⟩ ((a.append kind x).bind k a.values.length) := by
  obtain ⟨d, e, w⟩ := v.append x
  exact ⟨d, e, w.bind (m := ⟨d, m.lookup⟩) hk (by simp [Actual.append])⟩

/-- taking out a value and forgetting a term -/
theorem Abs.takeOut (v : Abs L m a) (h0 : Corner E.st kind) {i : Nat} (hi : i < a.values.length ∨ kind.isStable = true)
    (k : K) :
    ∃ d, E.st.erase m.data i = some (d, a.takes kind i) ∧
      Abs L ⟨d, FMap.erase (m.lookup.map fun e => (e.1, if a.takes kind i = true then Binds.shift i e.2 else e.2)) k⟩
        ((a.takeOut kind i).forget k) := by
  have hwf := FMap.mapVal_wf v.wf (fun j => if a.takes kind i = true then Binds.shift i j else j)
  have hidx : ∀ k', FMap.find (FMap.erase (m.lookup.map fun e => (e.1, if a.takes kind i = true then Binds.shift i e.2 else e.2)) k) k' =
      ((a.takeOut kind i).forget k).index k' := by
    intro k'
    rw [FMap.find_erase hwf, FMap.find_mapVal v.wf (fun j => if a.takes kind i = true then Binds.shift i j else j), v.index]
    simp only [Actual.forget, Actual.takeOut]
    split
    · rfl
    · split
      · simp only [Binds.shift]
      · simp
  by_cases hlt : i < a.values.length
  · obtain ⟨d, e, r, _⟩ := L.erase hlt v.rep
    have ht : (!kind.isStable || decide (i = a.values.length - 1)) = a.takes kind i := by
      rw [Actual.takes]
      have : (i = a.values.length - 1) ↔ (i + 1 = a.values.length) := by omega
      simp [this]
    rw [ht] at e
    refine ⟨d, e, ?_, FMap.erase_wf hwf k, hidx, ?_⟩
    · have hv : ((a.takeOut kind i).forget k).values = kind.erase a.values i ∧
          ((a.takeOut kind i).forget k).reserved = a.reserved := by
        simp only [Actual.forget, Actual.takeOut, Kind.erase]
        rw [← ht]
        by_cases hst : kind.isStable = true
        · by_cases hl : i = a.values.length - 1
          · have : i + 1 = a.values.length := by omega
            simp only [hst, hl, decide_true, Bool.or_true, if_true, and_true]
            exact List.eraseIdx_eq_dropLast (by omega)
          · simp [hst, hl]
        · simp [hst]
      rw [hv.1, hv.2]; exact r
    · intro k' j hj
      simp only [Actual.forget, Actual.takeOut] at hj ⊢
      split at hj
      · cases hj
      · by_cases ht2 : a.takes kind i = true
        · rw [if_pos ht2] at hj ⊢
          simp only [Option.map_eq_some_iff] at hj
          obtain ⟨j0, h1, h2⟩ := hj
          have := v.le _ _ h1
          rw [List.length_eraseIdx_of_lt hlt]
          split at h2 <;> omega
        · rw [if_neg ht2] at hj ⊢
          exact v.le _ _ hj
  · have hst : kind.isStable = true := hi.resolve_left hlt
    have ht : a.takes kind i = false := by
      have : ¬ i + 1 = a.values.length := by omega
      simp [Actual.takes, hst, this]
    refine ⟨m.data, by rw [ht]; exact h0.stale hst _ _ (by rw [L.size v.rep]; omega), ?_, FMap.erase_wf hwf k, hidx, ?_⟩
    · simp only [Actual.forget, Actual.takeOut, ht]; exact v.rep
    · intro k' j hj
      simp only [Actual.forget, Actual.takeOut, ht, Bool.false_eq_true, if_false] at hj ⊢
      split at hj
      · cases hj
      · exact v.le _ _ hj

/-- every safe call does what the description says -/
theorem exact_step (h0 : Corner E.st kind) (v : Abs L m a) {op : Op K V} (hs : safe kind E.unset a op) :
    ∃ m' a' o, exec E m op = some (m', o) ∧ Step kind E.unset a op a' o ∧ Abs L m' a' := by
  have hsz := L.size v.rep
  cases op with
  | insert k x =>
    simp only [exec, MV.insert, Step, v.index]
    cases hf : a.index k with
    | some i => exact ⟨m, a, _, rfl, ⟨rfl, rfl⟩, v⟩
    | none =>
      obtain ⟨d, e, w⟩ := v.new x hf
      refine ⟨_, _, _, ?_, ⟨rfl, rfl⟩, w⟩
      simp only [Option.isSome_none, Bool.false_eq_true, if_false, e, Option.map_some, hsz]
  | insertNoKey x =>
    obtain ⟨d, e, w⟩ := v.append x
    exact ⟨_, _, _, by simp only [exec, MV.insertNoKey, e, Option.map_some, hsz], ⟨rfl, rfl⟩, w⟩
  | insertOrAssign k x =>
    simp only [exec, MV.insertOrAssign, Step, v.index]
    cases hf : a.index k with
    | some i =>
      obtain ⟨d, e, r, _⟩ := L.set (hs i hf) x v.rep
      exact ⟨⟨d, m.lookup⟩, { a with values := a.values.set i x }, _, by simp only [e, Option.map_some], ⟨rfl, rfl⟩, r, v.wf, v.index,
        fun k i h => Nat.le_trans (v.le k i h) (by simp)⟩
    | none =>
      obtain ⟨d, e, w⟩ := v.new x hf
      refine ⟨_, _, _, ?_, ⟨rfl, rfl⟩, w⟩
      simp only [e, Option.map_some, hsz]
  | find k =>
    simp only [exec, MV.find, Step, v.index]
    cases hf : a.index k with
    | none =>
      have hi : kind.iterable a.reserved a.values.length = true := by
        rcases hs with ⟨i, h1, _⟩ | h1
        · rw [hf] at h1; cases h1
        · exact h1
      exact ⟨m, a, _, by simp only [L.endOk v.rep hi, Option.map_some]; rfl, ⟨rfl, rfl⟩, v⟩
    | some i =>
      by_cases hl : i < a.values.length
      · exact ⟨m, a, .found (some a.values[i]), by simp only [L.iterAt hl v.rep, Option.map_some], ⟨rfl, by simp [List.getElem?_eq_getElem hl]⟩, v⟩
      · have hi : kind.iterable a.reserved a.values.length = true := by
          rcases hs with ⟨j, h1, h2⟩ | h1
          · rw [hf] at h1; cases h1; exact absurd h2 hl
          · exact h1
        have : i = E.st.size m.data := by have := v.le k i hf; omega
        refine ⟨m, a, .found none, ?_, ⟨rfl, by simp [List.getElem?_eq_none (Nat.not_lt.1 hl)]⟩, v⟩
        simp only [this, h0.iterEnd, L.endOk v.rep hi, Option.map_some]
  | get i =>
    have hs : i < a.values.length := hs
    exact ⟨m, a, .val a.values[i], by simp only [exec, MV.get, L.get hs v.rep, Option.map_some],
      ⟨rfl, by simp [List.getElem?_eq_getElem hs]⟩, v⟩
  | set i x =>
    obtain ⟨d, e, r, _⟩ := L.set hs x v.rep
    exact ⟨⟨d, m.lookup⟩, { a with values := a.values.set i x }, _, by simp only [exec, MV.set, e, Option.map_some], ⟨rfl, rfl⟩, r, v.wf, v.index,
      fun k i h => Nat.le_trans (v.le k i h) (by simp)⟩
  | «at» i =>
    refine ⟨m, a, _, ?_, ⟨rfl, rfl⟩, v⟩
    simp only [exec, MV.at?, hsz]
    by_cases hl : i < a.values.length
    · rw [if_neg (by omega), L.get hl v.rep]
      simp [List.getElem?_eq_getElem hl]
    · rw [if_pos (by omega), List.getElem?_eq_none (by omega)]; rfl
  | back =>
    exact ⟨m, a, .val (a.values.getLast hs), by simp only [exec, MV.back, L.back hs v.rep, Option.map_some],
      ⟨rfl, by simp [List.getLast?_eq_some_getLast hs]⟩, v⟩
  | addTerm k i =>
    simp only [exec, MV.addSearchTermForIndex, hsz, Step]
    by_cases hl : i < a.values.length
    · rw [if_pos hl]
      cases hf : a.index k with
      | some j =>
        refine ⟨m, a, .bool false, ?_, ?_, v⟩
        · simp [FMap.emplace, v.index, hf]
        · rw [if_neg (by simp)]; exact ⟨rfl, rfl⟩
      | none =>
        refine ⟨_, a.bind k i, .bool true, ?_, ?_, v.bind hf (Nat.le_of_lt hl)⟩
        · simp [FMap.emplace, v.index, hf]
        · rw [if_pos ⟨hl, rfl⟩]; exact ⟨rfl, rfl⟩
    · rw [if_neg hl]
      refine ⟨m, a, .bool false, rfl, ?_, v⟩
      rw [if_neg (by simp [hl])]; exact ⟨rfl, rfl⟩
  | removeIndex i =>
    simp only [exec, MV.removeIndex, hsz, Step]
    by_cases hl : i < a.values.length
    · simp only [if_pos hl]
      rw [if_neg (by omega)]
      have hpick := shiftLoop_pick (a.takes kind i) i m.lookup E.unset
      obtain ⟨k, hk, hk1, hk2⟩ : ∃ k, (MV.shiftLoop (a.takes kind i) i m.lookup E.unset).2 = some k ∧
          ((∃ k', a.index k' = some i) → a.index k = some i) ∧ ((∀ k', a.index k' ≠ some i) → E.unset = some k) := by
        by_cases hx : ∃ k', a.index k' = some i
        · obtain ⟨k', hk'⟩ := hx
          obtain ⟨e, h1, h2, h3⟩ := hpick.1 ⟨(k', i), (FMap.find_eq_some v.wf).1 ((v.index k').trans hk'), rfl⟩
          refine ⟨e.1, h3, fun _ => ?_, fun h => absurd hk' (h k')⟩
          rw [← v.index, FMap.find_eq_some v.wf, ← h2]; exact h1
        · have hu : E.unset ≠ none := (hs hl).resolve_left hx
          obtain ⟨u, hu⟩ := Option.ne_none_iff_exists'.1 hu
          refine ⟨u, ?_, fun h => absurd h hx, fun _ => hu⟩
          rw [hpick.2 fun e he h => hx ⟨e.1, by rw [← v.index, FMap.find_eq_some v.wf, ← h]; exact he⟩, hu]
      obtain ⟨d, e, w⟩ := v.takeOut h0 (.inl hl) k
      refine ⟨_, _, .done, ?_, ⟨k, hk1, hk2, rfl, rfl⟩, w⟩
      simp only [e, Option.bind_some, shiftLoop_fst, hk, Option.map_some]
      rw [erase_if_present]
    · rw [if_pos (by omega)]
      simp only [if_neg hl]
      exact ⟨m, a, _, rfl, ⟨rfl, rfl⟩, v⟩
  | remove k =>
    simp only [exec, MV.remove, Step, v.index]
    cases hf : a.index k with
    | none => exact ⟨m, a, _, rfl, ⟨rfl, rfl⟩, v⟩
    | some i =>
      have hs := hs i hf
      obtain ⟨d, e, w⟩ := v.takeOut h0 hs k
      refine ⟨_, _, .done, ?_, ⟨rfl, rfl⟩, w⟩
      simp only [e, Option.map_some]
      cases a.takes kind i with
      | true => simp [Binds.shift]
      | false => simp
  | apply => exact ⟨m, a, _, by simp only [exec, MV.apply, L.all v.rep hs, Option.map_some], ⟨rfl, rfl⟩, v⟩
  | modify f =>
    obtain ⟨d, e, r, _⟩ := L.visit (fun (_ : Unit) x => ((), f x)) () v.rep hs
    rw [visitList_map] at r
    exact ⟨⟨d, m.lookup⟩, { a with values := a.values.map f }, _, by simp only [exec, MV.modify, e, Option.map_some], ⟨rfl, rfl⟩, r, v.wf, v.index,
      fun k i h => Nat.le_trans (v.le k i h) (by simp)⟩
  | transform f =>
    obtain ⟨d, e, r, _⟩ := L.visit (fun (_ : Unit) x => ((), f x)) () v.rep hs
    rw [visitList_map] at r
    exact ⟨⟨d, m.lookup⟩, { a with values := a.values.map f }, _, by simp only [exec, MV.transform, e, Option.map_some], ⟨rfl, rfl⟩, r, v.wf, v.index,
      fun k i h => Nat.le_trans (v.le k i h) (by simp)⟩
  | size => exact ⟨m, a, _, by simp only [exec, MV.size, hsz], ⟨rfl, rfl⟩, v⟩
  | clear =>
    obtain ⟨d, e, r⟩ := L.clear v.rep
    exact ⟨⟨d, []⟩, { a with values := [], index := fun _ => none }, _, by simp only [exec, MV.clear, e, Option.map_some], ⟨rfl, rfl⟩, r, .nil, fun _ => rfl, by simp⟩

/-- a call that is not safe is undefined, or an unchecked access beyond the end -/
theorem unsafe_step (h0 : Corner E.st kind) (hu : Undef L) (hst : kind.isStable = true) (v : Abs L m a) {op : Op K V}
    (hs : ¬ safe kind E.unset a op) : beyond a op ∨ exec E m op = none := by
  have hsz := L.size v.rep
  cases op with
  | get i => exact .inl (Nat.not_lt.1 hs)
  | set i x => exact .inl (Nat.not_lt.1 hs)
  | insertOrAssign k x =>
    simp only [safe, Classical.not_forall, Nat.not_lt] at hs
    obtain ⟨i, h1, h2⟩ := hs
    exact .inl ⟨i, h1, h2⟩
  | back =>
    simp only [safe, ne_eq, Decidable.not_not] at hs
    have := hs ▸ v.rep
    exact .inr (by simp only [exec, MV.back, hu.back this, Option.map_none])
  | remove k => exact absurd (fun _ _ => .inr hst) hs
  | removeIndex i =>
    simp only [safe, Classical.not_forall, not_or, ne_eq, Decidable.not_not] at hs
    obtain ⟨h1, h2, h3⟩ := hs
    obtain ⟨d, e, _⟩ := L.erase h1 v.rep
    have hp := fun b => (shiftLoop_pick b i m.lookup none).2 fun e he h => h2 ⟨e.1, by
      rw [← v.index, FMap.find_eq_some v.wf, ← h]; exact he⟩
    refine .inr ?_
    simp only [exec, MV.removeIndex, hsz]
    rw [if_neg (by omega), e, h3]
    simp [hp]
  | find k =>
    simp only [safe, not_or, not_exists, not_and, Nat.not_lt, Bool.not_eq_true] at hs
    refine .inr ?_
    simp only [exec, MV.find, v.index]
    cases hf : a.index k with
    | none => simp only [hu.endOk v.rep hs.2, Option.map_none]
    | some i =>
      have : i = E.st.size m.data := by have := v.le k i hf; have := hs.1 i hf; omega
      simp only [this, h0.iterEnd, hu.endOk v.rep hs.2, Option.map_none]
  | apply => exact .inr (by simp only [exec, MV.apply, hu.all v.rep (Bool.not_eq_true _ ▸ hs), Option.map_none])
  | modify f => exact .inr (by simp only [exec, MV.modify, hu.visit _ _ v.rep (Bool.not_eq_true _ ▸ hs), Option.map_none])
  | transform f => exact .inr (by simp only [exec, MV.transform, hu.visit _ _ v.rep (Bool.not_eq_true _ ▸ hs), Option.map_none])
  | _ => exact absurd trivial hs

end Verif.Mapped.Vector
