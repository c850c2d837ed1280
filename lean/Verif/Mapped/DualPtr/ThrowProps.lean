import Verif.Mapped.DualPtr.Throw
import Verif.Mapped.DualPtr.Props
import Verif.Mapped.RemoveThrow

/-
C93, C94, C95: exceptions inside calls of a DualMappedPointerVector.
-/
namespace Verif.Mapped.DualPtr
open Verif.Mapped
open Verif.Mapped.Pointer (Objs Obs Entry Ideal count)

variable {K1 K2 V : Type} [DecidableEq K1] [DecidableEq K2]

/-- States a program can reach if any call may throw, at any point, and goes on; `a` is what the container should hold:
calls that throw leave what `left` says. -/
inductive Reached (E : Env K1 K2) : World K1 K2 V → Ideal (K1 ⊕ K2) V → Prop where
  | start : Reached E World.init empty
  | call {w w' a a' op o} (h : Reached E w a) (hc : careful E a op = true)
      (hi : ideal a op = some (a', o)) (he : exec E w op = some (w', o)) : Reached E w' a'
  | threw {w w' a a' op o f} (h : Reached E w a) (hc : careful E a op = true)
      (hi : ideal a op = some (a', o)) (he : execFault E w op f = some (true, w')) : Reached E w' (left a op f)

variable {E : Env K1 K2}

theorem Reached.inv {w : World K1 K2 V} {a : Ideal (K1 ⊕ K2) V} (h : Reached E w a) : Inv w a := by
  induction h with
  | start => exact Inv.init
  | call _ hc hi he v =>
    obtain ⟨m1, e1, v1⟩ := step (E := E) v hc hi
    rw [he] at e1; cases e1
    exact v1
  | threw _ hc hi he v =>
    rcases fails (E := E) v hc hi with ⟨m1, e1, v1⟩ | ⟨m1, e1, _⟩
    · rw [he] at e1; cases e1
      exact v1
    · rw [he] at e1; cases e1

/-! ## C93: the container and the objects after an exception -/

/-- C93: whatever throws in whatever call, either the call did not get to it and is an ordinary one, or the container then
holds what `left` says. -/
theorem failure_partial (E : Env K1 K2) (w : World K1 K2 V) (a : Ideal (K1 ⊕ K2) V) (h : Reached E w a)
    (op : Op K1 K2 V) (f : Fault) (hc : careful E a op = true) (a' : Ideal (K1 ⊕ K2) V) (o : Obs V)
    (hi : ideal a op = some (a', o)) :
    (∃ w', execFault E w op f = some (false, w') ∧ exec E w op = some (w', o)) ∨
    (∃ w', execFault E w op f = some (true, w') ∧ Reached E w' (left a op f)) := by
  rcases fails (E := E) (f := f) h.inv hc hi with ⟨w1, e1, _⟩ | h1
  · exact .inr ⟨w1, e1, .threw h hc hi e1⟩
  · exact .inl h1

/-- C93: after any number of exceptions every careful program goes on as the specification says. -/
theorem after_failures_partial (E : Env K1 K2) (w : World K1 K2 V) (a : Ideal (K1 ⊕ K2) V)
    (h : Reached E w a) (ops : List (Op K1 K2 V)) (a' : Ideal (K1 ⊕ K2) V) (os : List (Obs V))
    (hi : idealRun a ops = some (a', os)) (hc : carefulRun E a ops = true) :
    ∃ w', run E w ops = some (w', os) ∧ Reached E w' a' := by
  induction ops generalizing w a os with
  | nil => cases hi; exact ⟨w, rfl, h⟩
  | cons op ops ih =>
    simp only [idealRun, Option.bind_eq_some_iff, Option.map_eq_some_iff] at hi
    obtain ⟨⟨a1, o⟩, h1, ⟨a2, os2⟩, h2, h3⟩ := hi
    cases h3
    simp only [carefulRun, h1, Bool.and_eq_true] at hc
    obtain ⟨m1, e1, _⟩ := step (E := E) h.inv hc.1 h1
    obtain ⟨m2, e2, R⟩ := ih m1 a1 (.call h hc.1 h1 e1) _ h2 hc.2
    exact ⟨m2, by simp only [run, e1, Option.bind_some, e2, Option.map_some], R⟩

/-- C93: no exception leaks or destroys an object: the objects in existence are always exactly those of the elements, no
two elements share one, and destroying the container destroys each of them once and leaves none. -/
theorem failures_no_leak (E : Env K1 K2) (w : World K1 K2 V) (a : Ideal (K1 ⊕ K2) V) (h : Reached E w a) :
    (∀ p x, w.heap.val p = some x ↔ ∃ e ∈ a.entries, e.obj = some (p, x)) ∧
    (∀ (i j : Nat) (p : Nat) (x y : V), (a.entries[i]?).bind (·.obj) = some (p, x) →
      (a.entries[j]?).bind (·.obj) = some (p, y) → i = j) ∧
    ∃ h', w.heap.deleteAll w.pv.data = some h' ∧ ∀ p, h'.val p = none := by
  have v := h.inv.base
  have hd : w.pv.data = _ := v.data
  refine ⟨fun p x => ?_, fun i j p x y hi hj => ?_, ?_⟩
  · rw [v.own.val]; simp
  · obtain ⟨e1, h1, h2⟩ := Option.bind_eq_some_iff.1 hi
    obtain ⟨e2, h3, h4⟩ := Option.bind_eq_some_iff.1 hj
    exact v.own.uniq i j p x y (by simp [h1, h2]) (by simp [h3, h4])
  · obtain ⟨h', e, o, _⟩ := v.own.deleteAll
    refine ⟨h', ?_, fun p => ?_⟩
    · rw [hd]; simpa [List.map_map, Function.comp_def] using e
    · cases hv : h'.val p with
      | none => rfl
      | some x => exact absurd ((o.val p x).1 hv) (by simp)

/-- An insertion whose object cannot be made, one for which the storage cannot grow, two whose keys cannot be stored. -/
example :
    ((run env0 (World.init : World Nat Nat Nat) [.insert 1 1 10, .insertPtr 2 2 (some 20)]).bind fun r =>
      (execFault env0 r.1 (.insert 3 3 30) .make).bind fun s =>
      (execFault env0 s.2 (.insertPtr 4 4 (some 40)) .store).bind fun t =>
      (execFault env0 t.2 (.insert 5 5 50) .map1).bind fun u =>
      (execFault env0 u.2 (.assignPtr 1 6 (some 60)) .map2).bind fun y =>
      (run env0 y.2 [.apply, .find (.inl 5), .find (.inl 1), .find (.inr 1), .find (.inr 6), .removeIndex 2, .find (.inl 1)]).map
        fun x => ([s.1, t.1, u.1, y.1], x.2)) =
    some ([true, true, true, true], [.ptrs [some (0, 10), some (1, 20), some (3, 50), some (4, 60)], .ptr none,
      .ptr (some (4, 60)), .ptr (some (0, 10)), .ptr none, .done, .ptr (some (4, 60))]) := by decide

/-! ## C94: calls that throw have no effect -/

/-- C94, as far as it holds: if the object cannot be made or the storage cannot grow, the container holds what it held. -/
theorem no_effect_partial (a : Ideal (K1 ⊕ K2) V) (op : Op K1 K2 V) (f : Fault)
    (hf : f = .make ∨ f = .store) : (left a op f).entries = a.entries := by
  rcases hf with rfl | rfl <;> cases op <;> rfl
example : (left (⟨[⟨some (0, 10), [.inl 1, .inr 1]⟩], 1⟩ : Ideal (Nat ⊕ Nat) Nat) (.insert 2 2 20) .store).entries =
    [⟨some (0, 10), [.inl 1, .inr 1]⟩] := by rfl

/-- C94, as far as it holds, as the client sees it: after such a call the same objects exist, with the same values, and
every search and every traversal finds the same ones. -/
theorem no_effect_client_partial (E : Env K1 K2) (w w' : World K1 K2 V) (a : Ideal (K1 ⊕ K2) V) (h : Reached E w a)
    (op : Op K1 K2 V) (f : Fault) (hc : careful E a op = true) (a' : Ideal (K1 ⊕ K2) V) (o : Obs V)
    (hi : ideal a op = some (a', o)) (hl : f = .make ∨ f = .store)
    (he : execFault E w op f = some (true, w')) :
    (∀ p, w'.heap.val p = w.heap.val p) ∧
    ∀ op', (op' = .apply ∨ op' = .size ∨ (∃ k, op' = .find k) ∨ ∃ i, op' = .get i) →
      (exec E w' op').map (·.2) = (exec E w op').map (·.2) := by
  have hn := no_effect_partial a op f hl
  have R : Reached E w' (left a op f) := .threw h hc hi he
  refine ⟨fun p => ?_, fun op' hop => ?_⟩
  · apply Option.ext
    intro x
    rw [(failures_no_leak E w' _ R).1 p x, (failures_no_leak E w a h).1 p x, hn]
  · have key : ∀ (b : Ideal (K1 ⊕ K2) V) (v : World K1 K2 V), Reached E v b → ∀ b' o', ideal b op' = some (b', o') →
        (exec E v op').map (·.2) = some o' := by
      intro b v Rv b' o' hb
      obtain ⟨w1, e1, _⟩ := step (E := E) Rv.inv (op := op') (by rcases hop with rfl | rfl | ⟨k, rfl⟩ | ⟨i, rfl⟩ <;> rfl) hb
      rw [e1]; rfl
    rcases hop with rfl | rfl | ⟨k, rfl⟩ | ⟨i, rfl⟩
    all_goals
      rw [key _ _ R _ _ rfl, key _ _ h _ _ rfl]
      simp only [hn, objOf]

/-- C94: if the storage cannot grow, `insert(k1, k2, std::move(p))` and `insert_or_assign(k1, k2, std::move(p))` leave the
pointer with the caller. -/
theorem pointer_kept (E : Env K1 K2) (m : DPV K1 K2) (h : Objs V) (k1 : K1) (k2 : K2) (p : Option Nat) :
    (¬((FMap.find m.lookup1 k1).isSome ∧ (FMap.find m.lookup2 k2).isSome) →
      m.insertPtrFault E k1 k2 p .store = (true, false, m)) ∧
    (m.common k1 k2 = none → m.insertOrAssignPtrFault E h k1 k2 p .store = some (true, false, m, h)) := by
  refine ⟨fun hk => ?_, fun hk => ?_⟩
  · simp only [DPV.insertPtrFault, if_neg hk]
  · simp [DPV.insertOrAssignPtrFault, hk]
example : (⟨[some 0], [(1, 0)], [(1, 0)]⟩ : DPV Nat Nat).common 1 2 = none := by decide

/-- C94 fails, in every state, if the first search term cannot be stored: the call throws, but the caller's pointer has been
moved from, and its object belongs to an element without search term. -/
theorem map1_throw_violation (E : Env K1 K2) (w : World K1 K2 V) (a : Ideal (K1 ⊕ K2) V) (h : Reached E w a)
    (k1 : K1) (k2 : K2) (x : V) (h1 : ∀ e ∈ a.entries, Sum.inl k1 ∉ e.keys) (h2 : ∀ e ∈ a.entries, Sum.inr k2 ∉ e.keys)
    (op : Op K1 K2 V)
    (hop : op = .insertPtr k1 k2 (some x) ∨ op = .assignPtr k1 k2 (some x) ∨ op = .insert k1 k2 x ∨ op = .assign k1 k2 x) :
    (∀ p, (w.pv.insertPtrFault E k1 k2 p .map1).2.1 = true) ∧
    ∃ w', execFault E w op .map1 = some (true, w') ∧ Reached E w' (a.append (some x) []) ∧
      w'.pv.size = a.entries.length + 1 ∧ w'.pv.get a.entries.length = some (some a.made) ∧
      finds w' (.inl k1) = some none ∧ finds w' (.inr k2) = some none := by
  have v := h.inv
  have l1 := lookup_of_none v h1
  have l2 := lookup_of_none v h2
  have hf1 : FMap.find w.pv.lookup1 k1 = none := (lookup_inl v.base k1).symm.trans l1
  have hf2 : FMap.find w.pv.lookup2 k2 = none := (lookup_inr v.base k2).symm.trans l2
  have hcm : w.pv.common k1 k2 = none := by simp [DPV.common, hf1]
  have hleft : left a op .map1 = a.append (some x) [] := by rcases hop with rfl | rfl | rfl | rfl <;> rfl
  have hid : ideal a op = some (both a k1 k2 (some x), .index (some a.entries.length)) := by
    rcases hop with rfl | rfl | rfl | rfl <;> simp [ideal, l1]
  have hcf : careful E a op = true := by rcases hop with rfl | rfl | rfl | rfl <;> simp [careful, l1, l2]
  refine ⟨fun p => by simp [DPV.insertPtrFault, hf1], ?_⟩
  rcases failure_partial E w a h op .map1 hcf _ _ hid with ⟨w', e, _⟩ | ⟨w', e, R⟩
  · exfalso
    rcases hop with rfl | rfl | rfl | rfl <;>
      simp [execFault, DPV.insertPtrFault, DPV.insertFault, DPV.insertOrAssignPtrFault, DPV.insertOrAssignFault,
        DPV.dropTemp, hf1, hcm] at e
  · rw [hleft] at R
    have v1 := R.inv
    have hsz : w'.pv.data.length = a.entries.length + 1 := by
      have := v1.base.size_eq
      rw [append_length] at this; exact this
    refine ⟨w', e, R, hsz, ?_, ?_, ?_⟩
    · have := (v1.base.obj_at (i := a.entries.length) (by rw [append_length]; omega)).1
      simp only [DPV.get]
      rw [if_pos (by omega)]
      rw [show w'.pv.data[a.entries.length]? = _ from this]
      simp [Ideal.append]
    · refine finds_none v1 fun e he => ?_
      simp only [Ideal.append, List.mem_append, List.mem_singleton] at he
      rcases he with he | rfl
      · exact h1 e he
      · simp
    · refine finds_none v1 fun e he => ?_
      simp only [Ideal.append, List.mem_append, List.mem_singleton] at he
      rcases he with he | rfl
      · exact h2 e he
      · simp

/-- C94 fails, in every state, if the second search term, which is not in use, cannot be stored by `insert_or_assign`: the
call throws, but there is a new element, and the first search term finds it, even if it was that of another element. -/
theorem map2_throw_violation (E : Env K1 K2) (w : World K1 K2 V) (a : Ideal (K1 ⊕ K2) V) (h : Reached E w a)
    (k1 : K1) (k2 : K2) (x : V) (h2 : ∀ e ∈ a.entries, Sum.inr k2 ∉ e.keys)
    (op : Op K1 K2 V) (hop : op = .assignPtr k1 k2 (some x) ∨ op = .assign k1 k2 x) :
    ∃ w', execFault E w op .map2 = some (true, w') ∧
      Reached E w' (attach (a.append (some x) []) a.entries.length (.inl k1)) ∧
      w'.pv.size = a.entries.length + 1 ∧ w'.pv.get a.entries.length = some (some a.made) ∧
      finds w' (.inl k1) = some (some a.made) ∧ finds w' (.inr k2) = some none := by
  have v := h.inv
  have l2 := lookup_of_none v h2
  have hf2 : FMap.find w.pv.lookup2 k2 = none := (lookup_inr v.base k2).symm.trans l2
  have hcm : w.pv.common k1 k2 = none := by
    simp only [DPV.common, hf2]
    cases FMap.find w.pv.lookup1 k1 <;> rfl
  have hid : ∃ a' o, ideal a op = some (a', o) := by
    refine ⟨both a k1 k2 (some x), .index (some a.entries.length), ?_⟩
    rcases hop with rfl | rfl <;> simp only [ideal, l2] <;> cases a.lookup (.inl k1) <;> simp
  obtain ⟨a', o, hid⟩ := hid
  have hcf : careful E a op = true := by rcases hop with rfl | rfl <;> rfl
  have hleft : left a op .map2 = attach (a.append (some x) []) a.entries.length (.inl k1) := by
    rcases hop with rfl | rfl <;> rfl
  rcases failure_partial E w a h op .map2 hcf _ _ hid with ⟨w', e, _⟩ | ⟨w', e, R⟩
  · exfalso
    rcases hop with rfl | rfl <;>
      simp [execFault, DPV.insertOrAssignPtrFault, DPV.insertOrAssignFault, DPV.dropTemp, hf2, hcm] at e
  · rw [hleft] at R
    have v1 := R.inv
    have hal : (attach (a.append (some x) []) a.entries.length (Sum.inl k1)).entries.length = a.entries.length + 1 := by
      rw [attach_length, append_length]
    have hsz : w'.pv.data.length = a.entries.length + 1 := by
      have := v1.base.size_eq
      rw [hal] at this; exact this
    have hlast : ∃ e, (attach (a.append (some x) []) a.entries.length (Sum.inl k1)).entries[a.entries.length]? = some e ∧
        e.obj = some (a.made, x) ∧ Sum.inl k1 ∈ e.keys := by
      unfold attach
      rw [List.getElem?_modify, List.getElem?_map, append_last]
      exact ⟨_, rfl, by simp, by simp⟩
    obtain ⟨el, g1, g2, g3⟩ := hlast
    refine ⟨w', e, R, hsz, ?_, ?_, ?_⟩
    · have := (v1.base.obj_at (i := a.entries.length) (by rw [hal]; omega)).1
      simp only [DPV.get]
      rw [if_pos (by omega), show w'.pv.data[a.entries.length]? = _ from this]
      rw [List.getElem?_eq_some_iff] at g1
      obtain ⟨_, g1⟩ := g1
      rw [g1, g2]; rfl
    · rw [finds_key v1 g1 g3, g2]; rfl
    · refine finds_none v1 fun e he => ?_
      have hm : e.keys ∈ (attach (a.append (some x) []) a.entries.length (Sum.inl k1)).entries.map (·.keys) :=
        List.mem_map.2 ⟨e, he, rfl⟩
      rw [attach_keys] at hm
      obtain ⟨j, hj⟩ := List.mem_iff_getElem?.1 hm
      rw [List.getElem?_modify, List.getElem?_map, List.getElem?_map] at hj
      cases h0 : (a.append (some x) []).entries[j]? with
      | none => rw [h0] at hj; cases hj
      | some e0 =>
        rw [h0] at hj
        have hn0 : Sum.inr k2 ∉ e0.keys := by
          have := List.mem_of_getElem? h0
          simp only [Ideal.append, List.mem_append, List.mem_singleton] at this
          rcases this with h | rfl
          · exact h2 _ h
          · simp
        simp only [Option.map_some, Option.map_eq_map, Option.some.injEq] at hj
        rw [← hj]
        split <;> simp [hn0]

/-- The hypotheses hold, for example, after `demo2`: new keys 4, 4; keys 1, 4 of which the first belongs to an element. -/
example : ∃ w a, Reached (V := Nat) envInt w a ∧ (∀ e ∈ a.entries, Sum.inl 4 ∉ e.keys) ∧
    (∀ e ∈ a.entries, Sum.inr 4 ∉ e.keys) ∧ a.entries[0]? = some ⟨some (0, 10), [.inr 1, .inl 1]⟩ := by
  obtain ⟨w, _, R⟩ := after_failures_partial (V := Nat) envInt _ _ .start demo2
    ⟨[⟨some (0, 10), [.inr 1, .inl 1]⟩, ⟨some (1, 20), [.inr 2, .inl 2]⟩, ⟨some (2, 30), [.inr 3, .inl 3]⟩], 3⟩
    [.index (some 0), .index (some 1), .index (some 2)] (by decide) (by decide)
  exact ⟨w, _, R, by simp, by simp, rfl⟩

/-! ## C95 for DualMappedPointerVector -/

/-- The removal that throws. -/
inductive Removal (K1 K2 : Type) where
  | first (i : Nat)          -- `removeIndex(i)`, in the loop over `lookup1`
  | second (i : Nat)         -- `removeIndex(i)`, in the loop over `lookup2`
  | key1 (k : K1)            -- `remove(k)`, in the loop over `lookup2`
  | key2 (k : K2)            -- `remove(k)`, in the loop over `lookup1`

/-- `removeIndex`, DualMappedPointerVector.hpp:248-278, and the two `remove`, 280-306, 308-334, when the assignment
`ind = el2.first` in round `n` of the loop throws; `none` if there is no such assignment or behaviour is undefined. -/
def DPV.removeFault (m : DPV K1 K2) (h : Objs V) : Removal K1 K2 → Nat → Option (DPV K1 K2 × Objs V)
  | .first i, n =>
    if i < m.data.length ∧ (m.lookup1[n]?).map (·.2) = some i then
      (m.eraseAt h i).map fun r => (⟨r.1, lowered true i n m.lookup1, m.lookup2⟩, r.2)
    else none
  | .second i, n =>
    if i < m.data.length ∧ (m.lookup2[n]?).map (·.2) = some i then
      (m.eraseAt h i).map fun r => (⟨r.1, lowered true i m.lookup1.length m.lookup1, lowered true i n m.lookup2⟩, r.2)
    else none
  | .key1 k, n => (FMap.find m.lookup1 k).bind fun i =>
    if (m.lookup2[n]?).map (·.2) = some i then
      (m.eraseAt h i).map fun r => (⟨r.1, dropKey i k m.lookup1, lowered true i n m.lookup2⟩, r.2)
    else none
  | .key2 k, n => (FMap.find m.lookup2 k).bind fun i =>
    if (m.lookup1[n]?).map (·.2) = some i then
      (m.eraseAt h i).map fun r => (⟨r.1, lowered true i n m.lookup1, dropKey i k m.lookup2⟩, r.2)
    else none

/-- the element to be removed -/
def Removal.index (a : Ideal (K1 ⊕ K2) V) : Removal K1 K2 → Option Nat
  | .first i | .second i => some i
  | .key1 k => a.lookup (.inl k)
  | .key2 k => a.lookup (.inr k)

theorem erase_at {w : World K1 K2 V} {a : Ideal (K1 ⊕ K2) V} (v : Inv w a) {i : Nat} (hl : i < a.entries.length) :
    ∃ h', w.pv.eraseAt w.heap i = some (w.pv.data.eraseIdx i, h') ∧
      ∀ p x, h'.val p = some x ↔ ∃ j e, j ≠ i ∧ a.entries[j]? = some e ∧ e.obj = some (p, x) := by
  obtain ⟨h2, e, o⟩ := v.base.own.erase (i := i) (o := (a.entries[i]).obj) (by simp [List.getElem?_eq_getElem hl])
  refine ⟨h2, ?_, fun p x => ?_⟩
  · have := (v.base.obj_at hl).1
    simp only [DPV.eraseAt]
    rw [show w.pv.data[i]? = _ from this, Option.bind_some, e, Option.map_some]
  · rw [o.val, List.mem_eraseIdx_iff_getElem?]
    constructor
    · rintro ⟨j, hj, hje⟩
      rw [List.getElem?_map, Option.map_eq_some_iff] at hje
      obtain ⟨e, h1, h2⟩ := hje
      exact ⟨j, e, hj, h1, h2⟩
    · rintro ⟨j, e, hj, h1, h2⟩
      exact ⟨j, hj, by rw [List.getElem?_map, h1, Option.map_some, h2]⟩

theorem find_dropKey {K : Type} [DecidableEq K] {l : FMap K} (wf : FMap.WF l) {i j : Nat} {k k' : K} (hj : j ≤ i)
    (hf : FMap.find l k' = some j) (hne : k' ≠ k) : FMap.find (DPV.dropKey i k l) k' = some j := by
  unfold DPV.dropKey
  have hs := FMap.find_mapVal wf (Binds.shift i) k'
  have wf' := FMap.mapVal_wf wf (Binds.shift i)
  have he : (l.map fun e => (e.1, if e.2 > i then e.2 - 1 else e.2)) = l.map fun e => (e.1, Binds.shift i e.2) := rfl
  rw [he, FMap.find_erase wf', if_neg hne, hs, hf]
  simp only [Option.map_some, Binds.shift]
  rw [if_neg (by omega)]

/-- C95 as far as it holds: after an exception in a removal of element `i` the objects before it are still found under
their search terms, and exactly the object removed has been destroyed. -/
theorem remove_throw_partial (E : Env K1 K2) (w : World K1 K2 V) (m' : DPV K1 K2) (h' : Objs V) (a : Ideal (K1 ⊕ K2) V)
    (h : Reached E w a) (r : Removal K1 K2) (n : Nat) (ht : w.pv.removeFault w.heap r n = some (m', h')) :
    ∃ i, r.index a = some i ∧ i < a.entries.length ∧
    (∀ p x, h'.val p = some x ↔ ∃ j e, j ≠ i ∧ a.entries[j]? = some e ∧ e.obj = some (p, x)) ∧
    ∀ j, j < i → ∀ k ob ks, a.entries[j]? = some ⟨ob, ks⟩ → k ∈ ks → finds ⟨m', h'⟩ k = some (ob.map (·.1)) := by
  have v := h.inv
  have hsz : w.pv.data.length = a.entries.length := v.base.size_eq
  have hd : w.pv.data = a.entries.map fun e => e.obj.map (·.1) := v.base.data
  obtain ⟨wf1, wf2⟩ := Dual.join_wf.1 v.base.binds.wf
  have main : ∀ i, i < a.entries.length → ∀ l1 l2, (w.pv.eraseAt w.heap i).map (fun r => ((⟨r.1, l1, l2⟩ : DPV K1 K2), r.2)) = some (m', h') →
      (∀ k j, j < i → FMap.find w.pv.lookup1 k = some j → FMap.find l1 k = some j) →
      (∀ k j, j < i → FMap.find w.pv.lookup2 k = some j → FMap.find l2 k = some j) →
      (∀ p x, h'.val p = some x ↔ ∃ j e, j ≠ i ∧ a.entries[j]? = some e ∧ e.obj = some (p, x)) ∧
      ∀ j, j < i → ∀ k ob ks, a.entries[j]? = some ⟨ob, ks⟩ → k ∈ ks → finds ⟨m', h'⟩ k = some (ob.map (·.1)) := by
    intro i hl l1 l2 he f1 f2
    obtain ⟨h2, e, o⟩ := erase_at v hl
    rw [e, Option.map_some] at he
    cases he
    refine ⟨o, fun j hj k ob ks hje hk => ?_⟩
    have hlk : a.lookup k = some j := (lookup_iff v.base k j).2 ⟨_, hje, hk⟩
    have hg : (w.pv.data.eraseIdx i)[j]? = some (ob.map (·.1)) := by
      rw [List.getElem?_eraseIdx, if_pos hj, hd]; simp [hje]
    cases k with
    | inl k =>
      rw [lookup_inl v.base] at hlk
      show DPV.find1 _ _ = _
      simp only [DPV.find1, f1 k j hj hlk, hg]
    | inr k =>
      rw [lookup_inr v.base] at hlk
      show DPV.find2 _ _ = _
      simp only [DPV.find2, f2 k j hj hlk, hg]
  cases r with
  | first i =>
    simp only [DPV.removeFault] at ht
    split at ht
    · rename_i hc
      have hl : i < a.entries.length := hsz ▸ hc.1
      exact ⟨i, rfl, hl, main i hl _ _ ht (fun k j hj hf => find_lowered _ _ _ _ _ _ (by omega) hf) (fun k j _ hf => hf)⟩
    · cases ht
  | second i =>
    simp only [DPV.removeFault] at ht
    split at ht
    · rename_i hc
      have hl : i < a.entries.length := hsz ▸ hc.1
      exact ⟨i, rfl, hl, main i hl _ _ ht (fun k j hj hf => find_lowered _ _ _ _ _ _ (by omega) hf)
        (fun k j hj hf => find_lowered _ _ _ _ _ _ (by omega) hf)⟩
    · cases ht
  | key1 k =>
    simp only [DPV.removeFault, Option.bind_eq_some_iff] at ht
    obtain ⟨i, hi, ht⟩ := ht
    split at ht
    · have hlk : a.lookup (.inl k) = some i := (lookup_inl v.base k).trans hi
      have hl := lookup_lt v.base hlk
      refine ⟨i, hlk, hl, main i hl _ _ ht (fun k' j hj hf => find_dropKey wf1 (by omega) hf ?_)
        (fun k j hj hf => find_lowered _ _ _ _ _ _ (by omega) hf)⟩
      rintro rfl; rw [hi] at hf; cases hf; omega
    · cases ht
  | key2 k =>
    simp only [DPV.removeFault, Option.bind_eq_some_iff] at ht
    obtain ⟨i, hi, ht⟩ := ht
    split at ht
    · have hlk : a.lookup (.inr k) = some i := (lookup_inr v.base k).trans hi
      have hl := lookup_lt v.base hlk
      refine ⟨i, hlk, hl, main i hl _ _ ht (fun k j hj hf => find_lowered _ _ _ _ _ _ (by omega) hf)
        (fun k' j hj hf => find_dropKey wf2 (by omega) hf ?_)⟩
      rintro rfl; rw [hi] at hf; cases hf; omega
    · cases ht

/-- C95 fails, in every state: `removeIndex(i)` throws while copying a search term of the element; afterwards the object
is gone, but all its search terms find the object that followed it. -/
theorem remove_throw_violation (E : Env K1 K2) (w : World K1 K2 V) (a : Ideal (K1 ⊕ K2) V) (h : Reached E w a)
    (i : Nat) (k : K1 ⊕ K2) (e f : Entry (K1 ⊕ K2) V) (he : a.entries[i]? = some e) (hk : k ∈ e.keys)
    (hf : a.entries[i + 1]? = some f) :
    ∃ r n m' h', (r = .first i ∨ r = .second i) ∧ w.pv.removeFault w.heap r n = some (m', h') ∧
      m'.size + 1 = a.entries.length ∧ ∀ k' ∈ e.keys, finds ⟨m', h'⟩ k' = some (f.obj.map (·.1)) := by
  have v := h.inv
  have hsz : w.pv.data.length = a.entries.length := v.base.size_eq
  have hd : w.pv.data = a.entries.map fun e => e.obj.map (·.1) := v.base.data
  have hl : i < a.entries.length := (List.getElem?_eq_some_iff.1 he).1
  have hlk : a.lookup k = some i := (lookup_iff v.base k i).2 ⟨_, he, hk⟩
  obtain ⟨h2, e2, _⟩ := erase_at v hl
  have hg : (w.pv.data.eraseIdx i)[i]? = some (f.obj.map (·.1)) := by
    rw [List.getElem?_eraseIdx, if_neg (by omega), hd]; simp [hf]
  have hs' : (w.pv.data.eraseIdx i).length + 1 = a.entries.length := by
    rw [List.length_eraseIdx, if_pos (by omega)]; omega
  have found : ∀ l1 l2, (∀ k, FMap.find w.pv.lookup1 k = some i → FMap.find l1 k = some i) →
      (∀ k, FMap.find w.pv.lookup2 k = some i → FMap.find l2 k = some i) → ∀ k' ∈ e.keys,
      finds (⟨⟨w.pv.data.eraseIdx i, l1, l2⟩, h2⟩ : World K1 K2 V) k' = some (f.obj.map (·.1)) := by
    intro l1 l2 f1 f2 k' hk'
    have hlk : a.lookup k' = some i := (lookup_iff v.base k' i).2 ⟨_, he, hk'⟩
    cases k' with
    | inl k =>
      rw [lookup_inl v.base] at hlk
      show DPV.find1 _ _ = _
      simp only [DPV.find1, f1 k hlk, hg]
    | inr k =>
      rw [lookup_inr v.base] at hlk
      show DPV.find2 _ _ = _
      simp only [DPV.find2, f2 k hlk, hg]
  have hll : i < w.pv.data.length := by omega
  cases k with
  | inl k =>
    rw [lookup_inl v.base] at hlk
    obtain ⟨n, hn⟩ := position hlk
    refine ⟨.first i, n, ⟨w.pv.data.eraseIdx i, lowered true i n w.pv.lookup1, w.pv.lookup2⟩, h2, .inl rfl, ?_, hs', ?_⟩
    · simp only [DPV.removeFault]
      rw [if_pos ⟨hll, hn⟩, e2, Option.map_some]
    · exact found _ _ (fun k h => find_lowered _ _ _ _ _ _ (by omega) h) (fun k h => h)
  | inr k =>
    rw [lookup_inr v.base] at hlk
    obtain ⟨n, hn⟩ := position hlk
    refine ⟨.second i, n, ⟨w.pv.data.eraseIdx i, lowered true i w.pv.lookup1.length w.pv.lookup1,
      lowered true i n w.pv.lookup2⟩, h2, .inr rfl, ?_, hs', ?_⟩
    · simp only [DPV.removeFault]
      rw [if_pos ⟨hll, hn⟩, e2, Option.map_some]
    · exact found _ _ (fun k h => find_lowered _ _ _ _ _ _ (by omega) h)
        (fun k h => find_lowered _ _ _ _ _ _ (by omega) h)

/-- C95 fails likewise for removal by a search term: `remove(k1)` throws while copying the other search term `k2` of the
element, and `k2` then finds the object that followed it. -/
theorem remove_key_throw_violation (E : Env K1 K2) (w : World K1 K2 V) (a : Ideal (K1 ⊕ K2) V) (h : Reached E w a)
    (i : Nat) (k1 : K1) (k2 : K2) (e f : Entry (K1 ⊕ K2) V) (he : a.entries[i]? = some e) (h1 : Sum.inl k1 ∈ e.keys)
    (h2 : Sum.inr k2 ∈ e.keys) (hf : a.entries[i + 1]? = some f) :
    (∃ n m' h', w.pv.removeFault w.heap (.key1 k1) n = some (m', h') ∧ m'.size + 1 = a.entries.length ∧
      finds ⟨m', h'⟩ (.inr k2) = some (f.obj.map (·.1))) ∧
    (∃ n m' h', w.pv.removeFault w.heap (.key2 k2) n = some (m', h') ∧ m'.size + 1 = a.entries.length ∧
      finds ⟨m', h'⟩ (.inl k1) = some (f.obj.map (·.1))) := by
  have v := h.inv
  have hsz : w.pv.data.length = a.entries.length := v.base.size_eq
  have hd : w.pv.data = a.entries.map fun e => e.obj.map (·.1) := v.base.data
  have hl : i < a.entries.length := (List.getElem?_eq_some_iff.1 he).1
  have l1 : FMap.find w.pv.lookup1 k1 = some i := (lookup_inl v.base k1).symm.trans ((lookup_iff v.base _ i).2 ⟨_, he, h1⟩)
  have l2 : FMap.find w.pv.lookup2 k2 = some i := (lookup_inr v.base k2).symm.trans ((lookup_iff v.base _ i).2 ⟨_, he, h2⟩)
  obtain ⟨h2, e2, _⟩ := erase_at v hl
  have hg : (w.pv.data.eraseIdx i)[i]? = some (f.obj.map (·.1)) := by
    rw [List.getElem?_eraseIdx, if_neg (by omega), hd]; simp [hf]
  have hs' : (w.pv.data.eraseIdx i).length + 1 = a.entries.length := by
    rw [List.length_eraseIdx, if_pos (by omega)]; omega
  constructor
  · obtain ⟨n, hn⟩ := position l2
    refine ⟨n, ⟨w.pv.data.eraseIdx i, DPV.dropKey i k1 w.pv.lookup1, lowered true i n w.pv.lookup2⟩, h2, ?_, hs', ?_⟩
    · simp only [DPV.removeFault, l1, Option.bind_some]
      rw [if_pos hn, e2, Option.map_some]
    · show DPV.find2 _ _ = _
      simp only [DPV.find2, find_lowered true i n _ k2 i (by omega) l2, hg]
  · obtain ⟨n, hn⟩ := position l1
    refine ⟨n, ⟨w.pv.data.eraseIdx i, lowered true i n w.pv.lookup1, DPV.dropKey i k2 w.pv.lookup2⟩, h2, ?_, hs', ?_⟩
    · simp only [DPV.removeFault, l2, Option.bind_some]
      rw [if_pos hn, e2, Option.map_some]
    · show DPV.find1 _ _ = _
      simp only [DPV.find1, find_lowered true i n _ k1 i (by omega) l1, hg]

/-- The hypotheses hold, for example, for the first element after `demo2`. -/
example : ∃ w a, Reached (V := Nat) envInt w a ∧ a.entries[0]? = some ⟨some (0, 10), [.inr 1, .inl 1]⟩ ∧
    a.entries[1]? = some ⟨some (1, 20), [.inr 2, .inl 2]⟩ := by
  obtain ⟨w, _, R⟩ := after_failures_partial (V := Nat) envInt _ _ .start demo2
    ⟨[⟨some (0, 10), [.inr 1, .inl 1]⟩, ⟨some (1, 20), [.inr 2, .inl 2]⟩, ⟨some (2, 30), [.inr 3, .inl 3]⟩], 3⟩
    [.index (some 0), .index (some 1), .index (some 2)] (by decide) (by decide)
  exact ⟨w, _, R, rfl, rfl⟩

end Verif.Mapped.DualPtr
