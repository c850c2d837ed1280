import Verif.Mapped.DualPtr.Lemmas

/-
Model of exceptions inside calls of gmlc/containers/DualMappedPointerVector.hpp, and what they leave behind.
-/
namespace Verif.Mapped.DualPtr
open Verif.Mapped
open Verif.Mapped.Pointer (Objs Obs Entry Ideal count)
open Verif.Mapped.Dual (emplace_new join_wf put1)

/-- What throws during the call. -/
inductive Fault where
  | make       -- `std::make_unique`: the allocation or the constructor of the object; there is no object then
  | store      -- `dataStorage.emplace_back`: the allocation; the `unique_ptr` passed is not moved from then
  | map1       -- inserting into `lookup1`: the allocation or copying the search term; it has no effect then
  | map2       -- inserting into `lookup2`, likewise
deriving DecidableEq

variable {K1 K2 V : Type} [DecidableEq K1] [DecidableEq K2] (E : Env K1 K2)

/- The functions below are the calls when the given operation throws if the call gets to it; the first flag says whether it
did, if not the call is an ordinary one. -/
namespace DPV

/-- DualMappedPointerVector.hpp:47-64; the second flag says whether the pointer has been moved from. -/
def insertPtrFault (m : DPV K1 K2) (k1 : K1) (k2 : K2) (p : Option Nat) (f : Fault) : Bool × Bool × DPV K1 K2 :=
  if (FMap.find m.lookup1 k1).isSome ∧ (FMap.find m.lookup2 k2).isSome then (false, false, m)
  else match f with
  | .make => (false, true, (m.insertPtr E k1 k2 p).1)
  | .store => (true, false, m)
  | .map1 => (true, true, ⟨m.data ++ [p], m.lookup1, m.lookup2⟩)
  | .map2 => (true, true, ⟨m.data ++ [p], (FMap.emplace E.impl1 m.lookup1 k1 m.data.length).1, m.lookup2⟩)

/-- The temporary `unique_ptr` of `dataStorage.emplace_back(std::make_unique<VType>(x))` goes: if it has not been moved
from, it deletes the object `p`. -/
def dropTemp (h : Objs V) (p : Nat) (moved : Bool) : Option (Objs V) := if moved then some h else h.delete (some p)

/-- DualMappedPointerVector.hpp:66-85. -/
def insertFault (m : DPV K1 K2) (h : Objs V) (k1 : K1) (k2 : K2) (x : V) (f : Fault) : Option (Bool × DPV K1 K2 × Objs V) :=
  if (FMap.find m.lookup1 k1).isSome ∧ (FMap.find m.lookup2 k2).isSome then some (false, m, h)
  else if f = .make then some (true, m, h)
  else
    let r := h.make x
    let q := m.insertPtrFault E k1 k2 (some r.2) f
    (dropTemp r.1 r.2 q.2.1).map fun h => (q.1, q.2.2, h)

omit [DecidableEq K2] in
/-- DualMappedPointerVector.hpp:88-103. -/
def insert1Fault (m : DPV K1 K2) (h : Objs V) (k1 : K1) (x : V) (f : Fault) : Option (Bool × DPV K1 K2 × Objs V) :=
  if (FMap.find m.lookup1 k1).isSome then some (false, m, h)
  else
    let r := h.make x
    match f with
    | .make => some (true, m, h)
    | .store => (dropTemp r.1 r.2 false).map fun h => (true, m, h)
    | .map1 => some (true, ⟨m.data ++ [some r.2], m.lookup1, m.lookup2⟩, r.1)
    | .map2 => some (false, (m.insert1 E h k1 x).1, (m.insert1 E h k1 x).2.1)

omit [DecidableEq K1] in
/-- DualMappedPointerVector.hpp:106-121. -/
def insert2Fault (m : DPV K1 K2) (h : Objs V) (k2 : K2) (x : V) (f : Fault) : Option (Bool × DPV K1 K2 × Objs V) :=
  if (FMap.find m.lookup2 k2).isSome then some (false, m, h)
  else
    let r := h.make x
    match f with
    | .make => some (true, m, h)
    | .store => (dropTemp r.1 r.2 false).map fun h => (true, m, h)
    | .map1 => some (false, (m.insert2 E h k2 x).1, (m.insert2 E h k2 x).2.1)
    | .map2 => some (true, ⟨m.data ++ [some r.2], m.lookup1, m.lookup2⟩, r.1)

/-- DualMappedPointerVector.hpp:125-145; the second flag as above.  `lookup1[k1]` and `lookup2[k2]` do not insert, and so
do not throw, if the key is there. -/
def insertOrAssignPtrFault (m : DPV K1 K2) (h : Objs V) (k1 : K1) (k2 : K2) (p : Option Nat) (f : Fault) :
    Option (Bool × Bool × DPV K1 K2 × Objs V) :=
  if m.common k1 k2 = none ∧ f = .store then some (true, false, m, h)
  else if m.common k1 k2 = none ∧ f = .map1 ∧ FMap.find m.lookup1 k1 = none then
    some (true, true, ⟨m.data ++ [p], m.lookup1, m.lookup2⟩, h)
  else if m.common k1 k2 = none ∧ f = .map2 ∧ FMap.find m.lookup2 k2 = none then
    some (true, true, ⟨m.data ++ [p], FMap.put E.impl1 m.lookup1 k1 m.data.length, m.lookup2⟩, h)
  else (m.insertOrAssignPtr E h k1 k2 p).map fun r => (false, true, r.1, r.2.1)

/-- DualMappedPointerVector.hpp:147-170. -/
def insertOrAssignFault (m : DPV K1 K2) (h : Objs V) (k1 : K1) (k2 : K2) (x : V) (f : Fault) :
    Option (Bool × DPV K1 K2 × Objs V) :=
  if f = .make then some (true, m, h)
  else
    let r := h.make x
    (m.insertOrAssignPtrFault E r.1 k1 k2 (some r.2) f).bind fun q =>
    (dropTemp q.2.2.2 r.2 q.2.1).map fun h => (q.1, q.2.2.1, h)

omit [DecidableEq K2] in
/-- DualMappedPointerVector.hpp:173-190. -/
def insertOrAssign1Fault (m : DPV K1 K2) (h : Objs V) (k1 : K1) (x : V) (f : Fault) : Option (Bool × DPV K1 K2 × Objs V) :=
  if (FMap.find m.lookup1 k1).isSome ∧ f ≠ .make then (m.insertOrAssign1 E h k1 x).map fun r => (false, r.1, r.2.1)
  else
    let r := h.make x
    match f with
    | .make => some (true, m, h)
    | .store => (dropTemp r.1 r.2 false).map fun h => (true, m, h)
    | .map1 => some (true, ⟨m.data ++ [some r.2], m.lookup1, m.lookup2⟩, r.1)
    | .map2 => (m.insertOrAssign1 E h k1 x).map fun r => (false, r.1, r.2.1)

omit [DecidableEq K1] in
/-- DualMappedPointerVector.hpp:193-210. -/
def insertOrAssign2Fault (m : DPV K1 K2) (h : Objs V) (k2 : K2) (x : V) (f : Fault) : Option (Bool × DPV K1 K2 × Objs V) :=
  if (FMap.find m.lookup2 k2).isSome ∧ f ≠ .make then (m.insertOrAssign2 E h k2 x).map fun r => (false, r.1, r.2.1)
  else
    let r := h.make x
    match f with
    | .make => some (true, m, h)
    | .store => (dropTemp r.1 r.2 false).map fun h => (true, m, h)
    | .map1 => (m.insertOrAssign2 E h k2 x).map fun r => (false, r.1, r.2.1)
    | .map2 => some (true, ⟨m.data ++ [some r.2], m.lookup1, m.lookup2⟩, r.1)

end DPV

/-- One call during which something throws.  A pointer of the client that has not been moved from is deleted by the client;
a function passed to `apply` that throws stops the loop, which changes nothing. -/
def execFault (w : World K1 K2 V) : Op K1 K2 V → Fault → Option (Bool × World K1 K2 V)
  | .insertPtr k1 k2 x, f =>
    let o := w.heap.makeOpt x
    let r := w.pv.insertPtrFault E k1 k2 o.2 f
    (if r.2.1 then some o.1 else o.1.delete o.2).map fun h => (r.1, ⟨r.2.2, h⟩)
  | .insert k1 k2 x, f => (w.pv.insertFault E w.heap k1 k2 x f).map fun r => (r.1, ⟨r.2.1, r.2.2⟩)
  | .insertOne (.inl k) x, f => (w.pv.insert1Fault E w.heap k x f).map fun r => (r.1, ⟨r.2.1, r.2.2⟩)
  | .insertOne (.inr k) x, f => (w.pv.insert2Fault E w.heap k x f).map fun r => (r.1, ⟨r.2.1, r.2.2⟩)
  | .assignPtr k1 k2 x, f =>
    let o := w.heap.makeOpt x
    (w.pv.insertOrAssignPtrFault E o.1 k1 k2 o.2 f).bind fun r =>
    (if r.2.1 then some r.2.2.2 else r.2.2.2.delete o.2).map fun h => (r.1, ⟨r.2.2.1, h⟩)
  | .assign k1 k2 x, f => (w.pv.insertOrAssignFault E w.heap k1 k2 x f).map fun r => (r.1, ⟨r.2.1, r.2.2⟩)
  | .assignOne (.inl k) x, f => (w.pv.insertOrAssign1Fault E w.heap k x f).map fun r => (r.1, ⟨r.2.1, r.2.2⟩)
  | .assignOne (.inr k) x, f => (w.pv.insertOrAssign2Fault E w.heap k x f).map fun r => (r.1, ⟨r.2.1, r.2.2⟩)
  | op, _ => (exec E w op).map fun r => (false, r.1)

/-! ### Specification -/

/-- What adding an element with terms `k1` and another one leaves if it throws: nothing if there is no object or the
storage cannot grow (`made` names the next object, it does not count objects that exist); otherwise the new element, with
the terms stored so far. -/
def leftNew (a : Ideal (K1 ⊕ K2) V) (k1 : K1) (x : Option V) : Fault → Ideal (K1 ⊕ K2) V
  | .make => a
  | .store => { a with made := a.made + count x }
  | .map1 => a.append x []
  | .map2 => attach (a.append x []) a.entries.length (.inl k1)

/-- What a call that throws leaves behind. -/
def left (a : Ideal (K1 ⊕ K2) V) : Op K1 K2 V → Fault → Ideal (K1 ⊕ K2) V
  | .insertPtr k1 _ x, f | .assignPtr k1 _ x, f => leftNew a k1 x f
  | .insert k1 _ x, f | .assign k1 _ x, f => leftNew a k1 (some x) f
  | .insertOne _ x, .store | .assignOne _ x, .store => { a with made := a.made + count (some x) }
  | .insertOne _ x, .map1 | .assignOne _ x, .map1 | .insertOne _ x, .map2 | .assignOne _ x, .map2 => a.append (some x) []
  | _, _ => a

/-! ### Simulation -/

variable {E} {w : World K1 K2 V} {a : Ideal (K1 ⊕ K2) V}

theorem store_inv (v : Inv w a) (x : Option V) : ∃ h', (w.heap.makeOpt x).1.delete (w.heap.makeOpt x).2 = some h' ∧
    Inv ⟨w.pv, h'⟩ { a with made := a.made + count x } := by
  obtain ⟨h', e, o, n⟩ := v.base.own.makeDelete x
  exact ⟨h', e, ⟨v.base.data, v.base.binds, o, by rw [n, v.base.next]⟩, v.one⟩

theorem map1_inv (v : Inv w a) (x : Option V) :
    Inv ⟨⟨w.pv.data ++ [(w.heap.makeOpt x).2], w.pv.lookup1, w.pv.lookup2⟩, (w.heap.makeOpt x).1⟩ (a.append x []) :=
  ⟨v.base.append x v.base.binds.append_nil, append_one v.one x (.inl rfl)⟩

theorem map2_inv (v : Inv w a) (k1 : K1) (x : Option V) {l1 : FMap K1} (w1 : FMap.WF l1)
    (f1 : ∀ k, FMap.find l1 k = if k = k1 then some a.entries.length else FMap.find w.pv.lookup1 k) :
    Inv ⟨⟨w.pv.data ++ [(w.heap.makeOpt x).2], l1, w.pv.lookup2⟩, (w.heap.makeOpt x).1⟩
      (attach (a.append x []) a.entries.length (.inl k1)) := by
  have v1 := map1_inv v x
  obtain ⟨wa, fa⟩ := put1 v.base.binds.wf k1 a.entries.length w1 f1
  refine ⟨attach_inv v1.base (by rw [append_length]; omega) wa fa, attach_one v1.one ?_⟩
  intro e he
  rw [append_last] at he; cases he; simp

/-- adding an element with two unknown terms -/
theorem new_fails (v : Inv w a) (k1 : K1) (k2 : K2) (x : Option V) (f : Fault) (hf : f ≠ .make)
    (h1 : FMap.find w.pv.lookup1 k1 = none) :
    ∃ moved m' h', w.pv.insertPtrFault E k1 k2 (w.heap.makeOpt x).2 f = (true, moved, m') ∧
      (if moved then some (w.heap.makeOpt x).1 else (w.heap.makeOpt x).1.delete (w.heap.makeOpt x).2) = some h' ∧
      Inv ⟨m', h'⟩ (leftNew a k1 x f) := by
  have hw := join_wf.1 v.base.binds.wf
  have hsz : w.pv.data.length = a.entries.length := v.base.size_eq
  cases f with
  | make => exact absurd rfl hf
  | store =>
    obtain ⟨h', e, r⟩ := store_inv v x
    exact ⟨false, w.pv, h', by simp [DPV.insertPtrFault, h1], by simpa using e, r⟩
  | map1 => exact ⟨true, _, _, by simp [DPV.insertPtrFault, h1], rfl, map1_inv v x⟩
  | map2 =>
    refine ⟨true, ⟨_, (FMap.emplace E.impl1 w.pv.lookup1 k1 a.entries.length).1, _⟩, _, ?_, rfl,
      map2_inv v k1 x (FMap.emplace_wf hw.1 k1 _) (emplace_new (I := E.impl1) hw.1 _ h1)⟩
    simp [DPV.insertPtrFault, h1, hsz]

/-- adding an element by `insert_or_assign` with two terms -/
theorem put_fails (v : Inv w a) (k1 : K1) (k2 : K2) (x : Option V) (f : Fault) :
    (∃ moved m' h' h'', w.pv.insertOrAssignPtrFault E (w.heap.makeOpt x).1 k1 k2 (w.heap.makeOpt x).2 f =
        some (true, moved, m', h') ∧
      (if moved then some h' else h'.delete (w.heap.makeOpt x).2) = some h'' ∧ Inv ⟨m', h''⟩ (leftNew a k1 x f)) ∨
    (w.pv.insertOrAssignPtrFault E (w.heap.makeOpt x).1 k1 k2 (w.heap.makeOpt x).2 f =
      (w.pv.insertOrAssignPtr E (w.heap.makeOpt x).1 k1 k2 (w.heap.makeOpt x).2).map fun r => (false, true, r.1, r.2.1)) := by
  have hw := join_wf.1 v.base.binds.wf
  have hsz : w.pv.data.length = a.entries.length := v.base.size_eq
  unfold DPV.insertOrAssignPtrFault
  by_cases c1 : w.pv.common k1 k2 = none ∧ f = .store
  · obtain ⟨h', e, r⟩ := store_inv v x
    rw [if_pos c1, c1.2]
    exact .inl ⟨_, _, _, h', rfl, by simpa using e, r⟩
  · rw [if_neg c1]
    by_cases c2 : w.pv.common k1 k2 = none ∧ f = .map1 ∧ FMap.find w.pv.lookup1 k1 = none
    · rw [if_pos c2, c2.2.1]
      exact .inl ⟨_, _, _, _, rfl, rfl, map1_inv v x⟩
    · rw [if_neg c2]
      by_cases c3 : w.pv.common k1 k2 = none ∧ f = .map2 ∧ FMap.find w.pv.lookup2 k2 = none
      · rw [if_pos c3, c3.2.1]
        refine .inl ⟨_, _, _, _, rfl, rfl, ?_⟩
        rw [hsz]
        exact map2_inv v k1 x (FMap.put_wf hw.1 k1 _) (FMap.find_put (I := E.impl1) hw.1 k1 _)
      · rw [if_neg c3]; exact .inr rfl

/-- Either the call did not get to what throws and is an ordinary one, or it leaves what it should. -/
theorem fails (v : Inv w a) {op : Op K1 K2 V} {f : Fault} (hc : careful E a op = true)
    {a' : Ideal (K1 ⊕ K2) V} {o : Obs V} (hi : ideal a op = some (a', o)) :
    (∃ w', execFault E w op f = some (true, w') ∧ Inv w' (left a op f)) ∨
    (∃ w', execFault E w op f = some (false, w') ∧ exec E w op = some (w', o)) := by
  obtain ⟨w1, e1, _⟩ := step (E := E) v hc hi
  have other : execFault E w op f = ((exec E w op).map fun r => (false, r.1)) →
      ∃ w', execFault E w op f = some (false, w') ∧ exec E w op = some (w', o) := fun h =>
    ⟨w1, by rw [h, e1]; rfl, e1⟩
  cases op with
  | insertPtr k1 k2 x =>
    simp only [careful, lookup_inl v.base, lookup_inr v.base] at hc
    by_cases hf : (FMap.find w.pv.lookup1 k1).isSome = true ∧ (FMap.find w.pv.lookup2 k2).isSome = true
    · refine .inr (other ?_)
      simp [execFault, DPV.insertPtrFault, exec, DPV.insertPtr, hf, Option.map_map, Function.comp_def]
    · have hn : FMap.find w.pv.lookup1 k1 = none := by
        cases h1 : FMap.find w.pv.lookup1 k1 <;> cases h2 : FMap.find w.pv.lookup2 k2 <;> simp_all
      by_cases hm : f = .make
      · subst hm
        refine .inr (other ?_)
        simp [execFault, DPV.insertPtrFault, exec, DPV.insertPtr, hn]
      · obtain ⟨moved, m', h', q1, q2, r⟩ := new_fails (E := E) v k1 k2 x f hm hn
        exact .inl ⟨⟨m', h'⟩, by simp only [execFault, q1, q2, Option.map_some], r⟩
  | insert k1 k2 x =>
    simp only [careful, lookup_inl v.base, lookup_inr v.base] at hc
    by_cases hf : (FMap.find w.pv.lookup1 k1).isSome = true ∧ (FMap.find w.pv.lookup2 k2).isSome = true
    · refine .inr (other ?_)
      simp [execFault, DPV.insertFault, exec, DPV.insert, hf]
    · have hn : FMap.find w.pv.lookup1 k1 = none := by
        cases h1 : FMap.find w.pv.lookup1 k1 <;> cases h2 : FMap.find w.pv.lookup2 k2 <;> simp_all
      by_cases hm : f = .make
      · subst hm
        exact .inl ⟨w, by simp only [execFault, DPV.insertFault, if_neg hf, if_true, Option.map_some], v⟩
      · obtain ⟨moved, m', h', q1, q2, r⟩ := new_fails (E := E) v k1 k2 (some x) f hm hn
        have q1 : w.pv.insertPtrFault E k1 k2 (some (w.heap.make x).2) f = (true, moved, m') := q1
        have q2 : DPV.dropTemp (w.heap.make x).1 (w.heap.make x).2 moved = some h' := q2
        exact .inl ⟨⟨m', h'⟩, by simp only [execFault, DPV.insertFault, if_neg hf, if_neg hm, q1, q2, Option.map_some], r⟩
  | assignPtr k1 k2 x =>
    rcases put_fails (E := E) v k1 k2 x f with ⟨moved, m', h', h'', q1, q2, r⟩ | q
    · exact .inl ⟨⟨m', h''⟩, by simp only [execFault, q1, Option.bind_some, q2, Option.map_some], r⟩
    · refine .inr (other ?_)
      simp only [execFault, q, exec]
      cases w.pv.insertOrAssignPtr E (w.heap.makeOpt x).1 k1 k2 (w.heap.makeOpt x).2 <;> rfl
  | assign k1 k2 x =>
    by_cases hm : f = .make
    · subst hm
      exact .inl ⟨w, by simp only [execFault, DPV.insertOrAssignFault, if_true, Option.map_some], v⟩
    · rcases put_fails (E := E) v k1 k2 (some x) f with ⟨moved, m', h', h'', q1, q2, r⟩ | q
      · have q1 : w.pv.insertOrAssignPtrFault E (w.heap.make x).1 k1 k2 (some (w.heap.make x).2) f =
          some (true, moved, m', h') := q1
        have q2 : DPV.dropTemp h' (w.heap.make x).2 moved = some h'' := q2
        exact .inl ⟨⟨m', h''⟩, by simp only [execFault, DPV.insertOrAssignFault, if_neg hm, q1, Option.bind_some, q2, Option.map_some], r⟩
      · refine .inr (other ?_)
        have q : w.pv.insertOrAssignPtrFault E (w.heap.make x).1 k1 k2 (some (w.heap.make x).2) f =
          (w.pv.insertOrAssign E w.heap k1 k2 x).map fun r => (false, true, r.1, r.2.1) := q
        simp only [execFault, DPV.insertOrAssignFault, if_neg hm, q, exec]
        cases w.pv.insertOrAssign E w.heap k1 k2 x <;> rfl
  | insertOne k x =>
    obtain ⟨h', es, rs⟩ := store_inv v (some x)
    have es : DPV.dropTemp (w.heap.make x).1 (w.heap.make x).2 false = some h' := es
    cases k with
    | inl k =>
      by_cases hk : (FMap.find w.pv.lookup1 k).isSome
      · exact .inr (other (by simp [execFault, DPV.insert1Fault, exec, DPV.insert1, hk]))
      · cases f with
        | make => exact .inl ⟨w, by simp [execFault, DPV.insert1Fault, hk], v⟩
        | store => exact .inl ⟨⟨w.pv, h'⟩, by simp [execFault, DPV.insert1Fault, hk, es], rs⟩
        | map1 => exact .inl ⟨_, by simp only [execFault, DPV.insert1Fault, if_neg hk, Option.map_some]; rfl, map1_inv v (some x)⟩
        | map2 => exact .inr (other (by simp [execFault, DPV.insert1Fault, exec, hk]))
    | inr k =>
      by_cases hk : (FMap.find w.pv.lookup2 k).isSome
      · exact .inr (other (by simp [execFault, DPV.insert2Fault, exec, DPV.insert2, hk]))
      · cases f with
        | make => exact .inl ⟨w, by simp [execFault, DPV.insert2Fault, hk], v⟩
        | store => exact .inl ⟨⟨w.pv, h'⟩, by simp [execFault, DPV.insert2Fault, hk, es], rs⟩
        | map2 => exact .inl ⟨_, by simp only [execFault, DPV.insert2Fault, if_neg hk, Option.map_some]; rfl, map1_inv v (some x)⟩
        | map1 => exact .inr (other (by simp [execFault, DPV.insert2Fault, exec, hk]))
  | assignOne k x =>
    obtain ⟨h', es, rs⟩ := store_inv v (some x)
    have es : DPV.dropTemp (w.heap.make x).1 (w.heap.make x).2 false = some h' := es
    cases k with
    | inl k =>
      by_cases hk : (FMap.find w.pv.lookup1 k).isSome ∧ f ≠ .make
      · refine .inr (other ?_)
        simp [execFault, DPV.insertOrAssign1Fault, exec, hk, Option.map_map, Function.comp_def]
      · cases f with
        | make => exact .inl ⟨w, by simp [execFault, DPV.insertOrAssign1Fault], v⟩
        | store => exact .inl ⟨⟨w.pv, h'⟩, by simp only [execFault, DPV.insertOrAssign1Fault, if_neg hk, es, Option.map_some], rs⟩
        | map1 => exact .inl ⟨_, by simp only [execFault, DPV.insertOrAssign1Fault, if_neg hk, Option.map_some]; rfl, map1_inv v (some x)⟩
        | map2 =>
          refine .inr (other ?_)
          simp only [execFault, DPV.insertOrAssign1Fault, exec, if_neg hk, Option.map_map, Function.comp_def]
    | inr k =>
      by_cases hk : (FMap.find w.pv.lookup2 k).isSome ∧ f ≠ .make
      · refine .inr (other ?_)
        simp [execFault, DPV.insertOrAssign2Fault, exec, hk, Option.map_map, Function.comp_def]
      · cases f with
        | make => exact .inl ⟨w, by simp [execFault, DPV.insertOrAssign2Fault], v⟩
        | store => exact .inl ⟨⟨w.pv, h'⟩, by simp only [execFault, DPV.insertOrAssign2Fault, if_neg hk, es, Option.map_some], rs⟩
        | map2 => exact .inl ⟨_, by simp only [execFault, DPV.insertOrAssign2Fault, if_neg hk, Option.map_some]; rfl, map1_inv v (some x)⟩
        | map1 =>
          refine .inr (other ?_)
          simp only [execFault, DPV.insertOrAssign2Fault, exec, if_neg hk, Option.map_map, Function.comp_def]
  | find k => cases k <;> exact .inr (other rfl)
  | remove k => cases k <;> exact .inr (other rfl)
  | _ => exact .inr (other rfl)

end Verif.Mapped.DualPtr
