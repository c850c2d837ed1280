import Verif.Mapped.Pointer.Lemmas

/-
Model of exceptions inside calls of gmlc/containers/MappedPointerVector.hpp, and what they leave behind.
-/
namespace Verif.Mapped.Pointer
open Verif.Mapped

/-- What throws during the call. -/
inductive Fault where
  | make       -- `std::make_unique`: the allocation or the constructor of the object; there is no object then
  | store      -- `dataStorage.emplace_back`: the allocation; the `unique_ptr` passed is not moved from then
  | map        -- `lookup.emplace`: the allocation or copying the search term; it has no effect then
deriving DecidableEq

variable {K V : Type} [DecidableEq K] (I : MapImpl K)

/- The functions below are the calls when the given operation throws if the call gets to it; the first flag says whether it
did, if not the call is an ordinary one. -/
namespace PV

/-- MappedPointerVector.hpp:33-44; the second flag says whether the pointer has been moved from. -/
def insertPtrFault (m : PV K) (k : K) (p : Option Nat) : Fault → Bool × Bool × PV K
  | .store => if (FMap.find m.lookup k).isSome then (false, false, m) else (true, false, m)
  | .map => if (FMap.find m.lookup k).isSome then (false, false, m) else (true, true, ⟨m.data ++ [p], m.lookup⟩)
  | .make => (false, (m.insertPtr I k p).2.isSome, (m.insertPtr I k p).1)

/-- `dataStorage.emplace_back(std::make_unique<VType>(x))` (MappedPointerVector.hpp:54-55, 65-66, 95-96), throwing: if the
storage cannot grow, the temporary pointer deletes the object; `.map` stands for a later failure. -/
def emplaceFault (m : PV K) (h : Objs V) (x : V) : Fault → Option (PV K × Objs V)
  | .make => some (m, h)
  | .store => ((h.make x).1.delete (some (h.make x).2)).map fun h => (m, h)
  | .map => some (⟨m.data ++ [some (h.make x).2], m.lookup⟩, (h.make x).1)

/-- MappedPointerVector.hpp:46-58. -/
def insertFault (m : PV K) (h : Objs V) (k : K) (x : V) (f : Fault) : Option (Bool × PV K × Objs V) :=
  if (FMap.find m.lookup k).isSome then some (false, m, h) else (m.emplaceFault h x f).map fun r => (true, r)

omit [DecidableEq K] in
/-- MappedPointerVector.hpp:61-68. -/
def insertNoKeyFault (m : PV K) (h : Objs V) (x : V) : Fault → Option (Bool × PV K × Objs V)
  | .map => some (false, (m.insertNoKey h x).1, (m.insertNoKey h x).2.1)
  | f => (m.emplaceFault h x f).map fun r => (true, r)

/-- MappedPointerVector.hpp:70-83; the second flag as above. -/
def insertOrAssignPtrFault (m : PV K) (h : Objs V) (k : K) (p : Option Nat) (f : Fault) :
    Option (Bool × Bool × PV K × Objs V) :=
  match FMap.find m.lookup k, f with
  | none, .store => some (true, false, m, h)
  | none, .map => some (true, true, ⟨m.data ++ [p], m.lookup⟩, h)
  | _, _ => (m.insertOrAssignPtr I h k p).map fun r => (false, true, r.1, r.2.1)

/-- MappedPointerVector.hpp:85-99. -/
def insertOrAssignFault (m : PV K) (h : Objs V) (k : K) (x : V) (f : Fault) : Option (Bool × PV K × Objs V) :=
  match FMap.find m.lookup k, f with
  | some _, .make => some (true, m, h)
  | some _, _ => (m.insertOrAssign I h k x).map fun r => (false, r.1, r.2.1)
  | none, f => (m.emplaceFault h x f).map fun r => (true, r)

end PV

/-- One call during which something throws.  A pointer of the client that has not been moved from is deleted by the client;
a function passed to `apply` that throws stops the loop, which changes nothing. -/
def execFault (unset : Option K) (w : World K V) : Op K V → Fault → Option (Bool × World K V)
  | .insertPtr k x, f =>
    let o := w.heap.makeOpt x
    let r := w.pv.insertPtrFault I k o.2 f
    (if r.2.1 then some o.1 else o.1.delete o.2).map fun h => (r.1, ⟨r.2.2, h⟩)
  | .insert k x, f => (w.pv.insertFault w.heap k x f).map fun r => (r.1, ⟨r.2.1, r.2.2⟩)
  | .insertNoKey x, f => (w.pv.insertNoKeyFault w.heap x f).map fun r => (r.1, ⟨r.2.1, r.2.2⟩)
  | .assignPtr k x, f =>
    let o := w.heap.makeOpt x
    (w.pv.insertOrAssignPtrFault I o.1 k o.2 f).bind fun r =>
    (if r.2.1 then some r.2.2.2 else r.2.2.2.delete o.2).map fun h => (r.1, ⟨r.2.2.1, h⟩)
  | .assign k x, f => (w.pv.insertOrAssignFault I w.heap k x f).map fun r => (r.1, ⟨r.2.1, r.2.2⟩)
  | .addTerm _ i, .map => some (decide (i < w.pv.data.length), w)
  | op, _ => (exec I unset w op).map fun r => (false, r.1)

/-! ### Specification -/

/-- What a call that throws leaves behind: an insertion whose search term could not be stored an element without search
term; otherwise nothing changes (`made` names the next object, it does not count objects that exist). -/
def left (a : Ideal K V) : Op K V → Fault → Ideal K V
  | .insertPtr _ x, .store | .assignPtr _ x, .store => { a with made := a.made + count x }
  | .insert _ _, .store | .insertNoKey _, .store | .assign _ _, .store => { a with made := a.made + 1 }
  | .insertPtr _ x, .map | .assignPtr _ x, .map => a.append x []
  | .insert _ x, .map | .assign _ x, .map => a.append (some x) []
  | _, _ => a

/-! ### Simulation -/

variable {I} {unset : Option K} {w : World K V} {a : Ideal K V}

theorem Inv.emplaceFault (v : Inv w a) (x : V) (f : Fault) : ∃ m' h', w.pv.emplaceFault w.heap x f = some (m', h') ∧
    Inv ⟨m', h'⟩ (match f with | .make => a | .store => { a with made := a.made + 1 } | .map => a.append (some x) []) := by
  cases f with
  | make => exact ⟨_, _, rfl, v⟩
  | store =>
    obtain ⟨h', e, o, n⟩ := v.own.makeDelete (some x)
    exact ⟨w.pv, h', by simp only [PV.emplaceFault]; rw [show (w.heap.make x).1.delete (some (w.heap.make x).2) = some h' from e]; rfl,
      v.data, v.binds, o, by rw [n, v.next]; rfl⟩
  | map => exact ⟨_, _, rfl, v.append (some x) v.binds.append_nil⟩

/-- Either the call did not get to what throws and is an ordinary one, or it leaves what it should. -/
theorem fails (v : Inv w a) {op : Op K V} {f : Fault} (hc : careful unset a op = true)
    {a' : Ideal K V} {o : Obs V} (hi : ideal a op = some (a', o)) :
    (∃ w', execFault I unset w op f = some (true, w') ∧ Inv w' (left a op f)) ∨
    (∃ w', execFault I unset w op f = some (false, w') ∧ exec I unset w op = some (w', o)) := by
  obtain ⟨w1, e1, _⟩ := step (I := I) v hc hi
  have other : execFault I unset w op f = ((exec I unset w op).map fun r => (false, r.1)) →
      ∃ w', execFault I unset w op f = some (false, w') ∧ exec I unset w op = some (w', o) := fun h =>
    ⟨w1, by rw [h, e1]; rfl, e1⟩
  cases op with
  | insertPtr k x =>
    by_cases hk : (FMap.find w.pv.lookup k).isSome
    · refine .inr (other ?_)
      cases f <;> simp [execFault, PV.insertPtrFault, exec, PV.insertPtr, hk, Option.map_map, Function.comp_def]
    · have hk' : FMap.find w.pv.lookup k = none := by simpa using hk
      cases f with
      | make =>
        refine .inr (other ?_)
        simp [execFault, PV.insertPtrFault, exec, PV.insertPtr, hk', Option.map_map, Function.comp_def]
      | store =>
        obtain ⟨h', e, o, n⟩ := v.own.makeDelete x
        refine .inl ⟨⟨w.pv, h'⟩, ?_, v.data, v.binds, o, by rw [n, v.next]; rfl⟩
        simp [execFault, PV.insertPtrFault, hk', e]
      | map =>
        refine .inl ⟨_, ?_, v.append x v.binds.append_nil⟩
        simp [execFault, PV.insertPtrFault, hk']
  | insert k x =>
    by_cases hk : (FMap.find w.pv.lookup k).isSome
    · refine .inr (other ?_)
      simp [execFault, PV.insertFault, exec, PV.insert, hk]
    · obtain ⟨m', h', e, r⟩ := v.emplaceFault x f
      refine .inl ⟨⟨m', h'⟩, ?_, ?_⟩
      · simp [execFault, PV.insertFault, hk, e]
      · cases f <;> exact r
  | insertNoKey x =>
    cases f with
    | map => exact .inr (other (by simp [execFault, PV.insertNoKeyFault, exec]))
    | make => exact .inl ⟨w, by simp [execFault, PV.insertNoKeyFault, PV.emplaceFault], v⟩
    | store =>
      obtain ⟨m', h', e, r⟩ := v.emplaceFault x .store
      exact .inl ⟨⟨m', h'⟩, by simp [execFault, PV.insertNoKeyFault, e], r⟩
  | assignPtr k x =>
    cases hk : FMap.find w.pv.lookup k with
    | some i =>
      refine .inr (other ?_)
      cases f <;> simp [execFault, PV.insertOrAssignPtrFault, exec, PV.insertOrAssignPtr, hk, Option.map_map,
        Function.comp_def, Option.bind_map] <;> rw [Option.map_eq_bind] <;> rfl
    | none =>
      cases f with
      | make =>
        refine .inr (other ?_)
        simp [execFault, PV.insertOrAssignPtrFault, exec, PV.insertOrAssignPtr, hk]
      | store =>
        obtain ⟨h', e, o, n⟩ := v.own.makeDelete x
        refine .inl ⟨⟨w.pv, h'⟩, ?_, v.data, v.binds, o, by rw [n, v.next]; rfl⟩
        simp [execFault, PV.insertOrAssignPtrFault, hk, e]
      | map =>
        refine .inl ⟨_, ?_, v.append x v.binds.append_nil⟩
        simp [execFault, PV.insertOrAssignPtrFault, hk]
  | assign k x =>
    cases hk : FMap.find w.pv.lookup k with
    | some i =>
      cases f with
      | make => exact .inl ⟨w, by simp [execFault, PV.insertOrAssignFault, hk], v⟩
      | _ =>
        refine .inr (other ?_)
        simp [execFault, PV.insertOrAssignFault, exec, hk, Option.map_map, Function.comp_def]
    | none =>
      obtain ⟨m', h', e, r⟩ := v.emplaceFault x f
      refine .inl ⟨⟨m', h'⟩, ?_, ?_⟩
      · simp [execFault, PV.insertOrAssignFault, hk, e]
      · cases f <;> exact r
  | addTerm k i =>
    cases f with
    | map =>
      by_cases hl : i < w.pv.data.length
      · exact .inl ⟨w, by simp [execFault, hl], v⟩
      · exact .inr (other (by simp [execFault, exec, PV.addSearchTermForIndex, hl]))
    | _ => exact .inr (other rfl)
  | _ => cases f <;> exact .inr (other rfl)

end Verif.Mapped.Pointer
