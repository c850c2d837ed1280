import Verif.Mapped.Vector.Throw
import Verif.Mapped.Dual.Lemmas

/-
Model of exceptions inside calls of gmlc/containers/DualMappedVector.hpp, and what they leave behind.
-/
namespace Verif.Mapped.Dual
open Verif.Mapped
open Verif.Mapped.Vector (Obs Ideal Entry interrupted)

/-- What throws during the call. -/
inductive Fault (V : Type) where
  | storage (f : Block.Vector.Fault)   -- `dataStorage.emplace_back`: the allocation or the constructor of the element
  | map1                               -- a new entry of the first map: the allocation or copying the search term
  | map2                               -- of the second map
  | value                              -- `VType(std::forward<Us>(data)...)` before an assignment
  | assign (junk : V)                  -- the assignment, which leaves `junk` in the element
  | visitor (n : Nat) (junk : V)       -- `F`, or the assignment of its result, for the element with index `n`

variable {S K1 K2 V : Type} [DecidableEq K1] [DecidableEq K2] (E : Env S K1 K2 V) (flt : Faults S V)

/- The functions below are the calls when the given operation throws if the call gets to it; the flag says whether it did,
if not the call is an ordinary one.  A throwing `emplace` or `operator[]` of a map has no effect
([associative.reqmts.except], [unord.req.except]), and `operator[]` does not throw for a term the map has; hash function
and comparison of the search terms do not throw. -/
namespace DMV

/-- DualMappedVector.hpp:48-66: element, first map, second map. -/
def insertFault (m : DMV S K1 K2) (k1 : K1) (k2 : K2) (x : V) : Fault V → Option (Bool × DMV S K1 K2)
  | .storage f =>
    if (FMap.find m.lookup1 k1).isSome ∧ (FMap.find m.lookup2 k2).isSome then some (false, m)
    else
      let index := E.st.size m.data
      (flt.push m.data x f).map fun r => (r.1, if r.1 then { m with data := r.2 }
        else ⟨r.2, FMap.put E.impl1 m.lookup1 k1 index, FMap.put E.impl2 m.lookup2 k2 index⟩)
  | .map1 =>
    if (FMap.find m.lookup1 k1).isSome then (m.insert E k1 k2 x).map fun r => (false, r.1)
    else (E.st.push m.data x).map fun d => (true, { m with data := d })
  | .map2 =>
    if (FMap.find m.lookup2 k2).isSome then (m.insert E k1 k2 x).map fun r => (false, r.1)
    else
      let index := E.st.size m.data
      (E.st.push m.data x).map fun d => (true, { m with data := d, lookup1 := FMap.put E.impl1 m.lookup1 k1 index })
  | _ => (m.insert E k1 k2 x).map fun r => (false, r.1)

omit [DecidableEq K2] in
/-- DualMappedVector.hpp:74-88. -/
def insert1Fault (m : DMV S K1 K2) (k1 : K1) (x : V) : Fault V → Option (Bool × DMV S K1 K2)
  | .storage f =>
    if (FMap.find m.lookup1 k1).isSome then some (false, m)
    else
      let index := E.st.size m.data
      (flt.push m.data x f).map fun r => (r.1, if r.1 then { m with data := r.2 }
        else { m with data := r.2, lookup1 := (FMap.emplace E.impl1 m.lookup1 k1 index).1 })
  | .map1 =>
    if (FMap.find m.lookup1 k1).isSome then some (false, m)
    else (E.st.push m.data x).map fun d => (true, { m with data := d })
  | _ => (m.insert1 E k1 x).map fun r => (false, r.1)

omit [DecidableEq K1] in
/-- DualMappedVector.hpp:96-110. -/
def insert2Fault (m : DMV S K1 K2) (k2 : K2) (x : V) : Fault V → Option (Bool × DMV S K1 K2)
  | .storage f =>
    if (FMap.find m.lookup2 k2).isSome then some (false, m)
    else
      let index := E.st.size m.data
      (flt.push m.data x f).map fun r => (r.1, if r.1 then { m with data := r.2 }
        else { m with data := r.2, lookup2 := (FMap.emplace E.impl2 m.lookup2 k2 index).1 })
  | .map2 =>
    if (FMap.find m.lookup2 k2).isSome then some (false, m)
    else (E.st.push m.data x).map fun d => (true, { m with data := d })
  | _ => (m.insert2 E k2 x).map fun r => (false, r.1)

omit [DecidableEq K1] [DecidableEq K2] in
/-- DualMappedVector.hpp:116-125. -/
def insertNoKeyFault (m : DMV S K1 K2) (x : V) : Fault V → Option (Bool × DMV S K1 K2)
  | .storage f => (flt.push m.data x f).map fun r => (r.1, { m with data := r.2 })
  | _ => (m.insertNoKey E x).map fun r => (false, r.1)

/-- DualMappedVector.hpp:132-149. -/
def insertOrAssignFault (m : DMV S K1 K2) (k1 : K1) (k2 : K2) (x : V) : Fault V → Option (Bool × DMV S K1 K2)
  | .storage f =>
    match FMap.find m.lookup1 k1 with
    | some _ => (m.insertOrAssign E k1 k2 x).map fun r => (false, r.1)
    | none =>
      let index := E.st.size m.data
      (flt.push m.data x f).map fun r => (r.1, if r.1 then { m with data := r.2 }
        else ⟨r.2, FMap.put E.impl1 m.lookup1 k1 index, FMap.put E.impl2 m.lookup2 k2 index⟩)
  | .map1 =>
    match FMap.find m.lookup1 k1 with
    | some _ => (m.insertOrAssign E k1 k2 x).map fun r => (false, r.1)
    | none => (E.st.push m.data x).map fun d => (true, { m with data := d })
  | .map2 =>
    if (FMap.find m.lookup2 k2).isSome then (m.insertOrAssign E k1 k2 x).map fun r => (false, r.1)
    else
      match FMap.find m.lookup1 k1 with
      | some i => (E.st.set m.data i x).map fun d => (true, { m with data := d })
      | none =>
        let index := E.st.size m.data
        (E.st.push m.data x).map fun d => (true, { m with data := d, lookup1 := FMap.put E.impl1 m.lookup1 k1 index })
  | .value =>
    match FMap.find m.lookup1 k1 with
    | some _ => some (true, m)
    | none => (m.insertOrAssign E k1 k2 x).map fun r => (false, r.1)
  | .assign junk =>
    match FMap.find m.lookup1 k1 with
    | some i => (E.st.set m.data i junk).map fun d => (true, { m with data := d })
    | none => (m.insertOrAssign E k1 k2 x).map fun r => (false, r.1)
  | _ => (m.insertOrAssign E k1 k2 x).map fun r => (false, r.1)

omit [DecidableEq K2] in
/-- DualMappedVector.hpp:155-170. -/
def insertOrAssign1Fault (m : DMV S K1 K2) (k1 : K1) (x : V) (f : Fault V) : Option (Bool × DMV S K1 K2) :=
  match FMap.find m.lookup1 k1, f with
  | some _, .value => some (true, m)
  | some i, .assign junk => (E.st.set m.data i junk).map fun d => (true, { m with data := d })
  | none, .storage f =>
    let index := E.st.size m.data
    (flt.push m.data x f).map fun r => (r.1, if r.1 then { m with data := r.2 }
      else { m with data := r.2, lookup1 := (FMap.emplace E.impl1 m.lookup1 k1 index).1 })
  | none, .map1 => (E.st.push m.data x).map fun d => (true, { m with data := d })
  | _, _ => (m.insertOrAssign1 E k1 x).map fun r => (false, r.1)

omit [DecidableEq K1] in
/-- DualMappedVector.hpp:176-191. -/
def insertOrAssign2Fault (m : DMV S K1 K2) (k2 : K2) (x : V) (f : Fault V) : Option (Bool × DMV S K1 K2) :=
  match FMap.find m.lookup2 k2, f with
  | some _, .value => some (true, m)
  | some i, .assign junk => (E.st.set m.data i junk).map fun d => (true, { m with data := d })
  | none, .storage f =>
    let index := E.st.size m.data
    (flt.push m.data x f).map fun r => (r.1, if r.1 then { m with data := r.2 }
      else { m with data := r.2, lookup2 := (FMap.emplace E.impl2 m.lookup2 k2 index).1 })
  | none, .map2 => (E.st.push m.data x).map fun d => (true, { m with data := d })
  | _, _ => (m.insertOrAssign2 E k2 x).map fun r => (false, r.1)

omit [DecidableEq K1] [DecidableEq K2] in
/-- The loops of `modify` and `transform`, DualMappedVector.hpp: the elements before the one whose call throws have been
changed. -/
def visitFault (m : DMV S K1 K2) (f : V → V) (n : Nat) (junk : V) : Option (Bool × DMV S K1 K2) :=
  (flt.visit (fun (_ : Unit) x => ((), f x)) () junk n m.data).map fun r => (r.1, { m with data := r.2 })

end DMV

/-- One call during which something throws.  Adding a term (DualMappedVector.hpp:194-262) only changes a map. -/
def execFault (m : DMV S K1 K2) : Op K1 K2 V → Fault V → Option (Bool × DMV S K1 K2)
  | .insert (some k1) (some k2) x, f => m.insertFault E flt k1 k2 x f
  | .insert (some k1) none x, f => m.insert1Fault E flt k1 x f
  | .insert none (some k2) x, f => m.insert2Fault E flt k2 x f
  | .insert none none x, f => m.insertNoKeyFault E flt x f
  | .insertOrAssign k1 k2 x, f => m.insertOrAssignFault E flt k1 k2 x f
  | .insertOrAssignOne (.inl k) x, f => m.insertOrAssign1Fault E flt k x f
  | .insertOrAssignOne (.inr k) x, f => m.insertOrAssign2Fault E flt k x f
  | .addTermForIndex (.inl _) i, .map1 => some (decide (i < E.st.size m.data), m)
  | .addTermForIndex (.inr _) i, .map2 => some (decide (i < E.st.size m.data), m)
  | .addTerm (.inl _) (.inl e), .map1 => some ((FMap.find m.lookup1 e).isSome, m)
  | .addTerm (.inl _) (.inr e), .map1 => some ((FMap.find m.lookup2 e).isSome, m)
  | .addTerm (.inr _) (.inl e), .map2 => some ((FMap.find m.lookup1 e).isSome, m)
  | .addTerm (.inr _) (.inr e), .map2 => some ((FMap.find m.lookup2 e).isSome, m)
  | .modify f, .visitor n junk => m.visitFault flt f n junk
  | .transform f, .visitor n junk => m.visitFault flt f n junk
  | op, _ => (exec E m op).map fun r => (false, r.1)

/-! ### Specification -/

/-- What a call that throws leaves behind: an insertion whose first search term could not be stored an element without
search term; one whose second search term could not be stored an element (or an assigned value) with the first only; a
failed assignment any value in the element assigned to; a function that throws the elements before changed and any value in
the element it was called for.  In all other cases nothing changes (but how much memory is reserved). -/
def left (kind : Kind) (a : Ideal (K1 ⊕ K2) V) : Op K1 K2 V → Fault V → Ideal (K1 ⊕ K2) V
  | .insert _ _ _, .storage f | .insertOrAssign _ _ _, .storage f | .insertOrAssignOne _ _, .storage f =>
    { a with reserved := kind.reserveFailed a.reserved a.entries.length f }
  | .insert _ _ x, .map1 | .insertOrAssign _ _ x, .map1 | .insertOrAssignOne _ x, .map1 => a.append kind x []
  | .insert (some k1) _ x, .map2 => attach (a.append kind x []) a.entries.length (.inl k1)
  | .insert none _ x, .map2 | .insertOrAssignOne _ x, .map2 => a.append kind x []
  | .insertOrAssign k1 _ x, .map2 => match a.lookup (.inl k1) with
    | some i => assign a i x
    | none => attach (a.append kind x []) a.entries.length (.inl k1)
  | .insertOrAssign k1 _ _, .assign junk => match a.lookup (.inl k1) with
    | some i => assign a i junk
    | none => a
  | .insertOrAssignOne k _, .assign junk => match a.lookup k with
    | some i => assign a i junk
    | none => a
  | .modify f, .visitor n junk | .transform f, .visitor n junk => { a with entries := interrupted f n junk a.entries }
  | _, _ => a

omit [DecidableEq K1] [DecidableEq K2] in
/-- Failures after which the container can be used; excluded are, with stable storage, those of `emplace_back` that break
the storage (C80, C81).  A function that throws throws for an element there is. -/
def tolerated (kind : Kind) (a : Ideal (K1 ⊕ K2) V) : Fault V → Bool
  | .storage f => kind.harmless a.reserved f
  | .visitor n _ => n < a.entries.length
  | _ => true

omit [DecidableEq K1] [DecidableEq K2] in
/-- With vector storage all failures are tolerated. -/
theorem tolerated_unstable (a : Ideal (K1 ⊕ K2) V) (f : Fault V) (h : ∀ n junk, f = .visitor n junk → n < a.entries.length) :
    tolerated .unstable a f = true := by
  cases f <;> first | rfl | simpa [tolerated] using h _ _ rfl

/-- With stable storage the failures excluded are exactly: a constructor that throws in `emplace_back`, the allocation of the
first block, and a function said to throw for an element there is not. -/
theorem tolerated_stable (N : Nat) (a : Ideal (K1 ⊕ K2) V) (f : Fault V) :
    tolerated (.stable N) a f = false ↔ f = .storage .element ∨ (f = .storage .block ∧ a.reserved = 0) ∨
      ∃ n junk, f = .visitor n junk ∧ a.entries.length ≤ n := by
  cases f with
  | storage g => cases g <;> simp [tolerated, Kind.harmless]
  | visitor n j => simp [tolerated]
  | _ => simp [tolerated]

/-! ### Simulation -/

variable {E} {kind : Kind} {L : Lawful E.st kind} {flt} {m : DMV S K1 K2} {a : Ideal (K1 ⊕ K2) V}

/-- Either the call did not get to what throws and is an ordinary one, or it leaves what it should. -/
theorem fails (Q : L.Failing flt) (v : Inv L m a) {op : Op K1 K2 V} {f : Fault V} (hc : careful kind a op = true)
    {a' : Ideal (K1 ⊕ K2) V} {o : Obs V} (hi : ideal kind a op = some (a', o)) (hf : tolerated kind a f = true) :
    (∃ m', execFault E flt m op f = some (true, m') ∧ Inv L m' (left kind a op f) ∧
      ∀ i, i < a.entries.length → E.st.addr m'.data i = E.st.addr m.data i) ∨
    (∃ m', execFault E flt m op f = some (false, m') ∧ exec E m op = some (m', o)) := by
  obtain ⟨m1, e1, v1, _⟩ := step v hc hi
  have hsz : E.st.size m.data = a.entries.length := v.size_eq
  have other : execFault E flt m op f = ((exec E m op).map fun r => (false, r.1)) →
      ∃ m', execFault E flt m op f = some (false, m') ∧ exec E m op = some (m', o) := fun h =>
    ⟨m1, by rw [h, e1]; rfl, e1⟩
  have w := join_wf.1 v.binds.wf
  have visit : ∀ (g : V → V) (n : Nat) (junk : V), f = .visitor n junk → kind.iterable a.reserved a.entries.length = true →
      ∃ m', m.visitFault flt g n junk = some (true, m') ∧
        Inv L m' { a with entries := interrupted g n junk a.entries } ∧ ∀ i, E.st.addr m'.data i = E.st.addr m.data i := by
    rintro g n junk rfl hit
    have hn : n < a.entries.length := by simpa [tolerated] using hf
    obtain ⟨d, e, r, ad⟩ := Q.visit (fun (_ : Unit) x => ((), g x)) () junk v.rep (by simpa using hit) (n := n)
      (by simpa using hn)
    obtain ⟨h1, h2⟩ := Vector.visit_entries a.entries g junk hn
    exact ⟨{ m with data := d }, by simp only [DMV.visitFault, e, Option.map_some],
      ⟨by rw [h1]; exact r, by rw [h2]; exact v.binds⟩, ad⟩
  have push : ∀ x g, f = .storage g →
      (∃ d, flt.push m.data x g = some (true, d) ∧
        Inv L { m with data := d } { a with reserved := kind.reserveFailed a.reserved a.entries.length g } ∧
        ∀ i, i < a.entries.length → E.st.addr d i = E.st.addr m.data i) ∨
      (∃ d, flt.push m.data x g = some (false, d) ∧ E.st.push m.data x = some d) := by
    rintro x g rfl
    rcases Q.push x g v.rep hf with ⟨d, e, r, ad⟩ | h
    · refine .inl ⟨d, e, ?_, by simpa using ad⟩
      rw [List.length_map] at r
      exact ⟨r, v.binds⟩
    · exact .inr h
  have first : ∀ (k1 : K1) (x : V), ∃ d, E.st.push m.data x = some d ∧
      Inv L { m with data := d, lookup1 := FMap.put E.impl1 m.lookup1 k1 a.entries.length }
        (attach (a.append kind x []) a.entries.length (.inl k1)) ∧
      ∀ i, i < a.entries.length → E.st.addr d i = E.st.addr m.data i := by
    intro k1 x
    obtain ⟨d, e, v1, f⟩ := push_inv v x
    have v2 := bind1 v1 (append_length (kind := kind) a x) (FMap.put_wf w.1 k1 a.entries.length)
      (FMap.find_put (I := E.impl1) w.1 k1 a.entries.length)
    exact ⟨d, e, v2, f⟩
  cases op with
  | insert o1 o2 x =>
    cases o1 with
    | none =>
      cases o2 with
      | none =>
        cases f with
        | storage g =>
          rcases push x g rfl with ⟨d, e, r, ad⟩ | ⟨d, e, e2⟩
          · exact .inl ⟨_, by simp only [execFault, DMV.insertNoKeyFault, e, Option.map_some], r, ad⟩
          · refine .inr (other ?_)
            simp only [execFault, DMV.insertNoKeyFault, exec, DMV.insertNoKey, e, e2, Option.map_some]
        | _ => exact .inr (other (by simp only [execFault, DMV.insertNoKeyFault, exec, Option.map_map]; rfl))
      | some k2 =>
        have hord : (m.insert2 E k2 x).map (fun r => (false, r.1)) =
            (exec E m (.insert none (some k2) x)).map fun r => (false, r.1) := by
          simp only [exec, Option.map_map]; rfl
        by_cases hk : (FMap.find m.lookup2 k2).isSome
        · refine .inr (other ?_)
          cases f <;> simp only [execFault, DMV.insert2Fault, exec, DMV.insert2, hk, if_true, Option.map_some]
        · cases f with
          | storage g =>
            rcases push x g rfl with ⟨d, e, r, ad⟩ | ⟨d, e, e2⟩
            · exact .inl ⟨_, by simp only [execFault, DMV.insert2Fault, hk, e, Option.map_some]; rfl, r, ad⟩
            · refine .inr (other ?_)
              simp only [execFault, DMV.insert2Fault, exec, DMV.insert2, hk, e, e2, Option.map_some]; rfl
          | map2 =>
            obtain ⟨d, e, r, ad⟩ := push_inv v x
            exact .inl ⟨_, by simp only [execFault, DMV.insert2Fault, hk, e, Option.map_some]; rfl, r, ad⟩
          | _ => exact .inr (other hord)
    | some k1 =>
      cases o2 with
      | none =>
        have hord : (m.insert1 E k1 x).map (fun r => (false, r.1)) =
            (exec E m (.insert (some k1) none x)).map fun r => (false, r.1) := by
          simp only [exec, Option.map_map]; rfl
        by_cases hk : (FMap.find m.lookup1 k1).isSome
        · refine .inr (other ?_)
          cases f <;> simp only [execFault, DMV.insert1Fault, exec, DMV.insert1, hk, if_true, Option.map_some]
        · cases f with
          | storage g =>
            rcases push x g rfl with ⟨d, e, r, ad⟩ | ⟨d, e, e2⟩
            · exact .inl ⟨_, by simp only [execFault, DMV.insert1Fault, hk, e, Option.map_some]; rfl, r, ad⟩
            · refine .inr (other ?_)
              simp only [execFault, DMV.insert1Fault, exec, DMV.insert1, hk, e, e2, Option.map_some]; rfl
          | map1 =>
            obtain ⟨d, e, r, ad⟩ := push_inv v x
            exact .inl ⟨_, by simp only [execFault, DMV.insert1Fault, hk, e, Option.map_some]; rfl, r, ad⟩
          | _ => exact .inr (other hord)
      | some k2 =>
        have hord : (m.insert E k1 k2 x).map (fun r => (false, r.1)) =
            (exec E m (.insert (some k1) (some k2) x)).map fun r => (false, r.1) := by
          simp only [exec, Option.map_map]; rfl
        cases f with
        | storage g =>
          by_cases hk : (FMap.find m.lookup1 k1).isSome ∧ (FMap.find m.lookup2 k2).isSome
          · refine .inr (other ?_)
            simp only [execFault, DMV.insertFault, exec, DMV.insert, if_pos hk, Option.map_some]
          · rcases push x g rfl with ⟨d, e, r, ad⟩ | ⟨d, e, e2⟩
            · exact .inl ⟨_, by simp only [execFault, DMV.insertFault, if_neg hk, e, Option.map_some, if_true], r, ad⟩
            · refine .inr (other ?_)
              simp only [execFault, DMV.insertFault, exec, DMV.insert, if_neg hk, e, e2, Option.map_some]; rfl
        | map1 =>
          by_cases hk : (FMap.find m.lookup1 k1).isSome
          · refine .inr (other ?_)
            rw [← hord]
            simp only [execFault, DMV.insertFault, if_pos hk]
          · obtain ⟨d, e, r, ad⟩ := push_inv v x
            exact .inl ⟨_, by simp only [execFault, DMV.insertFault, if_neg hk, e, Option.map_some], r, ad⟩
        | map2 =>
          by_cases hk : (FMap.find m.lookup2 k2).isSome
          · refine .inr (other ?_)
            rw [← hord]
            simp only [execFault, DMV.insertFault, if_pos hk]
          · obtain ⟨d, e, r, ad⟩ := first k1 x
            exact .inl ⟨_, by simp only [execFault, DMV.insertFault, if_neg hk, e, Option.map_some, hsz], r, ad⟩
        | _ => exact .inr (other hord)
  | insertOrAssign k1 k2 x =>
    have hord : (m.insertOrAssign E k1 k2 x).map (fun r => (false, r.1)) =
        (exec E m (.insertOrAssign k1 k2 x)).map fun r => (false, r.1) := by
      simp only [exec, Option.map_map]; rfl
    cases hk : FMap.find m.lookup1 k1 with
    | some i =>
      have hl : i < a.entries.length := lookup_lt v (k := .inl k1) (by rw [lookup_inl v, hk])
      cases f with
      | storage g => exact .inr (other (by rw [← hord]; simp only [execFault, DMV.insertOrAssignFault, hk]))
      | map1 => exact .inr (other (by rw [← hord]; simp only [execFault, DMV.insertOrAssignFault, hk]))
      | map2 =>
        by_cases hk2 : (FMap.find m.lookup2 k2).isSome
        · refine .inr (other ?_)
          rw [← hord]
          simp only [execFault, DMV.insertOrAssignFault, if_pos hk2]
        · obtain ⟨d, e, r, ad⟩ := assign_inv v hl x
          refine .inl ⟨{ m with data := d }, by
            simp only [execFault, DMV.insertOrAssignFault, if_neg hk2, hk, e, Option.map_some], ?_, fun i _ => ad i⟩
          simp only [left, lookup_inl v, hk]; exact r
      | value => exact .inl ⟨m, by simp only [execFault, DMV.insertOrAssignFault, hk], v, fun _ _ => rfl⟩
      | assign junk =>
        obtain ⟨d, e, r, ad⟩ := assign_inv v hl junk
        refine .inl ⟨{ m with data := d }, by
          simp only [execFault, DMV.insertOrAssignFault, hk, e, Option.map_some], ?_, fun i _ => ad i⟩
        simp only [left, lookup_inl v, hk]; exact r
      | visitor n y => exact .inr (other hord)
    | none =>
      cases f with
      | storage g =>
        rcases push x g rfl with ⟨d, e, r, ad⟩ | ⟨d, e, e2⟩
        · exact .inl ⟨_, by simp only [execFault, DMV.insertOrAssignFault, hk, e, Option.map_some, if_true], r, ad⟩
        · refine .inr (other ?_)
          simp only [execFault, DMV.insertOrAssignFault, exec, DMV.insertOrAssign, hk, e, e2, Option.map_some]; rfl
      | map1 =>
        obtain ⟨d, e, r, ad⟩ := push_inv v x
        exact .inl ⟨_, by simp only [execFault, DMV.insertOrAssignFault, hk, e, Option.map_some], r, ad⟩
      | map2 =>
        by_cases hk2 : (FMap.find m.lookup2 k2).isSome
        · refine .inr (other ?_)
          rw [← hord]
          simp only [execFault, DMV.insertOrAssignFault, if_pos hk2]
        · obtain ⟨d, e, r, ad⟩ := first k1 x
          refine .inl ⟨{ m with data := d, lookup1 := FMap.put E.impl1 m.lookup1 k1 a.entries.length }, by
            simp only [execFault, DMV.insertOrAssignFault, if_neg hk2, hk, e, Option.map_some, hsz], ?_, ad⟩
          simp only [left, lookup_inl v, hk]; exact r
      | value => exact .inr (other (by rw [← hord]; simp only [execFault, DMV.insertOrAssignFault, hk]))
      | assign junk => exact .inr (other (by rw [← hord]; simp only [execFault, DMV.insertOrAssignFault, hk]))
      | visitor n y => exact .inr (other hord)
  | insertOrAssignOne k x =>
    cases k with
    | inl k =>
      have hord : (m.insertOrAssign1 E k x).map (fun r => (false, r.1)) =
          (exec E m (.insertOrAssignOne (.inl k) x)).map fun r => (false, r.1) := by
        simp only [exec, Option.map_map]; rfl
      cases hk : FMap.find m.lookup1 k with
      | some i =>
        have hl : i < a.entries.length := lookup_lt v (k := .inl k) (by rw [lookup_inl v, hk])
        cases f with
        | value => exact .inl ⟨m, by simp only [execFault, DMV.insertOrAssign1Fault, hk], v, fun _ _ => rfl⟩
        | assign junk =>
          obtain ⟨d, e, r, ad⟩ := assign_inv v hl junk
          refine .inl ⟨{ m with data := d }, by
            simp only [execFault, DMV.insertOrAssign1Fault, hk, e, Option.map_some], ?_, fun i _ => ad i⟩
          simp only [left, lookup_inl v, hk]; exact r
        | _ => exact .inr (other (by rw [← hord]; simp only [execFault, DMV.insertOrAssign1Fault, hk]))
      | none =>
        cases f with
        | storage g =>
          rcases push x g rfl with ⟨d, e, r, ad⟩ | ⟨d, e, e2⟩
          · exact .inl ⟨_, by simp only [execFault, DMV.insertOrAssign1Fault, hk, e, Option.map_some, if_true], r, ad⟩
          · refine .inr (other ?_)
            simp only [execFault, DMV.insertOrAssign1Fault, exec, DMV.insertOrAssign1, hk, e, e2, Option.map_some]; rfl
        | map1 =>
          obtain ⟨d, e, r, ad⟩ := push_inv v x
          exact .inl ⟨_, by simp only [execFault, DMV.insertOrAssign1Fault, hk, e, Option.map_some], r, ad⟩
        | _ => exact .inr (other (by rw [← hord]; simp only [execFault, DMV.insertOrAssign1Fault, hk]))
    | inr k =>
      have hord : (m.insertOrAssign2 E k x).map (fun r => (false, r.1)) =
          (exec E m (.insertOrAssignOne (.inr k) x)).map fun r => (false, r.1) := by
        simp only [exec, Option.map_map]; rfl
      cases hk : FMap.find m.lookup2 k with
      | some i =>
        have hl : i < a.entries.length := lookup_lt v (k := .inr k) (by rw [lookup_inr v, hk])
        cases f with
        | value => exact .inl ⟨m, by simp only [execFault, DMV.insertOrAssign2Fault, hk], v, fun _ _ => rfl⟩
        | assign junk =>
          obtain ⟨d, e, r, ad⟩ := assign_inv v hl junk
          refine .inl ⟨{ m with data := d }, by
            simp only [execFault, DMV.insertOrAssign2Fault, hk, e, Option.map_some], ?_, fun i _ => ad i⟩
          simp only [left, lookup_inr v, hk]; exact r
        | _ => exact .inr (other (by rw [← hord]; simp only [execFault, DMV.insertOrAssign2Fault, hk]))
      | none =>
        cases f with
        | storage g =>
          rcases push x g rfl with ⟨d, e, r, ad⟩ | ⟨d, e, e2⟩
          · exact .inl ⟨_, by simp only [execFault, DMV.insertOrAssign2Fault, hk, e, Option.map_some, if_true], r, ad⟩
          · refine .inr (other ?_)
            simp only [execFault, DMV.insertOrAssign2Fault, exec, DMV.insertOrAssign2, hk, e, e2, Option.map_some]; rfl
        | map2 =>
          obtain ⟨d, e, r, ad⟩ := push_inv v x
          exact .inl ⟨_, by simp only [execFault, DMV.insertOrAssign2Fault, hk, e, Option.map_some], r, ad⟩
        | _ => exact .inr (other (by rw [← hord]; simp only [execFault, DMV.insertOrAssign2Fault, hk]))
  | addTermForIndex k i =>
    by_cases hl : i < E.st.size m.data
    · cases k <;> cases f <;> first
        | exact .inr (other rfl)
        | exact .inl ⟨m, by simp only [execFault, hl, decide_true], v, fun _ _ => rfl⟩
    · cases k <;> cases f <;> first
        | exact .inr (other rfl)
        | exact .inr (other (by simp only [execFault, exec, DMV.addTermForIndex1, DMV.addTermForIndex2, hl, decide_false,
            if_false, Option.map_some]))
  | addTerm k ex =>
    cases ex with
    | inl ex =>
      cases hk : FMap.find m.lookup1 ex with
      | some i =>
        cases k <;> cases f <;> first
          | exact .inr (other rfl)
          | exact .inl ⟨m, by simp only [execFault, hk, Option.isSome_some], v, fun _ _ => rfl⟩
      | none =>
        cases k <;> cases f <;> first
          | exact .inr (other rfl)
          | exact .inr (other (by simp only [execFault, exec, DMV.addTerm11, DMV.addTerm21, hk, Option.isSome_none,
              Option.map_some]))
    | inr ex =>
      cases hk : FMap.find m.lookup2 ex with
      | some i =>
        cases k <;> cases f <;> first
          | exact .inr (other rfl)
          | exact .inl ⟨m, by simp only [execFault, hk, Option.isSome_some], v, fun _ _ => rfl⟩
      | none =>
        cases k <;> cases f <;> first
          | exact .inr (other rfl)
          | exact .inr (other (by simp only [execFault, exec, DMV.addTerm12, DMV.addTerm22, hk, Option.isSome_none,
              Option.map_some]))
  | modify g =>
    cases f with
    | visitor n junk =>
      obtain ⟨m', e, r, ad⟩ := visit g n junk rfl (by simpa [careful] using hc)
      exact .inl ⟨m', e, r, fun i _ => ad i⟩
    | _ => exact .inr (other rfl)
  | transform g =>
    cases f with
    | visitor n junk =>
      obtain ⟨m', e, r, ad⟩ := visit g n junk rfl (by simpa [careful] using hc)
      exact .inl ⟨m', e, r, fun i _ => ad i⟩
    | _ => exact .inr (other rfl)
  | find k => cases k <;> cases f <;> exact .inr (other rfl)
  | remove k => cases k <;> cases f <;> exact .inr (other rfl)
  | _ => cases f <;> exact .inr (other rfl)

/-! ### Results depend on the elements and search terms alone -/

theorem map_ite_congr {α β : Type} {c : Prop} (d1 d2 : Decidable c) (f : α → β) (x1 x2 y1 y2 : Option α)
    (hx : x1.map f = x2.map f) (hy : y1.map f = y2.map f) :
    (@ite _ c d1 x1 y1).map f = (@ite _ c d2 x2 y2).map f := by
  by_cases h : c <;> simp [h, hx, hy]

/-- One call on two ideal containers with the same entries. -/
theorem ideal_entries (kind : Kind) (es : List (Entry (K1 ⊕ K2) V)) (r1 r2 : Nat) (op : Op K1 K2 V) :
    ((ideal kind ⟨es, r1⟩ op).map fun r => (r.1.entries, r.2)) = (ideal kind ⟨es, r2⟩ op).map fun r => (r.1.entries, r.2) := by
  rcases op with ⟨_ | k1, _ | k2, x⟩ | _ <;> simp only [ideal, Ideal.lookup, Ideal.append, Ideal.drop, attach, assign, valueOf, Option.map_map, Function.comp_def] <;>
    repeat' (first | rfl | split | apply map_ite_congr)

theorem idealRun_entries (kind : Kind) (ops : List (Op K1 K2 V)) (a b : Ideal (K1 ⊕ K2) V) (h : a.entries = b.entries) :
    (idealRun kind a ops).map (·.2) = (idealRun kind b ops).map (·.2) := by
  induction ops generalizing a b with
  | nil => rfl
  | cons op ops ih =>
    obtain ⟨es, r1⟩ := a
    obtain ⟨_, r2⟩ := b
    cases h
    have h1 := ideal_entries kind es r1 r2 op
    rw [idealRun, idealRun]
    cases h2 : ideal kind ⟨es, r1⟩ op with
    | none => rw [h2] at h1; rw [show ideal kind ⟨es, r2⟩ op = none by simpa using h1.symm]
    | some q =>
      rw [h2] at h1
      obtain ⟨q', h3, h4⟩ := Option.map_eq_some_iff.1 h1.symm
      obtain ⟨h5, h6⟩ := Prod.mk.inj h4
      have := ih q.1 q'.1 h5.symm
      rw [h3]
      simp only [Option.bind_some, Option.map_map, Function.comp_def, h6]
      have h7 := congrArg (Option.map (q.2 :: ·)) this
      simpa only [Option.map_map, Function.comp_def] using h7

end Verif.Mapped.Dual
