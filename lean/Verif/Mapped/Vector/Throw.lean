import Verif.Mapped.Throw
import Verif.Mapped.Vector.Lemmas

/-
Model of exceptions inside calls of gmlc/containers/MappedVector.hpp, and what they leave behind.
-/
namespace Verif.Mapped.Vector
open Verif.Mapped

/-- What throws during the call. -/
inductive Fault (V : Type) where
  | storage (f : Block.Vector.Fault)   -- `dataStorage.emplace_back`: the allocation or the constructor of the element
  | map                                -- `lookup.emplace`: the allocation or copying the search term
  | value                              -- `VType(std::forward<Us>(data)...)` of MappedVector.hpp:77
  | assign (junk : V)                  -- the assignment of MappedVector.hpp:77, which leaves `junk` in the element
  | visitor (n : Nat) (junk : V)       -- `F`, or the assignment of its result, for the element with index `n`

variable {S K V : Type} [DecidableEq K]

/-- The call when the given operation throws if the call gets to it; the flag says whether it did, if not the call is an
ordinary one.  A throwing `emplace` of a map has no effect ([associative.reqmts.except], [unord.req.except]); hash function
and comparison of the search terms do not throw.
* MappedVector.hpp:42-53 (`insert`) and 79-82: the element is appended before the map changes.
* MappedVector.hpp:57-63.
* MappedVector.hpp:73-78: a new value is constructed, then assigned.
* MappedVector.hpp:122-129.
* MappedVector.hpp:179-190: the elements before the one whose call throws have been changed. -/
def execFault (E : Env S K V) (flt : Faults S V) (m : MV S K) : Op K V → Fault V → Option (Bool × MV S K)
  | .insert k x, .storage f =>
    if (FMap.find m.lookup k).isSome then some (false, m)
    else (flt.push m.data x f).map fun r =>
      (r.1, ⟨r.2, if r.1 then m.lookup else (FMap.emplace E.impl m.lookup k (E.st.size m.data)).1⟩)
  | .insert k x, .map =>
    if (FMap.find m.lookup k).isSome then some (false, m)
    else (E.st.push m.data x).map fun d => (true, ⟨d, m.lookup⟩)
  | .insertNoKey x, .storage f => (flt.push m.data x f).map fun r => (r.1, ⟨r.2, m.lookup⟩)
  | .insertOrAssign k x, .storage f =>
    match FMap.find m.lookup k with
    | some _ => (m.insertOrAssign E k x).map fun r => (false, r.1)
    | none => (flt.push m.data x f).map fun r =>
      (r.1, ⟨r.2, if r.1 then m.lookup else (FMap.emplace E.impl m.lookup k (E.st.size m.data)).1⟩)
  | .insertOrAssign k x, .map =>
    match FMap.find m.lookup k with
    | some _ => (m.insertOrAssign E k x).map fun r => (false, r.1)
    | none => (E.st.push m.data x).map fun d => (true, ⟨d, m.lookup⟩)
  | .insertOrAssign k x, .value =>
    match FMap.find m.lookup k with
    | some _ => some (true, m)
    | none => (m.insertOrAssign E k x).map fun r => (false, r.1)
  | .insertOrAssign k x, .assign junk =>
    match FMap.find m.lookup k with
    | some i => (E.st.set m.data i junk).map fun d => (true, ⟨d, m.lookup⟩)
    | none => (m.insertOrAssign E k x).map fun r => (false, r.1)
  | .addTerm _ i, .map => some (decide (i < E.st.size m.data), m)
  | .modify f, .visitor n junk =>
    (flt.visit (fun (_ : Unit) x => ((), f x)) () junk n m.data).map fun r => (r.1, ⟨r.2, m.lookup⟩)
  | .transform f, .visitor n junk =>
    (flt.visit (fun (_ : Unit) x => ((), f x)) () junk n m.data).map fun r => (r.1, ⟨r.2, m.lookup⟩)
  | op, _ => (exec E m op).map fun r => (false, r.1)

/-! ### Specification -/

omit [DecidableEq K] in
/-- The entries when `f` has been applied to the elements before `n` and `junk` is left in the element `n`. -/
def interrupted (f : V → V) (n : Nat) (junk : V) (es : List (Entry K V)) : List (Entry K V) :=
  (es.take n).map (fun e => { e with value := f e.value }) ++ (es.drop n).modify 0 fun e => { e with value := junk }

/-- What a call that throws leaves behind: an insertion whose search term could not be stored an element without search
term, a failed assignment any value in the element assigned to, a function that throws the elements before changed and any
value in the element it was called for; in all other cases nothing changes (but how much memory is reserved). -/
def left (kind : Kind) (a : Ideal K V) : Op K V → Fault V → Ideal K V
  | .insert _ _, .storage f | .insertNoKey _, .storage f | .insertOrAssign _ _, .storage f =>
    { a with reserved := kind.reserveFailed a.reserved a.entries.length f }
  | .insert _ x, .map | .insertOrAssign _ x, .map => a.append kind x []
  | .insertOrAssign k _, .assign junk => match a.lookup k with
    | some i => { a with entries := a.entries.modify i fun e => { e with value := junk } }
    | none => a
  | .modify f, .visitor n junk | .transform f, .visitor n junk =>
    { a with entries := interrupted f n junk a.entries }
  | _, _ => a

/-- Failures after which the container can be used; excluded are, with stable storage, those of `emplace_back` that break
the storage (C80, C81).  A function that throws throws for an element there is. -/
def tolerated (kind : Kind) (a : Ideal K V) : Fault V → Bool
  | .storage f => kind.harmless a.reserved f
  | .visitor n _ => n < a.entries.length
  | _ => true

/-- With vector storage all failures are tolerated. -/
theorem tolerated_unstable (a : Ideal K V) (f : Fault V) (h : ∀ n junk, f = .visitor n junk → n < a.entries.length) :
    tolerated .unstable a f = true := by
  cases f <;> first | rfl | simpa [tolerated] using h _ _ rfl

/-- With stable storage the failures excluded are exactly: a constructor that throws in `emplace_back`, the allocation of the
first block, and a function said to throw for an element there is not. -/
theorem tolerated_stable (N : Nat) (a : Ideal K V) (f : Fault V) :
    tolerated (.stable N) a f = false ↔ f = .storage .element ∨ (f = .storage .block ∧ a.reserved = 0) ∨
      ∃ n junk, f = .visitor n junk ∧ a.entries.length ≤ n := by
  cases f with
  | storage g => cases g <;> simp [tolerated, Kind.harmless]
  | visitor n j => simp [tolerated]
  | _ => simp [tolerated]

/-! ### Simulation -/

variable {E : Env S K V} {kind : Kind} {L : Lawful E.st kind} {flt : Faults S V} {m : MV S K} {a : Ideal K V}

theorem Inv.reserve (v : Inv L m a) {d : S} {r : Nat} (h : L.Rep d (a.entries.map (·.value)) r) :
    Inv L ⟨d, m.lookup⟩ { a with reserved := r } := ⟨h, v.binds⟩

omit [DecidableEq K] in
theorem visit_entries (es : List (Entry K V)) (f : V → V) (junk : V) {n : Nat} (hn : n < es.length) :
    (interrupted f n junk es).map (·.value) = visitStop (fun (_ : Unit) x => ((), f x)) () junk n (es.map (·.value)) ∧
      (interrupted f n junk es).map (·.keys) = es.map (·.keys) := by
  rw [interrupted, List.drop_eq_getElem_cons hn]
  constructor
  · simp only [visitStop, visitList_map, List.map_append, List.map_map, List.modify_zero_cons, List.map_cons, ← List.map_take,
      ← List.map_drop]
    rfl
  · simp only [List.map_append, List.map_map, List.modify_zero_cons, List.map_cons]
    conv => rhs; rw [← List.take_append_drop n es, List.drop_eq_getElem_cons hn, List.map_append, List.map_cons]
    rfl

/-- Either the call did not get to what throws and is an ordinary one, or it leaves what it should. -/
theorem fails (Q : L.Failing flt) (v : Inv L m a) {op : Op K V} {f : Fault V} (hc : careful kind E.unset a op = true)
    {a' : Ideal K V} {o : Obs V} (hi : ideal kind a op = some (a', o)) (hf : tolerated kind a f = true) :
    (∃ m', execFault E flt m op f = some (true, m') ∧ Inv L m' (left kind a op f) ∧
      ∀ i, i < a.entries.length → E.st.addr m'.data i = E.st.addr m.data i) ∨
    (∃ m', execFault E flt m op f = some (false, m') ∧ exec E m op = some (m', o)) := by
  obtain ⟨m1, e1, v1, _⟩ := step v hc hi
  have other : execFault E flt m op f = ((exec E m op).map fun r => (false, r.1)) →
      ∃ m', execFault E flt m op f = some (false, m') ∧ exec E m op = some (m', o) := fun h =>
    ⟨m1, by rw [h, e1]; rfl, e1⟩
  have key : ∀ k, a.lookup k = FMap.find m.lookup k := v.lookup_eq
  have visit : ∀ (g : V → V) (n : Nat) (junk : V), f = .visitor n junk → kind.iterable a.reserved a.entries.length = true →
      ∃ d, flt.visit (fun (_ : Unit) x => ((), g x)) () junk n m.data = some (true, d) ∧
        Inv L ⟨d, m.lookup⟩ { a with entries := interrupted g n junk a.entries } ∧
        ∀ i, E.st.addr d i = E.st.addr m.data i := by
    rintro g n junk rfl hit
    have hn : n < a.entries.length := by simpa [tolerated] using hf
    obtain ⟨d, e, r, ad⟩ := Q.visit (fun (_ : Unit) x => ((), g x)) () junk v.rep (by simpa using hit) (n := n)
      (by simpa using hn)
    obtain ⟨h1, h2⟩ := visit_entries a.entries g junk hn
    exact ⟨d, e, ⟨by rw [h1]; exact r, by rw [h2]; exact v.binds⟩, ad⟩
  have push : ∀ x g, f = .storage g →
      (∃ d, flt.push m.data x g = some (true, d) ∧
        Inv L ⟨d, m.lookup⟩ { a with reserved := kind.reserveFailed a.reserved a.entries.length g } ∧
        ∀ i, i < a.entries.length → E.st.addr d i = E.st.addr m.data i) ∨
      (∃ d, flt.push m.data x g = some (false, d) ∧ E.st.push m.data x = some d) := by
    rintro x g rfl
    rcases Q.push x g v.rep hf with ⟨d, e, r, ad⟩ | h
    · refine .inl ⟨d, e, ?_, by simpa using ad⟩
      rw [List.length_map] at r
      exact v.reserve r
    · exact .inr h
  have append : ∀ x, ∃ d, E.st.push m.data x = some d ∧ Inv L ⟨d, m.lookup⟩ (a.append kind x []) ∧
      ∀ i, i < a.entries.length → E.st.addr d i = E.st.addr m.data i := fun x => by
    refine v.append x m.lookup [] ?_
    exact v.binds.append_nil
  cases op with
  | insert k x =>
    cases f with
    | storage g =>
      by_cases hk : (FMap.find m.lookup k).isSome
      · refine .inr (other ?_)
        simp only [execFault, exec, MV.insert, hk, if_true, Option.map_some]
      · rcases push x g rfl with ⟨d, e, r, ad⟩ | ⟨d, e, e2⟩
        · exact .inl ⟨_, by simp only [execFault, hk, e, Option.map_some]; rfl, r, ad⟩
        · refine .inr (other ?_)
          simp only [execFault, exec, MV.insert, hk, e, e2, Option.map_some]; rfl
    | map =>
      by_cases hk : (FMap.find m.lookup k).isSome
      · refine .inr (other ?_)
        simp only [execFault, exec, MV.insert, hk, if_true, Option.map_some]
      · obtain ⟨d, e, r, ad⟩ := append x
        exact .inl ⟨_, by simp only [execFault, hk, e, Option.map_some]; rfl, r, ad⟩
    | _ => exact .inr (other rfl)
  | insertNoKey x =>
    cases f with
    | storage g =>
      rcases push x g rfl with ⟨d, e, r, ad⟩ | ⟨d, e, e2⟩
      · exact .inl ⟨_, by simp only [execFault, e, Option.map_some], r, ad⟩
      · refine .inr (other ?_)
        simp only [execFault, exec, MV.insertNoKey, e, e2, Option.map_some]
    | _ => exact .inr (other rfl)
  | insertOrAssign k x =>
    cases f with
    | storage g =>
      cases hk : FMap.find m.lookup k with
      | some i =>
        refine .inr (other ?_)
        simp only [execFault, exec, hk, Option.map_map]; rfl
      | none =>
        rcases push x g rfl with ⟨d, e, r, ad⟩ | ⟨d, e, e2⟩
        · exact .inl ⟨_, by simp only [execFault, hk, e, Option.map_some]; rfl, r, ad⟩
        · refine .inr (other ?_)
          simp only [execFault, exec, MV.insertOrAssign, hk, e, e2, Option.map_some]; rfl
    | map =>
      cases hk : FMap.find m.lookup k with
      | some i =>
        refine .inr (other ?_)
        simp only [execFault, exec, hk, Option.map_map]; rfl
      | none =>
        obtain ⟨d, e, r, ad⟩ := append x
        exact .inl ⟨_, by simp only [execFault, hk, e, Option.map_some], r, ad⟩
    | value =>
      cases hk : FMap.find m.lookup k with
      | some i => exact .inl ⟨m, by simp only [execFault, hk], v, fun _ _ => rfl⟩
      | none =>
        refine .inr (other ?_)
        simp only [execFault, exec, hk, Option.map_map]; rfl
    | assign junk =>
      cases hk : FMap.find m.lookup k with
      | some i =>
        obtain ⟨d, e, r, ad⟩ := v.setValue (i := i) (by simpa using v.binds.lt hk) junk
        refine .inl ⟨⟨d, m.lookup⟩, by simp only [execFault, hk, e, Option.map_some], ?_, fun i _ => ad i⟩
        simp only [left, key, hk]; exact r
      | none =>
        refine .inr (other ?_)
        simp only [execFault, exec, hk, Option.map_map]; rfl
    | visitor n y => exact .inr (other rfl)
  | addTerm k i =>
    cases f with
    | map =>
      by_cases hl : i < E.st.size m.data
      · exact .inl ⟨m, by simp only [execFault, hl, decide_true], v, fun _ _ => rfl⟩
      · refine .inr (other ?_)
        simp only [execFault, exec, MV.addSearchTermForIndex, hl, decide_false, if_false, Option.map_some]
    | _ => exact .inr (other rfl)
  | modify g =>
    cases f with
    | visitor n junk =>
      obtain ⟨d, e, r, ad⟩ := visit g n junk rfl (by simpa [careful] using hc)
      exact .inl ⟨_, by simp only [execFault, e, Option.map_some], r, fun i _ => ad i⟩
    | _ => exact .inr (other rfl)
  | transform g =>
    cases f with
    | visitor n junk =>
      obtain ⟨d, e, r, ad⟩ := visit g n junk rfl (by simpa [careful] using hc)
      exact .inl ⟨_, by simp only [execFault, e, Option.map_some], r, fun i _ => ad i⟩
    | _ => exact .inr (other rfl)
  | _ => cases f <;> exact .inr (other rfl)

/-! ### Results depend on the elements and search terms alone -/

/-- One call on two ideal containers with the same entries. -/
theorem ideal_entries (kind : Kind) (es : List (Entry K V)) (r1 r2 : Nat) (op : Op K V) :
    ((ideal kind ⟨es, r1⟩ op).map fun r => (r.1.entries, r.2)) = (ideal kind ⟨es, r2⟩ op).map fun r => (r.1.entries, r.2) := by
  cases op <;> simp only [ideal, Ideal.lookup, Ideal.append, Ideal.drop, Option.map_map, Function.comp_def] <;>
    repeat' (first | rfl | split | (rename_i k i; by_cases hh : i < es.length ∧ List.findIdx? (fun e => decide (k ∈ e.keys)) es = none <;> simp [hh]))

theorem idealRun_entries (kind : Kind) (ops : List (Op K V)) (a b : Ideal K V) (h : a.entries = b.entries) :
    (idealRun kind a ops).map (·.2) = (idealRun kind b ops).map (·.2) := by
  induction ops generalizing a b with
  | nil => rfl
  | cons op ops ih =>
    obtain ⟨es, r1⟩ := a
    obtain ⟨_, r2⟩ := b
    cases h
    have h1 := ideal_entries kind es r1 r2 op
    rw [idealRun, idealRun]
    cases h2 : ideal kind ⟨es, r1⟩ op with
    | none => rw [h2] at h1; rw [show ideal kind ⟨es, r2⟩ op = none by simpa using h1.symm]
    | some q =>
      rw [h2] at h1
      obtain ⟨q', h3, h4⟩ := Option.map_eq_some_iff.1 h1.symm
      obtain ⟨h5, h6⟩ := Prod.mk.inj h4
      have := ih q.1 q'.1 h5.symm
      rw [h3]
      simp only [Option.bind_some, Option.map_map, Function.comp_def, h6]
      have h7 := congrArg (Option.map (q.2 :: ·)) this
      simpa only [Option.map_map, Function.comp_def] using h7

end Verif.Mapped.Vector
