import Verif.Mapped.Dual.Throw
import Verif.Mapped.Str.Throw
import Verif.Mapped.DualStr.Lemmas

/-
Model of exceptions inside calls of gmlc/containers/DualStringMappedVector.hpp, and what they leave behind.
-/
namespace Verif.Mapped.DualStr
open Verif.Mapped Verif.Block Verif.Block.Vector
open Verif.Mapped.Vector (Ideal Entry interrupted visit_entries)
open Verif.Mapped.Dual (DMV attach assign ideal push_inv bind1 append_length lookup_inl lookup_inr lookup_lt assign_inv)
open Verif.Mapped.Str (View text addName SRep SRepC strings nameOf find_strings)

/-- What throws during the call. -/
inductive Fault (V : Type) where
  | base (f : Dual.Fault V)            -- as in DualMappedVector; `map1` is `lookup1.emplace`
  | name (f : Block.Vector.Fault)      -- `names.emplace_back`: an allocation of its own, or copying the string

variable {S K2 V : Type} [DecidableEq K2] (E : Env S K2 V) (flt : Faults S V)

/- The functions below are the calls when the given operation throws if the call gets to it; the flag says whether it did,
if not the call is an ordinary one.  For the maps see Verif.Mapped.Dual.Throw. -/
namespace DSV

omit [DecidableEq K2] in
/-- `names.emplace_back(k); lookup1.emplace(names.back(), i)` (DualStringMappedVector.hpp:63-64, 87-88, 148-149, 171-172,
201-202, 215-216, 265-266). -/
def addName1Fault (m : DSV S K2) (h : Heap String) (k : String) (i : Nat) : Fault V → Option (Bool × DSV S K2 × Heap String)
  | .name f => (m.names.pushFault E.order h k f).bind fun r =>
    if r.1 then some (true, { m with names := r.2.1 }, r.2.2)
    else (m.addName1 E h k i).map fun r => (false, r.1, r.2.1)
  | .base .map1 => (addName E.hash E.order m.names h k).map fun r => (true, { m with names := r.1 }, r.2.1)
  | _ => (m.addName1 E h k i).map fun r => (false, r.1, r.2.1)

/-- DualStringMappedVector.hpp:61-66 and 146-151, the common end of `insert` and `insert_or_assign`: element, name, first
map, second map. -/
def addFault (m : DSV S K2) (h : Heap String) (k1 : String) (k2 : K2) (x : V) (f : Fault V) :
    Option (Bool × DSV S K2 × Heap String) :=
  let index := E.st.size m.data
  match f with
  | .base (.storage g) => (flt.push m.data x g).bind fun r =>
    if r.1 then some (true, { m with data := r.2 }, h)
    else (m.add E h k1 k2 x).map fun r => (false, r.1, r.2.1)
  | f => (E.st.push m.data x).bind fun d =>
    (addName1Fault E { m with data := d } h k1 index f).map fun r =>
      match r.1, f with
      | true, _ => r
      | false, .base .map2 =>
        if (FMap.find m.lookup2 k2).isSome then (false, { r.2.1 with lookup2 := FMap.put E.impl2 m.lookup2 k2 index }, r.2.2)
        else (true, r.2)
      | false, _ => (false, { r.2.1 with lookup2 := FMap.put E.impl2 m.lookup2 k2 index }, r.2.2)

/-- DualStringMappedVector.hpp:48-67. -/
def insertFault (m : DSV S K2) (h : Heap String) (k1 : String) (k2 : K2) (x : V) (f : Fault V) :
    Option (Bool × DSV S K2 × Heap String) :=
  (Str.find E.hash E.order h k1 m.lookup1).bind fun r =>
  if r.isSome ∧ (FMap.find m.lookup2 k2).isSome then some (false, m, h) else m.addFault E flt h k1 k2 x f

omit [DecidableEq K2] in
/-- DualStringMappedVector.hpp:85-89 and 169-173: the common end of the variants without second term. -/
def addFirstFault (m : DSV S K2) (h : Heap String) (k1 : String) (x : V) (f : Fault V) :
    Option (Bool × DSV S K2 × Heap String) :=
  match f with
  | .base (.storage g) => (flt.push m.data x g).bind fun r =>
    if r.1 then some (true, { m with data := r.2 }, h)
    else (m.addFirst E h k1 x).map fun r => (false, r.1, r.2.1)
  | f => (E.st.push m.data x).bind fun d => addName1Fault E { m with data := d } h k1 (E.st.size m.data) f

omit [DecidableEq K2] in
/-- DualStringMappedVector.hpp:75-90. -/
def insert1Fault (m : DSV S K2) (h : Heap String) (k1 : String) (x : V) (f : Fault V) :
    Option (Bool × DSV S K2 × Heap String) :=
  (Str.find E.hash E.order h k1 m.lookup1).bind fun r =>
  if r.isSome then some (false, m, h) else m.addFirstFault E flt h k1 x f

/-- DualStringMappedVector.hpp:107-111 and 190-194: the common end of the variants without first term. -/
def addSecondFault (m : DSV S K2) (k2 : K2) (x : V) : Fault V → Option (Bool × DSV S K2)
  | .base (.storage g) => (flt.push m.data x g).map fun r =>
    (r.1, if r.1 then { m with data := r.2 }
      else { m with data := r.2, lookup2 := (FMap.emplace E.impl2 m.lookup2 k2 (E.st.size m.data)).1 })
  | .base .map2 => (E.st.push m.data x).map fun d => (true, { m with data := d })
  | _ => (E.st.push m.data x).map fun d =>
    (false, { m with data := d, lookup2 := (FMap.emplace E.impl2 m.lookup2 k2 (E.st.size m.data)).1 })

/-- DualStringMappedVector.hpp:98-112. -/
def insert2Fault (m : DSV S K2) (k2 : K2) (x : V) (f : Fault V) : Option (Bool × DSV S K2) :=
  if (FMap.find m.lookup2 k2).isSome then some (false, m) else m.addSecondFault E flt k2 x f

omit [DecidableEq K2] in
/-- DualStringMappedVector.hpp:118-127. -/
def insertNoKeyFault (m : DSV S K2) (x : V) : Fault V → Option (Bool × DSV S K2)
  | .base (.storage g) => (flt.push m.data x g).map fun r => (r.1, { m with data := r.2 })
  | _ => (m.insertNoKey E x).map fun r => (false, r.1)

/-- DualStringMappedVector.hpp:134-152. -/
def insertOrAssignFault (m : DSV S K2) (h : Heap String) (k1 : String) (k2 : K2) (x : V) (f : Fault V) :
    Option (Bool × DSV S K2 × Heap String) :=
  (Str.find E.hash E.order h k1 m.lookup1).bind fun r =>
  match r with
  | some e => match f with
    | .base .value => some (true, m, h)
    | .base (.assign junk) => (E.st.set m.data e.2 junk).map fun d => (true, { m with data := d }, h)
    | .base .map2 => (E.st.set m.data e.2 x).map fun d =>
      if (FMap.find m.lookup2 k2).isSome then (false, { m with data := d, lookup2 := FMap.put E.impl2 m.lookup2 k2 e.2 }, h)
      else (true, { m with data := d }, h)
    | _ => (E.st.set m.data e.2 x).map fun d =>
      (false, { m with data := d, lookup2 := FMap.put E.impl2 m.lookup2 k2 e.2 }, h)
  | none => m.addFault E flt h k1 k2 x f

omit [DecidableEq K2] in
/-- DualStringMappedVector.hpp:158-174. -/
def insertOrAssign1Fault (m : DSV S K2) (h : Heap String) (k1 : String) (x : V) (f : Fault V) :
    Option (Bool × DSV S K2 × Heap String) :=
  (Str.find E.hash E.order h k1 m.lookup1).bind fun r =>
  match r with
  | some e => match f with
    | .base .value => some (true, m, h)
    | .base (.assign junk) => (E.st.set m.data e.2 junk).map fun d => (true, { m with data := d }, h)
    | _ => (E.st.set m.data e.2 x).map fun d => (false, { m with data := d }, h)
  | none => m.addFirstFault E flt h k1 x f

/-- DualStringMappedVector.hpp:180-195. -/
def insertOrAssign2Fault (m : DSV S K2) (k2 : K2) (x : V) (f : Fault V) : Option (Bool × DSV S K2) :=
  match FMap.find m.lookup2 k2 with
  | some i => match f with
    | .base .value => some (true, m)
    | .base (.assign junk) => (E.st.set m.data i junk).map fun d => (true, { m with data := d })
    | _ => (E.st.set m.data i x).map fun d => (false, { m with data := d })
  | none => m.addSecondFault E flt k2 x f

omit [DecidableEq K2] in
/-- DualStringMappedVector.hpp:388-392, 395-400: the elements before the one whose call throws have been changed. -/
def visitFault (m : DSV S K2) (g : V → V) (n : Nat) (junk : V) : Option (Bool × DSV S K2) :=
  (flt.visit (fun (_ : Unit) x => ((), g x)) () junk n m.data).map fun r => (r.1, { m with data := r.2 })

end DSV

/-- One call during which something throws.  Adding a term: DualStringMappedVector.hpp:198-270. -/
def execFault (m : DSV S K2) (h : Heap String) : Op K2 V → Fault V → Option (Bool × DSV S K2 × Heap String)
  | .insert (some k1) (some k2) x, f => m.insertFault E flt h k1 k2 x f
  | .insert (some k1) none x, f => m.insert1Fault E flt h k1 x f
  | .insert none (some k2) x, f => (m.insert2Fault E flt k2 x f).map fun r => (r.1, r.2, h)
  | .insert none none x, f => (m.insertNoKeyFault E flt x f).map fun r => (r.1, r.2, h)
  | .insertOrAssign k1 k2 x, f => m.insertOrAssignFault E flt h k1 k2 x f
  | .insertOrAssignOne (.inl k) x, f => m.insertOrAssign1Fault E flt h k x f
  | .insertOrAssignOne (.inr k) x, f => (m.insertOrAssign2Fault E flt k x f).map fun r => (r.1, r.2, h)
  | .addTermForIndex (.inl k) i, f =>
    if i < E.st.size m.data then m.addName1Fault E h k i f else some (false, m, h)
  | .addTermForIndex (.inr _) i, .base .map2 => some (decide (i < E.st.size m.data), m, h)
  | .addTerm (.inl k) (.inl e), f =>
    (Str.find E.hash E.order h e m.lookup1).bind fun r =>
    match r with
    | some e => m.addName1Fault E h k e.2 f
    | none => some (false, m, h)
  | .addTerm (.inl k) (.inr e), f =>
    match FMap.find m.lookup2 e with
    | some i => m.addName1Fault E h k i f
    | none => some (false, m, h)
  | .addTerm (.inr _) (.inl e), .base .map2 =>
    (Str.find E.hash E.order h e m.lookup1).map fun r => (r.isSome, m, h)
  | .addTerm (.inr _) (.inr e), .base .map2 => some ((FMap.find m.lookup2 e).isSome, m, h)
  | .modify g, .base (.visitor n junk) => (m.visitFault flt g n junk).map fun r => (r.1, r.2, h)
  | .transform g, .base (.visitor n junk) => (m.visitFault flt g n junk).map fun r => (r.1, r.2, h)
  | op, _ => (exec E m h op).map fun r => (false, r.1, r.2.1)

/-! ### Specification -/

/-- What a call that throws leaves behind: what it leaves in a DualMappedVector, where a name that cannot be stored is like
a first search term that cannot be stored. -/
def left (kind : Kind) (a : Ideal (String ⊕ K2) V) (op : Op K2 V) : Fault V → Ideal (String ⊕ K2) V
  | .base f => Dual.left kind a op f
  | .name _ => Dual.left kind a op .map1

omit [DecidableEq K2] in
/-- Failures after which the container can be used; excluded are, with stable storage, those of `emplace_back` that break
the storage (C80, C81), and copying the string. -/
def tolerated (kind : Kind) (a : Ideal (String ⊕ K2) V) : Fault V → Bool
  | .base f => Dual.tolerated kind a f
  | .name f => f ≠ .element

/-! ### Simulation -/

variable {E} {kind : Kind} {L : Lawful E.st kind} {flt} {m : DSV S K2} {h : Heap String} {a : Ideal (String ⊕ K2) V}

omit [DecidableEq K2] in
/-- Storing a name. -/
theorem addName1Fails (w : m.Ok E h) (k : String) (i : Nat) {f : Fault V} (hf : f ≠ .name .element) :
    (((∃ g, f = .name g) ∨ f = .base .map1) ∧ ∃ n h', m.addName1Fault E h k i f = some (true, n, h') ∧ n.Ok E h' ∧
      n.base E h' = m.base E h ∧ n.data = m.data) ∨
    m.addName1Fault E h k i f = (m.addName1 E h k i).map fun r => (false, r.1, r.2.1) := by
  rcases f with f | g
  · cases f with
    | map1 =>
      obtain ⟨names', h', u, e1, e2, _, e4⟩ := SRepC.addName w k
      refine .inl ⟨.inr rfl, { m with names := names' }, h', ?_, e4 _ fun _ hu => .inr hu, ?_, rfl⟩
      · simp only [DSV.addName1Fault, e1, Option.map_some]
      · simp only [DSV.base, e2]
    | _ => exact .inr rfl
  · have w' : Str.SMV.Ok (S := S) (V := V) ⟨E.st, E.order, E.impl1, E.hash⟩ ⟨m.data, m.names, m.lookup1⟩ h := w
    rcases w'.nameFault k (f := g) (fun hg => hf (by rw [hg])) with ⟨v, e, ok⟩ | ⟨r, e⟩
    · exact .inl ⟨.inl ⟨g, rfl⟩, { m with names := v }, h, by simp only [DSV.addName1Fault, e, Option.bind_some]; rfl,
        ok m.data, rfl, rfl⟩
    · exact .inr (by simp only [DSV.addName1Fault, e, Option.bind_some]; rfl)

omit E in
theorem nodup_left (hs : ∀ e ∈ a.entries, e.keys.Nodup) (op : Op K2 V) (f : Fault V) :
    ∀ e ∈ (left kind a op f).entries, e.keys.Nodup := by
  have happ : ∀ (x : V), ∀ e ∈ (a.append kind x []).entries, e.keys.Nodup := by
    intro x e he
    simp only [Ideal.append, List.mem_append, List.mem_singleton] at he
    rcases he with he | rfl
    · exact hs e he
    · simp
  have hass : ∀ i x, ∀ e ∈ (assign a i x).entries, e.keys.Nodup := fun i x => modify_nodup hs i _ fun e => .inl rfl
  have vis : ∀ (g : V → V) n (junk : V), ∀ e ∈ interrupted g n junk a.entries, e.keys.Nodup := by
    intro g n junk e he
    have hk : (interrupted g n junk a.entries).map (·.keys) = a.entries.map (·.keys) := by
      by_cases hn : n < a.entries.length
      · exact (visit_entries a.entries g junk hn).2
      · rw [interrupted, List.take_of_length_le (by omega), List.drop_of_length_le (by omega)]
        simp
    have : e.keys ∈ a.entries.map (·.keys) := hk ▸ List.mem_map.2 ⟨e, he, rfl⟩
    obtain ⟨e', he', h1⟩ := List.mem_map.1 this
    rw [← h1]; exact hs e' he'
  have main : ∀ f : Dual.Fault V, ∀ e ∈ (Dual.left kind a op f).entries, e.keys.Nodup := by
    intro f
    cases op with
    | insert o1 o2 x =>
      cases f <;> cases o1 <;> simp only [Dual.left] <;>
        first | exact hs | exact happ _ | exact attach_nodup (happ _) _ _
    | insertOrAssign k1 k2 x =>
      cases f <;> simp only [Dual.left] <;> first | exact hs | exact happ _ | skip
      · split
        exacts [hass _ _, attach_nodup (happ _) _ _]
      · split
        exacts [hass _ _, hs]
    | insertOrAssignOne k x =>
      cases f <;> simp only [Dual.left] <;> first | exact hs | exact happ _ | skip
      split
      exacts [hass _ _, hs]
    | modify g => cases f <;> simp only [Dual.left] <;> first | exact hs | exact vis _ _ _
    | transform g => cases f <;> simp only [Dual.left] <;> first | exact hs | exact vis _ _ _
    | _ => cases f <;> exact hs
  rcases f with f | f
  · exact main f
  · exact main .map1

/-- Storing a name in an insertion or for a term that is added. -/
theorem InvC.addName1Fails (v : Inv L m h a) (k : String) (i : Nat) {f : Fault V} (hf : tolerated kind a f = true) :
    (((∃ g, f = .name g) ∨ f = .base .map1) ∧ ∃ n h', m.addName1Fault E h k i f = some (true, n, h') ∧ Inv L n h' a ∧
      n.data = m.data) ∨
    m.addName1Fault E h k i f = (m.addName1 E h k i).map fun r => (false, r.1, r.2.1) := by
  rcases DualStr.addName1Fails v.ok k i (f := f) (by rintro rfl; simp [tolerated] at hf) with ⟨h1, n, h', e, ok, eb, ed⟩ | e
  · exact .inl ⟨h1, n, h', e, ⟨ok, by rw [eb]; exact v.base, v.nodup⟩, ed⟩
  · exact .inr e

/-- what a push leaves -/
theorem InvC.push (v : Inv L m h a) (x : V) :
    ∃ d, E.st.push m.data x = some d ∧ Inv L { m with data := d } h (a.append kind x []) ∧
      ∀ i, i < a.entries.length → E.st.addr d i = E.st.addr m.data i := by
  obtain ⟨d, e, v1, ad⟩ := push_inv v.base x
  exact ⟨d, e, ⟨v.ok, v1, nodup_left v.nodup (.insert none none x) (.base .map1)⟩, ad⟩

theorem InvC.pushFault (Q : L.Failing flt) (v : Inv L m h a) (x : V) (g : Block.Vector.Fault)
    (hf : tolerated kind a (.base (.storage g)) = true) :
    (∃ d, flt.push m.data x g = some (true, d) ∧
      Inv L { m with data := d } h { a with reserved := kind.reserveFailed a.reserved a.entries.length g } ∧
      ∀ i, i < a.entries.length → E.st.addr d i = E.st.addr m.data i) ∨
    (∃ d, flt.push m.data x g = some (false, d) ∧ E.st.push m.data x = some d) := by
  rcases Q.push x g v.base.rep hf with ⟨d, e, r, ad⟩ | h
  · refine .inl ⟨d, e, ?_, by simpa using ad⟩
    rw [List.length_map] at r
    exact ⟨v.ok, ⟨r, v.base.binds⟩, v.nodup⟩
  · exact .inr h

theorem InvC.assign (v : Inv L m h a) {i : Nat} (hl : i < a.entries.length) (x : V) :
    ∃ d, E.st.set m.data i x = some d ∧ Inv L { m with data := d } h (assign a i x) ∧
      ∀ i, E.st.addr d i = E.st.addr m.data i := by
  obtain ⟨d, e, r, ad⟩ := assign_inv v.base hl x
  exact ⟨d, e, ⟨v.ok, r, modify_nodup v.nodup i _ fun e => .inl rfl⟩, ad⟩

/-- the end of an insertion with both terms -/
theorem addFails (Q : L.Failing flt) (v : Inv L m h a) (k1 : String) (k2 : K2) (x : V) {f : Fault V}
    (hk : FMap.find (strings E.order h m.lookup1) k1 = none) (hf : tolerated kind a f = true) :
    ((∃ g, f = .base (.storage g) ∨ f = .base .map1 ∨ f = .base .map2 ∨ f = .name g) ∧
      ∃ m' h', m.addFault E flt h k1 k2 x f = some (true, m', h') ∧
        Inv L m' h' (left kind a (.insert (some k1) (some k2) x) f) ∧
        ∀ i, i < a.entries.length → E.st.addr m'.data i = E.st.addr m.data i) ∨
    m.addFault E flt h k1 k2 x f = (m.add E h k1 k2 x).map fun r => (false, r.1, r.2.1) := by
  have hsz : E.st.size m.data = a.entries.length := v.base.size_eq
  obtain ⟨d, e, vd, ad⟩ := v.push x
  have ord : ∀ {n h' b}, DSV.addName1 E { m with data := d } h k1 (E.st.size m.data) = some (n, h', b) → n.lookup2 = m.lookup2 := by
    intro n h' b hn
    obtain ⟨J, n', h'', e1, _, _, _, e2⟩ := addName1_lift vd.ok k1 (E.st.size m.data)
    rw [hn] at e1; cases e1; exact e2
  have name : ∀ {f : Fault V}, (∀ g, f ≠ .base (.storage g)) → f ≠ .base .map2 → tolerated kind a f = true →
      (((∃ g, f = .name g) ∨ f = .base .map1) ∧ ∃ m' h', m.addFault E flt h k1 k2 x f = some (true, m', h') ∧
        Inv L m' h' (a.append kind x []) ∧ ∀ i, i < a.entries.length → E.st.addr m'.data i = E.st.addr m.data i) ∨
      m.addFault E flt h k1 k2 x f = (m.add E h k1 k2 x).map fun r => (false, r.1, r.2.1) := by
    intro f h1 h2 hf
    have hf' : f ≠ .name .element := by rintro rfl; simp [tolerated] at hf
    rcases DualStr.addName1Fails vd.ok k1 (E.st.size m.data) hf' with ⟨h3, n, h', e1, ok, eb, ed⟩ | e1
    · refine .inl ⟨h3, n, h', ?_, ⟨ok, by rw [eb]; exact vd.base, vd.nodup⟩, by rw [ed]; exact ad⟩
      rcases h3 with ⟨g, rfl⟩ | rfl <;> simp only [DSV.addFault, e, Option.bind_some, e1, Option.map_some]
    · refine .inr ?_
      cases hn : DSV.addName1 E { m with data := d } h k1 (E.st.size m.data) with
      | none =>
        rw [hn] at e1
        rcases f with f | f
        · cases f <;> first | exact absurd rfl h2 | exact absurd rfl (h1 _) |
            simp only [DSV.addFault, DSV.add, e, Option.bind_some, e1, hn, Option.map_none]
        · simp only [DSV.addFault, DSV.add, e, Option.bind_some, e1, hn, Option.map_none]
      | some r =>
        rw [hn] at e1
        rcases f with f | f
        · cases f <;> first | exact absurd rfl h2 | exact absurd rfl (h1 _) |
            simp only [DSV.addFault, DSV.add, e, Option.bind_some, e1, hn, Option.map_some, ord hn]
        · simp only [DSV.addFault, DSV.add, e, Option.bind_some, e1, hn, Option.map_some, ord hn]
  rcases f with f | g
  · cases f with
    | storage g =>
      rcases v.pushFault Q x g hf with ⟨d, e, r, ad⟩ | ⟨d, e, e2⟩
      · exact .inl ⟨⟨g, .inl rfl⟩, { m with data := d }, h, by simp only [DSV.addFault, e, Option.bind_some]; rfl, r, ad⟩
      · exact .inr (by simp only [DSV.addFault, e, Option.bind_some]; rfl)
    | map2 =>
      obtain ⟨J, n, h', e1, ok, eb, ed, el⟩ := addName1_lift vd.ok k1 (E.st.size m.data)
      have e2 : DSV.addName1Fault E { m with data := d } h k1 (E.st.size m.data) (.base .map2) = some (false, n, h') := by
        simp only [DSV.addName1Fault, e1, Option.map_some]
      by_cases hk2 : (FMap.find m.lookup2 k2).isSome
      · refine .inr ?_
        simp only [DSV.addFault, DSV.add, e, Option.bind_some, e2, e1, Option.map_some, if_pos hk2, el]
      · refine .inl ⟨⟨.array, .inr (.inr (.inl rfl))⟩, n, h', ?_, ⟨ok, ?_, ?_⟩, by rw [ed]; exact ad⟩
        · simp only [DSV.addFault, e, Option.bind_some, e2, Option.map_some, if_neg hk2]
        · rw [eb]
          have w := Dual.join_wf.1 vd.base.binds.wf
          have v2 := bind1 vd.base (append_length (kind := kind) a x)
            (FMap.put_wf (I := J) w.1 k1 a.entries.length) (FMap.find_put (I := J) w.1 k1 a.entries.length)
          simp only [left, Dual.left, DMV.emplace1, hsz]
          rw [← put_of_none (I := J) hk] 
          exact v2
        · exact nodup_left v.nodup (.insert (some k1) (some k2) x) (.base .map2)
    | map1 =>
      rcases name (f := .base .map1) (by simp) (by simp) hf with ⟨_, r⟩ | r
      · exact .inl ⟨⟨.array, by simp⟩, r⟩
      · exact .inr r
    | value => exact .inr ((name (f := .base .value) (by simp) (by simp) hf).resolve_left (by simp))
    | assign y => exact .inr ((name (f := .base (.assign y)) (by simp) (by simp) hf).resolve_left (by simp))
    | visitor n y => exact .inr ((name (f := .base (.visitor n y)) (by simp) (by simp) hf).resolve_left (by simp))
  · rcases name (f := .name g) (by simp) (by simp) hf with ⟨_, r⟩ | r
    · exact .inl ⟨⟨g, by simp⟩, r⟩
    · exact .inr r

/-- the end of an insertion with a first term only -/
theorem addFirstFails (Q : L.Failing flt) (v : Inv L m h a) (k1 : String) (x : V) {f : Fault V}
    (hf : tolerated kind a f = true) :
    ((∃ g, f = .base (.storage g) ∨ f = .base .map1 ∨ f = .name g) ∧
      ∃ m' h', m.addFirstFault E flt h k1 x f = some (true, m', h') ∧
        Inv L m' h' (left kind a (.insert (some k1) none x) f) ∧
        ∀ i, i < a.entries.length → E.st.addr m'.data i = E.st.addr m.data i) ∨
    m.addFirstFault E flt h k1 x f = (m.addFirst E h k1 x).map fun r => (false, r.1, r.2.1) := by
  obtain ⟨d, e, vd, ad⟩ := v.push x
  have name : ∀ {f : Fault V}, (∀ g, f ≠ .base (.storage g)) → tolerated kind a f = true →
      (((∃ g, f = .name g) ∨ f = .base .map1) ∧ ∃ m' h', m.addFirstFault E flt h k1 x f = some (true, m', h') ∧
        Inv L m' h' (a.append kind x []) ∧ ∀ i, i < a.entries.length → E.st.addr m'.data i = E.st.addr m.data i) ∨
      m.addFirstFault E flt h k1 x f = (m.addFirst E h k1 x).map fun r => (false, r.1, r.2.1) := by
    intro f h1 hf
    have hf' : f ≠ .name .element := by rintro rfl; simp [tolerated] at hf
    have hu : m.addFirstFault E flt h k1 x f = DSV.addName1Fault E { m with data := d } h k1 (E.st.size m.data) f := by
      rcases f with f | f
      · cases f <;> first | exact absurd rfl (h1 _) | simp only [DSV.addFirstFault, e, Option.bind_some]
      · simp only [DSV.addFirstFault, e, Option.bind_some]
    rcases DualStr.addName1Fails vd.ok k1 (E.st.size m.data) hf' with ⟨h3, n, h', e1, ok, eb, ed⟩ | e1
    · exact .inl ⟨h3, n, h', hu.trans e1, ⟨ok, by rw [eb]; exact vd.base, vd.nodup⟩, by rw [ed]; exact ad⟩
    · refine .inr (hu.trans (e1.trans ?_))
      simp only [DSV.addFirst, e, Option.bind_some, Option.map_map]; rfl
  rcases f with f | g
  · cases f with
    | storage g =>
      rcases v.pushFault Q x g hf with ⟨d, e, r, ad⟩ | ⟨d, e, e2⟩
      · exact .inl ⟨⟨g, .inl rfl⟩, { m with data := d }, h, by simp only [DSV.addFirstFault, e, Option.bind_some]; rfl, r, ad⟩
      · exact .inr (by simp only [DSV.addFirstFault, e, Option.bind_some]; rfl)
    | map1 =>
      rcases name (f := .base .map1) (by simp) hf with ⟨_, r⟩ | r
      · exact .inl ⟨⟨.array, by simp⟩, r⟩
      · exact .inr r
    | value => exact .inr ((name (f := .base .value) (by simp) hf).resolve_left (by simp))
    | assign y => exact .inr ((name (f := .base (.assign y)) (by simp) hf).resolve_left (by simp))
    | visitor n y => exact .inr ((name (f := .base (.visitor n y)) (by simp) hf).resolve_left (by simp))
    | map2 => exact .inr ((name (f := .base .map2) (by simp) hf).resolve_left (by simp))
  · rcases name (f := .name g) (by simp) hf with ⟨_, r⟩ | r
    · exact .inl ⟨⟨g, by simp⟩, r⟩
    · exact .inr r

/-- the end of an insertion with a second term only -/
theorem addSecondFails (Q : L.Failing flt) (v : Inv L m h a) (k2 : K2) (x : V) {f : Fault V}
    (hf : tolerated kind a f = true) :
    ((∃ g, f = .base (.storage g) ∨ f = .base .map2) ∧
      ∃ m', m.addSecondFault E flt k2 x f = some (true, m') ∧
        Inv L m' h (left kind a (.insert none (some k2) x) f) ∧
        ∀ i, i < a.entries.length → E.st.addr m'.data i = E.st.addr m.data i) ∨
    m.addSecondFault E flt k2 x f = (E.st.push m.data x).map fun d =>
      (false, { m with data := d, lookup2 := (FMap.emplace E.impl2 m.lookup2 k2 (E.st.size m.data)).1 }) := by
  rcases f with f | g
  · cases f with
    | storage g =>
      rcases v.pushFault Q x g hf with ⟨d, e, r, ad⟩ | ⟨d, e, e2⟩
      · exact .inl ⟨⟨g, .inl rfl⟩, { m with data := d }, by simp only [DSV.addSecondFault, e, Option.map_some]; rfl, r, ad⟩
      · exact .inr (by simp only [DSV.addSecondFault, e, e2, Option.map_some]; rfl)
    | map2 =>
      obtain ⟨d, e, vd, ad⟩ := v.push x
      exact .inl ⟨⟨.array, .inr rfl⟩, { m with data := d }, by simp only [DSV.addSecondFault, e, Option.map_some], vd, ad⟩
    | _ => exact .inr rfl
  · exact .inr rfl

/-- Either the call did not get to what throws and is an ordinary one, or it leaves what it should. -/
theorem fails (Q : L.Failing flt) (v : Inv L m h a) {op : Op K2 V} {f : Fault V} (hc : careful E.order kind a op = true)
    {a' : Ideal (String ⊕ K2) V} {o : Vector.Obs V} (hi : ideal kind a op = some (a', o)) (hf : tolerated kind a f = true) :
    (∃ m' h', execFault E flt m h op f = some (true, m', h') ∧ Inv L m' h' (left kind a op f) ∧
      ∀ i, i < a.entries.length → E.st.addr m'.data i = E.st.addr m.data i) ∨
    (∃ m' h', execFault E flt m h op f = some (false, m', h') ∧ exec E m h op = some (m', h', o)) := by
  obtain ⟨m1, h1, e1, v1⟩ := step v hc hi
  have other : execFault E flt m h op f = ((exec E m h op).map fun r => (false, r.1, r.2.1)) →
      ∃ m' h', execFault E flt m h op f = some (false, m', h') ∧ exec E m h op = some (m', h', o) := fun h =>
    ⟨m1, h1, by rw [h, e1]; rfl, e1⟩
  have hfd := fun k => SRepC.find_eq v.ok k
  have key1 : ∀ k, a.lookup (.inl k) = (m.lookup1.find? fun e => decide (nameOf E.order h e.1 = k)).map (·.2) := fun k =>
    (lookup_inl v.base k).trans (find_strings m.lookup1 k)
  have key2 : ∀ k, a.lookup (.inr k) = FMap.find m.lookup2 k := fun k => lookup_inr v.base k
  have hsz : E.st.size m.data = a.entries.length := v.base.size_eq
  have visit : ∀ (g : V → V) (n : Nat) (junk : V), f = .base (.visitor n junk) →
      kind.iterable a.reserved a.entries.length = true →
      ∃ m', m.visitFault flt g n junk = some (true, m') ∧
        Inv L m' h { a with entries := interrupted g n junk a.entries } ∧ ∀ i, E.st.addr m'.data i = E.st.addr m.data i := by
    rintro g n junk rfl hit
    have hn : n < a.entries.length := by simpa [tolerated, Dual.tolerated] using hf
    obtain ⟨d, e, r, ad⟩ := Q.visit (fun (_ : Unit) x => ((), g x)) () junk v.base.rep (by simpa using hit) (n := n)
      (by simpa using hn)
    obtain ⟨h1, h2⟩ := visit_entries a.entries g junk hn
    exact ⟨{ m with data := d }, by simp only [DSV.visitFault, e, Option.map_some],
      ⟨v.ok, ⟨by rw [h1]; exact r, by rw [h2]; exact v.base.binds⟩,
        nodup_left (kind := kind) v.nodup (.modify g) (.base (.visitor n junk))⟩, ad⟩
  have addName : ∀ k i, (∃ m' h', m.addName1Fault E h k i f = some (true, m', h') ∧ Inv L m' h' a ∧
      (∀ i, i < a.entries.length → E.st.addr m'.data i = E.st.addr m.data i) ∧ ((∃ g, f = .name g) ∨ f = .base .map1)) ∨
      m.addName1Fault E h k i f = (m.addName1 E h k i).map fun r => (false, r.1, r.2.1) := by
    intro k i
    rcases v.addName1Fails k i hf with ⟨h3, n, h', e, iv, ed⟩ | e
    · exact .inl ⟨n, h', e, iv, by rw [ed]; exact fun _ _ => rfl, h3⟩
    · exact .inr e
  cases op with
  | insert o1 o2 x =>
    cases o1 with
    | none =>
      cases o2 with
      | none =>
        rcases f with f | g
        · cases f with
          | storage g =>
            rcases v.pushFault Q x g hf with ⟨d, e, r, ad⟩ | ⟨d, e, e2⟩
            · exact .inl ⟨_, h, by simp only [execFault, DSV.insertNoKeyFault, e, Option.map_some], r, ad⟩
            · refine .inr (other ?_)
              simp only [execFault, DSV.insertNoKeyFault, exec, DSV.insertNoKey, e, e2, Option.map_some]
          | _ => exact .inr (other (by simp only [execFault, DSV.insertNoKeyFault, exec, Option.map_map]; rfl))
        · exact .inr (other (by simp only [execFault, DSV.insertNoKeyFault, exec, Option.map_map]; rfl))
      | some k2 =>
        by_cases hk : (FMap.find m.lookup2 k2).isSome
        · refine .inr (other ?_)
          simp only [execFault, DSV.insert2Fault, exec, DSV.insert2, hk, if_true, Option.map_some]
        · rcases addSecondFails Q v k2 x hf with ⟨_, m', e, r⟩ | e
          · exact .inl ⟨m', h, by simp only [execFault, DSV.insert2Fault, if_neg hk, e, Option.map_some], r⟩
          · refine .inr (other ?_)
            simp only [execFault, DSV.insert2Fault, exec, DSV.insert2, if_neg hk, e, Option.map_map]; rfl
    | some k1 =>
      cases o2 with
      | none =>
        cases hk : m.lookup1.find? fun e => decide (nameOf E.order h e.1 = k1) with
        | some e =>
          refine .inr (other ?_)
          simp only [execFault, DSV.insert1Fault, exec, DSV.insert1, hfd, hk, Option.bind_some, Option.isSome_some, if_true,
            Option.map_some]
        | none =>
          rcases addFirstFails Q v k1 x hf with ⟨_, m', h', e, r⟩ | e
          · exact .inl ⟨m', h', by simp only [execFault, DSV.insert1Fault, hfd, hk, Option.bind_some]; exact e, r⟩
          · refine .inr (other ?_)
            simp only [execFault, DSV.insert1Fault, exec, DSV.insert1, hfd, hk, Option.bind_some, Option.isSome_none,
              Bool.false_eq_true, if_false, e, Option.map_map]; rfl
      | some k2 =>
        cases hk : m.lookup1.find? fun e => decide (nameOf E.order h e.1 = k1) with
        | some e =>
          have hk2 : (FMap.find m.lookup2 k2).isSome = true := by
            simpa [careful, key1, hk, key2] using hc
          refine .inr (other ?_)
          simp only [execFault, DSV.insertFault, exec, DSV.insert, hfd, hk, hk2, Option.bind_some, Option.isSome_some, and_self,
            if_true, Option.map_some]
        | none =>
          rcases addFails Q v k1 k2 x (by rw [find_strings, hk]; rfl) hf with ⟨_, m', h', e, r⟩ | e
          · exact .inl ⟨m', h', by simp only [execFault, DSV.insertFault, hfd, hk, Option.bind_some]; exact e, r⟩
          · refine .inr (other ?_)
            simp only [execFault, DSV.insertFault, exec, DSV.insert, hfd, hk, Option.bind_some, Option.isSome_none,
              Bool.false_eq_true, false_and, if_false, e, Option.map_map]; rfl
  | insertOrAssign k1 k2 x =>
    cases hk : m.lookup1.find? fun e => decide (nameOf E.order h e.1 = k1) with
    | some e =>
      have hl : e.2 < a.entries.length := lookup_lt v.base (k := .inl k1) (by rw [key1, hk]; rfl)
      have hord : ∀ {r : Option (Bool × DSV S K2 × Heap String)}, execFault E flt m h (.insertOrAssign k1 k2 x) f = r →
          r = ((E.st.set m.data e.2 x).map fun d =>
            (false, { m with data := d, lookup2 := FMap.put E.impl2 m.lookup2 k2 e.2 }, h)) →
          execFault E flt m h (.insertOrAssign k1 k2 x) f =
            (exec E m h (.insertOrAssign k1 k2 x)).map fun r => (false, r.1, r.2.1) := by
        intro r h1 h2
        rw [h1, h2]
        simp only [exec, DSV.insertOrAssign, hfd, hk, Option.bind_some, Option.map_map]; rfl
      rcases f with f | g
      · cases f with
        | value => exact .inl ⟨m, h, by simp only [execFault, DSV.insertOrAssignFault, hfd, hk, Option.bind_some], v, fun _ _ => rfl⟩
        | assign junk =>
          obtain ⟨d, e1, r, ad⟩ := v.assign hl junk
          refine .inl ⟨{ m with data := d }, h, by
            simp only [execFault, DSV.insertOrAssignFault, hfd, hk, Option.bind_some, e1, Option.map_some], ?_, fun i _ => ad i⟩
          simp only [left, Dual.left, key1, hk, Option.map_some]; exact r
        | map2 =>
          obtain ⟨d, e1, r, ad⟩ := v.assign hl x
          by_cases hk2 : (FMap.find m.lookup2 k2).isSome
          · refine .inr (other (hord rfl ?_))
            simp only [execFault, DSV.insertOrAssignFault, hfd, hk, Option.bind_some, if_pos hk2]
          · refine .inl ⟨{ m with data := d }, h, by
              simp only [execFault, DSV.insertOrAssignFault, hfd, hk, Option.bind_some, e1, Option.map_some, if_neg hk2], ?_,
              fun i _ => ad i⟩
            simp only [left, Dual.left, key1, hk, Option.map_some]; exact r
        | _ =>
          exact .inr (other (hord (by simp only [execFault, DSV.insertOrAssignFault, hfd, hk, Option.bind_some]) rfl))
      · exact .inr (other (hord (by simp only [execFault, DSV.insertOrAssignFault, hfd, hk, Option.bind_some]) rfl))
    | none =>
      rcases addFails Q v k1 k2 x (by rw [find_strings, hk]; rfl) hf with ⟨⟨g, hg⟩, m', h', e, r⟩ | e
      · refine .inl ⟨m', h', by simp only [execFault, DSV.insertOrAssignFault, hfd, hk, Option.bind_some]; exact e, ?_⟩
        rcases hg with rfl | rfl | rfl | rfl <;> first | exact r | skip
        simp only [left, Dual.left, key1, hk, Option.map_none]
        exact r
      · refine .inr (other ?_)
        simp only [execFault, DSV.insertOrAssignFault, exec, DSV.insertOrAssign, hfd, hk, Option.bind_some, e, Option.map_map]; rfl
  | insertOrAssignOne k x =>
    cases k with
    | inl k1 =>
      cases hk : m.lookup1.find? fun e => decide (nameOf E.order h e.1 = k1) with
      | some e =>
        have hl : e.2 < a.entries.length := lookup_lt v.base (k := .inl k1) (by rw [key1, hk]; rfl)
        rcases f with f | g
        · cases f with
          | value => exact .inl ⟨m, h, by simp only [execFault, DSV.insertOrAssign1Fault, hfd, hk, Option.bind_some], v, fun _ _ => rfl⟩
          | assign junk =>
            obtain ⟨d, e1, r, ad⟩ := v.assign hl junk
            refine .inl ⟨{ m with data := d }, h, by
              simp only [execFault, DSV.insertOrAssign1Fault, hfd, hk, Option.bind_some, e1, Option.map_some], ?_, fun i _ => ad i⟩
            simp only [left, Dual.left, key1, hk, Option.map_some]; exact r
          | _ =>
            refine .inr (other ?_)
            simp only [execFault, DSV.insertOrAssign1Fault, exec, DSV.insertOrAssign1, hfd, hk, Option.bind_some, Option.map_map]
            rfl
        · refine .inr (other ?_)
          simp only [execFault, DSV.insertOrAssign1Fault, exec, DSV.insertOrAssign1, hfd, hk, Option.bind_some, Option.map_map]
          rfl
      | none =>
        rcases addFirstFails Q v k1 x hf with ⟨⟨g, hg⟩, m', h', e, r⟩ | e
        · refine .inl ⟨m', h', by simp only [execFault, DSV.insertOrAssign1Fault, hfd, hk, Option.bind_some]; exact e, ?_⟩
          rcases hg with rfl | rfl | rfl <;> exact r
        · refine .inr (other ?_)
          simp only [execFault, DSV.insertOrAssign1Fault, exec, DSV.insertOrAssign1, hfd, hk, Option.bind_some, e,
            Option.map_map]; rfl
    | inr k2 =>
      cases hk : FMap.find m.lookup2 k2 with
      | some i =>
        have hl : i < a.entries.length := lookup_lt v.base (k := .inr k2) (by rw [key2, hk])
        rcases f with f | g
        · cases f with
          | value => exact .inl ⟨m, h, by simp only [execFault, DSV.insertOrAssign2Fault, hk, Option.map_some], v, fun _ _ => rfl⟩
          | assign junk =>
            obtain ⟨d, e1, r, ad⟩ := v.assign hl junk
            refine .inl ⟨{ m with data := d }, h, by
              simp only [execFault, DSV.insertOrAssign2Fault, hk, e1, Option.map_some], ?_, fun i _ => ad i⟩
            simp only [left, Dual.left, key2, hk]; exact r
          | _ =>
            refine .inr (other ?_)
            simp only [execFault, DSV.insertOrAssign2Fault, exec, DSV.insertOrAssign2, hk, Option.map_map]; rfl
        · refine .inr (other ?_)
          simp only [execFault, DSV.insertOrAssign2Fault, exec, DSV.insertOrAssign2, hk, Option.map_map]; rfl
      | none =>
        rcases addSecondFails Q v k2 x hf with ⟨⟨g, hg⟩, m', e, r⟩ | e
        · refine .inl ⟨m', h, by simp only [execFault, DSV.insertOrAssign2Fault, hk, e, Option.map_some], ?_⟩
          rcases hg with rfl | rfl <;> exact r
        · refine .inr (other ?_)
          simp only [execFault, DSV.insertOrAssign2Fault, exec, DSV.insertOrAssign2, hk, e, Option.map_map]; rfl
  | addTermForIndex k i =>
    cases k with
    | inl k =>
      by_cases hlt : i < E.st.size m.data
      · rcases addName k i with ⟨m', h', e, iv, ad, h3⟩ | e
        · refine .inl ⟨m', h', by simp only [execFault, if_pos hlt]; exact e, ?_, ad⟩
          rcases h3 with ⟨g, rfl⟩ | rfl <;> exact iv
        · refine .inr (other ?_)
          simp only [execFault, exec, DSV.addTermForIndex1, if_pos hlt, e, Option.map_map]; rfl
      · refine .inr (other ?_)
        simp only [execFault, exec, DSV.addTermForIndex1, if_neg hlt, Option.map_some]
    | inr k =>
      rcases f with f | g
      · cases f with
        | map2 =>
          by_cases hlt : i < E.st.size m.data
          · exact .inl ⟨m, h, by simp only [execFault, hlt, decide_true], v, fun _ _ => rfl⟩
          · exact .inr (other (by simp [execFault, exec, DSV.addTermForIndex2, hlt]))
        | _ => exact .inr (other rfl)
      · exact .inr (other rfl)
  | addTerm k e =>
    cases k with
    | inl k =>
      cases e with
      | inl k1 =>
        cases hk : m.lookup1.find? fun e => decide (nameOf E.order h e.1 = k1) with
        | some e =>
          rcases addName k e.2 with ⟨m', h', e, iv, ad, h3⟩ | e
          · refine .inl ⟨m', h', by simp only [execFault, hfd, hk, Option.bind_some]; exact e, ?_, ad⟩
            rcases h3 with ⟨g, rfl⟩ | rfl <;> exact iv
          · refine .inr (other ?_)
            simp only [execFault, exec, DSV.addTerm11, hfd, hk, Option.bind_some, e, Option.map_map]; rfl
        | none =>
          refine .inr (other ?_)
          simp only [execFault, exec, DSV.addTerm11, hfd, hk, Option.bind_some, Option.map_some]
      | inr k2 =>
        cases hk : FMap.find m.lookup2 k2 with
        | some i =>
          rcases addName k i with ⟨m', h', e, iv, ad, h3⟩ | e
          · refine .inl ⟨m', h', by simp only [execFault, hk]; exact e, ?_, ad⟩
            rcases h3 with ⟨g, rfl⟩ | rfl <;> exact iv
          · refine .inr (other ?_)
            simp only [execFault, exec, DSV.addTerm12, hk, e, Option.map_map]; rfl
        | none =>
          refine .inr (other ?_)
          simp only [execFault, exec, DSV.addTerm12, hk, Option.map_some]
    | inr k =>
      cases e with
      | inl k1 =>
        rcases f with f | g
        · cases f with
          | map2 =>
            cases hk : m.lookup1.find? fun e => decide (nameOf E.order h e.1 = k1) with
            | some e => exact .inl ⟨m, h, by simp only [execFault, hfd, hk, Option.map_some, Option.isSome_some], v, fun _ _ => rfl⟩
            | none => exact .inr (other (by simp [execFault, exec, DSV.addTerm21, hfd, hk]))
          | _ => exact .inr (other rfl)
        · exact .inr (other rfl)
      | inr k2 =>
        rcases f with f | g
        · cases f with
          | map2 =>
            cases hk : FMap.find m.lookup2 k2 with
            | some i => exact .inl ⟨m, h, by simp only [execFault, hk, Option.isSome_some], v, fun _ _ => rfl⟩
            | none => exact .inr (other (by simp [execFault, exec, DSV.addTerm22, hk]))
          | _ => exact .inr (other rfl)
        · exact .inr (other rfl)
  | modify g =>
    rcases f with f | f
    · cases f with
      | visitor n junk =>
        obtain ⟨m', e, r, ad⟩ := visit g n junk rfl (by simpa [careful, Dual.careful] using hc)
        exact .inl ⟨m', h, by simp only [execFault, e, Option.map_some], r, fun i _ => ad i⟩
      | _ => exact .inr (other rfl)
    · exact .inr (other rfl)
  | transform g =>
    rcases f with f | f
    · cases f with
      | visitor n junk =>
        obtain ⟨m', e, r, ad⟩ := visit g n junk rfl (by simpa [careful, Dual.careful] using hc)
        exact .inl ⟨m', h, by simp only [execFault, e, Option.map_some], r, fun i _ => ad i⟩
      | _ => exact .inr (other rfl)
    · exact .inr (other rfl)
  | _ => rcases f with f | f <;> exact .inr (other rfl)

end Verif.Mapped.DualStr
