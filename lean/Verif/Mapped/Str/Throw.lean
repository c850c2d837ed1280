import Verif.Mapped.Vector.Throw
import Verif.Mapped.Str.Lemmas

/-
Model of exceptions inside calls of gmlc/containers/StringMappedVector.hpp, and what they leave behind.
-/
namespace Verif.Mapped.Str
open Verif.Mapped Verif.Block Verif.Block.Vector
open Verif.Mapped.Vector (Obs Ideal MV interrupted visit_entries)

/-- What throws during the call. -/
inductive Fault (V : Type) where
  | base (f : Vector.Fault V)          -- as in MappedVector; `map` is `lookup.emplace`
  | name (f : Block.Vector.Fault)      -- `names.emplace_back`: an allocation of its own, or copying the string

variable {S V : Type}

/-- StringMappedVector.hpp:46-50 and 79-83, the common end of `insert` and `insert_or_assign`, when the given operation
throws if the call gets to it; the flag says whether it did, if not the call is an ordinary one.  The element is appended
first, then its name, then the map changes. -/
def SMV.addFault (E : Env S V) (flt : Faults S V) (m : SMV S) (h : Heap String) (k : String) (x : V) :
    Fault V → Option (Bool × SMV S × Heap String)
  | .base (.storage f) => (flt.push m.data x f).bind fun r =>
    if r.1 then some (true, { m with data := r.2 }, h)
    else (m.add E h k x).map fun r => (false, r.1, r.2.1)
  | .name f => (E.st.push m.data x).bind fun d =>
    (m.names.pushFault E.order h k f).bind fun r =>
    if r.1 then some (true, ⟨d, r.2.1, m.lookup⟩, r.2.2)
    else (m.add E h k x).map fun r => (false, r.1, r.2.1)
  | .base .map => (E.st.push m.data x).bind fun d =>
    (addName E.hash E.order m.names h k).map fun r => (true, ⟨d, r.1, m.lookup⟩, r.2.1)
  | _ => (m.add E h k x).map fun r => (false, r.1, r.2.1)

/-- The call when the given operation throws if the call gets to it.
* StringMappedVector.hpp:39-51 (`insert`).
* StringMappedVector.hpp:55-62.
* StringMappedVector.hpp:71-84: for a search term that is there a new value is constructed, then assigned.
* StringMappedVector.hpp:168-172, 176-181: the elements before the one whose call throws have been changed. -/
def execFault (E : Env S V) (flt : Faults S V) (m : SMV S) (h : Heap String) :
    Op V → Fault V → Option (Bool × SMV S × Heap String)
  | .insert k x, f =>
    (find E.hash E.order h k m.lookup).bind fun r =>
    if r.isSome then some (false, m, h) else m.addFault E flt h k x f
  | .insertNoKey x, .base (.storage f) => (flt.push m.data x f).map fun r => (r.1, { m with data := r.2 }, h)
  | .insertOrAssign k x, f =>
    (find E.hash E.order h k m.lookup).bind fun r =>
    match r, f with
    | some _, .base .value => some (true, m, h)
    | some e, .base (.assign junk) => (E.st.set m.data e.2 junk).map fun d => (true, { m with data := d }, h)
    | some e, _ => (E.st.set m.data e.2 x).map fun d => (false, { m with data := d }, h)
    | none, f => m.addFault E flt h k x f
  | .modify g, .base (.visitor n junk) =>
    (flt.visit (fun (_ : Unit) x => ((), g x)) () junk n m.data).map fun r => (r.1, { m with data := r.2 }, h)
  | .transform g, .base (.visitor n junk) =>
    (flt.visit (fun (_ : Unit) x => ((), g x)) () junk n m.data).map fun r => (r.1, { m with data := r.2 }, h)
  | op, _ => (exec E m h op).map fun r => (false, r.1, r.2.1)

/-! ### Specification -/

/-- What a call that throws leaves behind: what it leaves in a MappedVector, where a name that cannot be stored is like a
search term that cannot be stored. -/
def left (kind : Kind) (a : Ideal String V) (op : Op V) : Fault V → Ideal String V
  | .base f => Vector.left kind a op.base f
  | .name _ => Vector.left kind a op.base .map

/-- Failures after which the container can be used; excluded are, with stable storage, those of `emplace_back` that break
the storage (C80, C81), and copying the string. -/
def tolerated (kind : Kind) (a : Ideal String V) : Fault V → Bool
  | .base f => Vector.tolerated kind a f
  | .name f => f ≠ .element

/-! ### Simulation -/

variable {E : Env S V} {kind : Kind} {L : Lawful E.st kind} {flt : Faults S V} {m : SMV S} {h : Heap String}
  {a : Ideal String V}

/-- A failing allocation inside `names.emplace_back` leaves all search terms. -/
theorem SMV.OkC.nameFault (w : m.Ok E h) (k : String) {f : Block.Vector.Fault} (hf : f ≠ .element) :
    (∃ v, m.names.pushFault E.order h k f = some (true, v, h) ∧ ∀ d, SMV.Ok E ⟨d, v, m.lookup⟩ h) ∨
    (∃ r, m.names.pushFault E.order h k f = some (false, r)) := by
  obtain ⟨ns, ⟨us, fs, c, wf⟩, g⟩ := SRepC.own w
  have ok : m.names.pushFault E.order h k f = (Vec.pushBack E.order m.names h k).map (fun r => (false, r)) →
      ∃ r, m.names.pushFault E.order h k f = some (false, r) := by
    intro e
    obtain ⟨v', h', us', fs', e', _⟩ := c.pushBack wf k
    rw [e'] at e
    exact ⟨_, e⟩
  cases f with
  | array =>
    rcases c.pushArray k with e | e
    · exact .inl ⟨_, e, fun _ => w⟩
    · exact .inr (ok e)
  | block =>
    rcases c.pushBlock k with ⟨e, c', _⟩ | e
    · refine .inl ⟨_, e, fun d => ⟨ns, ⟨us, fs, c', wf⟩, fun v hv => ?_⟩⟩
      obtain ⟨j, s, h1, h2, h3⟩ := g v hv
      have hj := (List.getElem?_eq_some_iff.1 h1).1
      exact .inl ⟨j, s, h1, (StableLaws.cell_frame c c' (.inl (List.prefix_refl _)) hj hj).trans h2, h3⟩
    · exact .inr (ok e)
  | element => exact absurd rfl hf

omit E in
theorem single_left (hs : ∀ e ∈ a.entries, e.keys.length ≤ 1) (op : Op V) (f : Fault V) :
    ∀ e ∈ (left kind a op f).entries, e.keys.length ≤ 1 := by
  have app : ∀ x, ∀ e ∈ (a.append kind x []).entries, e.keys.length ≤ 1 := by
    intro x e he
    rcases List.mem_append.1 he with h1 | h1
    · exact hs e h1
    · rw [List.mem_singleton.1 h1]; simp
  have keys : ∀ {es : List (Vector.Entry String V)}, es.map (·.keys) = a.entries.map (·.keys) →
      ∀ e ∈ es, e.keys.length ≤ 1 := by
    intro es hk e he
    have : e.keys ∈ a.entries.map (·.keys) := hk ▸ List.mem_map.2 ⟨e, he, rfl⟩
    obtain ⟨e', he', h1⟩ := List.mem_map.1 this
    rw [← h1]; exact hs e' he'
  have vis : ∀ (g : V → V) n (junk : V), ∀ e ∈ interrupted g n junk a.entries, e.keys.length ≤ 1 := by
    intro g n junk
    refine keys ?_
    by_cases hn : n < a.entries.length
    · exact (visit_entries a.entries g junk hn).2
    · rw [interrupted, List.take_of_length_le (by omega), List.drop_of_length_le (by omega)]
      simp
  have mod : ∀ i (junk : V), ∀ e ∈ a.entries.modify i (fun e => { e with value := junk }), e.keys.length ≤ 1 := by
    intro i junk
    refine keys ?_
    apply List.ext_getElem?
    intro j
    simp only [List.getElem?_map, List.getElem?_modify]
    split <;> cases a.entries[j]? <;> rfl
  rcases f with f | f
  · cases op <;> cases f <;> simp only [left, Vector.left, Op.base] <;>
      first
      | exact hs
      | exact app _
      | exact vis _ _ _
      | skip
    split
    · exact mod _ _
    · exact hs
  · cases op <;> simp only [left, Vector.left, Op.base] <;> first | exact hs | exact app _

/-- the end of an insertion -/
theorem addFails (Q : L.Failing flt) (v : Inv L m h a) (k : String) (x : V) {f : Fault V} (hf : tolerated kind a f = true) :
    ((∃ g, f = .base (.storage g) ∨ f = .base .map ∨ f = .name g) ∧
      ∃ m' h', m.addFault E flt h k x f = some (true, m', h') ∧ Inv L m' h' (left kind a (.insert k x) f) ∧
        ∀ i, i < a.entries.length → E.st.addr m'.data i = E.st.addr m.data i) ∨
    m.addFault E flt h k x f = (m.add E h k x).map fun r => (false, r.1, r.2.1) := by
  have append : ∃ d, E.st.push m.data x = some d ∧
      Vector.Inv (E := E.base MapImpl.atEnd) L ⟨d, strings E.order h m.lookup⟩ (a.append kind x []) ∧
      ∀ i, i < a.entries.length → E.st.addr d i = E.st.addr m.data i :=
    v.base.append x (strings E.order h m.lookup) [] v.base.binds.append_nil
  rcases f with f | g
  · cases f with
    | storage g =>
      rcases Q.push x g v.base.rep hf with ⟨d, e, r, ad⟩ | ⟨d, e, e2⟩
      · rw [List.length_map] at r
        exact .inl ⟨⟨g, .inl rfl⟩, { m with data := d }, h, by simp only [SMV.addFault, e, Option.bind_some]; rfl,
          ⟨v.ok, v.base.reserve r, single_left v.single (.insert k x) (.base (.storage g))⟩, by simpa using ad⟩
      · exact .inr (by simp only [SMV.addFault, e, Option.bind_some]; rfl)
    | map =>
      obtain ⟨d, e, r, ad⟩ := append
      obtain ⟨names', h', u, e1, e2, _, e4⟩ := SRepC.addName v.ok k
      refine .inl ⟨⟨.array, .inr (.inl rfl)⟩, ⟨d, names', m.lookup⟩, h', ?_,
        ⟨e4 _ fun _ hu => .inr hu, ?_, single_left v.single (.insert k x) (.base .map)⟩, ad⟩
      · simp only [SMV.addFault, e, Option.bind_some, e1, Option.map_some]
      · rw [SMV.base, e2]; exact r
    | _ => exact .inr rfl
  · obtain ⟨d, e, r, ad⟩ := append
    rcases v.ok.nameFault k (f := g) (by simpa [tolerated] using hf) with ⟨names', e1, ok⟩ | ⟨r1, e1⟩
    · exact .inl ⟨⟨g, .inr (.inr rfl)⟩, ⟨d, names', m.lookup⟩, h, by simp only [SMV.addFault, e, e1, Option.bind_some]; rfl,
        ⟨ok d, r, single_left v.single (.insert k x) (.name g)⟩, ad⟩
    · exact .inr (by simp only [SMV.addFault, e, e1, Option.bind_some]; rfl)

/-- Either the call did not get to what throws and is an ordinary one, or it leaves what it should. -/
theorem fails (Q : L.Failing flt) (v : Inv L m h a) {op : Op V} {f : Fault V} (hc : careful kind a op = true)
    {a' : Ideal String V} {o : Vector.Obs V} (hi : ideal kind a op = some (a', o)) (hf : tolerated kind a f = true) :
    (∃ m' h', execFault E flt m h op f = some (true, m', h') ∧ Inv L m' h' (left kind a op f) ∧
      ∀ i, i < a.entries.length → E.st.addr m'.data i = E.st.addr m.data i) ∨
    (∃ m' h', execFault E flt m h op f = some (false, m', h') ∧ exec E m h op = some (m', h', o)) := by
  obtain ⟨m1, h1, e1, v1⟩ := step v hc hi
  have other : execFault E flt m h op f = ((exec E m h op).map fun r => (false, r.1, r.2.1)) →
      ∃ m' h', execFault E flt m h op f = some (false, m', h') ∧ exec E m h op = some (m', h', o) := fun h =>
    ⟨m1, h1, by rw [h, e1]; rfl, e1⟩
  have hfd := fun k => SRepC.find_eq v.ok k
  have key : ∀ k, a.lookup k = (m.lookup.find? fun e => decide (nameOf E.order h e.1 = k)).map (·.2) := fun k =>
    (v.base.lookup_eq k).trans (find_strings m.lookup k)
  have visit : ∀ (g : V → V) (n : Nat) (junk : V), f = .base (.visitor n junk) →
      kind.iterable a.reserved a.entries.length = true →
      ∃ d, flt.visit (fun (_ : Unit) x => ((), g x)) () junk n m.data = some (true, d) ∧
        Vector.Inv (E := E.base MapImpl.atEnd) L ⟨d, strings E.order h m.lookup⟩
          { a with entries := interrupted g n junk a.entries } ∧
        ∀ i, E.st.addr d i = E.st.addr m.data i := by
    rintro g n junk rfl hit
    have hn : n < a.entries.length := by simpa [tolerated, Vector.tolerated] using hf
    obtain ⟨d, e, r, ad⟩ := Q.visit (fun (_ : Unit) x => ((), g x)) () junk v.base.rep (by simpa using hit) (n := n)
      (by simpa using hn)
    obtain ⟨h1, h2⟩ := visit_entries a.entries g junk hn
    exact ⟨d, e, ⟨by rw [h1]; exact r, by rw [h2]; exact v.base.binds⟩, ad⟩
  have single := single_left v.single (kind := kind) op f
  cases op with
  | insert k x =>
    cases hk : m.lookup.find? fun e => decide (nameOf E.order h e.1 = k) with
    | some e =>
      refine .inr (other ?_)
      simp only [execFault, exec, SMV.insert, hfd, hk, Option.bind_some, Option.isSome_some, if_true, Option.map_some]
    | none =>
      rcases addFails Q v k x hf with ⟨_, m', h', e, r⟩ | e
      · exact .inl ⟨m', h', by simp only [execFault, hfd, hk, Option.bind_some]; exact e, r⟩
      · refine .inr (other ?_)
        simp only [execFault, exec, SMV.insert, hfd, hk, Option.bind_some, Option.isSome_none, Bool.false_eq_true, if_false, e,
          Option.map_map]; rfl
  | insertNoKey x =>
    rcases f with f | g
    · cases f with
      | storage g =>
        rcases Q.push x g v.base.rep hf with ⟨d, e, r, ad⟩ | ⟨d, e, e2⟩
        · rw [List.length_map] at r
          exact .inl ⟨{ m with data := d }, h, by simp only [execFault, e, Option.map_some],
            ⟨v.ok, v.base.reserve r, single⟩, by simpa using ad⟩
        · refine .inr (other ?_)
          simp only [execFault, exec, SMV.insertNoKey, e, e2, Option.map_some]
      | _ => exact .inr (other rfl)
    · exact .inr (other rfl)
  | insertOrAssign k x =>
    cases hk : m.lookup.find? fun e => decide (nameOf E.order h e.1 = k) with
    | some e =>
      rcases f with f | g
      · cases f with
        | value => exact .inl ⟨m, h, by simp only [execFault, hfd, hk, Option.bind_some], ⟨v.ok, v.base, single⟩, fun _ _ => rfl⟩
        | assign junk =>
          obtain ⟨d, e1, r, ad⟩ := v.base.setValue (i := e.2)
            (by simpa using v.base.binds.lt (show FMap.find (strings E.order h m.lookup) k = some e.2 by
              rw [find_strings, hk]; rfl)) junk
          refine .inl ⟨{ m with data := d }, h, by simp only [execFault, hfd, hk, Option.bind_some]; rw [e1]; rfl,
            ⟨v.ok, ?_, single⟩, fun i _ => ad i⟩
          simp only [left, Vector.left, Op.base, key, hk, Option.map_some]
          exact r
        | _ =>
          refine .inr (other ?_)
          simp only [execFault, exec, SMV.insertOrAssign, hfd, hk, Option.bind_some, Option.map_map]; rfl
      · refine .inr (other ?_)
        simp only [execFault, exec, SMV.insertOrAssign, hfd, hk, Option.bind_some, Option.map_map]; rfl
    | none =>
      rcases addFails Q v k x hf with ⟨⟨g, hg⟩, m', h', e, r⟩ | e
      · refine .inl ⟨m', h', by simp only [execFault, hfd, hk, Option.bind_some]; exact e, ?_⟩
        rcases hg with rfl | rfl | rfl <;> exact r
      · refine .inr (other ?_)
        simp only [execFault, exec, SMV.insertOrAssign, hfd, hk, Option.bind_some, e, Option.map_map]; rfl
  | modify g =>
    rcases f with f | f
    · cases f with
      | visitor n junk =>
        obtain ⟨d, e, r, ad⟩ := visit g n junk rfl (by simpa [careful] using hc)
        exact .inl ⟨{ m with data := d }, h, by simp only [execFault, e, Option.map_some], ⟨v.ok, r, single⟩, fun i _ => ad i⟩
      | _ => exact .inr (other rfl)
    · exact .inr (other rfl)
  | transform g =>
    rcases f with f | f
    · cases f with
      | visitor n junk =>
        obtain ⟨d, e, r, ad⟩ := visit g n junk rfl (by simpa [careful] using hc)
        exact .inl ⟨{ m with data := d }, h, by simp only [execFault, e, Option.map_some], ⟨v.ok, r, single⟩, fun i _ => ad i⟩
      | _ => exact .inr (other rfl)
    · exact .inr (other rfl)
  | _ => rcases f with f | f <;> exact .inr (other rfl)

/-- If copying the string throws inside `names.emplace_back`, destroying the container is undefined. -/
theorem SMV.OkC.nameElement (w : m.Ok E h) (k : String) :
    ∃ v h', m.names.pushFault E.order h k .element = some (true, v, h') ∧
      ∀ d l, SMV.destroy E ⟨d, v, l⟩ h' = none := by
  obtain ⟨ns, ⟨us, fs, c, wf⟩, _⟩ := SRepC.own w
  obtain ⟨v', h', us', b, fs', e, B, _⟩ := c.pushElement wf k
  exact ⟨v', h', e, fun _ _ => B.freeAll⟩

theorem NamesC.freeAll {N : Nat} {names : Vec} {h : Heap String} {ns : List String} (r : Names N names h ns)
    (hs : 0 < names.size) : ∃ h', Vec.freeAll N names h = some h' := by
  obtain ⟨us, fs, c, wf⟩ := r
  obtain ⟨h', e, _⟩ := c.freeAll wf fun hu => by
    have := c.csize_lt hs
    rw [hu] at this; simp at this
  exact ⟨h', e⟩

theorem default_freeAll (N : Nat) (h : Heap String) : ∃ h', Vec.freeAll N (Vec.default N) h = some h' := by
  simp [Vec.freeAll, Vec.default]

/-- The first block for the strings cannot be allocated: the vector of strings cannot be destroyed any more. -/
theorem default_pushBlock (N : Nat) (h : Heap String) (k : String) :
    ∃ v, (Vec.default N).pushFault N h k .block = some (true, v, h) ∧ Vec.freeAll N v h = none := by
  obtain ⟨n, hn⟩ : ∃ n, Vec.blockSize N = n + 1 := ⟨Vec.blockSize N - 1, by have := Vec.blockSize_pos N; omega⟩
  refine ⟨(Vec.default N).growSlots, ?_, ?_⟩
  · simp [Vec.pushFault, Vec.default, Vec.growSlots]
  · simp [Vec.freeAll, Vec.default, Vec.growSlots, hn, Vec.destroyDown, slotGet]

end Verif.Mapped.Str
