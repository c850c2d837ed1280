import Verif.Mapped.Map
import Verif.Mapped.Store

/-
Model of the members `StableBlockVector<std::string, BLOCK_ORDER> names` and
`std::unordered_map<std::string_view, size_t> lookup` that StringMappedVector and DualStringMappedVector share.  The keys
of the map are views of strings in `names`; a view is valid while the string lives.
-/
namespace Verif.Mapped.Str
open Verif.Mapped Verif.Block Verif.Block.Vector

/-- A key stored in the map: where the string lives, and the hash code that the node caches.  The string of a
`std::string_view` made from a `std::string` is the content of that string as long as it lives and is not modified; the
code never modifies an element of `names`. -/
abbrev View := (Nat × Nat) × Nat

/-- The characters a view refers to; undefined if the string is gone. -/
def text (N : Nat) (h : Heap String) (v : View) : Option String := h.read (Vec.blockSize N) v.1.1 v.1.2

/-- The characters of a `std::string_view` variable; `none`: default constructed, so empty. -/
def viewText (N : Nat) (h : Heap String) : Option View → Option String
  | some v => text N h v
  | none => some ""

/-- `lookup.find(k)`: nodes whose cached hash code differs from that of `k` are skipped, the others are compared with `k`
by content.  Outer `none`: undefined. -/
def find (hash : String → Nat) (N : Nat) (h : Heap String) (k : String) : FMap View → Option (Option (View × Nat))
  | [] => some none
  | e :: l =>
    if e.1.2 = hash k then
      (text N h e.1).bind fun s => if s = k then some (some e) else find hash N h k l
    else find hash N h k l

/-- StableBlockVector.hpp:257-267, the cell `back()` refers to. -/
def backCell (N : Nat) (v : Vec) : Option (Nat × Nat) :=
  if v.bsize = 0 then
    (slotGet v.dataptr (((v.csize >>> N : Nat) : Int) - 1)).map fun b => (b, Vec.blockSize N - 1)
  else (slotGet v.dataptr v.slotIdx).map fun b => (b, v.bsize - 1)

/-- `names.emplace_back(k); ... names.back()`: the new string and a view of it (StringMappedVector.hpp:48-49). -/
def addName (hash : String → Nat) (N : Nat) (names : Vec) (h : Heap String) (k : String) :
    Option (Vec × Heap String × View) :=
  (Vec.pushBack N names h k).bind fun r =>
  (backCell N r.1).map fun c => (r.1, r.2, (c, hash k))

/-- `lookup.emplace(view, i)`: (new map, whether inserted). -/
def emplace (hash : String → Nat) (N : Nat) (h : Heap String) (I : MapImpl View) (l : FMap View) (v : View) (i : Nat) :
    Option (FMap View × Bool) :=
  (text N h v).bind fun k =>
  (find hash N h k l).map fun r => if r.isSome then (l, false) else (I.ins l v i, true)

/-! ### Lemmas: the map behaves like a map from strings -/

section
open Verif.Block.Vector.Vec
variable {hash : String → Nat} {N : Nat} {names : Vec} {h : Heap String}

/-- the content of a valid view -/
def nameOf (N : Nat) (h : Heap String) (v : View) : String := (text N h v).getD ""

/-- the map as a map from strings -/
def strings (N : Nat) (h : Heap String) (l : FMap View) : FMap String := l.map fun e => (nameOf N h e.1, e.2)

/-- The view refers to one of the strings `ns` of this `names`, and has its hash code. -/
def Good (hash : String → Nat) (N : Nat) (names : Vec) (ns : List String) (v : View) : Prop :=
  ∃ (j : Nat) (s : String), ns[j]? = some s ∧ cell N names j = some v.1 ∧ v.2 = hash s

/-- What is known about the rest of the program: `P` holds of `names`, the heap, the strings and the blocks of `names`
and is kept when a string is added; `foreign v s`: the view `v` refers to the string `s` of another object. -/
structure Ctx (N : Nat) where
  P : Vec → Heap String → List String → List Nat → List Nat → Prop
  wf : ∀ {names h ns us fs}, P names h ns us fs → h.Wf
  push : ∀ {names h ns us fs names' h' k us' fs'}, P names h ns us fs → Core N h names ns us fs →
    Core N h' names' (ns ++ [k]) us' fs' → Heap.Frame h h' (us ++ fs) (us' ++ fs') → us <+: us' → 0 < us'.length →
    names'.avail = capPush N names.avail names.csize → P names' h' (ns ++ [k]) us' fs'
  foreign : View → String → Prop
  text : ∀ {names h ns us fs v s}, P names h ns us fs → foreign v s → text N h v = some s

/-- there is nothing else -/
def Ctx.none {N : Nat} : Ctx N where
  P _ h _ _ _ := h.Wf
  wf w := w
  push _ _ _ f _ _ _ := f.wf
  foreign _ _ := False
  text _ f := f.elim

/-- The vector `names` holds the strings `ns`. -/
def NamesC (X : Ctx N) (names : Vec) (h : Heap String) (ns : List String) : Prop :=
  ∃ us fs, Core N h names ns us fs ∧ X.P names h ns us fs

abbrev Names (N : Nat) (names : Vec) (h : Heap String) (ns : List String) : Prop := NamesC (N := N) .none names h ns

variable {X : Ctx N}

theorem NamesC.size {ns : List String} (r : NamesC X names h ns) : names.size = ns.length := by
  obtain ⟨us, fs, c, _⟩ := r
  exact c.len.symm

theorem NamesC.get {ns : List String} (r : NamesC X names h ns) {j : Nat} (hj : j < ns.length) :
    Vec.get N names h j = some ns[j] := by
  obtain ⟨us, fs, c, _⟩ := r
  exact c.get_eq hj

/-- All keys are good, or refer to strings of others. -/
structure SRepC (hash : String → Nat) (X : Ctx N) (names : Vec) (h : Heap String) (l : FMap View) : Prop where
  ex : ∃ ns, NamesC X names h ns ∧ ∀ v ∈ l.map (·.1), Good hash N names ns v ∨ ∃ s, X.foreign v s ∧ v.2 = hash s

/-- All keys are good. -/
abbrev SRep (hash : String → Nat) (N : Nat) (names : Vec) (h : Heap String) (l : FMap View) : Prop :=
  SRepC hash (N := N) .none names h l

theorem SRepC.own {l : FMap View} (w : SRep hash N names h l) :
    ∃ ns, Names N names h ns ∧ ∀ v ∈ l.map (·.1), Good hash N names ns v := by
  obtain ⟨ns, rep, g⟩ := w.ex
  exact ⟨ns, rep, fun v hv => (g v hv).resolve_right fun ⟨_, f, _⟩ => f⟩

theorem Good.text {ns : List String} (rep : NamesC X names h ns) {v : View}
    (g : Good hash N names ns v) : ∃ s, Str.text N h v = some s ∧ nameOf N h v = s ∧ v.2 = hash s := by
  obtain ⟨j, s, h1, h2, h3⟩ := g
  obtain ⟨hj, rfl⟩ := List.getElem?_eq_some_iff.1 h1
  have hg : Vec.get N names h j = some ns[j] := rep.get hj
  have ht : Str.text N h v = some ns[j] := by
    rw [Vec.get, h2] at hg; exact hg
  exact ⟨_, ht, by rw [nameOf, ht]; rfl, h3⟩

theorem NamesC.text {ns : List String} (rep : NamesC X names h ns) {v : View}
    (g : Good hash N names ns v ∨ ∃ s, X.foreign v s ∧ v.2 = hash s) :
    ∃ s, Str.text N h v = some s ∧ nameOf N h v = s ∧ v.2 = hash s := by
  rcases g with g | ⟨s, g, e⟩
  · exact g.text rep
  · obtain ⟨us, fs, _, p⟩ := rep
    have ht := X.text p g
    exact ⟨s, ht, by rw [nameOf, ht]; rfl, e⟩

theorem SRepC.text {l : FMap View} (w : SRepC hash X names h l) {v : View} (hv : v ∈ l.map (·.1)) :
    Str.text N h v = some (nameOf N h v) ∧ v.2 = hash (nameOf N h v) := by
  obtain ⟨ns, rep, g⟩ := w.ex
  obtain ⟨s, h1, h2, h3⟩ := rep.text (g v hv)
  rw [h2]; exact ⟨h1, h3⟩

theorem SRepC.keys {l l' : FMap View} (w : SRepC hash X names h l) (hs : ∀ v ∈ l'.map (·.1), v ∈ l.map (·.1)) :
    SRepC hash X names h l' := by
  obtain ⟨ns, rep, g⟩ := w.ex
  exact ⟨ns, rep, fun v hv => g v (hs v hv)⟩

theorem SRepC.init : SRep hash N (Vec.default N) Heap.empty [] :=
  ⟨[], by obtain ⟨us, fs, c, w, _⟩ := (stableStarts N String).start; exact ⟨us, fs, c, w⟩, by simp⟩

theorem SRepC.find_eq {l : FMap View} (w : SRepC hash X names h l) (k : String) :
    Str.find hash N h k l = some (l.find? fun e => decide (nameOf N h e.1 = k)) := by
  induction l with
  | nil => rfl
  | cons e l ih =>
    obtain ⟨h1, h2⟩ := w.text (v := e.1) (by simp)
    have ih := ih (w.keys (by intro v hv; simp at hv ⊢; exact .inr hv))
    rw [Str.find, List.find?_cons]
    by_cases hk : nameOf N h e.1 = k
    · rw [if_pos (by rw [h2, hk]), h1]
      simp [hk]
    · simp only [hk, decide_false]
      split
      · rw [h1]; simp only [Option.bind_some, if_neg hk]; exact ih
      · exact ih

theorem find_strings (l : FMap View) (k : String) :
    FMap.find (strings N h l) k = (l.find? fun e => decide (nameOf N h e.1 = k)).map (·.2) := by
  rw [FMap.find, strings, List.find?_map, Option.map_map]; rfl

theorem mem_find {l : FMap View} {k : String} {e : View × Nat}
    (he : (l.find? fun e => decide (nameOf N h e.1 = k)) = some e) : e ∈ l ∧ nameOf N h e.1 = k :=
  ⟨List.mem_of_find?_eq_some he, by simpa using List.find?_some he⟩

/-- erasing the node found is erasing the string -/
theorem strings_erase {l : FMap View} (w : FMap.WF (strings N h l)) {e : View × Nat} (he : e ∈ l) :
    strings N h (FMap.erase l e.1) = FMap.erase (strings N h l) (nameOf N h e.1) := by
  have key : ∀ e' ∈ l, (e'.1 ≠ e.1 ↔ nameOf N h e'.1 ≠ nameOf N h e.1) := by
    intro e' h'
    refine not_congr ⟨fun h => by rw [h], fun hn => ?_⟩
    have w' : (l.map fun e => nameOf N h e.1).Nodup := by
      have := w; unfold FMap.WF strings at this; rw [List.map_map] at this; exact this
    rw [List.inj_on_of_nodup_map w' h' he hn]
  unfold strings FMap.erase
  rw [List.filter_map]
  congr 1
  apply List.filter_congr
  intro e' h'
  have := key e' h'
  simp only [Function.comp, ne_eq] at this ⊢
  exact decide_eq_decide.2 this

theorem strings_mapVal (l : FMap View) (f : Nat → Nat) :
    strings N h (l.map fun e => (e.1, f e.2)) = (strings N h l).map fun e => (e.1, f e.2) := by
  simp [strings, List.map_map, Function.comp_def]

theorem keys_mapVal (l : FMap View) (f : Nat → Nat) : (l.map fun e => (e.1, f e.2)).map (·.1) = l.map (·.1) := by
  simp [List.map_map, Function.comp_def]

/-- where `back()` is -/
theorem backCell_eq {ns : List String} {us fs : List Nat} (c : Core N h names ns us fs) (hx : 0 < ns.length) :
    backCell N names = cell N names (ns.length - 1) := by
  have hB := blockSize_pos N
  have hlen := c.len
  have hlt : 0 < us.length := c.csize_lt (by omega)
  obtain ⟨us, b, rfl⟩ : ∃ us' b, us = us' ++ [b] :=
    ⟨us.dropLast, us.getLast (List.length_pos_iff.1 hlt), (List.dropLast_concat_getLast _).symm⟩
  have hcs := c.last_size
  have hbz := c.bsz
  obtain ⟨b', h1, h2⟩ := c.cell_eq (n := ns.length - 1) (by omega)
  rw [h2, backCell]
  split
  · rename_i hb
    have hu : 0 < us.length := by
      rcases Nat.eq_zero_or_pos us.length with h1 | h1
      · rw [h1] at hcs; omega
      · exact h1
    have hdiv : names.csize >>> N = us.length := by
      rw [shr_eq, hcs, hb, Nat.add_zero, Nat.mul_div_cancel _ hB]
    have e0 : ns.length - 1 = (us.length - 1) * blockSize N + (blockSize N - 1) := by
      rw [hlen, hcs, hb, Nat.add_zero]
      obtain ⟨n, hn⟩ : ∃ n, us.length = n + 1 := ⟨us.length - 1, by omega⟩
      rw [hn, Nat.succ_mul, Nat.add_sub_cancel]; omega
    have e1 : (ns.length - 1) / blockSize N = us.length - 1 := by
      rw [e0, Nat.mul_comm, Nat.mul_add_div hB, Nat.div_eq_of_lt (by omega)]; rfl
    have e2 : (ns.length - 1) % blockSize N = blockSize N - 1 := by
      rw [e0, Nat.mul_comm, Nat.mul_add_mod, Nat.mod_eq_of_lt (by omega)]
    rw [e1] at h1
    rw [hdiv, show ((us.length : Int) - 1) = ((us.length - 1 : Nat) : Int) by omega, c.arr.slotGet h1, e2]; rfl
  · rename_i hb
    have e1 : (ns.length - 1) / blockSize N = us.length := by
      rw [hlen, hcs, show us.length * blockSize N + names.bsize - 1 = blockSize N * us.length + (names.bsize - 1) by
        rw [Nat.mul_comm]; omega, Nat.mul_add_div hB, Nat.div_eq_of_lt (by omega)]; rfl
    have e2 : (ns.length - 1) % blockSize N = names.bsize - 1 := by
      rw [hlen, hcs, show us.length * blockSize N + names.bsize - 1 = blockSize N * us.length + (names.bsize - 1) by
        rw [Nat.mul_comm]; omega, Nat.mul_add_mod, Nat.mod_eq_of_lt (by omega)]
    rw [e1] at h1
    rw [c.last_idx, c.arr.slotGet h1, e2]; rfl

/-- A new name: old keys keep their content, and the new view is good. -/
theorem SRepC.addName {l : FMap View} (w : SRepC hash X names h l) (k : String) :
    ∃ names' h' v, Str.addName hash N names h k = some (names', h', v) ∧
      strings N h' l = strings N h l ∧ nameOf N h' v = k ∧
      (∀ l', (∀ u ∈ l'.map (·.1), u = v ∨ u ∈ l.map (·.1)) → SRepC hash X names' h' l') := by
  obtain ⟨ns, rep, g⟩ := w.ex
  obtain ⟨us, fs, c, P⟩ := id rep
  obtain ⟨names', h', us', fs', e, c', f, p, lu, av⟩ := c.pushBack (X.wf P) k
  have fr : ∀ j, j < ns.length → cell N names' j = cell N names j := fun j hj =>
    StableLaws.cell_frame c c' (.inl p) hj (by simp; omega)
  have rep' : NamesC X names' h' (ns ++ [k]) := ⟨us', fs', c', X.push P c c' f p lu av⟩
  have hbc := backCell_eq c' (by simp)
  simp only [List.length_append, List.length_singleton, Nat.add_sub_cancel] at hbc
  obtain ⟨b, _, hb⟩ := c'.cell_eq (n := ns.length) (by rw [← c'.len]; simp)
  have hb' : cell N names' ns.length = some (b, ns.length % blockSize N) := hb
  have gv : Good hash N names' (ns ++ [k]) ((b, ns.length % blockSize N), hash k) :=
    ⟨ns.length, k, by simp, hb', rfl⟩
  have go : ∀ u, Good hash N names ns u → Good hash N names' (ns ++ [k]) u := by
    rintro u ⟨j, s, h1, h2, h3⟩
    have hj := (List.getElem?_eq_some_iff.1 h1).1
    exact ⟨j, s, by rw [List.getElem?_append_left hj]; exact h1, (fr j hj).trans h2, h3⟩
  refine ⟨names', h', ((b, ns.length % blockSize N), hash k), ?_, ?_, ?_, ?_⟩
  · have e' : Vec.pushBack N names h k = some (names', h') := e
    rw [Str.addName, e']
    simp only [Option.bind_some, hbc, hb', Option.map_some]
  · unfold strings
    apply List.map_congr_left
    intro e he
    have hm : e.1 ∈ l.map (·.1) := List.mem_map_of_mem he
    rcases g e.1 hm with ⟨j, s, h1, h2, h3⟩ | ⟨s, h1, _⟩
    case inr =>
      obtain ⟨_, _, _, P'⟩ := rep'
      simp only [nameOf, X.text P h1, X.text P' h1]
    have hj := (List.getElem?_eq_some_iff.1 h1).1
    have a1 : Str.text N h e.1 = some s := by
      have hg : Vec.get N names h j = some ns[j] := rep.get hj
      rw [Vec.get, h2] at hg
      rw [List.getElem?_eq_getElem hj] at h1
      rw [← h1]; exact hg
    have a2 : Str.text N h' e.1 = some s := by
      have hj' : j < (ns ++ [k]).length := by simp; omega
      have hg : Vec.get N names' h' j = some (ns ++ [k])[j] := rep'.get hj'
      have fr' : cell N names' j = cell N names j := fr j hj
      rw [Vec.get, fr', h2] at hg
      rw [List.getElem?_eq_getElem hj] at h1
      rw [← h1]
      rw [List.getElem_append_left hj] at hg; exact hg
    simp only [nameOf, a1, a2]
  · obtain ⟨s, h1, h2, _⟩ := gv.text rep'
    have hj' : ns.length < (ns ++ [k]).length := by simp
    have hg : Vec.get N names' h' ns.length = some (ns ++ [k])[ns.length] := rep'.get hj'
    rw [Vec.get, hb'] at hg
    have : Str.text N h' ((b, ns.length % blockSize N), hash k) = some (ns ++ [k])[ns.length] := hg
    rw [nameOf, this]; simp
  · intro l' hl
    refine ⟨_, rep', fun u hu => ?_⟩
    rcases hl u hu with rfl | hu
    · exact .inl gv
    · exact (g u hu).imp_left (go u)

/-- A `MapImpl` that behaves in a given way for one call. -/
def justIns (m : FMap String) (k : String) (i : Nat) (m' : FMap String) (p : m'.Perm ((k, i) :: m)) : MapImpl String where
  ins n k' j := if n = m ∧ k' = k ∧ j = i then m' else n ++ [(k', j)]
  perm n k' j := by
    split
    · rename_i h; obtain ⟨rfl, rfl, rfl⟩ := h; exact p
    · exact List.perm_append_comm (l₁ := n) (l₂ := [(k', j)])

theorem emplace_eq {I : MapImpl View} {l : FMap View} {v : View} {i : Nat} {k : String}
    (w : SRepC hash X names h (l ++ [(v, i)])) (hv : nameOf N h v = k) :
    ∃ (J : MapImpl String) (l' : FMap View), emplace hash N h I l v i = some (l', (FMap.emplace J (strings N h l) k i).2) ∧
      strings N h l' = (FMap.emplace J (strings N h l) k i).1 ∧
      ∀ u ∈ l'.map (·.1), u = v ∨ u ∈ l.map (·.1) := by
  have wl : SRepC hash X names h l := w.keys (by intro u hu; simp at hu ⊢; exact .inl hu)
  have ht := (w.text (v := v) (by simp)).1
  rw [hv] at ht
  have hp : (strings N h (I.ins l v i)).Perm ((k, i) :: strings N h l) := by
    have := (I.perm l v i).map fun e => (nameOf N h e.1, e.2)
    simpa [strings, hv] using this
  refine ⟨justIns (strings N h l) k i _ hp, ?_⟩
  rw [emplace, ht]
  simp only [Option.bind_some, wl.find_eq, Option.map_some]
  rw [FMap.emplace, find_strings]
  simp only [Option.isSome_map]
  split
  · exact ⟨l, rfl, rfl, fun u hu => .inr hu⟩
  · refine ⟨_, rfl, ?_, ?_⟩
    · simp [justIns]
    · intro u hu
      have := ((I.perm l v i).map (·.1)).mem_iff.1 hu
      simpa using this

end
end Verif.Mapped.Str
