import Verif.Mapped.SeveralStr.Spec
import Verif.Mapped.Several.Lemmas
import Verif.Mapped.Str.Lemmas
import Verif.Mapped.DualStr.Lemmas

/-
Helper lemmas: every key refers to a living string of one of the objects, and what it refers to does not change.
-/
namespace Verif.Mapped.SeveralStr
open Verif.Mapped
open Verif.Mapped.Vector (Ideal Obs)
open Verif.Mapped.Several (Multi Op AObj AWorld put Laws view view_upd)
open Verif.Mapped.Str (View text nameOf strings Good Ctx SRepC NamesC)
open Verif.Block
open Verif.Block.Vector (Vec upd upd_same upd_ne WInv ORep)
open Verif.Block.Vector.Vec (Core cell blockSize)

/-! ### Strings of several objects -/

/-- the view refers to the string `s` of object `k` -/
def At (N : Nat) (names : Nat → Option Vec) (an : Block.Vector.AWorld String) (k : Nat) (v : View) (s : String) : Prop :=
  ∃ n b j, names k = some n ∧ an k = some b ∧ b.moved = false ∧ b.elems[j]? = some s ∧ cell N n j = some v.1

section
variable {N : Nat} {names names' : Nat → Option Vec} {h h' : Heap String} {an an' : Block.Vector.AWorld String}
  {us fs us' fs' : Nat → List Nat}

theorem At.core (W : WInv N ⟨names, h⟩ an us fs) {k : Nat} {v : View} {s : String} (a : At N names an k v s) :
    text N h v = some s ∧ v.1.1 ∈ us k := by
  obtain ⟨n, b, j, h1, h2, hm, h3, h4⟩ := a
  obtain ⟨n', h5, c, _⟩ := W.getLive h2 hm
  have h5 : names k = some n' := h5
  rw [h1] at h5; cases h5
  obtain ⟨hj, rfl⟩ := List.getElem?_eq_some_iff.1 h3
  have hg := c.get_eq hj
  rw [Vec.get, h4] at hg
  refine ⟨hg, ?_⟩
  obtain ⟨b', h6, h7⟩ := c.cell_eq (n := j) (by rw [← c.len]; exact hj)
  rw [h4] at h7
  rw [Option.some.inj h7]
  exact List.mem_of_getElem? h6

theorem At.text (W : WInv N ⟨names, h⟩ an us fs) {k : Nat} {v : View} {s : String} (a : At N names an k v s) :
    text N h v = some s := (a.core W).1

/-- the strings of an object that is changed only by adding strings, or moved -/
theorem At.to (W : WInv N ⟨names, h⟩ an us fs) (W' : WInv N ⟨names', h'⟩ an' us' fs') {k k' : Nat}
    {b b' : Block.Vector.AObj String} (hb : an k = some b) (hb' : an' k' = some b') (hm : b.moved = false → b'.moved = false)
    (he : b.elems <+: b'.elems) (p : us k <+: us' k' ∨ us' k' <+: us k) {v : View} {s : String}
    (a : At N names an k v s) : At N names' an' k' v s := by
  obtain ⟨n, b0, j, h1, h2, hm0, h3, h4⟩ := a
  rw [hb] at h2; cases h2
  obtain ⟨n0, h5, c, _⟩ := W.getLive hb hm0
  have h5 : names k = some n0 := h5
  rw [h1] at h5; cases h5
  obtain ⟨n', h6, c', _⟩ := W'.getLive hb' (hm hm0)
  have hj := (List.getElem?_eq_some_iff.1 h3).1
  have hj' : j < b'.elems.length := Nat.lt_of_lt_of_le hj he.length_le
  refine ⟨n', b', j, h6, hb', hm hm0, ?_, ?_⟩
  · obtain ⟨t, ht⟩ := he
    rw [← ht, List.getElem?_append_left hj]; exact h3
  · rw [StableLaws.cell_frame c c' p hj hj']; exact h4

end

/-! ### The containers -/

/-- What the proofs use of the calls on one object; `keys` are the keys that refer to strings, `Bind` relates the maps to
the search terms, given the strings the keys refer to. -/
structure Calls {S K V M C : Type} (N : Nat) (hash : String → Nat) (st : Store S V) (kind : Kind) (code : Code S M C V)
    (sp : Several.Spec K V C) where
  keys : M → FMap View
  Bind : (View → String) → M → List (List K) → Prop
  congr : ∀ {f g m kss}, (∀ v ∈ (keys m).map (·.1), f v = g v) → Bind f m kss → Bind g m kss
  start : keys code.none = [] ∧ ∀ f, Bind f code.none []
  none : ∀ {f m kss}, Bind f m kss → (∀ ks ∈ kss, ks = []) → keys m = []
  step : ∀ (L : Lawful st kind) (X : Ctx N) {s n h m a c a' o}, L.Rep s (a.entries.map (·.value)) a.reserved →
    Bind (nameOf N h) m (a.entries.map (·.keys)) → SRepC hash X n h (keys m) → sp.careful a c = true →
    sp.ideal a c = some (a', o) →
    ∃ s' n' h' m', code.exec s n h m c = some ((s', n', h', m'), o) ∧ L.Rep s' (a'.entries.map (·.value)) a'.reserved ∧
      Bind (nameOf N h') m' (a'.entries.map (·.keys)) ∧ SRepC hash X n' h' (keys m')

theorem binds_nil {K : Type} [DecidableEq K] {m : FMap K} {kss : List (List K)} (b : Binds m kss)
    (h : ∀ ks ∈ kss, ks = []) : m = [] := by
  rcases m with _ | ⟨⟨k, i⟩, m⟩
  · rfl
  · have : FMap.find ((k, i) :: m) k = none := b.none_iff.2 fun ks hk => by rw [h ks hk]; simp
    simp [FMap.find] at this

def mappedCalls {S V : Type} (E : Str.Env S V) (kind : Kind) :
    Calls E.order E.hash E.st kind (Code.mapped E) (specMapped kind) where
  keys m := m
  Bind f m kss := Binds (m.map fun e => (f e.1, e.2)) kss ∧ ∀ ks ∈ kss, ks.length ≤ 1
  congr := by
    rintro f g m kss h ⟨b, hs⟩
    refine ⟨?_, hs⟩
    have : (m.map fun e => (g e.1, e.2)) = m.map fun e => (f e.1, e.2) :=
      List.map_congr_left fun e he => by rw [h e.1 (List.mem_map_of_mem he)]
    rw [this]; exact b
  start := ⟨rfl, fun _ => ⟨.nil, by simp⟩⟩
  none := by
    rintro f m kss ⟨b, _⟩ h
    exact List.map_eq_nil_iff.1 (binds_nil b h)
  step := by
    rintro L X s n h m a c a' o hr ⟨hb, hs⟩ hx hc hi
    obtain ⟨m', h', e, v⟩ := Str.step (E := E) (L := L) (X := X) (m := ⟨s, n, m⟩) (h := h) (a := a)
      ⟨hx, ⟨hr, hb⟩, fun e he => hs _ (List.mem_map_of_mem he)⟩ hc hi
    refine ⟨m'.data, m'.names, h', m'.lookup, by simp only [Code.mapped, e, Option.map_some], v.base.rep,
      ⟨v.base.binds, ?_⟩, v.ok⟩
    intro ks hk
    obtain ⟨e, he, rfl⟩ := List.mem_map.1 hk
    exact v.single e he

def dualCalls {S K2 V : Type} [DecidableEq K2] (E : DualStr.Env S K2 V) (kind : Kind) :
    Calls E.order E.hash E.st kind (Code.dual E) (specDual E.order kind) where
  keys m := m.1
  Bind f m kss := Binds (Dual.join (m.1.map fun e => (f e.1, e.2)) m.2) kss ∧ ∀ ks ∈ kss, ks.Nodup
  congr := by
    rintro f g m kss h ⟨b, hs⟩
    refine ⟨?_, hs⟩
    have : (m.1.map fun e => (g e.1, e.2)) = m.1.map fun e => (f e.1, e.2) :=
      List.map_congr_left fun e he => by rw [h e.1 (List.mem_map_of_mem he)]
    rw [this]; exact b
  start := ⟨rfl, fun _ => ⟨.nil, by simp⟩⟩
  none := by
    rintro f m kss ⟨b, _⟩ h
    have := binds_nil b h
    simp only [Dual.join, List.append_eq_nil_iff, List.map_eq_nil_iff] at this
    exact this.1
  step := by
    rintro L X s n h m a c a' o hr ⟨hb, hs⟩ hx hc hi
    obtain ⟨m', h', e, v⟩ := DualStr.step (E := E) (L := L) (X := X) (m := ⟨s, m.1, n, m.2⟩) (h := h) (a := a)
      ⟨hx, ⟨hr, hb⟩, fun e he => hs _ (List.mem_map_of_mem he)⟩ hc hi
    refine ⟨m'.data, m'.names, h', (m'.lookup1, m'.lookup2), by simp only [Code.dual, e, Option.map_some], v.base.rep,
      ⟨v.base.binds, ?_⟩, v.ok⟩
    intro ks hk
    obtain ⟨e, he, rfl⟩ := List.mem_map.1 hk
    exact v.nodup e he

section
variable {S T H K V M C : Type} {N : Nat} {hash : String → Nat} {μ : Multi S T H} {st : Store S V} {kind : Kind}
  {code : Code S M C V} {sp : Several.Spec K V C} (Λ : Laws μ st kind) (Γ : Calls N hash st kind code sp)

/-- keys of object `i` may refer to strings of object `k` -/
def Uses (ls : Loans) (i k : Nat) : Prop := k = i ∨ (i, k) ∈ ls

/-- The keys of object `i` refer to strings of objects it may use, and the maps have the search terms `kss`. -/
structure MapOk (names : Nat → Option Vec) (h : Heap String) (an : Block.Vector.AWorld String) (ls : Loans) (i : Nat)
    (m : M) (kss : List (List K)) : Prop where
  views : ∀ v ∈ (Γ.keys m).map (·.1), ∃ k s, Uses ls i k ∧ At N names an k v s ∧ v.2 = hash s
  bind : Γ.Bind (nameOf N h) m kss

variable {Λ Γ}

theorem MapOk.to {names names' : Nat → Option Vec} {h h' : Heap String} {an an' : Block.Vector.AWorld String}
    {us fs us' fs' : Nat → List Nat} (W : WInv N ⟨names, h⟩ an us fs) (W' : WInv N ⟨names', h'⟩ an' us' fs')
    {ls ls' : Loans} {i i' : Nat} {m : M} {kss : List (List K)} (o : MapOk Γ names h an ls i m kss)
    (hk : ∀ k, Uses ls i k → ∀ v s, At N names an k v s → ∃ k', Uses ls' i' k' ∧ At N names' an' k' v s) :
    MapOk Γ names' h' an' ls' i' m kss := by
  refine ⟨fun v hv => ?_, Γ.congr (fun v hv => ?_) o.bind⟩
  · obtain ⟨k, s, h1, h2, h3⟩ := o.views v hv
    obtain ⟨k', h4, h5⟩ := hk k h1 v s h2
    exact ⟨k', s, h4, h5, h3⟩
  · obtain ⟨k, s, h1, h2, h3⟩ := o.views v hv
    obtain ⟨k', h4, h5⟩ := hk k h1 v s h2
    simp only [nameOf, h2.text W, h5.text W']

theorem MapOk.start {names : Nat → Option Vec} {h : Heap String} {an : Block.Vector.AWorld String} {ls : Loans} {i : Nat} :
    MapOk Γ names h an ls i code.none [] := ⟨by simp [Γ.start.1], Γ.start.2 _⟩

variable (Λ Γ)

/-- the objects of the program represent the ideal ones -/
structure Inv (w : World T M H) (aw : AWorld K V) (ls : Loans) (an : Block.Vector.AWorld String) (us fs : Nat → List Nat) :
    Prop where
  store : Λ.WI w.objs w.mem fun i => (aw i).map view
  names : WInv N ⟨w.names, w.strings⟩ an us fs
  same : ∀ i, (an i).map (·.moved) = (aw i).map (·.moved)
  maps : ∀ i a, aw i = some a → a.moved = false → MapOk Γ w.names w.strings an ls i (w.maps i) (a.val.entries.map (·.keys))

theorem Inv.empty : Inv Λ Γ (World.empty μ code) (fun _ => none) [] (fun _ => none) (fun _ => []) (fun _ => []) :=
  ⟨Λ.init, WInv.empty, fun _ => rfl, by intro i a h; cases h⟩

variable {Λ Γ} {w : World T M H} {aw : AWorld K V} {ls : Loans} {an : Block.Vector.AWorld String} {us fs : Nat → List Nat}

theorem Inv.an_some (v : Inv Λ Γ w aw ls an us fs) {i : Nat} {a : AObj K V} (h : aw i = some a) :
    ∃ b, an i = some b ∧ b.moved = a.moved := by
  have := v.same i
  rw [h] at this
  obtain ⟨b, h1, h2⟩ := Option.map_eq_some_iff.1 this
  exact ⟨b, h1, h2⟩

theorem Inv.an_none (v : Inv Λ Γ w aw ls an us fs) {i : Nat} (h : aw i = none) : an i = none := by
  have := v.same i
  rw [h] at this
  exact Option.map_eq_none_iff.1 this

theorem same_upd (h : ∀ i, (an i).map (·.moved) = (aw i).map (·.moved)) (i : Nat) {b : Option (Block.Vector.AObj String)}
    {a : Option (AObj K V)} (e : b.map (·.moved) = a.map (·.moved)) :
    ∀ k, (upd an i b k).map (·.moved) = (upd aw i a k).map (·.moved) := by
  intro k
  simp only [upd]
  split
  · exact e
  · exact h k

theorem mem_repay {ls : Loans} {i : Nat} {p : Nat × Nat} : p ∈ repay ls i ↔ p ∈ ls ∧ p.1 ≠ i := by simp [repay]

theorem not_lent {ls : Loans} {i : Nat} (h : lent ls i = false) {k : Nat} (hk : k ≠ i) : ¬ Uses ls k i := by
  rintro (rfl | h1)
  · exact hk rfl
  · have := List.any_eq_false.1 h _ h1
    simp [hk] at this

theorem uses_borrow {ls : Loans} {i j k : Nat} (h : Uses ls j k) : Uses (borrow ls i j) i k := by
  right
  simp only [borrow, List.cons_append, List.mem_cons, List.mem_append, List.mem_map, List.mem_filter]
  rcases h with rfl | h
  · exact .inl rfl
  · exact .inr (.inl ⟨(j, k), ⟨h, by simp⟩, rfl⟩)

theorem uses_borrow_ne {ls : Loans} {i j l k : Nat} (hl : l ≠ i) (h : Uses ls l k) : Uses (borrow ls i j) l k := by
  refine h.imp_right fun h => ?_
  simp only [borrow, List.cons_append, List.mem_cons, List.mem_append]
  exact .inr (.inr (mem_repay.2 ⟨h, hl⟩))

theorem uses_rename {ls : Loans} {i j l k : Nat} (hl : l ≠ i) (h : Uses ls l k) :
    Uses ((repay ls i).map fun p => (rename i j p.1, rename i j p.2)) (rename i j l) (rename i j k) := by
  rcases h with rfl | h
  · exact .inl rfl
  · exact .inr (List.mem_map.2 ⟨_, mem_repay.2 ⟨h, hl⟩, rfl⟩)

theorem uses_repay {ls : Loans} {i l k : Nat} (hl : l ≠ i) (h : Uses ls l k) : Uses (repay ls i) l k :=
  h.imp_right fun h => mem_repay.2 ⟨h, hl⟩

/-- what is known during a call on object `i`: the other objects are not changed and the strings of `i` stay -/
def callCtx {names : Nat → Option Vec} {h0 : Heap String} (W : WInv N ⟨names, h0⟩ an us fs) (ls : Loans) (i : Nat)
    (ns0 : List String) : Ctx N where
  P n h ns us' fs' := Heap.Frame h0 h (us i ++ fs i) (us' ++ fs') ∧ us i <+: us' ∧ ns0 <+: ns ∧ (us' = [] → n.avail = 0)
  wf p := p.1.wf
  push p _ _ f q lu _ := ⟨p.1.trans f, p.2.1.trans q, p.2.2.1.trans (List.prefix_append _ _), fun e => by rw [e] at lu; simp at lu⟩
  foreign v s := ∃ k, k ≠ i ∧ Uses ls i k ∧ At N names an k v s
  text := by
    rintro n h ns us' fs' v s ⟨f, _⟩ ⟨k, hk, _, a⟩
    obtain ⟨h1, h2⟩ := a.core W
    have hm : v.1.1 ∈ us k ++ fs k := List.mem_append_left _ h2
    obtain ⟨h3, h4⟩ := f.keep v.1.1 (W.wf.live _ ((W.rep k).live _ hm)) (W.disj k i hk _ hm)
    unfold Str.text Heap.read at h1 ⊢
    simp only [h3, h4]
    exact h1

theorem step (v : Inv Λ Γ w aw ls an us fs) (left : M → M) {op : Op C} (hc : careful N kind sp w aw ls op = true)
    {aw' : AWorld K V} {o : Obs V} (hi : Several.ideal kind sp aw op = some (aw', o)) :
    ∃ w' an' us' fs', exec μ N code left w op = some (w', o) ∧ Inv Λ Γ w' aw' (loansAfter aw' ls op) an' us' fs' := by
  simp only [careful, Bool.and_eq_true] at hc
  obtain ⟨hc, hn⟩ := hc
  cases op with
  | new i =>
    simp only [Several.ideal, Option.isNone_iff_eq_none] at hi
    split at hi <;> [skip; cases hi]
    rename_i hi0
    cases hi
    have ha0 := v.an_none hi0
    obtain ⟨w1, us', fs', e, W', p, _⟩ := Block.Vector.step _ _ us fs v.names (.new i) _ _
      (by simp only [Block.Vector.ideal, ha0]; rfl) rfl
    cases e
    refine ⟨_, _, us', fs', rfl, ?_, W', same_upd v.same i rfl, ?_⟩
    · rw [view_upd]; exact Λ.new v.store (by simp [hi0])
    · intro k a ha hm
      simp only [put]
      by_cases hk : k = i
      · subst hk
        rw [upd_same] at ha; cases ha
        rw [if_pos rfl]; exact MapOk.start
      · rw [upd_ne _ _ hk] at ha
        rw [if_neg hk]
        refine (v.maps k a ha hm).to v.names W' fun l hl u s hu => ⟨l, hl, ?_⟩
        obtain ⟨_, b, _, _, hb, _⟩ := id hu
        have hli : l ≠ i := by rintro rfl; rw [ha0] at hb; cases hb
        exact hu.to v.names W' hb (by rw [upd_ne _ _ hli]; exact hb) id (List.prefix_refl _)
          (p l (by simp only [Block.Vector.Op.rebinds]; exact Ne.symm hli))
  | copyNew i j =>
    simp only [Several.ideal, Option.isNone_iff_eq_none] at hi
    split at hi <;> [skip; cases hi]
    rename_i hi0
    simp only [Option.map_eq_some_iff] at hi
    obtain ⟨a, ha, hi⟩ := hi
    cases hi
    simp only [Several.careful, ha, Option.any_some, Bool.and_eq_true, Bool.not_eq_true', Bool.or_eq_true,
      decide_eq_true_eq] at hc
    obtain ⟨⟨hm, hit⟩, hne⟩ := hc
    obtain ⟨t, ht, r, hr, w1⟩ := Λ.copy (i := i) (j := j) (a := view a) v.store (by simp [hi0]) (by simp [ha]) hm
      (by simpa [view] using hit) (by simpa [view] using hne)
    have ha0 := v.an_none hi0
    obtain ⟨b, hb, hbm⟩ := v.an_some ha
    rw [hm] at hbm
    obtain ⟨n, hnj, c, hav, _⟩ := v.names.getLive hb hbm
    have hnj : w.names j = some n := hnj
    simp only [hnj, Option.any_some, Bool.and_eq_true, Bool.or_eq_true, decide_eq_true_eq, iterable] at hn
    rw [← c.len, hav] at hn
    obtain ⟨w2, us', fs', e, W', p, _⟩ := Block.Vector.step _ _ us fs v.names (.copyNew i j) _ _
      (by simp only [Block.Vector.ideal, ha0, hb]; rfl)
      (by simp only [Block.Vector.careful, hb, Option.any_some, hbm, Block.Vector.AObj.iterable, hn.1]
          have := hn.2
          rw [Ne, List.length_eq_zero_iff] at this
          simpa using this)
    simp only [Block.Vector.exec, hnj, Option.bind_some, Option.map_eq_some_iff] at e
    obtain ⟨q, e1, e2⟩ := e
    cases e2
    have keep : ∀ l u s, At N w.names an l u s → At N (upd w.names i (some q.1)) (upd an i (some { b with moved := false })) l u s := by
      intro l u s hu
      obtain ⟨_, b', _, _, hb', _⟩ := id hu
      have hli : l ≠ i := by rintro rfl; rw [ha0] at hb'; cases hb'
      exact hu.to v.names W' hb' (by rw [upd_ne _ _ hli]; exact hb') id (List.prefix_refl _)
        (p l (by simp only [Block.Vector.Op.rebinds]; exact Ne.symm hli))
    refine ⟨_, _, us', fs', by simp only [exec, ht, hnj, Option.bind_some, hr, e1, Option.map_some]; rfl, ?_, W',
      same_upd v.same i rfl, ?_⟩
    · rw [view_upd]
      have : view (⟨a.val, false⟩ : AObj K V) = view a := by simp [view, hm]
      simp only [Option.map_some, this]; exact w1
    · intro k a' ha' hm'
      simp only [put]
      by_cases hk : k = i
      · subst hk
        rw [upd_same] at ha'; cases ha'
        rw [if_pos rfl]
        exact (v.maps j a ha hm).to v.names W' fun l hl u s hu => ⟨l, uses_borrow hl, keep l u s hu⟩
      · rw [upd_ne _ _ hk] at ha'
        rw [if_neg hk]
        exact (v.maps k a' ha' hm').to v.names W' fun l hl u s hu => ⟨l, uses_borrow_ne hk hl, keep l u s hu⟩
  | moveNew i j =>
    simp only [Several.ideal, Option.isNone_iff_eq_none] at hi
    split at hi <;> [skip; cases hi]
    rename_i hi0
    simp only [Option.map_eq_some_iff] at hi
    obtain ⟨a, ha, hi⟩ := hi
    cases hi
    simp only [Several.careful, ha, Option.any_some, Bool.not_eq_true'] at hc
    have hij : i ≠ j := by rintro rfl; rw [hi0] at ha; cases ha
    obtain ⟨t, ht, w1⟩ := Λ.move (i := i) (j := j) (a := view a) v.store (by simp [hi0]) (by simp [ha]) hc
    have ha0 := v.an_none hi0
    obtain ⟨b, hb, hbm⟩ := v.an_some ha
    rw [hc] at hbm
    obtain ⟨n, hnj, _⟩ := v.names.getLive hb hbm
    have hnj : w.names j = some n := hnj
    obtain ⟨w2, us', fs', e, W', p, p2⟩ := Block.Vector.step _ _ us fs v.names (.moveNew i j) _ _
      (by simp only [Block.Vector.ideal, ha0, hb]; rfl)
      (by simp [Block.Vector.careful, hb, hbm])
    simp only [Block.Vector.exec, hnj, Option.map_some] at e
    cases e
    have keep : ∀ l u s, At N w.names an l u s → At N (upd (upd w.names i (some n.moveCtor.1)) j (some n.moveCtor.2))
        (upd (upd an i (some b)) j (some ⟨[], 0, true⟩)) (rename i j l) u s := by
      intro l u s hu
      obtain ⟨_, b', _, _, hb', _⟩ := id hu
      have hli : l ≠ i := by rintro rfl; rw [ha0] at hb'; cases hb'
      unfold rename
      split
      · rename_i hlj
        subst hlj
        rw [hb] at hb'; cases hb'
        refine hu.to v.names W' hb (by rw [upd_ne _ _ hij, upd_same]) id (List.prefix_refl _) (.inl ?_)
        rw [p2 i l (.inl rfl)]; exact List.prefix_refl _
      · rename_i hlj
        exact hu.to v.names W' hb' (by rw [upd_ne _ _ hlj, upd_ne _ _ hli]; exact hb') id (List.prefix_refl _)
          (p l (by simp only [Block.Vector.Op.rebinds, not_or]; exact ⟨Ne.symm hli, Ne.symm hlj⟩))
    refine ⟨_, _, us', fs', by simp only [exec, ht, hnj, Option.bind_some, Option.map_some]; rfl, ?_, W',
      same_upd (same_upd v.same i (by simp [hbm, hc])) j rfl, ?_⟩
    · rw [view_upd, view_upd]; exact w1
    · intro k a' ha' hm'
      simp only [put]
      by_cases hkj : k = j
      · subst hkj
        rw [upd_same] at ha'; cases ha'; cases hm'
      · rw [upd_ne _ _ hkj] at ha'
        rw [if_neg hkj]
        by_cases hk : k = i
        · subst hk
          rw [upd_same] at ha'; cases ha'
          rw [if_pos rfl]
          refine (v.maps j a ha hc).to v.names W' fun l hl u s hu => ⟨rename k j l, ?_, keep l u s hu⟩
          have := uses_rename (i := k) (j := j) (Ne.symm hij) hl
          rwa [show rename k j j = k by simp [rename]] at this
        · rw [upd_ne _ _ hk] at ha'
          rw [if_neg hk]
          refine (v.maps k a' ha' hm').to v.names W' fun l hl u s hu => ⟨rename i j l, ?_, keep l u s hu⟩
          have := uses_rename (i := i) (j := j) hk hl
          rwa [show rename i j k = k by simp [rename, hkj]] at this
  | copyAssign i j =>
    simp only [Several.ideal, Option.bind_eq_some_iff, Option.map_eq_some_iff] at hi
    obtain ⟨a, ha, a2, ha2, hi⟩ := hi
    cases hi
    simp only [ha, Option.any_some, Bool.and_eq_true, Bool.not_eq_true', Bool.or_eq_true, decide_eq_true_eq] at hn
    obtain ⟨⟨hlent, hm1⟩, hn⟩ := hn
    simp only [Several.careful, ha, ha2, Option.any_some, Bool.and_eq_true, Bool.not_eq_true', Bool.or_eq_true] at hc
    obtain ⟨_, hm, hit⟩ := hc
    obtain ⟨t, ht, t', ht', r, hr, w1⟩ := Λ.copyAssign (i := i) (j := j) (a := view a) (a' := view a2) v.store (by simp [ha])
      (by simp [ha2]) (fun _ => hm1) hm (by simpa [view] using hit)
    obtain ⟨b, hb, hbm⟩ := v.an_some ha
    obtain ⟨b2, hb2, hbm2⟩ := v.an_some ha2
    rw [hm1] at hbm
    rw [hm] at hbm2
    obtain ⟨n, hni, _⟩ := v.names.getLive hb hbm
    obtain ⟨n2, hnj, c2, hav, _⟩ := v.names.getLive hb2 hbm2
    have hni : w.names i = some n := hni
    have hnj : w.names j = some n2 := hnj
    simp only [hnj, Option.any_some, iterable, decide_eq_true_eq] at hn
    rw [← c2.len, hav] at hn
    obtain ⟨w2, us', fs', e, W', p, _⟩ := Block.Vector.step _ _ us fs v.names (.copyAssign i j) _ _
      (by simp only [Block.Vector.ideal, hb, hb2]; rfl)
      (by simp [Block.Vector.careful, hb, hb2, hbm, hbm2, Block.Vector.AObj.iterable, hn])
    simp only [Block.Vector.exec, hni, hnj, Option.bind_some, Option.map_eq_some_iff] at e
    obtain ⟨q, e1, e2⟩ := e
    cases e2
    refine ⟨_, _, us', fs', by simp only [exec, ht, ht', hni, hnj, Option.bind_some, hr, e1, Option.map_some]; rfl, ?_, W',
      same_upd v.same i (by simp [hbm]), ?_⟩
    · rw [view_upd]
      simpa [view] using w1
    · by_cases hij : i = j
      · subst hij
        rw [ha] at ha2; cases ha2
        rw [hb] at hb2; cases hb2
        intro k a' ha' hm'
        have e1 : put w.maps i (w.maps i) k = w.maps k := by simp only [put]; split <;> simp_all
        have e2 : ∃ a0, aw k = some a0 ∧ a0.moved = false ∧ a0.val.entries = a'.val.entries := by
          by_cases hk : k = i
          · subst hk; rw [upd_same] at ha'; cases ha'; exact ⟨a, ha, hm1, rfl⟩
          · rw [upd_ne _ _ hk] at ha'; exact ⟨a', ha', hm', rfl⟩
        obtain ⟨a0, h1, h2, h3⟩ := e2
        simp only [e1]
        rw [← h3]
        refine (v.maps k a0 h1 h2).to v.names W' fun l hl u s hu => ⟨l, by simpa [loansAfter] using hl, ?_⟩
        obtain ⟨_, b', _, _, hb', _⟩ := id hu
        by_cases hli : l = i
        · subst hli
          rw [hb] at hb'; cases hb'
          exact hu.to v.names W' hb (upd_same _ _ _) id (List.prefix_refl _) (p l (by simp [Block.Vector.Op.rebinds]))
        · exact hu.to v.names W' hb' (by rw [upd_ne _ _ hli]; exact hb') id (List.prefix_refl _)
            (p l (by simp [Block.Vector.Op.rebinds]))
      · have hlent := hlent.resolve_left hij
        have hls : loansAfter (upd aw i (some ⟨⟨a2.val.entries, Several.reserves kind a.val.reserved a.val.entries.length
            (a2.val.entries.length - a.val.entries.length)⟩, false⟩)) ls (.copyAssign i j : Op C) = borrow ls i j := by
          simp [loansAfter, hij]
        rw [hls]
        have keep : ∀ l u s, l ≠ i → At N w.names an l u s → At N (upd w.names i (some q.1)) (upd an i (some
            ⟨b2.elems, Block.Vector.reservePushes N b.reserved b.elems.length (b2.elems.length - b.elems.length), b.moved⟩)) l u s := by
          intro l u s hli hu
          obtain ⟨_, b', _, _, hb', _⟩ := id hu
          exact hu.to v.names W' hb' (by rw [upd_ne _ _ hli]; exact hb') id (List.prefix_refl _)
            (p l (by simp [Block.Vector.Op.rebinds]))
        intro k a' ha' hm'
        simp only [put]
        by_cases hk : k = i
        · subst hk
          rw [upd_same] at ha'; cases ha'
          rw [if_pos rfl]
          refine (v.maps j a2 ha2 hm).to v.names W' fun l hl u s hu => ⟨l, uses_borrow hl, keep l u s ?_ hu⟩
          rintro rfl; exact not_lent hlent (Ne.symm hij) hl
        · rw [upd_ne _ _ hk] at ha'
          rw [if_neg hk]
          refine (v.maps k a' ha' hm').to v.names W' fun l hl u s hu => ⟨l, uses_borrow_ne hk hl, keep l u s ?_ hu⟩
          rintro rfl; exact not_lent hlent hk hl
  | moveAssign i j =>
    simp only [Several.ideal] at hi
    split at hi <;> [cases hi; skip]
    rename_i hij
    simp only [Option.bind_eq_some_iff, Option.map_eq_some_iff] at hi
    obtain ⟨a, ha, a2, ha2, hi⟩ := hi
    cases hi
    simp only [Several.careful, ha2, Option.any_some, Bool.not_eq_true'] at hc
    simp only [Bool.not_eq_true'] at hn
    obtain ⟨t, ht, t', ht', r, hr, w1⟩ := Λ.moveAssign (i := i) (j := j) (a := view a) (a' := view a2) v.store hij (by simp [ha])
      (by simp [ha2]) hc
    obtain ⟨b, hb, hbm⟩ := v.an_some ha
    obtain ⟨b2, hb2, hbm2⟩ := v.an_some ha2
    rw [hc] at hbm2
    obtain ⟨n, hni, _⟩ := v.names.getSome hb
    obtain ⟨n2, hnj, _⟩ := v.names.getLive hb2 hbm2
    have hni : w.names i = some n := hni
    have hnj : w.names j = some n2 := hnj
    obtain ⟨w2, us', fs', e, W', p, p2⟩ := Block.Vector.step _ _ us fs v.names (.moveAssign i j) _ _
      (by simp only [Block.Vector.ideal, if_neg hij, hb, hb2]; rfl)
      (by simp [Block.Vector.careful, hb2, hbm2])
    simp only [Block.Vector.exec, hni, hnj, Option.bind_some, Option.map_eq_some_iff] at e
    obtain ⟨q, e1, e2⟩ := e
    cases e2
    have keep : ∀ l u s, l ≠ i → At N w.names an l u s → At N (upd (upd w.names i (some q.1)) j (some q.2.1))
        (upd (upd an i (some b2)) j (some ⟨[], 0, true⟩)) (rename i j l) u s := by
      intro l u s hli hu
      obtain ⟨_, b', _, _, hb', _⟩ := id hu
      unfold rename
      split
      · rename_i hlj
        subst hlj
        rw [hb2] at hb'; cases hb'
        refine hu.to v.names W' hb2 (by rw [upd_ne _ _ hij, upd_same]) id (List.prefix_refl _) (.inl ?_)
        rw [p2 i l (.inr rfl)]; exact List.prefix_refl _
      · rename_i hlj
        exact hu.to v.names W' hb' (by rw [upd_ne _ _ hlj, upd_ne _ _ hli]; exact hb') id (List.prefix_refl _)
          (p l (by simp only [Block.Vector.Op.rebinds, not_or]; exact ⟨Ne.symm hli, Ne.symm hlj⟩))
    refine ⟨_, _, us', fs', by simp only [exec, ht, ht', hni, hnj, Option.bind_some, hr, e1, Option.map_some]; rfl, ?_, W',
      same_upd (same_upd v.same i (by simp [hbm2, hc])) j rfl, ?_⟩
    · rw [view_upd, view_upd]; exact w1
    · intro k a' ha' hm'
      simp only [put]
      by_cases hkj : k = j
      · subst hkj
        rw [upd_same] at ha'; cases ha'; cases hm'
      · rw [upd_ne _ _ hkj] at ha'
        rw [if_neg hkj]
        by_cases hk : k = i
        · subst hk
          rw [upd_same] at ha'; cases ha'
          rw [if_pos rfl]
          refine (v.maps j _ ha2 hc).to v.names W' fun l hl u s hu => ⟨rename k j l, ?_, keep l u s ?_ hu⟩
          · have := uses_rename (i := k) (j := j) (Ne.symm hij) hl
            rwa [show rename k j j = k by simp [rename]] at this
          · rintro rfl; exact not_lent hn (Ne.symm hij) hl
        · rw [upd_ne _ _ hk] at ha'
          rw [if_neg hk]
          refine (v.maps k a' ha' hm').to v.names W' fun l hl u s hu => ⟨rename i j l, ?_, keep l u s ?_ hu⟩
          · have := uses_rename (i := i) (j := j) hk hl
            rwa [show rename i j k = k by simp [rename, hkj]] at this
          · rintro rfl; exact not_lent hn hk hl
  | destroy i =>
    simp only [Several.ideal, Option.map_eq_some_iff] at hi
    obtain ⟨a, ha, hi⟩ := hi
    cases hi
    simp only [Bool.not_eq_true'] at hn
    obtain ⟨t, ht, h', hh, w1⟩ := Λ.destroy (i := i) (a := view a) v.store (by simp [ha])
    obtain ⟨b, hb, hbm⟩ := v.an_some ha
    obtain ⟨n, hni, _⟩ := v.names.getSome hb
    have hni : w.names i = some n := hni
    obtain ⟨w2, us', fs', e, W', p, _⟩ := Block.Vector.step _ _ us fs v.names (.destroy i) _ _
      (by simp only [Block.Vector.ideal, hb]; rfl) rfl
    simp only [Block.Vector.exec, hni, Option.bind_some, Option.map_eq_some_iff] at e
    obtain ⟨q, e1, e2⟩ := e
    cases e2
    refine ⟨_, _, us', fs', by simp only [exec, ht, hni, Option.bind_some, hh, e1, Option.map_some]; rfl, ?_, W',
      same_upd v.same i rfl, ?_⟩
    · rw [view_upd]; exact w1
    · intro k a' ha' hm'
      by_cases hk : k = i
      · subst hk; rw [upd_same] at ha'; cases ha'
      · rw [upd_ne _ _ hk] at ha'
        refine (v.maps k a' ha' hm').to v.names W' fun l hl u s hu => ⟨l, uses_repay hk hl, ?_⟩
        have hli : l ≠ i := by rintro rfl; exact not_lent hn hk hl
        obtain ⟨_, b', _, _, hb', _⟩ := id hu
        exact hu.to v.names W' hb' (by rw [upd_ne _ _ hli]; exact hb') id (List.prefix_refl _)
          (p l (by simp only [Block.Vector.Op.rebinds]; exact Ne.symm hli))
  | call i c =>
    simp only [Several.ideal, Option.bind_eq_some_iff, Option.map_eq_some_iff] at hi
    obtain ⟨a, ha, ⟨a', o'⟩, hr, hi⟩ := hi
    cases hi
    simp only [Several.careful, ha, Option.any_some, Bool.and_eq_true, Bool.not_eq_true'] at hc
    obtain ⟨hm, hc⟩ := hc
    obtain ⟨t, ht, L, hR, hL⟩ := Λ.call (i := i) (a := view a) v.store (by simp [ha]) hm
    obtain ⟨b, hb, hbm⟩ := v.an_some ha
    rw [hm] at hbm
    obtain ⟨n, hni, c0, hav, hu0⟩ := v.names.getLive hb hbm
    have hni : w.names i = some n := hni
    have mo := v.maps i a ha hm
    have hX : SRepC hash (callCtx v.names ls i b.elems) n w.strings (Γ.keys (w.maps i)) := by
      refine ⟨b.elems, ⟨us i, fs i, c0, Heap.Frame.refl v.names.wf, List.prefix_refl _, List.prefix_refl _, hu0⟩, fun u hu => ?_⟩
      obtain ⟨k, s, h1, h2, h3⟩ := mo.views u hu
      by_cases hk : k = i
      · subst hk
        obtain ⟨n', b', j, g1, g2, _, g3, g4⟩ := h2
        rw [hni] at g1; cases g1
        rw [hb] at g2; cases g2
        exact .inl ⟨j, s, g3, g4, h3⟩
      · exact .inr ⟨s, ⟨k, hk, h1, h2⟩, h3⟩
    obtain ⟨s', n', h', m', e, hR', hB', hX'⟩ := Γ.step L _ hR mo.bind hX hc hr
    obtain ⟨ns, ⟨us1, fs1, c1, f, q1, q2, hu1⟩, g⟩ := hX'.ex
    have W' := v.names.update i f (ORep.ofCore (a := ⟨ns, n'.avail, false⟩) rfl c1 rfl hu1)
    have keep : ∀ l u s, At N w.names an l u s → At N (upd w.names i (some n')) (upd an i (some ⟨ns, n'.avail, false⟩)) l u s := by
      intro l u s hu
      obtain ⟨_, b', _, _, hb', _⟩ := id hu
      by_cases hli : l = i
      · subst hli
        rw [hb] at hb'; cases hb'
        exact hu.to v.names W' hb (upd_same _ _ _) (fun _ => rfl) q2 (.inl (by rw [Block.Vector.updL_same]; exact q1))
      · exact hu.to v.names W' hb' (by rw [upd_ne _ _ hli]; exact hb') id (List.prefix_refl _)
          (.inl (by rw [Block.Vector.updL_ne _ _ hli]; exact List.prefix_refl _))
    refine ⟨_, _, _, _, by simp only [exec, ht, hni, Option.bind_some, e, Option.map_some]; rfl, ?_, W',
      same_upd v.same i (by simp [hm]), ?_⟩
    · rw [view_upd]
      have : view (⟨a', a.moved⟩ : AObj K V) = ⟨a'.entries.map (·.value), a'.reserved, false⟩ := by simp [view, hm]
      simp only [Option.map_some, this]; exact hL _ _ _ hR'
    · intro k a1 ha1 hm1
      simp only [put]
      by_cases hk : k = i
      · subst hk
        rw [upd_same] at ha1; cases ha1
        rw [if_pos rfl]
        refine ⟨fun u hu => ?_, hB'⟩
        have hls : loansAfter (upd aw k (some ⟨a', a.moved⟩)) ls (.call k c : Op C) = ls := by
          simp only [loansAfter, upd_same, Option.any_some]
          rw [if_neg]
          intro h0
          rw [Γ.none hB' (by
            intro ks hks
            obtain ⟨e, he, rfl⟩ := List.mem_map.1 hks
            simpa using List.all_eq_true.1 h0 e he)] at hu
          simp at hu
        rw [hls]
        rcases g u hu with ⟨j, s, g1, g2, g3⟩ | ⟨s, ⟨l, _, g1, g2⟩, g3⟩
        · exact ⟨k, s, .inl rfl, ⟨n', _, j, upd_same _ _ _, upd_same _ _ _, rfl, g1, g2⟩, g3⟩
        · exact ⟨l, s, g1, keep l u s g2, g3⟩
      · rw [upd_ne _ _ hk] at ha1
        rw [if_neg hk]
        refine (v.maps k a1 ha1 hm1).to v.names W' fun l hl u s hu => ⟨l, ?_, keep l u s hu⟩
        simp only [loansAfter]
        split
        · exact uses_repay hk hl
        · exact hl

theorem simulate (left : M → M) : ∀ (ops : List (Op C)) {w : World T M H} {aw : AWorld K V} {ls : Loans}
    {an : Block.Vector.AWorld String} {us fs : Nat → List Nat}, Inv Λ Γ w aw ls an us fs →
    carefulRun μ N code left kind sp w aw ls ops = true → ∀ {aw' os}, Several.idealRun kind sp aw ops = some (aw', os) →
    ∃ w' ls' an' us' fs', run μ N code left w ops = some (w', os) ∧ Inv Λ Γ w' aw' ls' an' us' fs' := by
  intro ops
  induction ops with
  | nil =>
    intro w aw ls an us fs v _ aw' os h
    cases h
    exact ⟨w, ls, an, us, fs, rfl, v⟩
  | cons op ops ih =>
    intro w aw ls an us fs v hc aw' os h
    simp only [Several.idealRun, Option.bind_eq_some_iff, Option.map_eq_some_iff] at h
    obtain ⟨⟨aw1, o⟩, h1, ⟨aw2, os1⟩, h2, h3⟩ := h
    cases h3
    simp only [carefulRun, Bool.and_eq_true] at hc
    obtain ⟨w1, an1, us1, fs1, e1, v1⟩ := step v left hc.1 h1
    simp only [h1, e1] at hc
    obtain ⟨w2, ls2, an2, us2, fs2, e2, v2⟩ := ih v1 hc.2 h2
    exact ⟨w2, ls2, an2, us2, fs2, by simp only [run, e1, Option.bind_some, e2, Option.map_some], v2⟩

end
end Verif.Mapped.SeveralStr
