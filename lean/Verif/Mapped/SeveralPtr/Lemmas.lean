import Verif.Mapped.SeveralPtr.Frame
import Verif.Mapped.Pointer.Lemmas
import Verif.Mapped.DualPtr.Lemmas

/-
Helper lemmas: programs over several containers simulate the ideal ones.
-/
namespace Verif.Mapped.SeveralPtr
open Verif.Mapped
open Verif.Mapped.Pointer (Objs Obs PV Own Ideal Entry)
open Verif.Mapped.DualPtr (DPV)

variable {P M C K V : Type}

theorem upd_same {A : Type} (f : Nat → A) (i : Nat) (x : A) : upd f i x i = x := if_pos rfl

theorem upd_other {A : Type} (f : Nat → A) {i k : Nat} (x : A) (h : k ≠ i) : upd f i x k = f k := if_neg h

/-- what is used of the proofs about one container -/
structure Laws (sp : Spec K V C) (code : Code P M C V) (Rep : P → Objs V → Ideal K V → Prop) : Prop where
  own : ∀ {p h a}, Rep p h a → Own h (a.entries.map (·.obj))
  next : ∀ {p h a}, Rep p h a → h.next = a.made
  data : ∀ {p h a}, Rep p h a → code.data p = a.entries.map fun e => e.obj.map (·.1)
  grow : ∀ {p h a} {n : Nat}, Rep p h a → a.made ≤ n → Rep p ⟨h.val, n⟩ ⟨a.entries, n⟩
  start : ∀ n, Rep (code.build [] code.noMaps) ⟨fun _ => none, n⟩ ⟨[], n⟩
  build : ∀ p, code.build (code.data p) (code.maps p) = p
  dataOf : ∀ d m, code.data (code.build d m) = d
  step : ∀ {p h a c a' o}, Rep p h a → sp.careful a c = true → sp.ideal a c = some (a', o) →
    ∃ p' h', code.exec p h c = some ((p', h'), o) ∧ Rep p' h' a'
  frame : Framed code.exec
  clear : ∀ {p h c n}, code.data p = [] → sp.clears c = true →
    code.exec p h c = some ((code.build [] code.noMaps, h), .done) ∧ sp.ideal ⟨[], n⟩ c = some (⟨[], n⟩, .done)
  noLookup : ∀ {p h c n}, code.data p = [] → sp.noLookup c = true →
    sp.clears c = false ∧ ∃ o, code.exec p h c = some ((p, h), o) ∧ sp.ideal ⟨[], n⟩ c = some (⟨[], n⟩, o)

theorem mappedLaws [DecidableEq K] (I : MapImpl K) (unset : Option K) :
    Laws (Spec.mapped unset) (Code.mapped (V := V) I unset) fun p h a => Pointer.Inv ⟨p, h⟩ a where
  own v := v.own
  next v := v.next
  data v := v.data
  grow v hn := ⟨v.data, v.binds, ⟨v.own.val, v.own.uniq, fun p x hm =>
    Nat.lt_of_lt_of_le (v.own.fresh p x hm) (by rw [v.next]; exact hn)⟩, rfl⟩
  start n := ⟨rfl, .nil, ⟨by simp, by simp, by simp⟩, rfl⟩
  build p := rfl
  dataOf d m := rfl
  step v hc hi := by
    obtain ⟨⟨p', h'⟩, e, v'⟩ := Pointer.step (I := I) v hc hi
    exact ⟨p', h', by simp only [Code.mapped, e, Option.map_some], v'⟩
  frame := framed_mapped
  clear {p h c n} hd hc := by
    cases c <;> simp only [Spec.mapped, Bool.false_eq_true, reduceCtorEq] at hc
    have hd : p.data = [] := hd
    simp [Code.mapped, Pointer.exec, PV.clear, hd, Objs.deleteAll, Spec.mapped, Pointer.ideal]
  noLookup {p h c n} hd hc := by
    have hd : p.data = [] := hd
    cases c <;> simp only [Spec.mapped, Bool.false_eq_true, reduceCtorEq] at hc <;>
      simp [Code.mapped, Pointer.exec, PV.get, PV.apply, PV.size, hd, Spec.mapped, Pointer.ideal, Objs.read, Pointer.readAll]

theorem dualLaws {K1 K2 : Type} [DecidableEq K1] [DecidableEq K2] (E : DualPtr.Env K1 K2) :
    Laws (Spec.dual E) (Code.dual (V := V) E) fun p h a => DualPtr.Inv ⟨p, h⟩ a where
  own v := v.base.own
  next v := v.base.next
  data v := v.base.data
  grow v hn := ⟨⟨v.base.data, v.base.binds, ⟨v.base.own.val, v.base.own.uniq, fun p x hm =>
    Nat.lt_of_lt_of_le (v.base.own.fresh p x hm) (by rw [v.base.next]; exact hn)⟩, rfl⟩, v.one⟩
  start n := ⟨⟨rfl, .nil, ⟨by simp, by simp, by simp⟩, rfl⟩, by intro e he; simp at he⟩
  build p := rfl
  dataOf d m := rfl
  step v hc hi := by
    obtain ⟨⟨p', h'⟩, e, v'⟩ := DualPtr.step v hc hi
    exact ⟨p', h', by simp only [Code.dual, e, Option.map_some], v'⟩
  frame := framed_dual
  clear {p h c n} hd hc := by
    cases c <;> simp only [Spec.dual, Bool.false_eq_true, reduceCtorEq] at hc
    have hd : p.data = [] := hd
    simp [Code.dual, DualPtr.exec, DPV.clear, hd, Objs.deleteAll, Spec.dual, DualPtr.ideal, Pointer.ideal]
  noLookup {p h c n} hd hc := by
    obtain ⟨d, l1, l2⟩ := p
    have hd : d = [] := hd
    subst hd
    cases c <;> first | exact ⟨rfl, _, rfl, rfl⟩ | (simp only [Spec.dual, Bool.false_eq_true, reduceCtorEq] at hc)

/-- the heap is divided among the containers -/
structure Split (heap : Objs V) (parts : Nat → Nat → Option V) : Prop where
  total : ∀ p x, heap.val p = some x ↔ ∃ i, parts i p = some x
  disj : ∀ {i j p x y}, parts i p = some x → parts j p = some y → i = j
  fresh : ∀ {i p x}, parts i p = some x → p < heap.next

/-- the objects of the other containers -/
def rest (heap : Objs V) (part : Nat → Option V) : Nat → Option V := fun p => if (part p).isSome then none else heap.val p

section split
variable {heap : Objs V} {parts : Nat → Nat → Option V}

theorem Split.apart (s : Split heap parts) (i : Nat) : Apart ⟨parts i, heap.next⟩ (rest heap (parts i)) := by
  intro p x e
  simp only [rest] at e
  split at e
  · cases e
  · rename_i hn
    obtain ⟨j, hj⟩ := (s.total p x).1 e
    exact ⟨by simpa using hn, s.fresh hj⟩

theorem Split.plus (s : Split heap parts) (i : Nat) : plus ⟨parts i, heap.next⟩ (rest heap (parts i)) = heap := by
  refine objs_ext (fun p => ?_) rfl
  simp only [SeveralPtr.plus, rest]
  cases h : parts i p with
  | none => simp
  | some x => simp [(s.total p x).2 ⟨i, h⟩]

theorem Split.rest_eq (s : Split heap parts) (i p : Nat) (x : V) :
    rest heap (parts i) p = some x ↔ ∃ j, j ≠ i ∧ parts j p = some x := by
  simp only [rest]
  constructor
  · intro e
    split at e
    · cases e
    · rename_i hn
      obtain ⟨j, hj⟩ := (s.total p x).1 e
      exact ⟨j, by rintro rfl; rw [hj] at hn; simp at hn, hj⟩
  · rintro ⟨j, hji, hj⟩
    rw [if_neg, (s.total p x).2 ⟨j, hj⟩]
    intro hs
    obtain ⟨y, hy⟩ := Option.isSome_iff_exists.1 hs
    exact hji (s.disj hj hy)

/-- the part of one container changes -/
theorem Split.replace (s : Split heap parts) (i : Nat) {h' : Objs V} (a : Apart h' (rest heap (parts i)))
    (hf : ∀ p x, h'.val p = some x → p < h'.next) (hn : heap.next ≤ h'.next) :
    Split (SeveralPtr.plus h' (rest heap (parts i))) (upd parts i h'.val) := by
  have other : ∀ {j p x}, j ≠ i → parts j p = some x → rest heap (parts i) p = some x := fun hj e =>
    (s.rest_eq i _ _).2 ⟨_, hj, e⟩
  refine ⟨fun p x => ?_, fun {k l p x y} hk hl => ?_, fun {k p x} hk => ?_⟩
  · simp only [SeveralPtr.plus]
    constructor
    · intro e
      split at e
      · rename_i y hy
        cases e
        exact ⟨i, by rw [upd_same]; exact hy⟩
      · obtain ⟨j, hj, e⟩ := (s.rest_eq i p x).1 e
        exact ⟨j, by rw [upd_other _ _ hj]; exact e⟩
    · rintro ⟨j, e⟩
      by_cases hj : j = i
      · subst hj; rw [upd_same] at e; rw [e]
      · rw [upd_other _ _ hj] at e
        have e' := other hj e
        rw [(a p x e').1]
        exact e'
  · by_cases h1 : k = i <;> by_cases h2 : l = i
    · rw [h1, h2]
    · subst h1; rw [upd_same] at hk; rw [upd_other _ _ h2] at hl
      rw [(a p y (other h2 hl)).1] at hk; cases hk
    · subst h2; rw [upd_same] at hl; rw [upd_other _ _ h1] at hk
      rw [(a p x (other h1 hk)).1] at hl; cases hl
    · rw [upd_other _ _ h1] at hk; rw [upd_other _ _ h2] at hl
      exact s.disj hk hl
  · show p < h'.next
    by_cases h1 : k = i
    · subst h1; rw [upd_same] at hk; exact hf p x hk
    · rw [upd_other _ _ h1] at hk; exact Nat.lt_of_lt_of_le (s.fresh hk) hn

/-- the objects of `j` pass to `i`, which has none -/
theorem Split.move (s : Split heap parts) {i j : Nat} (hij : i ≠ j) (hi : parts i = fun _ => none) :
    Split heap (upd (upd parts i (parts j)) j fun _ => none) := by
  have key : ∀ {k p x}, upd (upd parts i (parts j)) j (fun _ => none) k p = some x →
      (k = i ∧ parts j p = some x) ∨ (k ≠ i ∧ k ≠ j ∧ parts k p = some x) := by
    intro k p x e
    by_cases h1 : k = j
    · subst h1; rw [upd_same] at e; cases e
    · rw [upd_other _ _ h1] at e
      by_cases h2 : k = i
      · subst h2; rw [upd_same] at e; exact .inl ⟨rfl, e⟩
      · rw [upd_other _ _ h2] at e; exact .inr ⟨h2, h1, e⟩
  refine ⟨fun p x => ?_, fun {k l p x y} hk hl => ?_, fun {k p x} hk => ?_⟩
  · rw [s.total]
    constructor
    · rintro ⟨k, e⟩
      by_cases h1 : k = j
      · subst h1; exact ⟨i, by rw [upd_other _ _ hij, upd_same]; exact e⟩
      · by_cases h2 : k = i
        · subst h2; rw [hi] at e; cases e
        · exact ⟨k, by rw [upd_other _ _ h1, upd_other _ _ h2]; exact e⟩
    · rintro ⟨k, e⟩
      rcases key e with ⟨_, e⟩ | ⟨_, _, e⟩
      · exact ⟨j, e⟩
      · exact ⟨k, e⟩
  · rcases key hk with ⟨h1, e1⟩ | ⟨h1, h2, e1⟩ <;> rcases key hl with ⟨h3, e3⟩ | ⟨h3, h4, e3⟩
    · rw [h1, h3]
    · exact absurd (s.disj e3 e1) h4
    · exact absurd (s.disj e1 e3) h2
    · exact s.disj e1 e3
  · rcases key hk with ⟨_, e⟩ | ⟨_, _, e⟩ <;> exact s.fresh e
end split

/-- the containers represent the ideal ones -/
structure Inv (code : Code P M C V) (Rep : P → Objs V → Ideal K V → Prop) (w : World P V) (a : AWorld K V)
    (parts : Nat → Nat → Option V) : Prop where
  split : Split w.heap parts
  next : w.heap.next = a.made
  dead : ∀ {i}, a.objs i = none → w.objs i = none ∧ parts i = fun _ => none
  live : ∀ {i es}, a.objs i = some ⟨es, false⟩ → ∃ p, w.objs i = some p ∧ Rep p ⟨parts i, w.heap.next⟩ ⟨es, a.made⟩
  moved : ∀ {i es}, a.objs i = some ⟨es, true⟩ → es = [] ∧ (parts i = fun _ => none) ∧
    ∃ p, w.objs i = some p ∧ code.data p = []

section sim
variable {sp : Spec K V C} {code : Code P M C V} {Rep : P → Objs V → Ideal K V → Prop} {w : World P V} {a : AWorld K V}
  {parts : Nat → Nat → Option V}

theorem own_empty {h : Objs V} (o : Own h []) : h.val = fun _ => none := by
  funext p
  cases e : h.val p with
  | none => rfl
  | some x => exact absurd ((o.val p x).1 e) (by simp)

/-- the objects of a container are destroyed -/
theorem Inv.release (Λ : Laws sp code Rep) (v : Inv code Rep w a parts) {i : Nat} {x : AObj K V} (hi : a.objs i = some x) :
    ∃ p h, w.objs i = some p ∧ w.heap.deleteAll (code.data p) = some h ∧ h.next = w.heap.next ∧
      Split h (upd parts i fun _ => none) := by
  obtain ⟨es, m⟩ := x
  cases m with
  | false =>
    obtain ⟨p, hp, r⟩ := v.live hi
    obtain ⟨h', e, o, n⟩ := (Λ.own r).deleteAll
    have hd : code.data p = (List.map (fun e => e.obj) es).map fun o => o.map (·.1) := by rw [Λ.data r, List.map_map]; rfl
    obtain ⟨f, ap, _⟩ := deleteAll_plus (v.split.apart i) e
    rw [v.split.plus i] at f
    refine ⟨p, SeveralPtr.plus h' (rest w.heap (parts i)), hp, by rw [hd]; exact f, n, ?_⟩
    have := v.split.replace i ap (fun q y hq => by rw [own_empty o] at hq; cases hq) (Nat.le_of_eq n.symm)
    rwa [own_empty o] at this
  | true =>
    obtain ⟨_, h2, p, hp, hd⟩ := v.moved hi
    refine ⟨p, w.heap, hp, by rw [hd]; rfl, rfl, ?_⟩
    have : upd parts i (fun _ => none) = parts := by
      funext k
      by_cases hk : k = i
      · subst hk; rw [upd_same, h2]
      · rw [upd_other _ _ hk]
    rw [this]; exact v.split

/-- the elements of `j` pass to `i` -/
theorem Inv.pass (Λ : Laws sp code Rep) (v : Inv code Rep w a parts) {i j : Nat} (hij : i ≠ j) {b : AObj K V}
    (hj : a.objs j = some b) (hm : b.moved = false) (left : M → M) {h : Objs V} (hn : h.next = w.heap.next)
    (s : Split h (upd parts i fun _ => none)) :
    ∃ q, w.objs j = some q ∧ ∃ parts', Inv code Rep
      ⟨upd (upd w.objs i (some (code.build (code.data q) (code.maps q)))) j (some (code.build [] (left (code.maps q)))), h⟩
      ⟨upd (upd a.objs i (some b)) j (some ⟨[], true⟩), a.made⟩ parts' := by
  obtain ⟨es, m⟩ := b
  cases hm
  obtain ⟨q, hq, r⟩ := v.live hj
  refine ⟨q, hq, _, s.move hij (upd_same _ _ _), hn.trans v.next, ?_, ?_, ?_⟩
  · intro k hk
    dsimp only at hk
    by_cases h1 : k = j
    · subst h1; rw [upd_same] at hk; cases hk
    · by_cases h2 : k = i
      · subst h2; rw [upd_other _ _ h1, upd_same] at hk; cases hk
      · simp only [upd_other _ _ h1, upd_other _ _ h2] at hk ⊢; exact v.dead hk
  · intro k es' hk
    dsimp only at hk
    by_cases h1 : k = j
    · subst h1; rw [upd_same] at hk; cases hk
    · by_cases h2 : k = i
      · subst h2; simp only [upd_other _ _ h1, upd_same] at hk ⊢; cases hk
        refine ⟨q, by rw [Λ.build], ?_⟩
        rw [upd_other _ _ (Ne.symm h1), hn]; exact r
      · simp only [upd_other _ _ h1, upd_other _ _ h2] at hk ⊢
        rw [hn]; exact v.live hk
  · intro k es' hk
    dsimp only at hk
    by_cases h1 : k = j
    · subst h1; rw [upd_same] at hk; cases hk
      exact ⟨rfl, by rw [upd_same], _, upd_same _ _ _, Λ.dataOf _ _⟩
    · by_cases h2 : k = i
      · subst h2; rw [upd_other _ _ h1, upd_same] at hk; cases hk
      · simp only [upd_other _ _ h1, upd_other _ _ h2] at hk ⊢; exact v.moved hk

/-- a container, its part and the heap change -/
theorem Inv.set (Λ : Laws sp code Rep) (v : Inv code Rep w a parts) (i : Nat) {p : P} {h' : Objs V} {es : List (Entry K V)}
    {made : Nat} (ap : Apart h' (rest w.heap (parts i))) (hn : w.heap.next ≤ h'.next) (r : Rep p h' ⟨es, made⟩) :
    Inv code Rep ⟨upd w.objs i (some p), plus h' (rest w.heap (parts i))⟩ ⟨upd a.objs i (some ⟨es, false⟩), made⟩
      (upd parts i h'.val) := by
  have nx : h'.next = made := Λ.next r
  refine ⟨v.split.replace i ap (fun q x e => (Λ.own r).fresh q x (((Λ.own r).val q x).1 e)) hn, nx, ?_, ?_, ?_⟩
  · intro k hk
    dsimp only at hk
    by_cases h1 : k = i
    · subst h1; rw [upd_same] at hk; cases hk
    · simp only [upd_other _ _ h1] at hk ⊢; exact v.dead hk
  · intro k es' hk
    dsimp only at hk
    by_cases h1 : k = i
    · subst h1; simp only [upd_same] at hk ⊢; cases hk
      exact ⟨p, rfl, r⟩
    · simp only [upd_other _ _ h1] at hk ⊢
      obtain ⟨q, hq, rq⟩ := v.live hk
      refine ⟨q, hq, ?_⟩
      have := Λ.grow (n := made) rq (by rw [← v.next, ← nx]; exact hn)
      rw [plus_next, nx]; exact this
  · intro k es' hk
    dsimp only at hk
    by_cases h1 : k = i
    · subst h1; rw [upd_same] at hk; cases hk
    · simp only [upd_other _ _ h1] at hk ⊢; exact v.moved hk

/-- every careful call is simulated -/
theorem step (Λ : Laws sp code Rep) (left : M → M) (v : Inv code Rep w a parts) {op : Op C}
    (hc : careful sp a op = true) {a' : AWorld K V} {o : Obs V} (hi : ideal sp a op = some (a', o)) :
    ∃ w' parts', exec code left w op = some (w', o) ∧ Inv code Rep w' a' parts' := by
  cases op with
  | new i =>
    simp only [ideal] at hi
    split at hi <;> [skip; cases hi]
    rename_i hn
    cases hi
    have hn := v.dead (Option.isNone_iff_eq_none.1 hn)
    have ap := v.split.apart i
    have r := Λ.start a.made
    have := v.set Λ i (p := code.build [] code.noMaps) (h' := ⟨parts i, w.heap.next⟩) (es := []) (made := a.made) ap
      (Nat.le_refl _) (by rw [hn.2, v.next]; exact r)
    rw [v.split.plus i] at this
    exact ⟨_, _, rfl, this⟩
  | moveNew i j =>
    simp only [ideal] at hi
    split at hi <;> [skip; cases hi]
    rename_i hn
    have hn := Option.isNone_iff_eq_none.1 hn
    simp only [Option.map_eq_some_iff] at hi
    obtain ⟨b, hj, hi⟩ := hi
    cases hi
    have hij : i ≠ j := by rintro rfl; rw [hn] at hj; cases hj
    have hm : b.moved = false := by simpa [careful, hj] using hc
    have hp : upd parts i (fun _ => none) = parts := by
      funext k
      by_cases hk : k = i
      · subst hk; rw [upd_same, (v.dead hn).2]
      · rw [upd_other _ _ hk]
    obtain ⟨q, hq, parts', v'⟩ := v.pass Λ hij hj hm left rfl (by rw [hp]; exact v.split)
    exact ⟨_, _, by simp only [exec, hq, Option.map_some], v'⟩
  | moveAssign i j =>
    simp only [ideal] at hi
    split at hi <;> [cases hi; skip]
    rename_i hij
    simp only [Option.map_eq_some_iff, Option.bind_eq_some_iff] at hi
    obtain ⟨x, hx, b, hj, hi⟩ := hi
    cases hi
    have hm : b.moved = false := by simpa [careful, hj] using hc
    obtain ⟨p, h, hp, e, n, s⟩ := v.release Λ hx
    obtain ⟨q, hq, parts', v'⟩ := v.pass Λ hij hj hm left n s
    exact ⟨_, _, by simp only [exec, hp, Option.bind_some, hq, e, Option.map_some], v'⟩
  | destroy i =>
    simp only [ideal, Option.map_eq_some_iff] at hi
    obtain ⟨x, hx, hi⟩ := hi
    cases hi
    obtain ⟨p, h, hp, e, n, s⟩ := v.release Λ hx
    refine ⟨⟨upd w.objs i none, h⟩, _, by simp only [exec, hp, Option.bind_some, e, Option.map_some],
      s, n.trans v.next, ?_, ?_, ?_⟩
    · intro k hk
      dsimp only at hk
      by_cases h1 : k = i
      · subst h1; exact ⟨upd_same _ _ _, upd_same _ _ _⟩
      · simp only [upd_other _ _ h1] at hk ⊢; exact v.dead hk
    · intro k es' hk
      dsimp only at hk
      by_cases h1 : k = i
      · subst h1; rw [upd_same] at hk; cases hk
      · simp only [upd_other _ _ h1] at hk ⊢; rw [n]; exact v.live hk
    · intro k es' hk
      dsimp only at hk
      by_cases h1 : k = i
      · subst h1; rw [upd_same] at hk; cases hk
      · simp only [upd_other _ _ h1] at hk ⊢; exact v.moved hk
  | call i c =>
    simp only [ideal, Option.map_eq_some_iff, Option.bind_eq_some_iff] at hi
    obtain ⟨⟨es, m⟩, hx, ⟨⟨es', made'⟩, o'⟩, hid, hi⟩ := hi
    cases hi
    cases m with
    | false =>
      have hc : sp.careful ⟨es, a.made⟩ c = true := by simpa [careful, hx] using hc
      obtain ⟨p, hp, r⟩ := v.live hx
      obtain ⟨p', h', e, r'⟩ := Λ.step r hc hid
      obtain ⟨f, ap, n⟩ := Λ.frame e (v.split.apart i)
      rw [v.split.plus i] at f
      exact ⟨_, _, by simp only [exec, hp, Option.bind_some, f, Option.map_some], v.set Λ i ap n r'⟩
    | true =>
      obtain ⟨he, hpt, p, hp, hd⟩ := v.moved hx
      subst he
      have hc : sp.clears c = true ∨ sp.noLookup c = true := by simpa [careful, hx] using hc
      rcases hc with hc | hc
      · obtain ⟨e, hid'⟩ := Λ.clear (h := w.heap) (n := a.made) hd hc
        rw [hid'] at hid
        cases hid
        have := v.set Λ i (p := code.build [] code.noMaps) (h' := ⟨parts i, w.heap.next⟩) (es := []) (made := a.made)
          (v.split.apart i) (Nat.le_refl _) (by rw [hpt, v.next]; exact Λ.start a.made)
        rw [v.split.plus i] at this
        refine ⟨⟨upd w.objs i (some (code.build [] code.noMaps)), w.heap⟩, upd parts i (parts i),
          by simp only [exec, hp, Option.bind_some, e, Option.map_some], ?_⟩
        rw [hc]; exact this
      · obtain ⟨hcl, o'', e, hid'⟩ := Λ.noLookup (h := w.heap) (n := a.made) hd hc
        rw [hid'] at hid
        cases hid
        refine ⟨_, parts, by simp only [exec, hp, Option.bind_some, e, Option.map_some]; rfl, ?_⟩
        have h1 : upd w.objs i (some p) = w.objs := by
          funext k
          by_cases hk : k = i
          · subst hk; rw [upd_same, hp]
          · rw [upd_other _ _ hk]
        have h2 : upd a.objs i (some ⟨[], true && !sp.clears c⟩) = a.objs := by
          funext k
          by_cases hk : k = i
          · subst hk; rw [upd_same, hx, hcl]; rfl
          · rw [upd_other _ _ hk]
        rw [h1, h2]; exact v

/-- every careful program is simulated -/
theorem simulate (Λ : Laws sp code Rep) (left : M → M) (ops : List (Op C)) : ∀ {w : World P V} {a : AWorld K V}
    {parts : Nat → Nat → Option V}, Inv code Rep w a parts → carefulRun sp a ops = true →
    ∀ {a' : AWorld K V} {os : List (Obs V)}, idealRun sp a ops = some (a', os) →
    ∃ w' parts', run code left w ops = some (w', os) ∧ Inv code Rep w' a' parts' := by
  induction ops with
  | nil => intro w a parts v _ a' os h; cases h; exact ⟨w, parts, rfl, v⟩
  | cons op ops ih =>
    intro w a parts v hc a' os h
    simp only [idealRun, Option.bind_eq_some_iff, Option.map_eq_some_iff] at h
    obtain ⟨⟨a1, o⟩, h1, ⟨a2, os2⟩, h2, h3⟩ := h
    cases h3
    simp only [carefulRun, h1, Bool.and_eq_true] at hc
    obtain ⟨w1, p1, e1, v1⟩ := step Λ left v hc.1 h1
    obtain ⟨w2, p2, e2, v2⟩ := ih v1 hc.2 h2
    exact ⟨w2, p2, by simp only [run, e1, Option.bind_some, e2, Option.map_some], v2⟩

/-- nothing yet -/
theorem Inv.empty : Inv code Rep (World.init : World P V) (⟨fun _ => none, 0⟩ : AWorld K V) fun _ _ => none :=
  ⟨⟨by simp [World.init, Objs.empty], by simp, by simp⟩, rfl, fun _ => ⟨rfl, rfl⟩, by simp, by simp⟩

/-- the objects in existence are those of the elements -/
theorem Inv.objects (Λ : Laws sp code Rep) (v : Inv code Rep w a parts) (p : Nat) (x : V) :
    w.heap.val p = some x ↔ ∃ i t, a.objs i = some t ∧ ∃ e ∈ t.entries, e.obj = some (p, x) := by
  rw [v.split.total]
  constructor
  · rintro ⟨i, hi⟩
    cases ht : a.objs i with
    | none => rw [(v.dead ht).2] at hi; cases hi
    | some t =>
      obtain ⟨es, m⟩ := t
      cases m with
      | true => rw [(v.moved ht).2.1] at hi; cases hi
      | false =>
        obtain ⟨q, _, r⟩ := v.live ht
        have := ((Λ.own r).val p x).1 hi
        simp only [List.mem_map] at this
        exact ⟨i, _, ht, this⟩
  · rintro ⟨i, ⟨es, m⟩, ht, e, he, hx⟩
    cases m with
    | true => rw [(v.moved ht).1] at he; cases he
    | false =>
      obtain ⟨q, _, r⟩ := v.live ht
      exact ⟨i, ((Λ.own r).val p x).2 (by simp only [List.mem_map]; exact ⟨e, he, hx⟩)⟩

/-- no two elements, in any containers, share an object -/
theorem Inv.unshared (Λ : Laws sp code Rep) (v : Inv code Rep w a parts) {i j k l p : Nat} {x y : V} {s t : AObj K V}
    (hs : a.objs i = some s) (ht : a.objs j = some t) (hk : (s.entries[k]?).bind (·.obj) = some (p, x))
    (hl : (t.entries[l]?).bind (·.obj) = some (p, y)) : i = j ∧ k = l := by
  have key : ∀ {i : Nat} {s : AObj K V} {k : Nat} {x : V}, a.objs i = some s → (s.entries[k]?).bind (·.obj) = some (p, x) →
      parts i p = some x ∧ (s.entries.map (·.obj))[k]? = some (some (p, x)) ∧ ∃ h, Own h (s.entries.map (·.obj)) := by
    intro i s k x hs hk
    obtain ⟨e, h1, h2⟩ := Option.bind_eq_some_iff.1 hk
    obtain ⟨es, m⟩ := s
    cases m with
    | true => rw [(v.moved hs).1] at h1; simp at h1
    | false =>
      obtain ⟨q, _, r⟩ := v.live hs
      have hg : (es.map (·.obj))[k]? = some (some (p, x)) := by rw [List.getElem?_map, h1]; simp [h2]
      exact ⟨((Λ.own r).val p x).2 (List.mem_of_getElem? hg), hg, _, Λ.own r⟩
  obtain ⟨a1, b1, h, o⟩ := key hs hk
  obtain ⟨a2, b2, _⟩ := key ht hl
  have hij := v.split.disj a1 a2
  subst hij
  rw [hs] at ht; cases ht
  exact ⟨rfl, o.uniq _ _ _ _ _ b1 b2⟩

end sim
end Verif.Mapped.SeveralPtr
