import Verif.Mapped.SeveralPtr.Model
import Verif.Mapped.Pointer.Own

/-
Helper lemmas: a call on one container behaves the same, and leaves the other objects alone, when the heap has further
objects in it.
-/
namespace Verif.Mapped.SeveralPtr
open Verif.Mapped
open Verif.Mapped.Pointer (Objs Obs PV)
open Verif.Mapped.DualPtr (DPV)

variable {V : Type}

/-- the heap with further objects `ext` -/
def plus (h : Objs V) (ext : Nat → Option V) : Objs V := ⟨fun p => match h.val p with | some x => some x | none => ext p, h.next⟩

/-- the further objects are different ones, made earlier -/
def Apart (h : Objs V) (ext : Nat → Option V) : Prop := ∀ p x, ext p = some x → h.val p = none ∧ p < h.next

variable {h h' : Objs V} {ext : Nat → Option V}

theorem plus_next : (plus h ext).next = h.next := rfl

theorem Apart.none_of (a : Apart h ext) {p : Nat} {x : V} (e : h.val p = some x) : ext p = none := by
  cases he : ext p with
  | none => rfl
  | some y => rw [(a p y he).1] at e; cases e

theorem Apart.next (a : Apart h ext) : ext h.next = none := by
  cases he : ext h.next with
  | none => rfl
  | some y => exact absurd (a _ y he).2 (Nat.lt_irrefl _)

theorem objs_ext {h h' : Objs V} (h1 : ∀ p, h.val p = h'.val p) (h2 : h.next = h'.next) : h = h' := by
  cases h; cases h'; simp only [Objs.mk.injEq]; exact ⟨funext h1, h2⟩

theorem make_plus (x : V) : (plus h ext).make x = (plus (h.make x).1 ext, (h.make x).2) := by
  refine Prod.ext (objs_ext (fun p => ?_) rfl) rfl
  show (if p = h.next then some x else (plus h ext).val p) = (plus (h.make x).1 ext).val p
  simp only [plus, Objs.make]
  split <;> rfl

theorem Apart.make (a : Apart h ext) (x : V) : Apart (h.make x).1 ext := by
  intro p y e
  refine ⟨?_, Nat.lt_succ_of_lt (a p y e).2⟩
  show (if p = h.next then some x else h.val p) = none
  rw [if_neg, (a p y e).1]
  rintro rfl; rw [a.next] at e; cases e

theorem makeOpt_plus (x : Option V) : (plus h ext).makeOpt x = (plus (h.makeOpt x).1 ext, (h.makeOpt x).2) := by
  cases x with
  | none => rfl
  | some x => simp only [Objs.makeOpt, make_plus]

theorem Apart.makeOpt (a : Apart h ext) (x : Option V) : Apart (h.makeOpt x).1 ext := by
  cases x with
  | none => exact a
  | some x => exact a.make x

theorem makeOpt_next (h : Objs V) (x : Option V) : h.next ≤ (h.makeOpt x).1.next := by
  cases x with
  | none => exact Nat.le_refl _
  | some x => exact Nat.le_succ _

theorem delete_plus (a : Apart h ext) {p : Option Nat} (e : h.delete p = some h') :
    (plus h ext).delete p = some (plus h' ext) ∧ Apart h' ext ∧ h'.next = h.next := by
  cases p with
  | none => cases e; exact ⟨rfl, a, rfl⟩
  | some p =>
    simp only [Objs.delete] at e
    split at e <;> [skip; cases e]
    rename_i hp
    cases e
    obtain ⟨x, hx⟩ := Option.isSome_iff_exists.1 hp
    refine ⟨?_, ?_, rfl⟩
    · simp only [Objs.delete]
      rw [if_pos (by simp [plus, hx])]
      congr 1
      refine objs_ext (fun q => ?_) rfl
      simp only [plus]
      by_cases hq : q = p
      · subst hq; simp [a.none_of hx]
      · simp [hq]
    · intro q y e
      refine ⟨?_, (a q y e).2⟩
      simp only
      split
      · rfl
      · exact (a q y e).1

theorem deleteAll_plus : ∀ {ps : List (Option Nat)} {h h' : Objs V}, Apart h ext → h.deleteAll ps = some h' →
    (plus h ext).deleteAll ps = some (plus h' ext) ∧ Apart h' ext ∧ h'.next = h.next
  | [], h, h', a, e => by cases e; exact ⟨rfl, a, rfl⟩
  | p :: ps, h, h', a, e => by
    simp only [Objs.deleteAll, Option.bind_eq_some_iff] at e
    obtain ⟨h1, e1, e2⟩ := e
    obtain ⟨f1, a1, n1⟩ := delete_plus a e1
    obtain ⟨f2, a2, n2⟩ := deleteAll_plus a1 e2
    exact ⟨by simp only [Objs.deleteAll, f1, Option.bind_some, f2], a2, n2.trans n1⟩

theorem read_plus {p : Option Nat} {r : Option (Nat × V)} (e : h.read p = some r) : (plus h ext).read p = some r := by
  cases p with
  | none => exact e
  | some p =>
    simp only [Objs.read, Option.map_eq_some_iff] at e
    obtain ⟨x, hx, rfl⟩ := e
    simp [Objs.read, plus, hx]

theorem readAll_plus : ∀ {ps : List (Option Nat)} {r : List (Option (Nat × V))}, Pointer.readAll h ps = some r →
    Pointer.readAll (plus h ext) ps = some r
  | [], r, e => e
  | p :: ps, r, e => by
    simp only [Pointer.readAll, Option.bind_eq_some_iff, Option.map_eq_some_iff] at e
    obtain ⟨x, hx, xs, hxs, rfl⟩ := e
    simp only [Pointer.readAll, read_plus hx, Option.bind_some, readAll_plus hxs, Option.map_some]

theorem write_plus (a : Apart h ext) {p : Nat} {x : V} (e : h.write p x = some h') :
    (plus h ext).write p x = some (plus h' ext) ∧ Apart h' ext ∧ h'.next = h.next := by
  simp only [Objs.write] at e
  split at e <;> [skip; cases e]
  rename_i hp
  cases e
  obtain ⟨y, hy⟩ := Option.isSome_iff_exists.1 hp
  refine ⟨?_, ?_, rfl⟩
  · simp only [Objs.write]
    rw [if_pos (by simp [plus, hy])]
    congr 1
    refine objs_ext (fun q => ?_) rfl
    simp only [plus]
    by_cases hq : q = p
    · subst hq; simp
    · simp [hq]
  · intro q z e
    refine ⟨?_, (a q z e).2⟩
    simp only
    split
    · rename_i hq; subst hq; rw [a.none_of hy] at e; cases e
    · exact (a q z e).1

/-- what the frame lemma says of one call -/
def Framed {P C V : Type} (f : P → Objs V → C → Option ((P × Objs V) × Obs V)) : Prop :=
  ∀ {p h c p' h' o ext}, f p h c = some ((p', h'), o) → Apart h ext →
    f p (plus h ext) c = some ((p', plus h' ext), o) ∧ Apart h' ext ∧ h.next ≤ h'.next

section mapped
variable {K : Type} [DecidableEq K] {I : MapImpl K} {unset : Option K}

omit [DecidableEq K] in
theorem assignAt_plus (a : Apart h ext) {m m' : PV K} {i : Nat} {p : Option Nat} (e : m.assignAt h i p = some (m', h')) :
    m.assignAt (plus h ext) i p = some (m', plus h' ext) ∧ Apart h' ext ∧ h'.next = h.next := by
  simp only [PV.assignAt, Option.bind_eq_some_iff, Option.map_eq_some_iff] at e
  obtain ⟨old, h1, h2, h3, h4⟩ := e
  cases h4
  obtain ⟨f, a', n⟩ := delete_plus a h3
  exact ⟨by simp only [PV.assignAt, h1, Option.bind_some, f, Option.map_some], a', n⟩

omit [DecidableEq K] in
theorem eraseAt_plus (a : Apart h ext) {m : PV K} {i : Nat} {d : List (Option Nat)} (e : m.eraseAt h i = some (d, h')) :
    m.eraseAt (plus h ext) i = some (d, plus h' ext) ∧ Apart h' ext ∧ h'.next = h.next := by
  simp only [PV.eraseAt, Option.bind_eq_some_iff, Option.map_eq_some_iff] at e
  obtain ⟨old, h1, h2, h3, h4⟩ := e
  cases h4
  obtain ⟨f, a', n⟩ := delete_plus a h3
  exact ⟨by simp only [PV.eraseAt, h1, Option.bind_some, f, Option.map_some], a', n⟩

theorem framed_mapped : Framed (Code.mapped (V := V) I unset).exec := by
  intro m h c m' h' o ext e a
  simp only [Code.mapped, Option.map_eq_some_iff] at e ⊢
  obtain ⟨⟨⟨m1, h1⟩, o1⟩, e, h2⟩ := e
  cases h2
  suffices Pointer.exec I unset ⟨m, plus h ext⟩ c = some (⟨m1, plus h1 ext⟩, o1) ∧ Apart h1 ext ∧ h.next ≤ h1.next from
    ⟨⟨_, this.1, rfl⟩, this.2⟩
  cases c with
  | insertPtr k x =>
    simp only [Pointer.exec] at e ⊢
    simp only [Option.map_eq_some_iff] at e
    obtain ⟨h2, e, h3⟩ := e
    cases h3
    rw [makeOpt_plus]
    split at e
    · rename_i hs
      cases e
      exact ⟨by rw [if_pos hs]; rfl, a.makeOpt x, makeOpt_next _ _⟩
    · rename_i hs
      obtain ⟨f, a', n⟩ := delete_plus (a.makeOpt x) e
      exact ⟨by rw [if_neg hs, f]; rfl, a', by rw [n]; exact makeOpt_next _ _⟩
  | insert k x =>
    simp only [Pointer.exec, PV.insert] at e ⊢
    split at e
    · rename_i hs
      cases e
      exact ⟨by rw [if_pos hs], a, Nat.le_refl _⟩
    · rename_i hs
      cases e
      exact ⟨by rw [if_neg hs, make_plus], a.make x, Nat.le_succ _⟩
  | insertNoKey x =>
    cases e
    exact ⟨by simp only [Pointer.exec, PV.insertNoKey, make_plus], a.make x, Nat.le_succ _⟩
  | assignPtr k x =>
    simp only [Pointer.exec, PV.insertOrAssignPtr] at e ⊢
    simp only [Option.map_eq_some_iff] at e
    obtain ⟨⟨m2, h2, i2⟩, e, h3⟩ := e
    cases h3
    rw [makeOpt_plus]
    cases hf : FMap.find m.lookup k with
    | some i =>
      simp only [hf, Option.map_eq_some_iff] at e
      obtain ⟨⟨m3, h3⟩, e, h4⟩ := e
      cases h4
      obtain ⟨f, a', n⟩ := assignAt_plus (a.makeOpt x) e
      exact ⟨by simp only [f, Option.map_some], a', by rw [n]; exact makeOpt_next _ _⟩
    | none =>
      simp only [hf, Option.some.injEq] at e
      cases e
      exact ⟨rfl, a.makeOpt x, makeOpt_next _ _⟩
  | assign k x =>
    simp only [Pointer.exec, PV.insertOrAssign] at e ⊢
    simp only [Option.map_eq_some_iff] at e
    obtain ⟨⟨m2, h2, i2⟩, e, h3⟩ := e
    cases h3
    rw [make_plus]
    cases hf : FMap.find m.lookup k with
    | some i =>
      simp only [hf, Option.map_eq_some_iff] at e
      obtain ⟨⟨m3, h3⟩, e, h4⟩ := e
      cases h4
      obtain ⟨f, a', n⟩ := assignAt_plus (a.make x) e
      exact ⟨by simp only [f, Option.map_some], a', by rw [n]; exact Nat.le_succ _⟩
    | none =>
      simp only [hf, Option.some.injEq] at e
      cases e
      exact ⟨rfl, a.make x, Nat.le_succ _⟩
  | find k =>
    simp only [Pointer.exec] at e ⊢
    simp only [Option.bind_eq_some_iff, Option.map_eq_some_iff] at e
    obtain ⟨p, h1, r, h2, h3⟩ := e
    cases h3
    exact ⟨by simp only [h1, Option.bind_some, read_plus h2, Option.map_some], a, Nat.le_refl _⟩
  | get i =>
    simp only [Pointer.exec] at e ⊢
    simp only [Option.bind_eq_some_iff, Option.map_eq_some_iff] at e
    obtain ⟨p, h1, r, h2, h3⟩ := e
    cases h3
    exact ⟨by simp only [h1, Option.bind_some, read_plus h2, Option.map_some], a, Nat.le_refl _⟩
  | write i x =>
    simp only [Pointer.exec] at e ⊢
    simp only [Option.bind_eq_some_iff, Option.map_eq_some_iff] at e
    obtain ⟨p, h1, q, h2, r, h3, h4⟩ := e
    cases h4
    obtain ⟨f, a', n⟩ := write_plus a h3
    exact ⟨by simp only [h1, Option.bind_some, h2, f, Option.map_some], a', by rw [n]; exact Nat.le_refl _⟩
  | back =>
    simp only [Pointer.exec] at e ⊢
    simp only [Option.bind_eq_some_iff, Option.map_eq_some_iff] at e
    obtain ⟨p, h1, r, h2, h3⟩ := e
    cases h3
    exact ⟨by simp only [h1, Option.bind_some, read_plus h2, Option.map_some], a, Nat.le_refl _⟩
  | addTerm k i => cases e; exact ⟨rfl, a, Nat.le_refl _⟩
  | removeIndex i =>
    simp only [Pointer.exec, PV.removeIndex] at e ⊢
    simp only [Option.map_eq_some_iff] at e
    obtain ⟨⟨m2, h2⟩, e, h3⟩ := e
    cases h3
    split at e
    · rename_i hs
      cases e
      exact ⟨by rw [if_pos hs]; rfl, a, Nat.le_refl _⟩
    · rename_i hs
      simp only [Option.bind_eq_some_iff, Option.map_eq_some_iff] at e
      obtain ⟨⟨d, h3⟩, e1, ind, e2, h4⟩ := e
      cases h4
      obtain ⟨f, a', n⟩ := eraseAt_plus a e1
      exact ⟨by rw [if_neg hs]; simp only [f, Option.bind_some, e2, Option.map_some], a',
        by rw [n]; exact Nat.le_refl _⟩
  | remove k =>
    simp only [Pointer.exec, PV.remove] at e ⊢
    simp only [Option.map_eq_some_iff] at e
    obtain ⟨⟨m2, h2⟩, e, h3⟩ := e
    cases h3
    cases hf : FMap.find m.lookup k with
    | none =>
      simp only [hf, Option.some.injEq] at e
      cases e
      exact ⟨rfl, a, Nat.le_refl _⟩
    | some i =>
      simp only [hf, Option.map_eq_some_iff] at e
      obtain ⟨⟨d, h3⟩, e, h4⟩ := e
      cases h4
      obtain ⟨f, a', n⟩ := eraseAt_plus a e
      exact ⟨by simp only [f, Option.map_some], a', by rw [n]; exact Nat.le_refl _⟩
  | apply =>
    simp only [Pointer.exec] at e ⊢
    simp only [Option.map_eq_some_iff] at e
    obtain ⟨xs, h1, h2⟩ := e
    cases h2
    exact ⟨by simp only [readAll_plus h1, Option.map_some], a, Nat.le_refl _⟩
  | size => cases e; exact ⟨rfl, a, Nat.le_refl _⟩
  | clear =>
    simp only [Pointer.exec, PV.clear] at e ⊢
    simp only [Option.map_eq_some_iff] at e
    obtain ⟨⟨m2, h2⟩, ⟨h3, e, h4⟩, h5⟩ := e
    cases h4
    cases h5
    obtain ⟨f, a', n⟩ := deleteAll_plus a e
    exact ⟨by simp only [f, Option.map_some], a', by rw [n]; exact Nat.le_refl _⟩

end mapped

section dual
variable {K1 K2 : Type} [DecidableEq K1] [DecidableEq K2] {E : DualPtr.Env K1 K2}

omit [DecidableEq K1] [DecidableEq K2] in
theorem assignAt_plus2 (a : Apart h ext) {m m' : DPV K1 K2} {i : Nat} {p : Option Nat} (e : m.assignAt h i p = some (m', h')) :
    m.assignAt (plus h ext) i p = some (m', plus h' ext) ∧ Apart h' ext ∧ h'.next = h.next := by
  simp only [DPV.assignAt, Option.bind_eq_some_iff, Option.map_eq_some_iff] at e
  obtain ⟨old, h1, h2, h3, h4⟩ := e
  cases h4
  obtain ⟨f, a', n⟩ := delete_plus a h3
  exact ⟨by simp only [DPV.assignAt, h1, Option.bind_some, f, Option.map_some], a', n⟩

omit [DecidableEq K1] [DecidableEq K2] in
theorem eraseAt_plus2 (a : Apart h ext) {m : DPV K1 K2} {i : Nat} {d : List (Option Nat)} (e : m.eraseAt h i = some (d, h')) :
    m.eraseAt (plus h ext) i = some (d, plus h' ext) ∧ Apart h' ext ∧ h'.next = h.next := by
  simp only [DPV.eraseAt, Option.bind_eq_some_iff, Option.map_eq_some_iff] at e
  obtain ⟨old, h1, h2, h3, h4⟩ := e
  cases h4
  obtain ⟨f, a', n⟩ := delete_plus a h3
  exact ⟨by simp only [DPV.eraseAt, h1, Option.bind_some, f, Option.map_some], a', n⟩

theorem removeIndex_plus2 (a : Apart h ext) {m m' : DPV K1 K2} {i : Nat} (e : m.removeIndex E h i = some (m', h')) :
    m.removeIndex E (plus h ext) i = some (m', plus h' ext) ∧ Apart h' ext ∧ h'.next = h.next := by
  simp only [DPV.removeIndex] at e ⊢
  split at e
  · rename_i hs
    cases e
    exact ⟨by rw [if_pos hs], a, rfl⟩
  · rename_i hs
    simp only [Option.bind_eq_some_iff, Option.map_eq_some_iff] at e
    obtain ⟨⟨d, h3⟩, e1, l1, e2, l2, e3, h4⟩ := e
    cases h4
    obtain ⟨f, a', n⟩ := eraseAt_plus2 a e1
    exact ⟨by rw [if_neg hs]; simp only [f, Option.bind_some, e2, e3, Option.map_some], a', n⟩

theorem framed_dual : Framed (Code.dual (V := V) E).exec := by
  intro m h c m' h' o ext e a
  simp only [Code.dual, Option.map_eq_some_iff] at e ⊢
  obtain ⟨⟨⟨m1, h1⟩, o1⟩, e, h2⟩ := e
  cases h2
  suffices DualPtr.exec E ⟨m, plus h ext⟩ c = some (⟨m1, plus h1 ext⟩, o1) ∧ Apart h1 ext ∧ h.next ≤ h1.next from
    ⟨⟨_, this.1, rfl⟩, this.2⟩
  cases c with
  | insertPtr k1 k2 x =>
    simp only [DualPtr.exec] at e ⊢
    simp only [Option.map_eq_some_iff] at e
    obtain ⟨h2, e, h3⟩ := e
    cases h3
    rw [makeOpt_plus]
    split at e
    · rename_i hs
      cases e
      exact ⟨by rw [if_pos hs]; rfl, a.makeOpt x, makeOpt_next _ _⟩
    · rename_i hs
      obtain ⟨f, a', n⟩ := delete_plus (a.makeOpt x) e
      exact ⟨by rw [if_neg hs, f]; rfl, a', by rw [n]; exact makeOpt_next _ _⟩
  | insert k1 k2 x =>
    simp only [DualPtr.exec, DPV.insert] at e ⊢
    split at e
    · rename_i hs
      cases e
      exact ⟨by rw [if_pos hs], a, Nat.le_refl _⟩
    · rename_i hs
      cases e
      exact ⟨by rw [if_neg hs, make_plus], a.make x, Nat.le_succ _⟩
  | insertOne k x =>
    cases k with
    | inl k =>
      simp only [DualPtr.exec, DPV.insert1] at e ⊢
      split at e
      · rename_i hs
        cases e
        exact ⟨by rw [if_pos hs], a, Nat.le_refl _⟩
      · rename_i hs
        cases e
        exact ⟨by rw [if_neg hs, make_plus], a.make x, Nat.le_succ _⟩
    | inr k =>
      simp only [DualPtr.exec, DPV.insert2] at e ⊢
      split at e
      · rename_i hs
        cases e
        exact ⟨by rw [if_pos hs], a, Nat.le_refl _⟩
      · rename_i hs
        cases e
        exact ⟨by rw [if_neg hs, make_plus], a.make x, Nat.le_succ _⟩
  | assignPtr k1 k2 x =>
    simp only [DualPtr.exec, DPV.insertOrAssignPtr] at e ⊢
    simp only [Option.map_eq_some_iff] at e
    obtain ⟨⟨m2, h2, i2⟩, e, h3⟩ := e
    cases h3
    rw [makeOpt_plus]
    cases hf : m.common k1 k2 with
    | some i =>
      simp only [hf, Option.map_eq_some_iff] at e
      obtain ⟨⟨m3, h3⟩, e, h4⟩ := e
      cases h4
      obtain ⟨f, a', n⟩ := assignAt_plus2 (a.makeOpt x) e
      exact ⟨by simp only [f, Option.map_some], a', by rw [n]; exact makeOpt_next _ _⟩
    | none =>
      simp only [hf, Option.some.injEq] at e
      cases e
      exact ⟨rfl, a.makeOpt x, makeOpt_next _ _⟩
  | assign k1 k2 x =>
    simp only [DualPtr.exec, DPV.insertOrAssign] at e ⊢
    simp only [Option.map_eq_some_iff] at e
    obtain ⟨⟨m2, h2, i2⟩, e, h3⟩ := e
    cases h3
    rw [make_plus]
    cases hf : m.common k1 k2 with
    | some i =>
      simp only [hf, Option.map_eq_some_iff] at e
      obtain ⟨⟨m3, h3⟩, e, h4⟩ := e
      cases h4
      obtain ⟨f, a', n⟩ := assignAt_plus2 (a.make x) e
      exact ⟨by simp only [f, Option.map_some], a', by rw [n]; exact Nat.le_succ _⟩
    | none =>
      simp only [hf, Option.some.injEq] at e
      cases e
      exact ⟨rfl, a.make x, Nat.le_succ _⟩
  | assignOne k x =>
    cases k with
    | inl k =>
      simp only [DualPtr.exec, DPV.insertOrAssign1] at e ⊢
      simp only [Option.map_eq_some_iff] at e
      obtain ⟨⟨m2, h2, i2⟩, e, h3⟩ := e
      cases h3
      rw [make_plus]
      cases hf : FMap.find m.lookup1 k with
      | some i =>
        simp only [hf, Option.map_eq_some_iff] at e
        obtain ⟨⟨m3, h3⟩, e, h4⟩ := e
        cases h4
        obtain ⟨f, a', n⟩ := assignAt_plus2 (a.make x) e
        exact ⟨by simp only [f, Option.map_some], a', by rw [n]; exact Nat.le_succ _⟩
      | none =>
        simp only [hf, Option.some.injEq] at e
        cases e
        exact ⟨rfl, a.make x, Nat.le_succ _⟩
    | inr k =>
      simp only [DualPtr.exec, DPV.insertOrAssign2] at e ⊢
      simp only [Option.map_eq_some_iff] at e
      obtain ⟨⟨m2, h2, i2⟩, e, h3⟩ := e
      cases h3
      rw [make_plus]
      cases hf : FMap.find m.lookup2 k with
      | some i =>
        simp only [hf, Option.map_eq_some_iff] at e
        obtain ⟨⟨m3, h3⟩, e, h4⟩ := e
        cases h4
        obtain ⟨f, a', n⟩ := assignAt_plus2 (a.make x) e
        exact ⟨by simp only [f, Option.map_some], a', by rw [n]; exact Nat.le_succ _⟩
      | none =>
        simp only [hf, Option.some.injEq] at e
        cases e
        exact ⟨rfl, a.make x, Nat.le_succ _⟩
  | find k =>
    cases k <;>
    · simp only [DualPtr.exec] at e ⊢
      simp only [Option.bind_eq_some_iff, Option.map_eq_some_iff] at e
      obtain ⟨p, h1, r, h2, h3⟩ := e
      cases h3
      exact ⟨by simp only [h1, Option.bind_some, read_plus h2, Option.map_some], a, Nat.le_refl _⟩
  | get i =>
    simp only [DualPtr.exec] at e ⊢
    simp only [Option.bind_eq_some_iff, Option.map_eq_some_iff] at e
    obtain ⟨p, h1, r, h2, h3⟩ := e
    cases h3
    exact ⟨by simp only [h1, Option.bind_some, read_plus h2, Option.map_some], a, Nat.le_refl _⟩
  | write i x =>
    simp only [DualPtr.exec] at e ⊢
    simp only [Option.bind_eq_some_iff, Option.map_eq_some_iff] at e
    obtain ⟨p, h1, q, h2, r, h3, h4⟩ := e
    cases h4
    obtain ⟨f, a', n⟩ := write_plus a h3
    exact ⟨by simp only [h1, Option.bind_some, h2, f, Option.map_some], a', by rw [n]; exact Nat.le_refl _⟩
  | back =>
    simp only [DualPtr.exec] at e ⊢
    simp only [Option.bind_eq_some_iff, Option.map_eq_some_iff] at e
    obtain ⟨p, h1, r, h2, h3⟩ := e
    cases h3
    exact ⟨by simp only [h1, Option.bind_some, read_plus h2, Option.map_some], a, Nat.le_refl _⟩
  | removeIndex i =>
    simp only [DualPtr.exec] at e ⊢
    simp only [Option.map_eq_some_iff] at e
    obtain ⟨⟨m2, h2⟩, e, h3⟩ := e
    cases h3
    obtain ⟨f, a', n⟩ := removeIndex_plus2 a e
    exact ⟨by simp only [f, Option.map_some], a', by rw [n]; exact Nat.le_refl _⟩
  | remove k =>
    cases k with
    | inl k =>
      simp only [DualPtr.exec, DPV.remove1] at e ⊢
      simp only [Option.map_eq_some_iff] at e
      obtain ⟨⟨m2, h2⟩, e, h3⟩ := e
      cases h3
      cases hf : FMap.find m.lookup1 k with
      | none =>
        simp only [hf, Option.some.injEq] at e
        cases e
        exact ⟨rfl, a, Nat.le_refl _⟩
      | some i =>
        simp only [hf, Option.bind_eq_some_iff, Option.map_eq_some_iff] at e
        obtain ⟨⟨d, h3⟩, e, l2, e2, h4⟩ := e
        cases h4
        obtain ⟨f, a', n⟩ := eraseAt_plus2 a e
        exact ⟨by simp only [f, Option.bind_some, e2, Option.map_some], a', by rw [n]; exact Nat.le_refl _⟩
    | inr k =>
      simp only [DualPtr.exec, DPV.remove2] at e ⊢
      simp only [Option.map_eq_some_iff] at e
      obtain ⟨⟨m2, h2⟩, e, h3⟩ := e
      cases h3
      cases hf : FMap.find m.lookup2 k with
      | none =>
        simp only [hf, Option.some.injEq] at e
        cases e
        exact ⟨rfl, a, Nat.le_refl _⟩
      | some i =>
        simp only [hf, Option.bind_eq_some_iff, Option.map_eq_some_iff] at e
        obtain ⟨⟨d, h3⟩, e, l2, e2, h4⟩ := e
        cases h4
        obtain ⟨f, a', n⟩ := eraseAt_plus2 a e
        exact ⟨by simp only [f, Option.bind_some, e2, Option.map_some], a', by rw [n]; exact Nat.le_refl _⟩
  | apply =>
    simp only [DualPtr.exec] at e ⊢
    simp only [Option.map_eq_some_iff] at e
    obtain ⟨xs, h1, h2⟩ := e
    cases h2
    exact ⟨by simp only [readAll_plus h1, Option.map_some], a, Nat.le_refl _⟩
  | size => cases e; exact ⟨rfl, a, Nat.le_refl _⟩
  | clear =>
    simp only [DualPtr.exec, DPV.clear] at e ⊢
    simp only [Option.map_eq_some_iff] at e
    obtain ⟨⟨m2, h2⟩, ⟨h3, e, h4⟩, h5⟩ := e
    cases h4
    cases h5
    obtain ⟨f, a', n⟩ := deleteAll_plus a e
    exact ⟨by simp only [f, Option.map_some], a', by rw [n]; exact Nat.le_refl _⟩

end dual
end Verif.Mapped.SeveralPtr
