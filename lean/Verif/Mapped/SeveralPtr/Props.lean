import Verif.Mapped.SeveralPtr.Lemmas

/-
Moves and lifetimes of MappedPointerVector and DualMappedPointerVector objects: property C75.
-/
namespace Verif.Mapped.SeveralPtr
open Verif.Mapped
open Verif.Mapped.Pointer (Obs)

variable {K K1 K2 V : Type} [DecidableEq K] [DecidableEq K1] [DecidableEq K2]

/-- No containers and no objects yet. -/
def nothing {K V : Type} : AWorld K V := ⟨fun _ => none, 0⟩

/-- several MappedPointerVector objects -/
def runMapped (I : MapImpl K) (unset : Option K) (left : FMap K → FMap K) (ops : List (Op (Pointer.Op K V))) :=
  run (Code.mapped I unset) left World.init ops

/-- several DualMappedPointerVector objects -/
def runDual (E : DualPtr.Env K1 K2) (left : FMap K1 × FMap K2 → FMap K1 × FMap K2)
    (ops : List (Op (DualPtr.Op K1 K2 V))) :=
  run (Code.dual E) left World.init ops

/-- The heap holds exactly the objects of the elements of the containers: every element's object exists, with its value,
every object belongs to an element, and no two elements of one or of different containers share an object. -/
structure Owned {P K V : Type} (w : World P V) (a : AWorld K V) : Prop where
  objects : ∀ p x, w.heap.val p = some x ↔ ∃ i t, a.objs i = some t ∧ ∃ e ∈ t.entries, e.obj = some (p, x)
  unshared : ∀ (i j k l p : Nat) (x y : V) (s t : AObj K V), a.objs i = some s → a.objs j = some t →
    (s.entries[k]?).bind (·.obj) = some (p, x) → (t.entries[l]?).bind (·.obj) = some (p, y) → i = j ∧ k = l

/-! ## C75: a move transfers the elements and their objects -/

/-- Programs over MappedPointerVector objects: whatever a moved-from map contains, the code is defined and every
observation is that of independent ideal containers between which a move transfers the elements.  Pointers are compared
as objects: the object of an element is the same before and after a move of its container.
Missing: removals of elements with several search terms or of elements without one (C38), and lookups in a moved-from
container. -/
theorem mapped_partial (I : MapImpl K) (unset : Option K) (left : FMap K → FMap K) (ops : List (Op (Pointer.Op K V)))
    (aw : AWorld K V) (os : List (Obs V)) (h : idealRun (Spec.mapped unset) nothing ops = some (aw, os))
    (hc : carefulRun (Spec.mapped unset) nothing ops = true) :
    ∃ w, runMapped I unset left ops = some (w, os) ∧ Owned w aw := by
  obtain ⟨w, parts, e, v⟩ := simulate (mappedLaws I unset) left ops Inv.empty hc h
  exact ⟨w, e, v.objects (mappedLaws I unset), fun i j k l p x y s t => v.unshared (mappedLaws I unset)⟩

/-- The same for DualMappedPointerVector objects.
Missing: what the property of the single container excludes (C44), and lookups in a moved-from container. -/
theorem dual_partial (E : DualPtr.Env K1 K2) (left : FMap K1 × FMap K2 → FMap K1 × FMap K2)
    (ops : List (Op (DualPtr.Op K1 K2 V))) (aw : AWorld (K1 ⊕ K2) V) (os : List (Obs V))
    (h : idealRun (Spec.dual E) nothing ops = some (aw, os)) (hc : carefulRun (Spec.dual E) nothing ops = true) :
    ∃ w, runDual E left ops = some (w, os) ∧ Owned w aw := by
  obtain ⟨w, parts, e, v⟩ := simulate (dualLaws E) left ops Inv.empty hc h
  exact ⟨w, e, v.objects (dualLaws E), fun i j k l p x y s t => v.unshared (dualLaws E)⟩

/-- Nothing leaks: when all containers are destroyed no object is left. -/
theorem Owned.none_left {P K V : Type} {w : World P V} {a : AWorld K V} (o : Owned w a) (h : ∀ i, a.objs i = none) (p : Nat) :
    w.heap.val p = none := by
  cases e : w.heap.val p with
  | none => rfl
  | some x =>
    obtain ⟨i, t, ht, _⟩ := (o.objects p x).1 e
    rw [h i] at ht; cases ht

/-- Programs without remove and removeIndex that only use containers that have not been moved from. -/
def plain {K V : Type} : List Nat → List (Op (Pointer.Op K V)) → Bool
  | _, [] => true
  | gone, .new i :: ops => plain (gone.filter (· ≠ i)) ops
  | gone, .moveNew i j :: ops => !gone.contains j && plain (j :: gone.filter (· ≠ i)) ops
  | gone, .moveAssign i j :: ops => !gone.contains j && plain (j :: gone.filter (· ≠ i)) ops
  | gone, .destroy _ :: ops => plain gone ops
  | gone, .call i c :: ops => !gone.contains i &&
      (match c with | .remove _ | .removeIndex _ => false | _ => true) && plain gone ops

/-- `gone` lists at least the moved-from containers -/
theorem plain_careful (unset : Option K) (ops : List (Op (Pointer.Op K V))) : ∀ (gone : List Nat) (a a' : AWorld K V) os,
    (∀ i t, a.objs i = some t → t.moved = true → i ∈ gone) → idealRun (Spec.mapped unset) a ops = some (a', os) →
    plain gone ops = true → carefulRun (Spec.mapped unset) a ops = true := by
  induction ops with
  | nil => intros; rfl
  | cons op ops ih =>
    intro gone a a' os hg h hp
    simp only [idealRun, Option.bind_eq_some_iff, Option.map_eq_some_iff] at h
    obtain ⟨⟨a1, o⟩, h1, ⟨a2, os2⟩, h2, h3⟩ := h
    simp only [carefulRun, h1, Bool.and_eq_true]
    cases op with
    | new i =>
      refine ⟨rfl, ih _ a1 a2 os2 ?_ h2 hp⟩
      simp only [ideal] at h1
      split at h1 <;> [skip; cases h1]
      cases h1
      intro k t ht hm
      by_cases hk : k = i
      · subst hk; simp only [upd_same] at ht; cases ht; cases hm
      · simp only [upd_other _ _ hk] at ht
        simp [hg k t ht hm, hk]
    | moveNew i j =>
      simp only [plain, Bool.and_eq_true] at hp
      simp only [ideal] at h1
      split at h1 <;> [skip; cases h1]
      simp only [Option.map_eq_some_iff] at h1
      obtain ⟨b, hb, h1⟩ := h1
      cases h1
      have hm : b.moved = false := by
        cases e : b.moved with
        | false => rfl
        | true => have := hg j b hb e; simp [this] at hp
      refine ⟨by simp [careful, hb, hm], ih _ _ a2 os2 ?_ h2 hp.2⟩
      intro k t ht hm'
      by_cases hk : k = j
      · simp [hk]
      · by_cases hi : k = i
        · subst hi; simp only [upd_other _ _ hk, upd_same] at ht; cases ht; rw [hm] at hm'; cases hm'
        · simp only [upd_other _ _ hk, upd_other _ _ hi] at ht
          simp [hg k t ht hm', hi]
    | moveAssign i j =>
      simp only [plain, Bool.and_eq_true] at hp
      simp only [ideal] at h1
      split at h1 <;> [cases h1; skip]
      simp only [Option.map_eq_some_iff, Option.bind_eq_some_iff] at h1
      obtain ⟨_, _, b, hb, h1⟩ := h1
      cases h1
      have hm : b.moved = false := by
        cases e : b.moved with
        | false => rfl
        | true => have := hg j b hb e; simp [this] at hp
      refine ⟨by simp [careful, hb, hm], ih _ _ a2 os2 ?_ h2 hp.2⟩
      intro k t ht hm'
      by_cases hk : k = j
      · simp [hk]
      · by_cases hi : k = i
        · subst hi; simp only [upd_other _ _ hk, upd_same] at ht; cases ht; rw [hm] at hm'; cases hm'
        · simp only [upd_other _ _ hk, upd_other _ _ hi] at ht
          simp [hg k t ht hm', hi]
    | destroy i =>
      simp only [ideal, Option.map_eq_some_iff] at h1
      obtain ⟨b, hb, h1⟩ := h1
      cases h1
      refine ⟨rfl, ih gone _ a2 os2 ?_ h2 hp⟩
      intro k t ht hm'
      by_cases hk : k = i
      · subst hk; simp only [upd_same] at ht; cases ht
      · simp only [upd_other _ _ hk] at ht; exact hg k t ht hm'
    | call i c =>
      simp only [plain, Bool.and_eq_true] at hp
      simp only [ideal, Option.map_eq_some_iff, Option.bind_eq_some_iff] at h1
      obtain ⟨b, hb, r, _, h1⟩ := h1
      cases h1
      have hm : b.moved = false := by
        cases e : b.moved with
        | false => rfl
        | true => have := hg i b hb e; simp [this] at hp
      refine ⟨?_, ih gone _ a2 os2 ?_ h2 hp.2⟩
      · simp only [careful, hb, Option.any_some, hm, Bool.false_eq_true, if_false]
        cases c <;> simp_all [Spec.mapped, Pointer.careful]
      · intro k t ht hm'
        by_cases hk : k = i
        · subst hk; simp only [upd_same] at ht; cases ht; simp [hm] at hm'
        · simp only [upd_other _ _ hk] at ht; exact hg k t ht hm'

/-- Without removals of single elements, and with moved-from containers only destroyed and assigned to, nothing else is
excluded. -/
theorem mapped_no_removal (I : MapImpl K) (unset : Option K) (left : FMap K → FMap K) (ops : List (Op (Pointer.Op K V)))
    (aw : AWorld K V) (os : List (Obs V)) (h : idealRun (Spec.mapped unset) nothing ops = some (aw, os))
    (hp : plain [] ops = true) : ∃ w, runMapped I unset left ops = some (w, os) ∧ Owned w aw :=
  mapped_partial I unset left ops aw os h (plain_careful unset ops [] nothing aw os (by simp [nothing]) h hp)

/-- A program with moves: the object of the element "1" of container 0 is found, under its name 0, in the containers the
element moves to; a moved-from container is cleared and used again. -/
def demo : List (Op (Pointer.Op Nat Nat)) :=
  [.new 0, .call 0 (.insert 1 10), .call 0 (.insert 2 20), .moveNew 1 0, .call 0 .size, .call 0 (.get 0), .call 1 (.find 1),
   .call 0 .clear, .call 0 (.find 1), .call 0 (.insert 1 30), .call 1 (.write 0 11), .call 0 (.find 1), .call 1 (.find 1),
   .moveAssign 0 1, .call 0 (.find 1), .call 0 .apply, .destroy 1, .call 0 (.remove 1), .call 0 (.find 2), .destroy 0]

def demoObs : List (Obs Nat) :=
  [.done, .index (some 0), .index (some 1), .done, .num 0, .ptr none, .ptr (some (0, 10)),
   .done, .ptr none, .index (some 0), .done, .ptr (some (2, 30)), .ptr (some (0, 11)),
   .done, .ptr (some (0, 11)), .ptrs [some (0, 11), some (1, 20)], .done, .done, .ptr (some (1, 20)), .done]

example : (idealRun (Spec.mapped none) nothing demo).map (·.2) = some demoObs := by decide +kernel
example : carefulRun (Spec.mapped none) nothing demo = true := by decide +kernel
example : (runMapped MapImpl.atEnd none id demo).map (·.2) = some demoObs := by decide +kernel

/-- A program without removals. -/
def demoPlain : List (Op (Pointer.Op Nat Nat)) :=
  [.new 0, .new 2, .call 0 (.insert 1 10), .call 2 (.insertNoKey 5), .moveNew 1 0, .moveAssign 2 1, .call 2 (.find 1), .destroy 2]

example : plain [] demoPlain = true := by decide +kernel
example : (idealRun (Spec.mapped none) nothing demoPlain).map (·.2) =
    some [.done, .done, .index (some 0), .index (some 0), .done, .done, .ptr (some (0, 10)), .done] := by decide +kernel

/-- The same for two search types. -/
def demo2 : List (Op (DualPtr.Op Nat Nat Nat)) :=
  [.new 0, .call 0 (.insert 1 7 10), .call 0 (.insertOne (.inl 2) 20), .moveNew 1 0, .call 1 (.find (.inr 7)),
   .call 0 .clear, .call 0 (.insert 1 7 30), .call 1 (.find (.inl 1)), .moveAssign 1 0, .call 1 (.find (.inr 7)),
   .call 1 (.find (.inl 2)), .destroy 0, .destroy 1]

def demo2Obs : List (Obs Nat) :=
  [.done, .index (some 0), .index (some 1), .done, .ptr (some (0, 10)), .done, .index (some 0), .ptr (some (0, 10)), .done,
   .ptr (some (2, 30)), .ptr none, .done, .done]

/-- two integer search types -/
def env : DualPtr.Env Nat Nat := ⟨MapImpl.atEnd, MapImpl.atFront, none, none⟩

example : (idealRun (Spec.dual env) nothing demo2).map (·.2) = some demo2Obs := by decide +kernel
example : carefulRun (Spec.dual env) nothing demo2 = true := by decide +kernel

/-- The exclusion of lookups in a moved-from container: if the moved-from map keeps its entries, as the standard allows,
`find` of a key that was there reads past the end of the empty vector, and `insert` of such a key is refused although
the container has no elements. -/
theorem moved_from_violation :
    runMapped (K := Nat) (V := Nat) MapImpl.atEnd none id [.new 0, .call 0 (.insert 1 10), .moveNew 1 0, .call 0 (.find 1)] = none ∧
    (runMapped (K := Nat) (V := Nat) MapImpl.atEnd none id
      [.new 0, .call 0 (.insert 1 10), .moveNew 1 0, .call 0 .size, .call 0 (.insert 1 20)]).map (·.2) =
      some [.done, .index (some 0), .done, .num 0, .index none] := by decide +kernel

end Verif.Mapped.SeveralPtr
