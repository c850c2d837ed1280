import Verif.Mapped.SeveralStr.Lemmas
import Verif.Mapped.Str.Props
import Verif.Mapped.DualStr.Props

/-
Copies, moves and lifetimes of StringMappedVector and DualStringMappedVector objects: property C127.
-/
namespace Verif.Mapped.SeveralStr
open Verif.Mapped Verif.Block
open Verif.Mapped.Vector (Ideal Obs)
open Verif.Mapped.Several (Op AWorld AObj Multi Laws put vectors stables vectorsLaws stablesLaws)
open Verif.Mapped.Str (View)
open Verif.Block.Vector (Vec upd upd_ne)

variable {K2 V : Type} [DecidableEq K2]

/-- No objects yet. -/
def noObjs {K V : Type} : AWorld K V := fun _ => none

/-! ### The four kinds of objects -/

/-- several `StringMappedVector<V, unstable, N>` objects -/
def runMapped (N : Nat) (impl : MapImpl View) (hash : String → Nat) (left : FMap View → FMap View)
    (ops : List (Op (Str.Op V))) := program (vectors V) N (Code.mapped (Str.unstableEnv N impl hash)) left ops

/-- the program stays within what the code handles (Spec.lean) -/
def carefulMapped (N : Nat) (impl : MapImpl View) (hash : String → Nat) (left : FMap View → FMap View)
    (ops : List (Op (Str.Op V))) : Bool :=
  carefulRun (vectors V) N (Code.mapped (Str.unstableEnv N impl hash)) left .unstable (specMapped .unstable)
    (World.empty (vectors V) (Code.mapped (Str.unstableEnv N impl hash))) noObjs [] ops

/-- several `StringMappedVector<V, stable, N>` objects -/
def runMappedStable (N : Nat) (impl : MapImpl View) (hash : String → Nat) (left : FMap View → FMap View)
    (ops : List (Op (Str.Op V))) := program (stables N V) N (Code.mapped (Str.stableEnv N impl hash)) left ops

def carefulMappedStable (N : Nat) (impl : MapImpl View) (hash : String → Nat) (left : FMap View → FMap View)
    (ops : List (Op (Str.Op V))) : Bool :=
  carefulRun (stables N V) N (Code.mapped (Str.stableEnv N impl hash)) left (.stable N) (specMapped (.stable N))
    (World.empty (stables N V) (Code.mapped (Str.stableEnv N impl hash))) noObjs [] ops

/-- several `DualStringMappedVector<V, K2, unstable, N>` objects -/
def runDual (N : Nat) (i1 : MapImpl View) (i2 : MapImpl K2) (hash : String → Nat)
    (left : FMap View × FMap K2 → FMap View × FMap K2) (ops : List (Op (DualStr.Op K2 V))) :=
  program (vectors V) N (Code.dual (DualStr.unstableEnv N i1 i2 hash)) left ops

def carefulDual (N : Nat) (i1 : MapImpl View) (i2 : MapImpl K2) (hash : String → Nat)
    (left : FMap View × FMap K2 → FMap View × FMap K2) (ops : List (Op (DualStr.Op K2 V))) : Bool :=
  carefulRun (vectors V) N (Code.dual (DualStr.unstableEnv N i1 i2 hash)) left .unstable (specDual N .unstable)
    (World.empty (vectors V) (Code.dual (DualStr.unstableEnv N i1 i2 hash))) noObjs [] ops

/-- several `DualStringMappedVector<V, K2, stable, N>` objects -/
def runDualStable (N : Nat) (i1 : MapImpl View) (i2 : MapImpl K2) (hash : String → Nat)
    (left : FMap View × FMap K2 → FMap View × FMap K2) (ops : List (Op (DualStr.Op K2 V))) :=
  program (stables N V) N (Code.dual (DualStr.stableEnv N i1 i2 hash)) left ops

def carefulDualStable (N : Nat) (i1 : MapImpl View) (i2 : MapImpl K2) (hash : String → Nat)
    (left : FMap View × FMap K2 → FMap View × FMap K2) (ops : List (Op (DualStr.Op K2 V))) : Bool :=
  carefulRun (stables N V) N (Code.dual (DualStr.stableEnv N i1 i2 hash)) left (.stable N) (specDual N (.stable N))
    (World.empty (stables N V) (Code.dual (DualStr.stableEnv N i1 i2 hash))) noObjs [] ops

/-! ## C127: copies are independent, moves transfer, nothing leaks -/

section
variable {S T H K M C : Type} {N : Nat} {hash : String → Nat} {μ : Multi S T H} {st : Store S V} {kind : Kind}
  {code : Code S M C V} {sp : Several.Spec K V C} {Λ : Laws μ st kind} {Γ : Calls N hash st kind code sp}

omit [DecidableEq K2] in
/-- when no object is left, neither is a string -/
theorem Inv.none_left {w : World T M H} {aw : AWorld K V} {ls : Loans} {an : Block.Vector.AWorld String}
    {us fs : Nat → List Nat} (v : Inv Λ Γ w aw ls an us fs) (hn : ∀ i, aw i = none) (b : Nat) : w.strings.live b = false := by
  cases hl : w.strings.live b with
  | false => rfl
  | true =>
    obtain ⟨i, hi⟩ := v.names.noleak b hl
    obtain ⟨_, h1, h2⟩ := v.names.getNone (i := i) (v.an_none (hn i))
    rw [h1, h2] at hi; simp at hi
end

/-- no element is left either (stable storage) -/
theorem elements_left {N : Nat} {o : Nat → Option Vec} {h : Heap V} {b : Block.Vector.AWorld V}
    (w : (stablesLaws N V).WI o h b) (hn : ∀ i, b i = none) (x : Nat) : h.live x = false := by
  obtain ⟨us, fs, W⟩ := w
  cases hl : h.live x with
  | false => rfl
  | true =>
    obtain ⟨i, hi⟩ := W.noleak x hl
    obtain ⟨_, h1, h2⟩ := W.getNone (i := i) (hn i)
    rw [h1, h2] at hi; simp at hi

/-- Programs over StringMappedVector objects with vector storage: whatever a moved-from map contains, every observation
is that of independent ideal containers, and when all objects are destroyed no string is left over.
Missing: programs that destroy, or assign to, an object while keys of a copy may refer to its strings; copies while the
stored strings exactly fill their block slots; what C39 excludes. -/
theorem mapped_unstable_partial (N : Nat) (impl : MapImpl View) (hash : String → Nat) (left : FMap View → FMap View)
    (ops : List (Op (Str.Op V))) (aw : AWorld String V) (os : List (Obs V))
    (h : Several.idealRun .unstable (specMapped .unstable) noObjs ops = some (aw, os))
    (hc : carefulMapped N impl hash left ops = true) :
    ∃ w, runMapped N impl hash left ops = some (w, os) ∧ ((∀ i, aw i = none) → ∀ b, w.strings.live b = false) := by
  obtain ⟨w, ls, an, us, fs, e, v⟩ := simulate (Λ := vectorsLaws V) (Γ := mappedCalls (Str.unstableEnv N impl hash) .unstable)
    left ops (Inv.empty _ _) hc h
  exact ⟨w, e, v.none_left⟩

/-- The same with stable storage; when all objects are destroyed no memory of elements is left over either. -/
theorem mapped_stable_partial (N : Nat) (impl : MapImpl View) (hash : String → Nat) (left : FMap View → FMap View)
    (ops : List (Op (Str.Op V))) (aw : AWorld String V) (os : List (Obs V))
    (h : Several.idealRun (.stable N) (specMapped (.stable N)) noObjs ops = some (aw, os))
    (hc : carefulMappedStable N impl hash left ops = true) :
    ∃ w, runMappedStable N impl hash left ops = some (w, os) ∧
      ((∀ i, aw i = none) → ∀ b, w.strings.live b = false ∧ w.mem.live b = false) := by
  obtain ⟨w, ls, an, us, fs, e, v⟩ := simulate (Λ := stablesLaws N V) (Γ := mappedCalls (Str.stableEnv N impl hash) (.stable N))
    left ops (Inv.empty _ _) hc h
  exact ⟨w, e, fun hn b => ⟨v.none_left hn b, elements_left v.store (fun i => by simp [hn i]) b⟩⟩

/-- DualStringMappedVector, vector storage.  Missing: as for `mapped_unstable_partial`, and what C43 excludes. -/
theorem dual_unstable_partial (N : Nat) (i1 : MapImpl View) (i2 : MapImpl K2) (hash : String → Nat)
    (left : FMap View × FMap K2 → FMap View × FMap K2) (ops : List (Op (DualStr.Op K2 V))) (aw : AWorld (String ⊕ K2) V)
    (os : List (Obs V))
    (h : Several.idealRun .unstable (specDual N .unstable) noObjs ops = some (aw, os))
    (hc : carefulDual N i1 i2 hash left ops = true) :
    ∃ w, runDual N i1 i2 hash left ops = some (w, os) ∧ ((∀ i, aw i = none) → ∀ b, w.strings.live b = false) := by
  obtain ⟨w, ls, an, us, fs, e, v⟩ := simulate (Λ := vectorsLaws V)
    (Γ := dualCalls (DualStr.unstableEnv N i1 i2 hash) .unstable) left ops (Inv.empty _ _) hc h
  exact ⟨w, e, v.none_left⟩

/-- DualStringMappedVector, stable storage. -/
theorem dual_stable_partial (N : Nat) (i1 : MapImpl View) (i2 : MapImpl K2) (hash : String → Nat)
    (left : FMap View × FMap K2 → FMap View × FMap K2) (ops : List (Op (DualStr.Op K2 V))) (aw : AWorld (String ⊕ K2) V)
    (os : List (Obs V))
    (h : Several.idealRun (.stable N) (specDual N (.stable N)) noObjs ops = some (aw, os))
    (hc : carefulDualStable N i1 i2 hash left ops = true) :
    ∃ w, runDualStable N i1 i2 hash left ops = some (w, os) ∧
      ((∀ i, aw i = none) → ∀ b, w.strings.live b = false ∧ w.mem.live b = false) := by
  obtain ⟨w, ls, an, us, fs, e, v⟩ := simulate (Λ := stablesLaws N V)
    (Γ := dualCalls (DualStr.stableEnv N i1 i2 hash) (.stable N)) left ops (Inv.empty _ _) hc h
  exact ⟨w, e, fun hn b => ⟨v.none_left hn b, elements_left v.store (fun i => by simp [hn i]) b⟩⟩

/-! ### Programs that only move -/

/-- The program makes no copies. -/
def noCopies {C : Type} : List (Op C) → Bool
  | [] => true
  | .copyNew _ _ :: _ | .copyAssign _ _ :: _ => false
  | _ :: ops => noCopies ops

theorem noCopies_cons {C : Type} {op : Op C} {ops : List (Op C)} (h : noCopies (op :: ops) = true) :
    noCopies ops = true ∧ ∀ i j, op ≠ .copyNew i j ∧ op ≠ .copyAssign i j := by
  cases op <;> simp_all [noCopies]

theorem loans_nil {K C : Type} {aw : AWorld K V} {op : Op C} (h : ∀ i j, op ≠ .copyNew i j ∧ op ≠ .copyAssign i j) :
    loansAfter aw [] op = [] := by
  cases op with
  | copyNew i j => exact absurd rfl (h i j).1
  | copyAssign i j => exact absurd rfl (h i j).2
  | call i c => simp only [loansAfter]; split <;> rfl
  | _ => rfl

section
variable {S T H K M C : Type} {N : Nat} {hash : String → Nat} {μ : Multi S T H} {st : Store S V} {kind : Kind}
  {code : Code S M C V} {sp : Several.Spec K V C} {Λ : Laws μ st kind} {Γ : Calls N hash st kind code sp}

theorem careful_moves {w : World T M H} {aw : AWorld K V} {op : Op C} (hn : ∀ i j, op ≠ .copyNew i j ∧ op ≠ .copyAssign i j)
    (hc : Several.careful kind sp aw op = true) : careful N kind sp w aw [] op = true := by
  simp only [careful, hc, Bool.true_and]
  cases op with
  | copyNew i j => exact absurd rfl (hn i j).1
  | copyAssign i j => exact absurd rfl (hn i j).2
  | _ => rfl

/-- Without copies nothing is lent, so that only what Several excludes is excluded. -/
theorem simulate_moves (left : M → M) : ∀ (ops : List (Op C)) {w : World T M H} {aw : AWorld K V}
    {an : Block.Vector.AWorld String} {us fs : Nat → List Nat}, Inv Λ Γ w aw [] an us fs → noCopies ops = true →
    Several.carefulRun kind sp aw ops = true → ∀ {aw' os}, Several.idealRun kind sp aw ops = some (aw', os) →
    ∃ w' an' us' fs', run μ N code left w ops = some (w', os) ∧ Inv Λ Γ w' aw' [] an' us' fs' := by
  intro ops
  induction ops with
  | nil =>
    intro w aw an us fs v _ _ aw' os h
    cases h
    exact ⟨w, an, us, fs, rfl, v⟩
  | cons op ops ih =>
    intro w aw an us fs v hn hc aw' os h
    simp only [Several.idealRun, Option.bind_eq_some_iff, Option.map_eq_some_iff] at h
    obtain ⟨⟨aw1, o⟩, h1, ⟨aw2, os1⟩, h2, h3⟩ := h
    cases h3
    simp only [Several.carefulRun, h1, Bool.and_eq_true] at hc
    obtain ⟨hn1, hn2⟩ := noCopies_cons hn
    obtain ⟨w1, an1, us1, fs1, e1, v1⟩ := step v left (careful_moves hn2 hc.1) h1
    rw [loans_nil hn2] at v1
    obtain ⟨w2, an2, us2, fs2, e2, v2⟩ := ih v1 hn1 hc.2 h2
    exact ⟨w2, an2, us2, fs2, by simp only [run, e1, Option.bind_some, e2, Option.map_some], v2⟩
end

/-- StringMappedVector objects that are created, moved, move-assigned, called and destroyed in any order: no condition
on strings.  "Careful" (Verif/Mapped/Several/Spec.lean) says that moved-from objects are only destroyed and
move-assigned to, and that the calls are careful ones in the sense of C39. -/
theorem moves_unstable_partial (N : Nat) (impl : MapImpl View) (hash : String → Nat) (left : FMap View → FMap View)
    (ops : List (Op (Str.Op V))) (aw : AWorld String V) (os : List (Obs V)) (hn : noCopies ops = true)
    (h : Several.idealRun .unstable (specMapped .unstable) noObjs ops = some (aw, os))
    (hc : Several.carefulRun .unstable (specMapped .unstable) noObjs ops = true) :
    ∃ w, runMapped N impl hash left ops = some (w, os) ∧ ((∀ i, aw i = none) → ∀ b, w.strings.live b = false) := by
  obtain ⟨w, an, us, fs, e, v⟩ := simulate_moves (Λ := vectorsLaws V) (Γ := mappedCalls (Str.unstableEnv N impl hash) .unstable)
    left ops (Inv.empty _ _) hn hc h
  exact ⟨w, e, v.none_left⟩

theorem moves_stable_partial (N : Nat) (impl : MapImpl View) (hash : String → Nat) (left : FMap View → FMap View)
    (ops : List (Op (Str.Op V))) (aw : AWorld String V) (os : List (Obs V)) (hn : noCopies ops = true)
    (h : Several.idealRun (.stable N) (specMapped (.stable N)) noObjs ops = some (aw, os))
    (hc : Several.carefulRun (.stable N) (specMapped (.stable N)) noObjs ops = true) :
    ∃ w, runMappedStable N impl hash left ops = some (w, os) ∧
      ((∀ i, aw i = none) → ∀ b, w.strings.live b = false ∧ w.mem.live b = false) := by
  obtain ⟨w, an, us, fs, e, v⟩ := simulate_moves (Λ := stablesLaws N V) (Γ := mappedCalls (Str.stableEnv N impl hash) (.stable N))
    left ops (Inv.empty _ _) hn hc h
  exact ⟨w, e, fun hn b => ⟨v.none_left hn b, elements_left v.store (fun i => by simp [hn i]) b⟩⟩

/-- DualStringMappedVector objects that are not copied. -/
theorem moves_dual_unstable_partial (N : Nat) (i1 : MapImpl View) (i2 : MapImpl K2) (hash : String → Nat)
    (left : FMap View × FMap K2 → FMap View × FMap K2) (ops : List (Op (DualStr.Op K2 V))) (aw : AWorld (String ⊕ K2) V)
    (os : List (Obs V)) (hn : noCopies ops = true)
    (h : Several.idealRun .unstable (specDual N .unstable) noObjs ops = some (aw, os))
    (hc : Several.carefulRun .unstable (specDual N .unstable) noObjs ops = true) :
    ∃ w, runDual N i1 i2 hash left ops = some (w, os) ∧ ((∀ i, aw i = none) → ∀ b, w.strings.live b = false) := by
  obtain ⟨w, an, us, fs, e, v⟩ := simulate_moves (Λ := vectorsLaws V)
    (Γ := dualCalls (DualStr.unstableEnv N i1 i2 hash) .unstable) left ops (Inv.empty _ _) hn hc h
  exact ⟨w, e, v.none_left⟩

theorem moves_dual_stable_partial (N : Nat) (i1 : MapImpl View) (i2 : MapImpl K2) (hash : String → Nat)
    (left : FMap View × FMap K2 → FMap View × FMap K2) (ops : List (Op (DualStr.Op K2 V))) (aw : AWorld (String ⊕ K2) V)
    (os : List (Obs V)) (hn : noCopies ops = true)
    (h : Several.idealRun (.stable N) (specDual N (.stable N)) noObjs ops = some (aw, os))
    (hc : Several.carefulRun (.stable N) (specDual N (.stable N)) noObjs ops = true) :
    ∃ w, runDualStable N i1 i2 hash left ops = some (w, os) ∧
      ((∀ i, aw i = none) → ∀ b, w.strings.live b = false ∧ w.mem.live b = false) := by
  obtain ⟨w, an, us, fs, e, v⟩ := simulate_moves (Λ := stablesLaws N V)
    (Γ := dualCalls (DualStr.stableEnv N i1 i2 hash) (.stable N)) left ops (Inv.empty _ _) hn hc h
  exact ⟨w, e, fun hn b => ⟨v.none_left hn b, elements_left v.store (fun i => by simp [hn i]) b⟩⟩

/-! ### The theorems apply -/

/-- A program with every kind of copy and move, in which copies diverge from their originals and are destroyed, emptied
or overwritten before the originals. -/
def demo : List (Op (Str.Op Nat)) :=
  [.new 0, .call 0 (.insert "a" 10), .call 0 (.insert "b" 20), .copyNew 1 0, .call 1 (.remove "b"), .call 1 (.insert "c" 30),
   .call 0 (.find "b"), .call 1 (.find "b"), .call 0 (.find "c"), .call 1 (.find "c"), .moveNew 2 1, .call 2 (.find "a"),
   .destroy 1, .copyAssign 2 0, .call 2 (.find "b"), .call 2 (.set 1 21), .call 0 (.find "b"), .call 2 (.find "b"),
   .moveNew 3 0, .call 3 (.find "b"), .call 2 (.find "b"), .call 2 .clear, .moveAssign 2 3, .call 2 (.find "b"),
   .destroy 3, .destroy 0, .destroy 2]

def demoObs : List (Obs Nat) :=
  [.done, .index (some 0), .index (some 1), .done, .done, .index (some 1), .found (some 20), .found none, .found none,
   .found (some 30), .done, .found (some 10), .done, .done, .found (some 20), .done, .found (some 20), .found (some 21),
   .done, .found (some 20), .found (some 21), .done, .done, .found (some 20), .done, .done, .done]

example : (Several.idealRun .unstable (specMapped .unstable) noObjs demo).map (·.2) = some demoObs := by decide +kernel
example : carefulMapped 1 MapImpl.atFront (fun _ => 0) id demo = true := by decide +kernel
example : (Several.idealRun (.stable 1) (specMapped (.stable 1)) noObjs demo).map (·.2) = some demoObs := by decide +kernel
example : carefulMappedStable 1 MapImpl.atEnd String.length id demo = true := by decide +kernel

/-- The same for DualStringMappedVector, with both search types. -/
def demo2 : List (Op (DualStr.Op Nat Nat)) :=
  [.new 0, .call 0 (.insert (some "a") (some 7) 10), .call 0 (.insert (some "b") none 20), .copyNew 1 0,
   .call 1 (.remove (.inr 7)), .call 1 (.addTerm (.inl "x") (.inl "b")), .call 0 (.find (.inl "a")), .call 1 (.find (.inl "a")),
   .moveNew 2 1, .call 2 (.find (.inl "x")), .copyAssign 2 0, .call 2 (.find (.inr 7)), .call 2 (.find (.inl "b")),
   .destroy 1, .moveNew 3 2, .call 3 (.find (.inl "a")), .destroy 3, .destroy 2, .destroy 0]

def demo2Obs : List (Obs Nat) :=
  [.done, .index (some 0), .index (some 1), .done, .done, .bool true, .found (some 10), .found none, .done,
   .found (some 20), .done, .found (some 10), .found (some 20), .done, .done, .found (some 10), .done, .done, .done]

example : (Several.idealRun .unstable (specDual 1 .unstable) noObjs demo2).map (·.2) = some demo2Obs := by decide +kernel
example : carefulDual 1 MapImpl.atFront MapImpl.atEnd (fun _ => 0) id demo2 = true := by decide +kernel
example : (Several.idealRun (.stable 1) (specDual 1 (.stable 1)) noObjs demo2).map (·.2) = some demo2Obs := by decide +kernel
example : carefulDualStable 1 MapImpl.atFront MapImpl.atEnd String.length id demo2 = true := by decide +kernel

/-- A program without copies. -/
def demo3 : List (Op (Str.Op Nat)) :=
  [.new 0, .call 0 (.insert "a" 10), .moveNew 1 0, .new 2, .call 2 (.insert "b" 20), .moveAssign 0 2, .call 0 (.find "b"),
   .call 1 (.find "a"), .moveAssign 0 1, .call 0 (.find "a"), .call 0 (.insert "c" 30), .call 0 (.find "b"), .destroy 1, .destroy 2,
   .destroy 0]

example : noCopies demo3 = true ∧ Several.carefulRun .unstable (specMapped .unstable) noObjs demo3 = true ∧
    Several.carefulRun (.stable 1) (specMapped (.stable 1)) noObjs demo3 = true ∧
    (Several.idealRun .unstable (specMapped .unstable) noObjs demo3).map (·.2) = some [.done, .index (some 0), .done, .done,
      .index (some 0), .done, .found (some 20), .found (some 10), .done, .found (some 10), .index (some 1), .found none,
      .done, .done, .done] := by decide +kernel

/-! ### A copy does not outlive its original -/

theorem find_gone {hash : String → Nat} {N : Nat} {h : Heap String} {k : String} : ∀ {l : FMap View},
    (∀ e ∈ l, Str.text N h e.1 = none) → (∃ e ∈ l, e.1.2 = hash k) → Str.find hash N h k l = none
  | [], _, h2 => by simp at h2
  | e :: l, h1, h2 => by
    simp only [Str.find]
    by_cases he : e.1.2 = hash k
    · rw [if_pos he, h1 e (by simp)]; rfl
    · rw [if_neg he]
      refine find_gone (fun e he => h1 e (by simp [he])) ?_
      obtain ⟨e', h3, h4⟩ := h2
      rcases List.mem_cons.1 h3 with rfl | h3
      · exact absurd h4 he
      · exact ⟨e', h3, h4⟩

theorem mem_of_find {K : Type} [DecidableEq K] {k : K} {i : Nat} {m : FMap K} (h : FMap.find m k = some i) : (k, i) ∈ m := by
  obtain ⟨e, h1, rfl⟩ := Option.map_eq_some_iff.1 h
  have := List.find?_some h1
  simp only [decide_eq_true_eq] at this
  subst this
  exact List.mem_of_find?_eq_some h1

section
variable {S T H K M C : Type} {N : Nat} {hash : String → Nat} {μ : Multi S T H} {st : Store S V} {kind : Kind}
  {code : Code S M C V} {sp : Several.Spec K V C} {Λ : Laws μ st kind} {Γ : Calls N hash st kind code sp}

theorem run_append (left : M → M) : ∀ (xs : List (Op C)) {ys : List (Op C)} {w w' : World T M H} {os : List (Obs V)},
    run μ N code left w xs = some (w', os) →
    run μ N code left w (xs ++ ys) = (run μ N code left w' ys).map fun s => (s.1, os ++ s.2)
  | [], ys, w, w', os, h => by cases h; simp
  | op :: xs, ys, w, w', os, h => by
    simp only [run, Option.bind_eq_some_iff, Option.map_eq_some_iff] at h
    obtain ⟨⟨w1, o⟩, h1, ⟨w2, os2⟩, h2, h3⟩ := h
    cases h3
    simp only [List.cons_append, run, h1, Option.bind_some, run_append left xs h2, Option.map_map]
    rfl

theorem careful_last (left : M → M) : ∀ (ops : List (Op C)) {op : Op C} {w w' : World T M H} {aw aw' : AWorld K V}
    {os os' : List (Obs V)}, noCopies ops = true → run μ N code left w ops = some (w', os) →
    Several.idealRun kind sp aw ops = some (aw', os') → carefulRun μ N code left kind sp w aw [] (ops ++ [op]) = true →
    careful N kind sp w' aw' [] op = true
  | [], op, w, w', aw, aw', os, os', _, h, hi, hc => by
    cases h; cases hi
    simp only [List.nil_append, carefulRun, Bool.and_eq_true] at hc
    exact hc.1
  | o :: ops, op, w, w', aw, aw', os, os', hn, h, hi, hc => by
    simp only [run, Option.bind_eq_some_iff, Option.map_eq_some_iff] at h
    obtain ⟨⟨w1, o1⟩, h1, ⟨w2, os2⟩, h2, h3⟩ := h
    cases h3
    simp only [Several.idealRun, Option.bind_eq_some_iff, Option.map_eq_some_iff] at hi
    obtain ⟨⟨aw1, o2⟩, h4, ⟨aw2, os3⟩, h5, h6⟩ := hi
    cases h6
    simp only [List.cons_append, carefulRun, h1, h4, Bool.and_eq_true] at hc
    obtain ⟨hn1, hn2⟩ := noCopies_cons hn
    rw [loans_nil hn2] at hc
    exact careful_last left ops hn1 h2 h5 hc.2

/-- the state before the copy -/
theorem outlives (left : M → M) {w : World T M H} {aw : AWorld K V} {an : Block.Vector.AWorld String}
    {us fs : Nat → List Nat} (v : Inv Λ Γ w aw [] an us fs) {i j : Nat} (hi : aw i = none) {a : AObj K V}
    (hj : aw j = some a) (hc : careful N kind sp w aw [] (.copyNew i j : Op C) = true) {c : C} {name : String}
    (hk : ∀ f m, Γ.Bind f m (a.val.entries.map (·.keys)) → ∃ e ∈ Γ.keys m, f e.1 = name)
    (hf : ∀ s n h m, Str.find hash N h name (Γ.keys m) = none → code.exec s n h m c = none) :
    run μ N code left w [.copyNew i j, .destroy j, .call i c] = none := by
  have hij : i ≠ j := by rintro rfl; rw [hi] at hj; cases hj
  have hid : Several.ideal kind sp aw (.copyNew i j : Op C) = some (upd aw i (some ⟨a.val, false⟩), .done) := by
    simp [Several.ideal, hi, hj]
  obtain ⟨w1, an1, us1, fs1, e1, v1⟩ := step v left hc hid
  have hm : a.moved = false := by
    simp only [careful, Several.careful, hj, Option.any_some, Bool.and_eq_true, Bool.not_eq_true'] at hc
    exact hc.1.1.1
  have hmaps : w1.maps i = w1.maps j := by
    simp only [exec, Option.bind_eq_some_iff, Option.map_eq_some_iff] at e1
    obtain ⟨_, _, _, _, _, _, _, _, e1⟩ := e1
    cases e1
    simp [put, Ne.symm hij]
  have hj1 : upd aw i (some ⟨a.val, false⟩) j = some a := by rw [upd_ne _ _ (Ne.symm hij), hj]
  have ho := v1.maps j a hj1 hm
  obtain ⟨b, hb, hbm⟩ := v1.an_some hj1
  rw [hm] at hbm
  obtain ⟨n, hn, core, _, hu⟩ := v1.names.getLive hb hbm
  have hn : w1.names j = some n := hn
  obtain ⟨h', ef, fr⟩ := core.freeAll v1.names.wf hu
  have hgone : ∀ e ∈ Γ.keys (w1.maps j), Str.text N h' e.1 = none ∧ e.1.2 = hash (Str.nameOf N w1.strings e.1) := by
    intro e he
    obtain ⟨k, s, h1, h2, h3⟩ := ho.views e.1 (List.mem_map_of_mem he)
    have hkj : k = j := by
      rcases h1 with h1 | h1
      · exact h1
      · simp only [loansAfter, borrow, repay, List.filter_nil, List.map_nil, List.append_nil, List.mem_singleton,
          Prod.mk.injEq] at h1
        exact absurd h1.1.symm hij
    subst hkj
    obtain ⟨ht, hub⟩ := h2.core v1.names
    refine ⟨?_, by rw [h3, Str.nameOf, ht]; rfl⟩
    have hl : h'.live e.1.1.1 = false := by
      cases hl : h'.live e.1.1.1 with
      | false => rfl
      | true =>
        rcases fr.noleak _ hl with h | ⟨_, h⟩
        · cases h
        · exact absurd (List.mem_append_left _ hub) h
    simp [Str.text, Heap.read, hl]
  have hfind : Str.find hash N h' name (Γ.keys (w1.maps i)) = none := by
    rw [hmaps]
    refine find_gone (fun e he => (hgone e he).1) ?_
    obtain ⟨e, he, hen⟩ := hk _ _ ho.bind
    exact ⟨e, he, by rw [(hgone e he).2, hen]⟩
  simp only [run, e1, Option.bind_some]
  cases hobj : w1.objs j with
  | none => simp [exec, hobj]
  | some s =>
    cases hd : μ.destroy s w1.mem with
    | none => simp [exec, hobj, hn, hd]
    | some q =>
      simp only [exec, hobj, hn, Option.bind_some, hd, ef, Option.map_some]
      cases upd w1.objs j none i with
      | none => rfl
      | some s' =>
        cases upd w1.names j none i with
        | none => rfl
        | some n' => simp [hf _ _ _ _ hfind]
end

theorem has_key {K : Type} [DecidableEq K] {a : Ideal K V} {name : K} (h : (a.lookup name).isSome = true) {m : FMap K}
    (b : Binds m (a.entries.map (·.keys))) : ∃ e ∈ m, e.1 = name := by
  cases hf : FMap.find m name with
  | some i => exact ⟨_, mem_of_find hf, rfl⟩
  | none =>
    have := b.none_iff.1 hf
    obtain ⟨i, hi⟩ := Option.isSome_iff_exists.1 h
    obtain ⟨hlt, hp, _⟩ := List.findIdx?_eq_some_iff_getElem.1 hi
    exact absurd (by simpa using hp) (this _ (List.mem_map_of_mem (List.getElem_mem hlt)))

/-- After ANY program that makes no copies (and stays within what the code handles): copy the object `j`, destroy the
original, and search the copy for ANY search term it has.  The search is undefined behaviour.  (Nothing is said about
the copy constructor being unable to run: by `mapped_unstable_partial` it runs.) -/
theorem copy_outlives_violation (N : Nat) (impl : MapImpl View) (hash : String → Nat) (left : FMap View → FMap View)
    (ops : List (Op (Str.Op V))) (aw : AWorld String V) (os : List (Obs V)) (hn : noCopies ops = true)
    (h : Several.idealRun .unstable (specMapped .unstable) noObjs ops = some (aw, os)) (i j : Nat)
    (hc : carefulMapped N impl hash left (ops ++ [.copyNew i j]) = true)
    (hcs : Several.carefulRun .unstable (specMapped .unstable) noObjs ops = true)
    (hi : aw i = none) (a : AObj String V) (hj : aw j = some a) (name : String)
    (ha : (a.val.lookup name).isSome = true) :
    runMapped N impl hash left (ops ++ [.copyNew i j, .destroy j, .call i (.find name)]) = none := by
  obtain ⟨w, an, us, fs, e, v⟩ := simulate_moves (Λ := vectorsLaws V) (Γ := mappedCalls (Str.unstableEnv N impl hash) .unstable)
    left ops (Inv.empty _ _) hn hcs h
  have hcl := careful_last left ops hn e h hc
  have := outlives left v hi hj hcl (c := .find name) (name := name) (fun f m hb => by
      obtain ⟨e, he, h⟩ := has_key ha hb.1
      obtain ⟨e', he', rfl⟩ := List.mem_map.1 he
      exact ⟨e', he', h⟩)
    (fun s n h m hf => by
      have hf : Str.find hash N h name m = none := hf
      simp [Code.mapped, Str.exec, Str.SMV.find, Str.unstableEnv, hf])
  exact (run_append left ops e).trans (by rw [this]; rfl)

/-- The same with stable storage. -/
theorem copy_outlives_stable_violation (N : Nat) (impl : MapImpl View) (hash : String → Nat) (left : FMap View → FMap View)
    (ops : List (Op (Str.Op V))) (aw : AWorld String V) (os : List (Obs V)) (hn : noCopies ops = true)
    (h : Several.idealRun (.stable N) (specMapped (.stable N)) noObjs ops = some (aw, os)) (i j : Nat)
    (hc : carefulMappedStable N impl hash left (ops ++ [.copyNew i j]) = true)
    (hcs : Several.carefulRun (.stable N) (specMapped (.stable N)) noObjs ops = true)
    (hi : aw i = none) (a : AObj String V) (hj : aw j = some a) (name : String)
    (ha : (a.val.lookup name).isSome = true) :
    runMappedStable N impl hash left (ops ++ [.copyNew i j, .destroy j, .call i (.find name)]) = none := by
  obtain ⟨w, an, us, fs, e, v⟩ := simulate_moves (Λ := stablesLaws N V) (Γ := mappedCalls (Str.stableEnv N impl hash) (.stable N))
    left ops (Inv.empty _ _) hn hcs h
  have hcl := careful_last left ops hn e h hc
  have := outlives left v hi hj hcl (c := .find name) (name := name) (fun f m hb => by
      obtain ⟨e, he, h⟩ := has_key ha hb.1
      obtain ⟨e', he', rfl⟩ := List.mem_map.1 he
      exact ⟨e', he', h⟩)
    (fun s n h m hf => by
      have hf : Str.find hash N h name m = none := hf
      simp [Code.mapped, Str.exec, Str.SMV.find, Str.stableEnv, hf])
  exact (run_append left ops e).trans (by rw [this]; rfl)

/-- The ideal container finds the element. -/
example : Several.idealRun .unstable (specMapped .unstable) noObjs
    [.new 0, .call 0 (.insert "a" 10), .copyNew 1 0, .destroy 0, .call 1 (.find "a")] |>.map (·.2) |> (· =
    some [.done, .index (some 0), .done, .done, .found (some 10)]) := by decide +kernel

example : carefulMapped 1 MapImpl.atFront (fun _ => 0) id
    ([.new 0, .call 0 (.insert "a" 10)] ++ [.copyNew 1 0]) = true := by decide +kernel

/-! ### Other exclusions -/

/-- Destroying the original of a DualStringMappedVector. -/
theorem dual_copy_outlives_violation :
    (Several.idealRun .unstable (specDual 1 .unstable) noObjs
      [.new 0, .call 0 (.insert (some "a") (some 7) 10), .copyNew 1 0, .destroy 0, .call 1 (.find (.inl "a"))]).map (·.2) =
      some [.done, .index (some 0), .done, .done, .found (some 10)] ∧
    runDual 1 MapImpl.atFront MapImpl.atFront (fun _ => 0) id
      [.new 0, .call 0 (.insert (some "a") (some (7 : Nat)) 10), .copyNew 1 0, .destroy 0, .call 1 (.find (.inl "a"))] = none ∧
    -- the second search type is not affected
    (runDual 1 MapImpl.atFront MapImpl.atFront (fun _ => 0) id
      [.new 0, .call 0 (.insert (some "a") (some (7 : Nat)) 10), .copyNew 1 0, .destroy 0, .call 1 (.find (.inr 7))]).map (·.2) =
      some [.done, .index (some 0), .done, .done, .found (some 10)] := by decide +kernel

/-- Assigning to the original replaces the strings the copy refers to: the copy no longer finds what it has, and finds
what it does not have.  (Both strings have one character, so that the assignment leaves the characters where they are
and a view of the old string is one of the new string.) -/
theorem assign_over_original_violation :
    (Several.idealRun .unstable (specMapped .unstable) noObjs
      [.new 0, .call 0 (.insert "a" 10), .copyNew 1 0, .new 2, .call 2 (.insert "b" 20), .copyAssign 0 2,
       .call 1 (.find "a"), .call 1 (.find "b")]).map (·.2) =
      some [.done, .index (some 0), .done, .done, .index (some 0), .done, .found (some 10), .found none] ∧
    (runMapped 1 MapImpl.atFront (fun _ => 0) id
      [.new 0, .call 0 (.insert "a" 10), .copyNew 1 0, .new 2, .call 2 (.insert "b" 20), .copyAssign 0 2,
       .call 1 (.find "a"), .call 1 (.find "b")]).map (·.2) =
      some [.done, .index (some 0), .done, .done, .index (some 0), .done, .found none, .found (some 10)] := by decide +kernel

/-- Move-assigning to the original destroys the strings the copy refers to. -/
theorem moveAssign_over_original_violation :
    (Several.idealRun .unstable (specMapped .unstable) noObjs
      [.new 0, .call 0 (.insert "a" 10), .copyNew 1 0, .new 2, .moveAssign 0 2, .call 1 (.find "a")]).map (·.2) =
      some [.done, .index (some 0), .done, .done, .done, .found (some 10)] ∧
    runMapped 1 MapImpl.atFront (fun _ => 0) id
      [.new 0, .call 0 (.insert "a" 10), .copyNew 1 0, .new 2, .moveAssign 0 2, .call 1 (.find "a")] = none := by
  decide +kernel

/-- Copy assignment to a moved-from StringMappedVector is undefined even with vector storage (the strings are kept in
a StableBlockVector). -/
theorem copyAssign_moved_violation :
    (Several.idealRun .unstable (specMapped .unstable) noObjs
      [.new 0, .call 0 (.insert "a" 10), .moveNew 1 0, .copyAssign 0 1]).map (·.2) =
      some [.done, .index (some 0), .done, .done] ∧
    runMapped 1 MapImpl.atFront (fun _ => 0) id
      [.new 0, .call 0 (.insert "a" 10), .moveNew 1 0, .copyAssign 0 1] = none := by
  decide +kernel

/-- Copying while the stored strings exactly fill their block slots (here with blocks of one string, four of them)
reads past the array of block pointers, even with vector storage. -/
theorem copy_full_violation :
    ∃ ops : List (Op (Str.Op Nat)), noCopies ops = true ∧
      (Several.idealRun .unstable (specMapped .unstable) noObjs (ops ++ [.copyNew 1 0])).isSome = true ∧
      (runMapped 0 MapImpl.atFront (fun _ => 0) id ops).isSome = true ∧
      runMapped 0 MapImpl.atFront (fun _ => 0) id (ops ++ [.copyNew 1 0]) = none := by
  refine ⟨.new 0 :: (List.range 64).map fun i => .call 0 (.insert (toString i) i), ?_⟩
  decide +kernel

end Verif.Mapped.SeveralStr
