import Verif.Mapped.Store
import Verif.Block.Vector.Throw

/-
Exceptions inside the element storage of the mapped containers.
-/
namespace Verif.Mapped
open Verif.Block
open Verif.Block.Vector (Fault)

variable {V : Type}

/-- Operations of the storage during which something throws; the flag says whether the call got that far. -/
structure Faults (S V : Type) where
  /-- `emplace_back` -/
  push : S → V → Fault → Option (Bool × S)
  /-- a loop from `begin()` to `end()` in which the call for the element with the given index throws and leaves `junk` in
  that element -/
  visit : {σ : Type} → (σ → V → σ × V) → σ → (junk : V) → Nat → S → Option (Bool × S)

/-- The first `n` elements visited, then `junk`, the others as they were. -/
def visitStop {σ : Type} (F : σ → V → σ × V) (z : σ) (junk : V) (n : Nat) (xs : List V) : List V :=
  (visitList F z (xs.take n)).2 ++ junk :: xs.drop (n + 1)

/-- `std::vector<V>`: `emplace_back` that throws has no effect ([vector.modifiers]; for element types whose move constructor
can throw and which cannot be copied the standard does not say so). -/
def vectorFaults (V : Type) : Faults (List V) V where
  push xs _ _ := some (true, xs)
  visit F z junk n xs := some (if n < xs.length then (true, visitStop F z junk n xs) else (false, (visitList F z xs).2))

/-- `Iter.visit` when the call for the `n`-th element from here throws. -/
def Iter.visitStop {σ : Type} (bs : Nat) (arr : SlotPtr) (last : Iter) (F : σ → V → σ × V) (junk : V) :
    Nat → σ → Iter → Heap V → Option (Bool × Heap V)
  | 0, _, it, h => if it.ne last then (Iter.write bs h it junk).map fun h => (true, h) else some (false, h)
  | n + 1, z, it, h =>
    if it.ne last then
      (it.deref bs h).bind fun x =>
      (Iter.write bs h it (F z x).2).bind fun h =>
      (it.incr bs arr).bind fun it => Iter.visitStop bs arr last F junk n (F z x).1 it h
    else some (false, h)

open Verif.Block.Vector in
/-- `StableBlockVector<V, N>`: Verif.Block.Vector.Throw. -/
def stableFaults (N : Nat) (V : Type) : Faults (Vec × Heap V) V where
  push s x f := Vec.pushFault N s.1 s.2 x f
  visit F z junk n s :=
    (Vec.begin? N s.1).bind fun b =>
    (Vec.end? N s.1).bind fun e =>
    (Iter.visitStop (Vec.blockSize N) s.1.dataptr e F junk n z b s.2).map fun r => (r.1, (s.1, r.2))

/-- Failures of `emplace_back` that have no effect but on the number of reserved block slots: all for vectors; for stable
storage failing allocations, except that of the first block (C80), but not constructors that throw (C81). -/
def Kind.harmless : Kind → Nat → Fault → Bool
  | .unstable, _, _ => true
  | .stable _, _, .array => true
  | .stable _, r, .block => r ≠ 0
  | .stable _, _, .element => false

/-- Reserved block slots after a failed `emplace_back`. -/
def Kind.reserveFailed (kind : Kind) (r len : Nat) (f : Fault) : Nat :=
  match f with
  | .block => kind.reserve r len
  | _ => r

/-- What the proofs use. -/
structure Lawful.Failing {S : Type} {st : Store S V} {kind : Kind} (L : Lawful st kind) (flt : Faults S V) : Prop where
  push : ∀ {s xs r} (x : V) (f : Fault), L.Rep s xs r → kind.harmless r f = true →
    (∃ s', flt.push s x f = some (true, s') ∧ L.Rep s' xs (kind.reserveFailed r xs.length f) ∧
      ∀ k, k < xs.length → st.addr s' k = st.addr s k) ∨
    (∃ s', flt.push s x f = some (false, s') ∧ st.push s x = some s')
  visit : ∀ {σ : Type} (F : σ → V → σ × V) (z : σ) (junk : V) {n s xs r}, L.Rep s xs r →
    kind.iterable r xs.length = true → n < xs.length →
    ∃ s', flt.visit F z junk n s = some (true, s') ∧ L.Rep s' (visitStop F z junk n xs) r ∧
      ∀ k, st.addr s' k = st.addr s k

theorem vectorFailing (V : Type) : (vectorLawful V).Failing (vectorFaults V) where
  push := by
    rintro s xs r x f ⟨rfl, rfl⟩ _
    exact .inl ⟨s, rfl, ⟨rfl, by cases f <;> rfl⟩, fun _ _ => rfl⟩
  visit := by
    rintro σ F z junk n s xs r ⟨rfl, rfl⟩ _ hn
    exact ⟨_, congrArg some (if_pos hn), ⟨rfl, rfl⟩, fun _ => rfl⟩

namespace StableLaws
open Verif.Block.Vector Verif.Block.Vector.Vec
variable {N : Nat}

theorem visitStop_loop {σ : Type} {P : Heap V → List Nat → Prop} (hP : Closed P) (F : σ → V → σ × V) (junk : V) {v : Vec}
    {us fs : List Nat} {last : Iter} (m : Nat) :
    ∀ {h : Heap V} {xs : List V} {it : Iter} {n : Nat} (z : σ), Core N h v xs us fs → P h (us ++ fs) → n + m < xs.length →
    Iter.Denotes (blockSize N) v.dataptr it n → Iter.Denotes (blockSize N) v.dataptr last xs.length →
    ∃ h', Iter.visitStop (blockSize N) v.dataptr last F junk m z it h = some (true, h') ∧
      Core N h' v (xs.take n ++ Mapped.visitStop F z junk m (xs.drop n)) us fs ∧ P h' (us ++ fs) := by
  have hB := blockSize_pos N
  induction m with
  | zero =>
    intro h xs it n z c w hl d dl
    have hne : it.ne last = true := by
      rw [Iter.ne_eq_not_eq]
      have : it.eq last ≠ true := fun h => by
        have := (Iter.Denotes.eq_iff d dl).1 h
        omega
      simpa using this
    obtain ⟨_, h1, hw1, c1, f1⟩ := write_eq c (hP.wf w) d (by omega) junk
    refine ⟨h1, ?_, ?_, hP.step w f1⟩
    · rw [Iter.visitStop, if_pos hne, hw1]; rfl
    · rw [List.set_eq_take_append_cons_drop, if_pos (by omega)] at c1
      simpa [Mapped.visitStop, visitList] using c1
  | succ m ih =>
    intro h xs it n z c w hl d dl
    have hn : n < xs.length := by omega
    have hne : it.ne last = true := by
      rw [Iter.ne_eq_not_eq]
      have : it.eq last ≠ true := fun h => by
        have := (Iter.Denotes.eq_iff d dl).1 h
        omega
      simpa using this
    obtain ⟨hdr, h1, hw1, c1, f1⟩ := write_eq c (hP.wf w) d hn (F z xs[n]).2
    have w1 := hP.step w f1
    obtain ⟨it', d'⟩ := dl.mono (m := n + 1) (by omega)
    have hi : it.incr (blockSize N) v.dataptr = some it' := by
      rw [Iter.incr_eq]; exact d.add hB d'
    obtain ⟨h', e', c', w'⟩ := ih (F z xs[n]).1 c1 w1 (by simp; omega) d' (by simpa using dl)
    have hdrop : xs.drop n = xs[n] :: xs.drop (n + 1) := List.drop_eq_getElem_cons hn
    have hds : (xs.set n (F z xs[n]).2).drop (n + 1) = xs.drop (n + 1) := by
      rw [List.drop_set_of_lt (by omega)]
    refine ⟨h', ?_, ?_, w'⟩
    · rw [Iter.visitStop, if_pos hne, hdr]
      simp only [Option.bind_some]
      rw [hw1]
      simp only [Option.bind_some]
      rw [hi]
      simp only [Option.bind_some]
      exact e'
    · rw [hds] at c'
      rw [hdrop]
      have : (xs.set n (F z xs[n]).2).take (n + 1) = xs.take n ++ [(F z xs[n]).2] := by
        rw [List.take_set, List.take_succ_eq_append_getElem hn, List.set_append_right _ _ (by simp; omega)]
        simp [Nat.min_eq_left (Nat.le_of_lt hn)]
      rw [this] at c'
      simp only [Mapped.visitStop, List.take_succ_cons, visitList, List.drop_succ_cons, List.append_assoc, List.cons_append,
        List.nil_append] at c' ⊢
      exact c'

end StableLaws

open Verif.Block.Vector Verif.Block.Vector.Vec StableLaws in
theorem stableFailingG (N : Nat) {P : Heap V → List Nat → Prop} (hP : Closed P) :
    (stableLawfulG N hP).Failing (stableFaults N V) where
  push := by
    rintro s xs r x f ⟨us, fs, c, w, hu, rfl⟩ hh
    have ok : s.1.pushFault N s.2 x f = (Vec.pushBack N s.1 s.2 x).map (fun r => (false, r)) →
        ∃ s', (stableFaults N V).push s x f = some (false, s') ∧ (stableStore N V).push s x = some s' := by
      intro e
      obtain ⟨v', h', us', fs', e', _⟩ := c.pushBack (hP.wf w) x
      rw [e'] at e
      exact ⟨(v', h'), e, e'⟩
    cases f with
    | array =>
      rcases c.pushArray x with e | e
      · exact .inl ⟨s, e, ⟨us, fs, c, w, hu, rfl⟩, fun _ _ => rfl⟩
      · exact .inr (ok e)
    | block =>
      rcases c.pushBlock x with ⟨e, c', hr⟩ | e
      · refine .inl ⟨(s.1.growSlots, s.2), e, ⟨us, fs, c', w, fun h0 => ?_, ?_⟩, fun k hk => ?_⟩
        · exact absurd (hu h0) (by simpa [Kind.harmless] using hh)
        · rw [hr, ← c.len, capPush, blockSize_eq]; rfl
        · exact cell_frame c c' (.inl (List.prefix_refl _)) hk hk
      · exact .inr (ok e)
    | element => exact absurd hh (by simp [Kind.harmless])
  visit := by
    rintro σ F z junk n s xs r ⟨us, fs, c, w, hu, rfl⟩ hi hn
    rcases iterOk_cases c hi with h0 | ⟨h0, h1⟩
    · obtain ⟨h2, _⟩ := end_null c h0
      subst h2; simp at hn
    · obtain ⟨e, he, de⟩ := end_denotes c hu h0 h1
      obtain ⟨b, hb, d⟩ := begin_denotes c (by omega)
      have hlen := c.len
      obtain ⟨h', e', c', w'⟩ := visitStop_loop hP F junk (last := e) n z c w (by omega) d (hlen ▸ de)
      refine ⟨(s.1, h'), ?_, ⟨us, fs, by simpa using c', w', hu, rfl⟩, fun _ => rfl⟩
      simp only [stableFaults, hb, he, Option.bind_some, e', Option.map_some]

theorem stableFailing (N : Nat) (V : Type) : (stableLawful N V).Failing (stableFaults N V) := stableFailingG N _

open Verif.Block.Vector Verif.Block.Vector.Vec StableLaws in
/-- Stable storage after a constructor has thrown inside `emplace_back`: it can be neither cleared nor destroyed, its
`back()` does not exist. -/
theorem stable_element {N : Nat} {s : Vec × Heap V} {xs : List V} {r : Nat} (h : (stableLawful N V).Rep s xs r) (x : V) :
    ∃ s', (stableFaults N V).push s x .element = some (true, s') ∧ (stableStore N V).clear s' = none ∧
      Vec.freeAll N s'.1 s'.2 = none ∧ (stableStore N V).back s' = none ∧ (stableStore N V).size s' = xs.length ∧
      (xs ≠ [] → (stableStore N V).all s' = none) := by
  obtain ⟨us, fs, c, w, hu, rfl⟩ := h
  obtain ⟨v', h', us', b, fs', e, B, _⟩ := c.pushElement w x
  exact ⟨(v', h'), e, B.clear, B.freeAll, B.back, B.core.len.symm, B.iterate⟩

end Verif.Mapped
