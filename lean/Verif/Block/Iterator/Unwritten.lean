import Verif.Block.Iterator.Lemmas
import Verif.Block.HeapLemmas

/-
Iterators that may not read an entry of the array of block pointers that was never written: the language makes such a read
undefined, Iter.lean takes it as harmless.
-/
namespace Verif.Block

/-- `*vec` where `vec` must be the static null pointer or an entry that has been written. -/
def derefWritten (arr : SlotPtr) : VecPtr → Option (Option Nat)
  | .static => some none
  | .slot i => (slotGet arr i).map some

/-- An array of twice the length with the first `n` entries of `p`, all of which must have been written
(StableBlockVector.hpp:387-391 and 404-410, StableBlockDeque.hpp:557-562). -/
def copied (p : SlotPtr) (n : Nat) : Option SlotPtr :=
  if ∀ k, k < n → slotGet p (k : Int) ≠ none then some (p.map fun l => l.take n ++ List.replicate n none) else none

theorem copied_eq {p : SlotPtr} {n : Nat} (h : ∀ k, k < n → slotGet p (k : Int) ≠ none) :
    copied p n = some (p.map fun l => l.take n ++ List.replicate n none) := if_pos h

theorem written_of {p avail us} (a : ArrOK p avail us) {k : Nat} (hk : k < us.length) : slotGet p (k : Int) ≠ none := by
  rw [a.slotGet (List.getElem?_eq_getElem hk)]; simp

theorem slotGet_replicate (n k : Nat) : slotGet (some (List.replicate n none)) (k : Int) = none := by
  rw [slotGet_nat, Option.getD_some, List.getElem?_replicate]; split <;> rfl

theorem slotSet_after {p p' : SlotPtr} {i : Int} {b : Nat} (h : slotSet p i b = some p') (k : Nat) (hk : i < (k : Int)) :
    slotGet p' (k : Int) = slotGet p (k : Int) := by
  cases p with
  | none => cases h
  | some l =>
    simp only [slotSet] at h
    split at h
    · rename_i hb
      cases h
      simp only [slotGet_nat, Option.getD_some]
      rw [List.getElem?_set_ne (by omega)]
    · cases h

namespace Iter

/-- BlockIterator.hpp:33-34: `ptr{&((*it)[startoffset])}` reads `*it`. -/
def makeW (arr : SlotPtr) (v : VecPtr) (startoffset : Int) : Option Iter :=
  (derefWritten arr v).map fun b => ⟨v, b, startoffset, startoffset⟩

/-- BlockIterator.hpp:139-147: `ptr = &((*vec)[offset])` reads `*vec`. -/
def checkW (bs : Int) (arr : SlotPtr) (it : Iter) : Option Iter :=
  if it.offset ≥ bs then
    let diff := it.offset - bs
    let v := moveVec it.vec (1 + diff / bs)
    let off := diff % bs
    (derefWritten arr v).map fun b => ⟨v, b, off, off⟩
  else some it

/-- BlockIterator.hpp:81-87. -/
def incrW (bs : Int) (arr : SlotPtr) (it : Iter) : Option Iter :=
  checkW bs arr { it with pos := it.pos + 1, offset := it.offset + 1 }

/-- The client loop of `Iter.collect` with these. -/
def collectW {X : Type} (bs : Nat) (arr : SlotPtr) (h : Heap X) (last : Iter) :
    Nat → Iter → Option (List X)
  | 0, it => if it.ne last then none else some []
  | fuel + 1, it =>
    if it.ne last then
      (it.deref bs h).bind fun x =>
      (it.incrW bs arr).bind fun it' =>
      (collectW bs arr h last fuel it').map fun xs => x :: xs
    else some []

theorem derefWritten_eq (arr : SlotPtr) (i : Int) (h : slotGet arr i ≠ none) :
    derefWritten arr (.slot i) = derefVec arr (.slot i) := by
  cases arr with
  | none => simp [slotGet] at h
  | some l =>
    simp only [slotGet, derefWritten, derefVec] at h ⊢
    split at h
    · rename_i h0
      simp only [h0, if_true]
      cases hl : l[i.toNat]? with
      | none => simp [hl] at h
      | some o => cases o <;> simp [hl] at h ⊢
    · exact absurd rfl h

theorem makeW_eq (arr : SlotPtr) (i off : Int) (h : slotGet arr i ≠ none) : makeW arr (.slot i) off = make arr (.slot i) off := by
  rw [makeW, make, derefWritten_eq arr i h]

theorem makeW_none (arr : SlotPtr) (i off : Int) (h : slotGet arr i = none) : makeW arr (.slot i) off = none := by
  rw [makeW, derefWritten, h]; rfl

theorem succ_div {bs n : Nat} (hb : 0 < bs) (h : bs ≤ n % bs + 1) : (n + 1) / bs = n / bs + 1 := by
  have hm := Nat.mod_lt n hb
  have e := Nat.div_add_mod n bs
  have : n + 1 = bs * (n / bs + 1) := by rw [Nat.mul_add, Nat.mul_one]; omega
  rw [this, Nat.mul_div_cancel_left _ hb]

theorem Denotes.incrW {bs arr it n} (hb : 0 < bs) (d : Denotes bs arr it n)
    (hw : n / bs < (n + 1) / bs → slotGet arr (((n + 1) / bs : Nat) : Int) ≠ none) :
    it.incrW bs arr = it.incr bs arr := by
  obtain ⟨v1, o1, p1, r1⟩ := d.eqs
  rw [Iter.incrW, Iter.incr, checkW, check]
  simp only [o1]
  split
  · rename_i hge
    have hm := Nat.mod_lt n hb
    have hs := succ_div hb (n := n) (by omega)
    have e0 : ((n % bs : Nat) : Int) + 1 - bs = 0 := by omega
    rw [e0, v1]
    simp only [Int.zero_ediv, Int.add_zero, moveVec]
    rw [derefWritten_eq]
    have := hw (by omega)
    rw [hs] at this
    simpa using this
  · rfl

/-- A loop between two positions reads the same with both kinds of iterators if the entries it moves to are written. -/
theorem Denotes.collectW {X : Type} {bs arr} (hb : 0 < bs) (h : Heap X) {last : Iter} {m : Nat} (dl : Denotes bs arr last m) :
    ∀ (fuel : Nat) {it : Iter} {n : Nat}, Denotes bs arr it n → n ≤ m →
      (∀ k, n / bs < k → k ≤ m / bs → slotGet arr (k : Int) ≠ none) →
      Iter.collectW bs arr h last fuel it = Iter.collect bs arr h last fuel it := by
  intro fuel
  induction fuel with
  | zero => intros; rfl
  | succ fuel ih =>
    intro it n d hn hw
    rw [Iter.collectW, Iter.collect]
    by_cases hnm : n = m
    · have : it.ne last = false := by
        rw [ne_eq_not_eq, (Denotes.eq_iff d dl).2 hnm]; rfl
      simp [this]
    · have hle : (n + 1) / bs ≤ m / bs := Nat.div_le_div_right (by omega)
      have hle0 : n / bs ≤ (n + 1) / bs := Nat.div_le_div_right (by omega)
      rw [d.incrW hb fun hlt => hw _ hlt hle]
      obtain ⟨it', d'⟩ := dl.mono (m := n + 1) (by omega)
      have hi : it.incr bs arr = some it' := by
        rw [incr_eq]; exact d.add hb d'
      rw [hi]
      simp only [Option.bind_some]
      rw [ih d' (by omega) fun k hk1 hk2 => hw k (by omega) hk2]

end Iter
end Verif.Block
