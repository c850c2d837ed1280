import Verif.Block.Deque.ThrowProps
import Verif.Block.Iterator.Unwritten

/-
C140 for StableBlockDeque: which calls read a block pointer that was never written (undefined in the language, taken as harmless in
Model.lean).  The functions below are those of Model.lean with such reads undefined; all other functions of Model.lean read block
pointers with `slotGet`, for which an entry that was never written is undefined already.
-/
namespace Verif.Block.Deque
open Verif.Block
variable {X : Type} {N : Nat}

/-- `std::copy` of the entries `first .. last - 1` of `src`, all of which must have been written -/
def slotCopyW (src dst : Slots) (first last d : Int) : Option Slots :=
  if ∀ k : Nat, k < last.toNat → first ≤ (k : Int) → slotGet (some src) (k : Int) ≠ none then slotCopy src dst first last d else none

/-- The same within one array. -/
def slotCopyInW (P : Pol) (l : Slots) (first last d : Int) : Option Slots :=
  if first ≤ d ∧ d < last ∧ P.memmove = false then none else slotCopyW l l first last d

/-- StableBlockDeque.hpp:553-565. -/
def FreeL.growW (f : FreeL) : Option FreeL :=
  if f.idx ≥ f.avail then
    if f.avail = 0 then some { f with blocks := some (List.replicate 64 none), avail := 64 }
    else (copied f.blocks f.avail).map fun p => { f with blocks := p, avail := f.avail * 2 }
  else some f

/-- StableBlockDeque.hpp:551-567. -/
def FreeL.putW (f : FreeL) (b : Nat) : Option FreeL :=
  f.growW.bind fun g => (slotSet g.blocks g.idx b).map fun p => { g with blocks := p, idx := g.idx + 1 }

namespace Deq

/-- StableBlockDeque.hpp:432-442 and 457-468. -/
def endW (N : Nat) (v : Deq) : Option Iter :=
  if v.bsize = blockSize N then
    match v.dataptr with
    | some _ => Iter.makeW v.dataptr (.slot (v.back + 1)) 0
    | none => Iter.makeW v.dataptr .static 0
  else Iter.makeW v.dataptr (.slot v.back) v.bsize

/-- StableBlockDeque.hpp:419-430 and 444-455. -/
def beginW (N : Nat) (v : Deq) : Option Iter :=
  if v.csize = 0 then endW N v
  else if v.fsize = (blockSize N : Int) - 1 then Iter.makeW v.dataptr (.slot (v.front + 1)) 0
  else Iter.makeW v.dataptr (.slot v.front) (v.fsize + 1)

/-- A loop from `begin()` to `end()`. -/
def iterateW (N : Nat) (v : Deq) (h : Heap X) : Option (List X) :=
  (beginW N v).bind fun b =>
  (endW N v).bind fun e => Iter.collectW (blockSize N) v.dataptr h e (v.csize + 1) b

/-- StableBlockDeque.hpp:487-504. -/
def roomBackW (P : Pol) (v : Deq) : Option Deq :=
  if v.back ≥ (v.avail : Int) - 1 then
    if v.front > 5 then
      v.dataptr.bind fun l =>
      (slotCopyInW P l v.front (v.back + 1) (v.front / 2)).map fun l =>
        { v with dataptr := some l, front := v.front / 2, back := v.front / 2 + (v.back - v.front) }
    else
      v.dataptr.bind fun l =>
      (slotCopyW l (List.replicate (v.avail * 2) none) 0 v.avail 0).map fun l =>
        { v with dataptr := some l, avail := v.avail * 2 }
  else some v

/-- StableBlockDeque.hpp:475-508. -/
def blockCheckW (P : Pol) (N : Nat) (v : Deq) (h : Heap X) : Option (Deq × Heap X) :=
  if v.bsize ≥ blockSize N then
    if v.avail = 0 then firstBlock N v h
    else
      (roomBackW P v).bind fun v =>
      (v.free.get h).bind fun r =>
      (slotSet v.dataptr (v.back + 1) r.1).map fun p =>
        ({ v with dataptr := p, back := v.back + 1, bsize := 0, free := r.2.1 }, r.2.2)
  else some (v, h)

/-- StableBlockDeque.hpp:522-545. -/
def roomFrontW (P : Pol) (v : Deq) : Option Deq :=
  if v.front = 0 then
    let diff := v.back - v.front
    if v.back < (v.avail : Int) - 5 then
      v.dataptr.bind fun l =>
      (slotCopyInW P l 0 (v.back + 1) (((v.avail : Int) - v.back) / 2)).map fun l =>
        { v with dataptr := some l, front := ((v.avail : Int) - v.back) / 2,
                 back := ((v.avail : Int) - v.back) / 2 + diff }
    else
      v.dataptr.bind fun l =>
      (slotCopyW l (List.replicate (v.avail * 2) none) 0 (v.back + 1) v.avail).map fun l =>
        { v with dataptr := some l, front := v.avail, avail := v.avail * 2, back := v.avail + diff }
  else some v

/-- StableBlockDeque.hpp:510-549. -/
def blockCheckFrontW (P : Pol) (N : Nat) (v : Deq) (h : Heap X) : Option (Deq × Heap X) :=
  if v.fsize < 0 then
    if v.avail = 0 then firstBlock N v h
    else
      (roomFrontW P v).bind fun v =>
      (v.free.get h).bind fun r =>
      (slotSet v.dataptr (v.front - 1) r.1).map fun p =>
        ({ v with dataptr := p, front := v.front - 1, fsize := (blockSize N : Int) - 1, free := r.2.1 }, r.2.2)
  else some (v, h)

/-- StableBlockDeque.hpp:179-199. -/
def pushBackW (P : Pol) (N : Nat) (v : Deq) (h : Heap X) (x : X) : Option (Deq × Heap X) :=
  (blockCheckW P N v h).bind fun r =>
  (constructAt N r.1.dataptr r.1.back r.1.bsize r.2 x).map fun h =>
    ({ r.1 with bsize := r.1.bsize + 1, csize := r.1.csize + 1 }, h)

/-- StableBlockDeque.hpp:216-236. -/
def pushFrontW (P : Pol) (N : Nat) (v : Deq) (h : Heap X) (x : X) : Option (Deq × Heap X) :=
  (blockCheckFrontW P N v h).bind fun r =>
  (constructAt N r.1.dataptr r.1.front r.1.fsize r.2 x).map fun h =>
    ({ r.1 with fsize := r.1.fsize - 1, csize := r.1.csize + 1 }, h)

/-- StableBlockDeque.hpp:207-212. -/
def popBackStepW (N : Nat) (v : Deq) : Option Deq :=
  if v.bsize > 0 then some { v with bsize := v.bsize - 1 }
  else
    (slotGet v.dataptr v.back).bind fun b =>
    (v.free.putW b).map fun f => { v with free := f, back := v.back - 1, bsize := (blockSize N : Int) - 1 }

/-- StableBlockDeque.hpp:201-214. -/
def popBackW (P : Pol) (N : Nat) (v : Deq) (h : Heap X) : Option (Deq × Heap X) :=
  if v.csize = 0 then some (v, h)
  else
    (popBackStepW N { v with csize := v.csize - 1 }).bind fun v =>
    (destroyAt P N v.dataptr v.back v.bsize h).map fun h => (v, h)

/-- StableBlockDeque.hpp:244-249. -/
def popFrontStepW (N : Nat) (v : Deq) : Option Deq :=
  if v.fsize ≠ (blockSize N : Int) - 1 then some { v with fsize := v.fsize + 1 }
  else
    (slotGet v.dataptr v.front).bind fun b =>
    (v.free.putW b).map fun f => { v with free := f, front := v.front + 1, fsize := 0 }

/-- StableBlockDeque.hpp:238-251. -/
def popFrontW (P : Pol) (N : Nat) (v : Deq) (h : Heap X) : Option (Deq × Heap X) :=
  if v.csize = 0 then some (v, h)
  else
    (popFrontStepW N { v with csize := v.csize - 1 }).bind fun v =>
    (destroyAt P N v.dataptr v.front v.fsize h).map fun h => (v, h)

/-- StableBlockDeque.hpp:329-335. -/
def clearMidW (P : Pol) (N : Nat) (p : SlotPtr) : Int → Nat → FreeL → Heap X → Option (FreeL × Heap X)
  | _, 0, f, h => some (f, h)
  | ii, n + 1, f, h =>
    (destroyDown P N p ii (blockSize N) (blockSize N) h).bind fun h =>
    (slotGet p ii).bind fun b => (f.putW b).bind fun f => clearMidW P N p (ii - 1) n f h

/-- StableBlockDeque.hpp:336-343. -/
def clearFrontW (P : Pol) (N : Nat) (v : Deq) (f : FreeL) (h : Heap X) : Option (FreeL × Heap X) :=
  if v.front < v.back then
    (slotGet v.dataptr v.back).bind fun b => (f.putW b).bind fun f =>
    (destroyDown P N v.dataptr v.front (blockSize N) ((blockSize N : Int) - 1 - v.fsize).toNat h).map fun h => (f, h)
  else some (f, h)

/-- StableBlockDeque.hpp:319-351. -/
def clearW (P : Pol) (N : Nat) (v : Deq) (h : Heap X) : Option (Deq × Heap X) :=
  if v.avail = 0 ∨ v.csize = 0 then some (v, h)
  else
    (destroyDown P N v.dataptr v.back v.bsize v.bsize.toNat h).bind fun h =>
    (clearMidW P N v.dataptr (v.back - 1) (v.back - 1 - v.front).toNat v.free h).bind fun r =>
    (clearFrontW P N v r.1 r.2).bind fun r =>
    let nindex : Int := (v.avail / 2 : Nat)
    let fsize : Int := (blockSize N / 2 : Nat)
    (slotGet v.dataptr v.front).bind fun b =>
    (slotSet v.dataptr nindex b).map fun p =>
      (⟨0, p, v.avail, nindex, nindex, fsize + 1, fsize, r.1⟩, r.2)

end Deq

/-! ### lemmas -/

theorem FreeL.putW_eq {f : FreeL} {fs} (F : FOK f fs) (b : Nat) : f.putW b = f.put b := by
  have : f.growW = some f.grow := by
    rw [FreeL.growW, FreeL.grow]
    split
    · rename_i h0
      split
      · rfl
      · have := F.idx
        rw [copied_eq fun k hk => written_of F.arr (by omega)]; rfl
    · rfl
  rw [FreeL.putW, FreeL.put, this]; rfl

theorem FreeL.put_FOK {f f' : FreeL} {fs} (F : FOK f fs) {b : Nat} (h : f.put b = some f') : FOK f' (fs ++ [b]) := by
  obtain ⟨f1, e, F1⟩ := F.put b
  rw [e] at h; cases h; exact F1

namespace Deq

theorem popBackW_eq {v : Deq} {fs} (P : Pol) (h : Heap X) (F : FOK v.free fs) : popBackW P N v h = popBack P N v h := by
  rw [popBackW, popBack]
  split
  · rfl
  · have : popBackStepW N { v with csize := v.csize - 1 } = popBackStep N { v with csize := v.csize - 1 } := by
      rw [popBackStepW, popBackStep]
      split
      · rfl
      · congr 1; funext b
        simp only [FreeL.putW_eq F]
    rw [this]

theorem popFrontW_eq {v : Deq} {fs} (P : Pol) (h : Heap X) (F : FOK v.free fs) : popFrontW P N v h = popFront P N v h := by
  rw [popFrontW, popFront]
  split
  · rfl
  · have : popFrontStepW N { v with csize := v.csize - 1 } = popFrontStep N { v with csize := v.csize - 1 } := by
      rw [popFrontStepW, popFrontStep]
      split
      · rfl
      · congr 1; funext b
        simp only [FreeL.putW_eq F]
    rw [this]

theorem clearMidW_eq (P : Pol) (p : SlotPtr) (n : Nat) : ∀ (ii : Int) (f : FreeL) (h : Heap X) (fs : List Nat), FOK f fs →
    clearMidW P N p ii n f h = clearMid P N p ii n f h ∧ ∀ r, clearMid P N p ii n f h = some r → ∃ fs', FOK r.1 fs' := by
  induction n with
  | zero => intro ii f h fs F; exact ⟨rfl, fun r hr => by cases hr; exact ⟨fs, F⟩⟩
  | succ n ih =>
    intro ii f h fs F
    rw [clearMidW, clearMid]
    constructor
    · congr 1; funext h1
      congr 1; funext b
      rw [FreeL.putW_eq F]
      cases hp : f.put b with
      | none => rfl
      | some f' => exact (ih _ f' h1 _ (FreeL.put_FOK F hp)).1
    · intro r hr
      simp only [Option.bind_eq_some_iff] at hr
      obtain ⟨h1, _, b, _, f', hf, hr⟩ := hr
      exact (ih _ f' h1 _ (FreeL.put_FOK F hf)).2 r hr

theorem clearW_eq {v : Deq} {fs} (P : Pol) (h : Heap X) (F : FOK v.free fs) : clearW P N v h = clear P N v h := by
  rw [clearW, clear]
  split
  · rfl
  · congr 1; funext h1
    obtain ⟨e, k⟩ := clearMidW_eq (N := N) P v.dataptr (v.back - 1 - v.front).toNat (v.back - 1) v.free h1 fs F
    rw [e]
    cases hm : clearMid P N v.dataptr (v.back - 1) (v.back - 1 - v.front).toNat v.free h1 with
    | none => rfl
    | some r =>
      obtain ⟨fs', F'⟩ := k r hm
      simp only [Option.bind_some]
      have : clearFrontW P N v r.1 r.2 = clearFront P N v r.1 r.2 := by
        rw [clearFrontW, clearFront]
        split
        · congr 1; funext b
          rw [FreeL.putW_eq F']
        · rfl
      rw [this]

end Deq

theorem slotCopyW_eq {src dst : Slots} {first last d : Int}
    (h : ∀ k : Nat, first ≤ (k : Int) → (k : Int) < last → slotGet (some src) (k : Int) ≠ none) :
    slotCopyW src dst first last d = slotCopy src dst first last d :=
  if_pos fun k h1 h2 => h k h2 (by omega)

theorem slotCopyInW_eq {P : Pol} {l : Slots} {first last d : Int}
    (h : ∀ k : Nat, first ≤ (k : Int) → (k : Int) < last → slotGet (some l) (k : Int) ≠ none) :
    slotCopyInW P l first last d = slotCopyIn P l first last d := by rw [slotCopyInW, slotCopyIn, slotCopyW_eq h]

namespace Core
variable {h : Heap X} {v : Deq} {xs : List X} {us fs : List Nat} {F f1 bz : Nat}

theorem inUse (c : Core N h v xs us fs F f1 bz) {k : Nat} (h1 : v.front ≤ (k : Int)) (h2 : (k : Int) ≤ v.back) :
    slotGet v.dataptr (k : Int) ≠ none := by
  rw [c.front] at h1
  rw [c.back] at h2
  obtain ⟨j, rfl⟩ : ∃ j, k = F + j := ⟨k - F, by omega⟩
  rw [c.arr.slotGet (List.getElem?_eq_getElem (show j < us.length by omega))]; simp

theorem roomFrontW (c : Core N h v xs us fs F f1 bz) (P : Pol) : Deq.roomFrontW P v = Deq.roomFront P v := by
  obtain ⟨l, hl, hlen⟩ := c.ptr
  rw [Deq.roomFrontW, Deq.roomFront, hl]
  split
  · rename_i h0
    have hu : ∀ k : Nat, (0 : Int) ≤ (k : Int) → (k : Int) < v.back + 1 → slotGet (some l) (k : Int) ≠ none := by
      intro k h1 h2; rw [← hl]; exact c.inUse (by omega) (by omega)
    simp only [Option.bind_some]
    rw [slotCopyInW_eq hu, slotCopyW_eq hu]
  · rfl

theorem pushFrontW (c : Core N h v xs us fs F f1 bz) (P : Pol) (x : X) : Deq.pushFrontW P N v h x = Deq.pushFront P N v h x := by
  rw [Deq.pushFrontW, Deq.pushFront, Deq.blockCheckFrontW, Deq.blockCheckFront, c.roomFrontW P]

theorem roomBackW (c : Core N h v xs us fs F f1 bz) (P : Pol) :
    Deq.roomBackW P v = if v.back + 1 = (v.avail : Int) ∧ v.front ≤ 5 ∧ ∃ k : Nat, k < v.front.toNat ∧ slotGet v.dataptr (k : Int) = none
      then none else Deq.roomBack P v := by
  obtain ⟨l, hl, hlen⟩ := c.ptr
  have hle := c.arr.le
  have hbk := c.back
  have hfr := c.front
  have hne := c.ne
  rw [Deq.roomBackW, Deq.roomBack]
  by_cases h0 : v.back ≥ (v.avail : Int) - 1
  · rw [if_pos h0]
    by_cases h5 : v.front > 5
    · rw [if_pos h5, if_neg (fun e => by omega), if_pos h0, if_pos h5, hl]
      simp only [Option.bind_some]
      rw [slotCopyInW_eq]
      intro k h1 h2; rw [← hl]; exact c.inUse h1 (by omega)
    · rw [if_neg h5, if_pos h0, if_neg h5]
      by_cases hk : ∃ k : Nat, k < v.front.toNat ∧ slotGet v.dataptr (k : Int) = none
      · rw [if_pos ⟨by omega, by omega, hk⟩, hl]
        simp only [Option.bind_some]
        obtain ⟨k, hk1, hk2⟩ := hk
        rw [slotCopyW, if_neg]
        · rfl
        · intro hall
          exact hall k (by omega) (by omega) (by rw [← hl]; exact hk2)
      · rw [if_neg (fun e => hk e.2.2), hl]
        simp only [Option.bind_some]
        rw [slotCopyW_eq]
        intro k h1 h2
        rw [← hl]
        by_cases hf : (k : Int) < v.front
        · exact fun e => hk ⟨k, by omega, e⟩
        · exact c.inUse (by omega) (by omega)
  · rw [if_neg h0, if_neg (fun e => by omega), if_neg h0]

theorem pushBackW (c : Core N h v xs us fs F f1 bz) (P : Pol) (x : X) :
    Deq.pushBackW P N v h x = if v.bsize = blockSize N ∧ v.back + 1 = (v.avail : Int) ∧ v.front ≤ 5 ∧
        ∃ k : Nat, k < v.front.toNat ∧ slotGet v.dataptr (k : Int) = none
      then none else Deq.pushBack P N v h x := by
  have hle := c.arr.le
  have hne := c.ne
  have hbz := c.bzle
  have hb := c.bsz
  rw [Deq.pushBackW, Deq.pushBack, Deq.blockCheckW, Deq.blockCheck, c.roomBackW P]
  by_cases h0 : v.bsize ≥ blockSize N
  · rw [if_pos h0, if_neg (show ¬ v.avail = 0 by omega)]
    have hbe : v.bsize = blockSize N := by omega
    by_cases hk : v.back + 1 = (v.avail : Int) ∧ v.front ≤ 5 ∧ ∃ k : Nat, k < v.front.toNat ∧ slotGet v.dataptr (k : Int) = none
    · rw [if_pos hk, if_pos ⟨hbe, hk⟩]; rfl
    · rw [if_neg hk, if_neg (fun e => hk e.2), if_pos h0, if_neg (show ¬ v.avail = 0 by omega)]
  · rw [if_neg h0, if_neg (fun e => by omega), if_neg h0]

theorem iterateW (c : Core N h v xs us fs F f1 bz) :
    Deq.iterateW N v h = if v.bsize = blockSize N ∧ slotGet v.dataptr (v.back + 1) = none then none else some xs := by
  have hB := blockSize_pos N
  obtain ⟨l, hl, hlen⟩ := c.ptr
  have hle := c.arr.le
  have hne := c.ne
  have hfr := c.front
  have hbk := c.back
  have hs := c.size'
  have hcl := c.len
  by_cases hk : v.bsize = blockSize N ∧ slotGet v.dataptr (v.back + 1) = none
  · rw [if_pos hk]
    have : Deq.endW N v = none := by
      rw [Deq.endW, if_pos hk.1]
      simp only [hl]
      rw [← hl]
      exact Iter.makeW_none _ _ _ hk.2
    rw [Deq.iterateW, this]
    cases Deq.beginW N v <;> rfl
  · rw [if_neg hk]
    have hi : Iterable N v := by
      refine ⟨fun e => (by rw [hl] at e; cases e), fun _ e => hk ⟨e.1, ?_⟩⟩
      rw [e.2, hl, slotGet_nat, Option.getD_some, List.getElem?_eq_none (by omega)]; rfl
    obtain ⟨e, he, de⟩ := c.end_eq hi
    have hends : Deq.endW N v = Deq.end? N v := by
      rw [Deq.endW, Deq.end?]
      split
      · rename_i hb
        simp only [hl]
        rw [← hl]
        exact Iter.makeW_eq _ _ _ fun h' => hk ⟨hb, h'⟩
      · refine Iter.makeW_eq _ _ _ ?_
        rw [hbk, show (F : Int) + us.length - 1 = ((F + us.length - 1 : Nat) : Int) by omega]
        exact c.inUse (by omega) (by omega)
    have hwr : ∀ k : Nat, F ≤ k → k ≤ (F * blockSize N + (f1 + xs.length)) / blockSize N → slotGet v.dataptr (k : Int) ≠ none := by
      intro k h1 h2
      by_cases hkb : (k : Int) ≤ v.back
      · exact c.inUse (by omega) hkb
      · rw [div_base hB, hs] at h2
        have hb : v.bsize = blockSize N := by
          rw [c.bsz]
          refine Classical.byContradiction fun hb => ?_
          rw [Nat.mul_comm, Nat.mul_add_div hB, Nat.div_eq_of_lt (show bz < blockSize N by have := c.bzle; omega)] at h2
          omega
        have hke : (k : Int) = v.back + 1 := by
          have e := c.bsz; rw [hb] at e
          rw [show bz = blockSize N by omega, Nat.add_div_right _ hB, Nat.mul_div_cancel _ hB] at h2
          omega
        rw [hke]; exact fun h' => hk ⟨hb, h'⟩
    have := c.iterate_eq hi
    rw [← this, Deq.iterateW, Deq.iterate, hends, he]
    by_cases hn : xs.length = 0
    · have h0 : v.csize = 0 := by omega
      rw [Deq.beginW, Deq.begin?, if_pos h0, if_pos h0, hends, he]
      simp only [Option.bind_some]
      exact de.collectW hB h _ de (Nat.le_refl _) fun k h1 h2 => absurd h1 (Nat.not_lt.2 h2)
    · obtain ⟨b, hb, db⟩ := c.begin_eq (by omega)
      have hbe : Deq.beginW N v = Deq.begin? N v := by
        have hc0 : ¬ v.csize = 0 := by omega
        rw [Deq.beginW, Deq.begin?, if_neg hc0, if_neg hc0]
        split
        · refine Iter.makeW_eq _ _ _ ?_
          rw [hfr, show (F : Int) + 1 = ((F + 1 : Nat) : Int) by omega]
          rename_i hfs
          have h2 : 2 ≤ us.length := by
            have := c.fsz; have := c.bzle
            refine Classical.byContradiction fun h2 => ?_
            rw [show us.length - 1 = 0 by omega, Nat.zero_mul] at hs
            omega
          exact c.inUse (by omega) (by omega)
        · refine Iter.makeW_eq _ _ _ ?_
          rw [hfr]; exact c.inUse (k := F) (by omega) (by omega)
      rw [hbe, hb]
      simp only [Option.bind_some]
      refine de.collectW hB h _ db (by omega) fun k h1 h2 => hwr k ?_ h2
      rw [div_base hB] at h1
      exact Nat.le_of_lt (Nat.lt_of_le_of_lt (Nat.le_add_right _ _) h1)

end Core

/-! ## C140 -/

/-- In every reachable state a loop from `begin()` to `end()` over a deque that has memory sees its elements, unless the last
block is full and the entry after it was never written (or does not exist): then `end()` is undefined. -/
theorem iterate_written_partial (P : Pol) (N : Nat) (w : World X) (aw : AWorld X) (h : Reached P N w aw) (i : Nat) (a : List X) (ha : aw i = some a)
    (v : Deq) (hv : w.objs i = some v) (hp : v.dataptr ≠ none) :
    v.iterateW N w.heap =
      if v.bsize = blockSize N ∧ slotGet v.dataptr (v.back + 1) = none then none else some a := by
  obtain ⟨us, fs, W⟩ := h.inv
  obtain ⟨v', hv', r⟩ := W.getSome ha
  rw [hv] at hv'; cases hv'
  rcases r with ⟨F, f1, bz, c⟩ | ⟨nl, _⟩
  · exact c.iterateW
  · exact absurd nl.ptr hp

/-- In every reachable state: `push_front`, `pop_back`, `pop_front` and `clear` on a deque that has memory read no block pointer that
was never written.  `push_back` does exactly when it has to move to a larger array while an entry before the first block was
never written. -/
theorem updates_written_partial (P : Pol) (N : Nat) (w : World X) (aw : AWorld X) (h : Reached P N w aw) (i : Nat) (a : List X) (ha : aw i = some a)
    (v : Deq) (hv : w.objs i = some v) (hp : v.dataptr ≠ none) :
    (∀ x, v.pushFrontW P N w.heap x = v.pushFront P N w.heap x) ∧ v.popBackW P N w.heap = v.popBack P N w.heap ∧
      v.popFrontW P N w.heap = v.popFront P N w.heap ∧ v.clearW P N w.heap = v.clear P N w.heap ∧
      ∀ x, v.pushBackW P N w.heap x =
        if v.bsize = blockSize N ∧ v.back + 1 = (v.avail : Int) ∧ v.front ≤ 5 ∧
          ∃ k : Nat, k < v.front.toNat ∧ slotGet v.dataptr (k : Int) = none
        then none else v.pushBack P N w.heap x := by
  obtain ⟨us, fs, W⟩ := h.inv
  obtain ⟨v', hv', r⟩ := W.getSome ha
  rw [hv] at hv'; cases hv'
  rcases r with ⟨F, f1, bz, c⟩ | ⟨nl, _⟩
  · exact ⟨c.pushFrontW P, Deq.popBackW_eq P _ c.free, Deq.popFrontW_eq P _ c.free, Deq.clearW_eq P _ c.free, c.pushBackW P⟩
  · exact absurd nl.ptr hp
/-! ### a deque that only grew at its end -/

/-- A deque filled by `push_back` alone: nothing was written before its first block, which is number 30, 15, 7 or 3 of 64 or, after the
array was replaced by larger ones, number 3. -/
structure Grown (N : Nat) (v : Deq) : Prop where
  place : ∃ j, v.avail = 64 * 2 ^ j ∧ ((j = 0 ∧ (v.front = 30 ∨ v.front = 15 ∨ v.front = 7)) ∨
    (v.front = 3 ∧ (1 ≤ j → 32 * 2 ^ j - 3 < v.back - v.front + 1)))
  before : ∀ k : Nat, (k : Int) < v.front → slotGet v.dataptr (k : Int) = none
  fsz : v.fsize = ((blockSize N / 2 : Nat) : Int) - 1
  used : 0 < v.bsize

theorem slotGet_copy {src dst l : Slots} {first last d : Int} (h : slotCopy src dst first last d = some l) (k : Nat) :
    slotGet (some l) (k : Int) = if (k : Int) < d then slotGet (some dst) (k : Int)
      else if (k : Int) < d + (last - first) then slotGet (some src) ((k : Int) - d + first) else slotGet (some dst) (k : Int) := by
  rw [slotCopy] at h
  split at h
  · rename_i hb
    cases h
    obtain ⟨h1, h2, h3, h4, h5⟩ := hb
    rw [slotGet_nat, slotGet_nat]
    simp only [Option.getD_some]
    split
    · rename_i hk
      rw [List.append_assoc, List.getElem?_append_left (by simp; omega), List.getElem?_take, if_pos (by omega)]
    · rename_i hk
      split
      · rename_i hk2
        rw [show (k : Int) - d + first = ((k - d.toNat + first.toNat : Nat) : Int) by omega, slotGet_nat, Option.getD_some,
          List.getElem?_append_left (by simp; omega), List.getElem?_append_right (by simp; omega), List.getElem?_take, if_pos (by simp; omega),
          List.getElem?_drop]
        congr 2; simp; omega
      · rename_i hk2
        rw [List.getElem?_append_right (by simp; omega), List.getElem?_drop]
        congr 2; simp; omega
  · cases h

/-- what `blockCheck` keeps -/
structure Grown0 (N : Nat) (v : Deq) : Prop where
  place : ∃ j, v.avail = 64 * 2 ^ j ∧ ((j = 0 ∧ (v.front = 30 ∨ v.front = 15 ∨ v.front = 7)) ∨
    (v.front = 3 ∧ (1 ≤ j → 32 * 2 ^ j - 3 < v.back - v.front + 1)))
  before : ∀ k : Nat, (k : Int) < v.front → slotGet v.dataptr (k : Int) = none
  fsz : v.fsize = ((blockSize N / 2 : Nat) : Int) - 1
  bsz : 0 ≤ v.bsize

theorem slotSet_before {p p' : SlotPtr} {i : Int} {b : Nat} (h : slotSet p i b = some p') (k : Nat) (hk : (k : Int) < i) :
    slotGet p' (k : Int) = slotGet p (k : Int) := by
  cases p with
  | none => cases h
  | some l =>
    simp only [slotSet] at h
    split at h
    · cases h
      simp only [slotGet_nat, Option.getD_some]
      rw [List.getElem?_set_ne (by omega)]
    · cases h

theorem Grown.blockCheck {P : Pol} {h : Heap X} {v : Deq} {xs us fs F f1 bz} (g : Grown N v) (c : Core N h v xs us fs F f1 bz)
    {r : Deq × Heap X} (he : v.blockCheck P N h = some r) : Grown0 N r.1 := by
  obtain ⟨l, hl, hlen⟩ := c.ptr
  have hle := c.arr.le
  have hne := c.ne
  have hfr := c.front
  have hbk := c.back
  obtain ⟨j, hj, hp⟩ := g.place
  rw [Deq.blockCheck] at he
  split at he
  · rw [if_neg (by omega)] at he
    simp only [Option.bind_eq_some_iff, Option.map_eq_some_iff] at he
    obtain ⟨v1, hr, q, hq, p, hs, e⟩ := he
    subst e
    simp only [Deq.roomBack, hl, Option.bind_some] at hr
    split at hr
    · rename_i hb
      split at hr
      · rename_i hf
        simp only [Option.map_eq_some_iff] at hr
        obtain ⟨l1, hc1, e⟩ := hr
        subst e
        rw [slotCopyIn] at hc1
        split at hc1
        · cases hc1
        · have hj0 : j = 0 := by omega
          refine ⟨⟨j, hj, ?_⟩, fun k hk => ?_, g.fsz, Int.le_refl _⟩
          · simp only; omega
          · simp only at hk hs ⊢
            rw [slotSet_before hs k (by omega), slotGet_copy hc1 k, if_pos (by omega), ← hl]
            exact g.before k (by omega)
      · rename_i hf
        simp only [Option.map_eq_some_iff] at hr
        obtain ⟨l1, hc1, e⟩ := hr
        subst e
        have h3 : v.front = 3 := by omega
        refine ⟨⟨j + 1, by simp only; rw [hj, Nat.pow_succ, Nat.mul_assoc], .inr ⟨h3, fun _ => ?_⟩⟩, fun k hk => ?_, g.fsz, Int.le_refl _⟩
        · simp only
          have e2 : (32 : Int) * 2 ^ (j + 1) = (v.avail : Int) := by
            rw [hj, Int.pow_succ]; simp; omega
          rw [e2]; omega
        · simp only at hk hs ⊢
          rw [slotSet_before hs k (by omega), slotGet_copy hc1 k, if_neg (by omega), if_pos (by omega), ← hl]
          have := g.before k hk
          simpa using this
    · rename_i hb
      cases hr
      refine ⟨⟨j, hj, ?_⟩, fun k hk => ?_, g.fsz, Int.le_refl _⟩
      · rcases hp with hp | ⟨hp, hq⟩
        · exact .inl hp
        · exact .inr ⟨hp, fun h1 => by have := hq h1; simp only; omega⟩
      · simp only at hk hs ⊢
        rw [slotSet_before hs k (by omega)]; exact g.before k hk
  · cases he
    exact ⟨⟨j, hj, hp⟩, g.before, g.fsz, Int.le_of_lt g.used⟩

theorem Grown.pushBack {P : Pol} {h h' : Heap X} {v v' : Deq} {xs us fs F f1 bz x} (g : Grown N v) (c : Core N h v xs us fs F f1 bz)
    (he : v.pushBack P N h x = some (v', h')) : Grown N v' := by
  rw [Deq.pushBack] at he
  simp only [Option.bind_eq_some_iff, Option.map_eq_some_iff] at he
  obtain ⟨r, hr, h1, _, e⟩ := he
  cases e
  have := g.blockCheck c hr
  exact ⟨this.place, this.before, this.fsz, by have := this.bsz; simp only; omega⟩

theorem Grown.first {P : Pol} {h h' : Heap X} {v' : Deq} {x : X}
    (he : (Deq.default N).pushBack P N h x = some (v', h')) : Grown N v' := by
  rw [Deq.pushBack] at he
  simp only [Option.bind_eq_some_iff, Option.map_eq_some_iff] at he
  obtain ⟨r, hr, h1, _, e⟩ := he
  cases e
  rw [Deq.blockCheck, if_pos (by simp [Deq.default]), if_pos (by simp [Deq.default]), Deq.firstBlock] at hr
  simp only [Option.bind_eq_some_iff, Option.map_eq_some_iff] at hr
  obtain ⟨q, _, p, hs, e⟩ := hr
  subst e
  refine ⟨⟨0, rfl, .inl ⟨rfl, .inl rfl⟩⟩, fun k hk => ?_, rfl, ?_⟩
  · simp only at hk hs ⊢
    rw [slotSet_before hs k (by omega), slotGet_replicate]
  · simp only; omega

theorem Reached.usable_push {P : Pol} {w : World X} {aw : AWorld X} {v : Deq} {a : List X} (h : Reached P N w aw) (ha : aw 0 = some a)
    (hv : w.objs 0 = some v) (hu : v.usable N = true) (x : X) : ∃ r : Deq × Heap X, v.pushBack P N w.heap x = some r ∧
      Reached P N ⟨upd w.objs 0 (some r.1), r.2⟩ (upd aw 0 (some (a ++ [x]))) ∧
      exec P N w (.push 0 x) = some (⟨upd w.objs 0 (some r.1), r.2⟩, .done) := by
  obtain ⟨us, fs, W⟩ := h.inv
  have hi : ideal aw (.push 0 x) = some (upd aw 0 (some (a ++ [x])), .done) := by simp only [ideal, ha, Option.map_some]
  have hc : careful P N w (.push 0 x) = true := by simp [careful, hv, hu]
  obtain ⟨w1, us1, fs1, e1, W1, _⟩ := step P w aw us fs W _ _ _ hi hc
  have e1' := e1
  simp only [exec, hv, Option.bind_some, Option.map_eq_some_iff] at e1'
  obtain ⟨r, hr1, hr2⟩ := e1'
  cases hr2
  exact ⟨r, hr1, .call h hc hi e1, e1⟩

theorem push_all {P : Pol} (xs : List X) : ∀ (w : World X) (aw : AWorld X) (a : List X) (v : Deq), Reached P N w aw → aw 0 = some a →
    w.objs 0 = some v → v.dataptr ≠ none → Grown N v → ∃ w' os aw' v', run P N w (xs.map (.push 0)) = some (w', os) ∧ Reached P N w' aw' ∧
      aw' 0 = some (a ++ xs) ∧ w'.objs 0 = some v' ∧ v'.dataptr ≠ none ∧ Grown N v' := by
  induction xs with
  | nil => intro w aw a v h ha hv hp g; exact ⟨w, [], aw, v, rfl, h, by simpa using ha, hv, hp, g⟩
  | cons x xs ih =>
    intro w aw a v h ha hv hp g
    obtain ⟨r, hr, h1, e1⟩ := h.usable_push ha hv (by simp [Deq.usable, Option.isSome_iff_ne_none.2 hp]) x
    obtain ⟨us, fs, W⟩ := h.inv
    obtain ⟨v', hv', rep⟩ := W.getSome ha
    rw [hv] at hv'; cases hv'
    rcases rep with ⟨F, f1, bz, c⟩ | ⟨nl, _⟩
    · have g' := g.pushBack c hr
      have hp' : r.1.dataptr ≠ none := by
        intro e0
        have := g'.place
        obtain ⟨us1, fs1, W1⟩ := h1.inv
        obtain ⟨u, hu, rep⟩ := W1.getSome (i := 0) (a := a ++ [x]) (by simp [upd])
        have hu' : u = r.1 := by simpa [upd] using hu.symm
        subst hu'
        rcases rep with ⟨F, f1, bz, c⟩ | ⟨nl, _⟩
        · obtain ⟨l, hl, _⟩ := c.ptr; rw [e0] at hl; cases hl
        · obtain ⟨j, hj, _⟩ := this
          have := nl.av
          have := Nat.pow_pos (n := j) (show 0 < 2 by omega)
          omega
      obtain ⟨w', os, aw', v', g1, g2, g3, g4, g5, g6⟩ := ih _ _ (a ++ [x]) r.1 h1 (by simp [upd]) (by simp [upd]) hp' g'
      refine ⟨w', .done :: os, aw', v', ?_, g2, by rw [g3]; simp, g4, g5, g6⟩
      rw [List.map_cons, run, e1]
      simp only [Option.bind_some, g1, Option.map_some]
    · exact absurd nl.ptr hp

theorem place_iff {B n L bz : Nat} {j : Nat} {back front : Int} (hB : 0 < B) (hbz : bz ≤ B) (hpos : 0 < bz) (hL : 0 < L)
    (hn : B / 2 + n = (L - 1) * B + bz) (hbk : back = front + L - 1) (hle : back < 64 * 2 ^ j)
    (hp : (j = 0 ∧ (front = 30 ∨ front = 15 ∨ front = 7)) ∨ (front = 3 ∧ (1 ≤ j → 32 * 2 ^ j - 3 < back - front + 1))) :
    (bz = B ∧ back + 1 = 64 * 2 ^ j ∧ front ≤ 5) ↔ ∃ i, B / 2 + n = (64 * 2 ^ i - 3) * B := by
  constructor
  · rintro ⟨rfl, h2, h3⟩
    refine ⟨j, ?_⟩
    have hj : (64 * 2 ^ j - 3 : Nat) = L := by
      have : ((64 * 2 ^ j : Nat) : Int) = 64 * 2 ^ j := by simp
      omega
    rw [hj, hn]
    obtain ⟨k, rfl⟩ : ∃ k, L = k + 1 := ⟨L - 1, by omega⟩
    rw [Nat.add_mul]; simp
  · rintro ⟨i, hi⟩
    rw [hn] at hi
    have hpi := Nat.pow_pos (n := i) (show 0 < 2 by omega)
    have hpj := Nat.pow_pos (n := j) (show 0 < 2 by omega)
    have hdv : B ∣ bz := by
      refine (Nat.dvd_add_right (Nat.dvd_mul_left B (L - 1))).1 ?_
      rw [hi]; exact Nat.dvd_mul_left _ _
    have hbB : bz = B := Nat.le_antisymm hbz (Nat.le_of_dvd hpos hdv)
    have hL' : L = 64 * 2 ^ i - 3 := by
      rw [hbB] at hi
      have : (L - 1 + 1) * B = (64 * 2 ^ i - 3) * B := by rw [Nat.add_mul]; simpa using hi
      have := Nat.eq_of_mul_eq_mul_right hB this
      omega
    have cj : ((2 ^ j : Nat) : Int) = 2 ^ j := by simp
    have ci : ((2 ^ i : Nat) : Int) = 2 ^ i := by simp
    have hij : i = j ∧ front = 3 := by
      rcases hp with ⟨rfl, hf⟩ | ⟨hf, hq⟩
      · exfalso; simp at hle; omega
      · refine ⟨?_, hf⟩
        rcases Nat.lt_trichotomy i j with h | h | h
        · exfalso
          have := hq (by omega)
          obtain ⟨d, rfl⟩ : ∃ d, j = i + 1 + d := ⟨j - (i + 1), by omega⟩
          have h1 : 2 ^ i * 2 ≤ 2 ^ (i + 1 + d) := by
            rw [Nat.pow_add, Nat.pow_succ]; exact Nat.le_mul_of_pos_right _ (Nat.pow_pos (by omega))
          rw [← cj] at this
          omega
        · exact h
        · exfalso
          obtain ⟨d, rfl⟩ : ∃ d, i = j + 1 + d := ⟨i - (j + 1), by omega⟩
          have h1 : 2 ^ j * 2 ≤ 2 ^ (j + 1 + d) := by
            rw [Nat.pow_add, Nat.pow_succ]; exact Nat.le_mul_of_pos_right _ (Nat.pow_pos (by omega))
          rw [← cj] at hle
          omega
    obtain ⟨rfl, hf⟩ := hij
    refine ⟨hbB, ?_, by omega⟩
    rw [← ci]; omega

/-- A deque filled by `push_back` alone, for every block size and every sequence of values: the next `push_back` copies block
pointers that were never written exactly when the free half of the first block and the values fill 61, 125, 253, ... blocks;
otherwise it does what `pushBack` of the model does, which never fails here. -/
theorem push_only_growth (P : Pol) (N : Nat) (xs : List X) (x : X) :
    ∃ w os v, run P N World.empty (.new 0 :: xs.map (.push 0)) = some (w, os) ∧ w.objs 0 = some v ∧
      (v.pushBack P N w.heap x).isSome = true ∧
      ((∃ i, 2 ^ N / 2 + xs.length = (64 * 2 ^ i - 3) * 2 ^ N) → v.pushBackW P N w.heap x = none) ∧
      ((¬ ∃ i, 2 ^ N / 2 + xs.length = (64 * 2 ^ i - 3) * 2 ^ N) → v.pushBackW P N w.heap x = v.pushBack P N w.heap x) := by
  have hB := blockSize_pos N
  have h0 : Reached P N (⟨upd (World.empty : World X).objs 0 (some (Deq.default N)), Heap.empty⟩ : World X)
      (upd noObjs 0 (some [])) := .call .start (op := .new 0) (o := .done) rfl rfl rfl
  have hu : (Deq.default N).usable N = true := by simp [Deq.usable, Deq.default]
  cases xs with
  | nil =>
    obtain ⟨r, hr, _⟩ := h0.usable_push (a := []) (v := Deq.default N) (by simp [upd]) (by simp [upd]) hu x
    refine ⟨⟨upd (World.empty : World X).objs 0 (some (Deq.default N)), Heap.empty⟩, [.done], Deq.default N, rfl, by simp [upd],
      by rw [hr]; rfl, ?_, fun _ => ?_⟩
    · rintro ⟨i, hi⟩
      exfalso
      have hpi := Nat.pow_pos (n := i) (show 0 < 2 by omega)
      have hpN := Nat.pow_pos (n := N) (show 0 < 2 by omega)
      have : 1 * 2 ^ N ≤ (64 * 2 ^ i - 3) * 2 ^ N := Nat.mul_le_mul_right _ (by omega)
      simp at hi; omega
    · rw [Deq.pushBackW, Deq.pushBack, Deq.blockCheckW, Deq.blockCheck]
      simp [Deq.default]
  | cons y ys =>
    obtain ⟨r, hr, h1, e1⟩ := h0.usable_push (a := []) (v := Deq.default N) (by simp [upd]) (by simp [upd]) hu y
    have g := Grown.first hr
    have hp : r.1.dataptr ≠ none := by
      intro e0
      obtain ⟨us1, fs1, W1⟩ := h1.inv
      obtain ⟨u, hu, rep⟩ := W1.getSome (i := 0) (a := [] ++ [y]) (by simp [upd])
      have hu' : u = r.1 := by simpa [upd] using hu.symm
      subst hu'
      rcases rep with ⟨F, f1, bz, c⟩ | ⟨nl, _, _, hc⟩
      · obtain ⟨l, hl, _⟩ := c.ptr; rw [e0] at hl; cases hl
      · cases hc
    obtain ⟨w, os, aw, v, g1, g2, g3, g4, g5, g6⟩ := push_all ys _ _ ([] ++ [y]) r.1 h1 (by simp [upd]) (by simp [upd]) hp g
    refine ⟨w, .done :: .done :: os, v, ?_, g4, ?_⟩
    · rw [run]
      simp only [exec, Option.bind_some, List.map_cons]
      rw [show (World.empty : World X).heap = Heap.empty from rfl, run, e1]
      simp only [Option.bind_some, g1, Option.map_some]
    · obtain ⟨r2, hr2, _⟩ := g2.usable_push g3 g4 (by simp [Deq.usable, Option.isSome_iff_ne_none.2 g5]) x
      refine ⟨by rw [hr2]; rfl, ?_⟩
      obtain ⟨us, fs, W⟩ := g2.inv
      obtain ⟨v', hv', rep⟩ := W.getSome g3
      rw [g4] at hv'; cases hv'
      rcases rep with ⟨F, f1, bz, c⟩ | ⟨nl, _⟩
      · obtain ⟨j, hj, hpl⟩ := g6.place
        have hf1 : f1 = blockSize N / 2 := by have := g6.fsz; have := c.fsz; omega
        have hbp : 0 < bz := by have := g6.used; have := c.bsz; omega
        have hs := c.size'
        rw [hf1] at hs
        have hle := c.arr.le
        have hbk := c.back; have hfr := c.front
        have cj : ((64 * 2 ^ j : Nat) : Int) = 64 * 2 ^ j := by simp
        have key := place_iff (j := j) (back := v.back) (front := v.front) hB c.bzle hbp c.ne hs (by omega) (by rw [← cj]; omega) hpl
        have hlen : ([] ++ [y] ++ ys).length = (y :: ys).length := rfl
        rw [hlen, blockSize_eq] at key
        rw [← key, c.pushBackW P]
        have h3 : 3 ≤ v.front := by omega
        constructor
        · rintro ⟨k1, k2, k3⟩
          rw [if_pos ⟨by rw [c.bsz, k1, blockSize_eq], by rw [k2, hj]; exact cj.symm, k3, 0, by omega, g6.before 0 (by omega)⟩]
        · intro hk
          rw [if_neg fun e => hk ⟨?_, ?_, e.2.2.1⟩]
          · have := e.1; rw [c.bsz, blockSize_eq] at this; omega
          · rw [e.2.1, hj, cj]
      · exact absurd nl.ptr g5

/-- Blocks of two: one value fits in the second half of the first block, two more fill the second block; then `end()` would read an
entry that was never written.  With two values, or after two more were added and removed (which writes that entry), the loop is fine. -/
example : (∃ w os v, run ⟨true, true⟩ 1 World.empty (.new 0 :: [1, 2, 3].map (.push 0)) = some (w, os) ∧ w.objs 0 = some v ∧
      v.iterateW 1 w.heap = none ∧ v.iterate 1 w.heap = some [1, 2, 3]) ∧
    (∃ w os v, run ⟨true, true⟩ 1 World.empty (.new 0 :: [1, 2].map (.push 0)) = some (w, os) ∧ w.objs 0 = some v ∧
      v.iterateW 1 w.heap = some [1, 2]) ∧
    ∃ w os v, run ⟨true, true⟩ 1 World.empty (.new 0 :: [1, 2, 3, 4].map (.push 0) ++ [.pop 0, .pop 0, .push 0 5]) = some (w, os) ∧
      w.objs 0 = some v ∧ v.iterateW 1 w.heap = some [1, 2, 5] :=
  ⟨⟨_, _, _, rfl, rfl, by decide, by decide⟩, ⟨_, _, _, rfl, rfl, by decide⟩, ⟨_, _, _, rfl, rfl, by decide⟩⟩

/-- Blocks of 32: after 1936 values the blocks 3 to 63 are full, and the next `push_back` copies the entries 0, 1 and 2. -/
example : (∃ i, 2 ^ 5 / 2 + (List.replicate 1936 (7 : Nat)).length = (64 * 2 ^ i - 3) * 2 ^ 5) ∧
    ¬ ∃ i, 2 ^ 5 / 2 + (List.replicate 1935 (7 : Nat)).length = (64 * 2 ^ i - 3) * 2 ^ 5 := by
  rw [List.length_replicate, List.length_replicate]
  refine ⟨⟨0, by decide⟩, ?_⟩
  rintro ⟨i, hi⟩
  omega

end Verif.Block.Deque
