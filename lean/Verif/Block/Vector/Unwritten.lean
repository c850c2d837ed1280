import Verif.Block.Vector.ThrowProps
import Verif.Block.Iterator.Unwritten

/-
C140 for StableBlockVector: which calls read a block pointer that was never written (undefined in the language, taken as harmless
in Model.lean).  The functions below are those of Model.lean with such reads undefined; all other functions of Model.lean read
block pointers with `slotGet`, for which an entry that was never written is undefined already.
-/
namespace Verif.Block.Vector
open Verif.Block
variable {X : Type} {N : Nat}

namespace Vec

/-- StableBlockVector.hpp:308-318 and 329-340. -/
def endW (N : Nat) (v : Vec) : Option Iter :=
  if v.bsize = blockSize N then
    match v.dataptr with
    | some _ => Iter.makeW v.dataptr (.slot (v.slotIdx + 1)) 0
    | none => Iter.makeW v.dataptr .static 0
  else Iter.makeW v.dataptr (.slot v.slotIdx) v.bsize

/-- StableBlockVector.hpp:300-306 and 320-327. -/
def beginW (N : Nat) (v : Vec) : Option Iter :=
  if v.csize = 0 then endW N v else Iter.makeW v.dataptr (.slot 0) 0

/-- A loop from `begin()` to `end()`. -/
def iterateW (N : Nat) (v : Vec) (h : Heap X) : Option (List X) :=
  (beginW N v).bind fun b =>
  (endW N v).bind fun e => Iter.collectW (blockSize N) v.dataptr h e (v.csize + 1) b

/-- StableBlockVector.hpp:381-392: `std::copy` reads the old entries. -/
def growSlotsW (v : Vec) : Option Vec :=
  if v.avail = 0 then some { v with dataptr := some (List.replicate 64 none), avail := 64, slotIdx := -1 }
  else if v.slotIdx ≥ (v.avail : Int) - 1 then
    (copied v.dataptr v.avail).map fun p => { v with dataptr := p, avail := v.avail * 2 }
  else some v

/-- StableBlockVector.hpp:378-396. -/
def blockCheckW (N : Nat) (v : Vec) (h : Heap X) : Option (Vec × Heap X) :=
  if v.bsize ≥ blockSize N then
    (growSlotsW v).bind fun g =>
    (getNewBlock g h).bind fun r =>
    (slotSet r.2.1.dataptr (r.2.1.slotIdx + 1) r.1).map fun arr =>
      ({ r.2.1 with dataptr := arr, slotIdx := r.2.1.slotIdx + 1, bsize := 0 }, r.2.2)
  else some (v, h)

/-- StableBlockVector.hpp:135-157. -/
def pushBackW (N : Nat) (v : Vec) (h : Heap X) (x : X) : Option (Vec × Heap X) :=
  (blockCheckW N v h).bind fun r =>
  (slotGet r.1.dataptr r.1.slotIdx).bind fun b =>
  (r.2.construct (blockSize N) b r.1.bsize x).map fun h =>
    ({ r.1 with bsize := r.1.bsize + 1, csize := r.1.csize + 1 }, h)

/-- StableBlockVector.hpp:400-412: `std::copy` reads the old entries. -/
def growFreeW (v : Vec) : Option Vec :=
  if v.freeIdx ≥ v.freeAvail then
    if v.freeAvail = 0 then some { v with freeblocks := some (List.replicate 64 none), freeAvail := 64 }
    else (copied v.freeblocks v.freeAvail).map fun p => { v with freeblocks := p, freeAvail := v.freeAvail * 2 }
  else some v

/-- StableBlockVector.hpp:398-414. -/
def moveBlocktoAvailableW (v : Vec) (b : Nat) : Option Vec :=
  (growFreeW v).bind fun g =>
  (slotSet g.freeblocks g.freeIdx b).map fun arr => { g with freeblocks := arr, freeIdx := g.freeIdx + 1 }

/-- StableBlockVector.hpp:165-170. -/
def popStepW (N : Nat) (v : Vec) : Option Vec :=
  if v.bsize > 0 then some { v with bsize := v.bsize - 1 }
  else
    (slotGet v.dataptr v.slotIdx).bind fun b =>
    (moveBlocktoAvailableW { v with slotIdx := v.slotIdx - 1 } b).map fun v =>
      { v with bsize := blockSize N - 1 }

/-- StableBlockVector.hpp:159-172. -/
def popBackW (N : Nat) (v : Vec) (h : Heap X) : Option (Vec × Heap X) :=
  if v.csize = 0 then some (v, h)
  else
    (popStepW N { v with csize := v.csize - 1 }).bind fun v =>
    (slotGet v.dataptr v.slotIdx).bind fun b =>
    (h.destroy (blockSize N) b v.bsize).map fun h => (v, h)

/-- StableBlockVector.hpp:230-236. -/
def clearMidW (N : Nat) : Nat → Vec → Heap X → Option (Vec × Heap X)
  | 0, v, h => some (v, h)
  | n + 1, v, h =>
    (destroyDown N v.dataptr ((n : Int) + 1) (blockSize N) h).bind fun h =>
    (slotGet v.dataptr ((n : Int) + 1)).bind fun b =>
    (moveBlocktoAvailableW v b).bind fun v => clearMidW N n v h

/-- StableBlockVector.hpp:216-246. -/
def clearW (N : Nat) (v : Vec) (h : Heap X) : Option (Vec × Heap X) :=
  if v.avail = 0 then some (v, h)
  else
    (destroyDown N v.dataptr v.slotIdx v.bsize h).bind fun h =>
    if v.slotIdx > 0 then
      (slotGet v.dataptr v.slotIdx).bind fun b =>
      (moveBlocktoAvailableW v b).bind fun v =>
      (clearMidW N (v.slotIdx - 1).toNat v h).bind fun r =>
      (destroyDown N r.1.dataptr 0 (blockSize N) r.2).map fun h =>
        ({ r.1 with slotIdx := 0, csize := 0, bsize := 0 }, h)
    else some ({ v with csize := 0, bsize := 0 }, h)

/-! ### lemmas -/

/-- the entries of the free list are written -/
def FreeW (v : Vec) : Prop := ∃ fs, ArrOK v.freeblocks v.freeAvail fs ∧ v.freeIdx = fs.length

theorem growFreeW_eq {v : Vec} (hf : FreeW v) : growFreeW v = some (growFree v) := by
  obtain ⟨fs, a, e⟩ := hf
  rw [growFreeW, growFree]
  split
  · rename_i h0
    split
    · rfl
    · rw [copied_eq fun k hk => written_of a (by omega)]; rfl
  · rfl

theorem moveW_eq {v : Vec} (hf : FreeW v) (b : Nat) : moveBlocktoAvailableW v b = moveBlocktoAvailable v b := by
  rw [moveBlocktoAvailableW, growFreeW_eq hf]; rfl

theorem moveW_keeps {v v' : Vec} (hf : FreeW v) {b : Nat} (h : moveBlocktoAvailable v b = some v') : FreeW v' := by
  obtain ⟨fs, a, e⟩ := hf
  obtain ⟨p, av, ha, hm⟩ := mba_eq a e b
  rw [hm v rfl rfl rfl] at h
  cases h
  exact ⟨_, ha, by simp⟩

theorem clearMidW_eq (n : Nat) : ∀ (v : Vec) (h : Heap X), FreeW v → clearMidW N n v h = clearMid N n v h := by
  induction n with
  | zero => intros; rfl
  | succ n ih =>
    intro v h hf
    rw [clearMidW, clearMid]
    congr 1; funext h1
    congr 1; funext b
    rw [moveW_eq hf]
    cases hm : moveBlocktoAvailable v b with
    | none => rfl
    | some v' => exact ih v' h1 (moveW_keeps hf hm)

theorem clearW_eq {v : Vec} (h : Heap X) (hf : FreeW v) : clearW N v h = clear N v h := by
  rw [clearW, clear]
  split
  · rfl
  · congr 1; funext h1
    split
    · congr 1; funext b
      rw [moveW_eq hf]
      cases hm : moveBlocktoAvailable v b with
      | none => rfl
      | some v' =>
        simp only [Option.bind_some]
        rw [clearMidW_eq _ _ _ (moveW_keeps hf hm)]
    · rfl

theorem popBackW_eq {v : Vec} (h : Heap X) (hf : FreeW v) : popBackW N v h = popBack N v h := by
  rw [popBackW, popBack]
  split
  · rfl
  · have : popStepW N { v with csize := v.csize - 1 } = popStep N { v with csize := v.csize - 1 } := by
      rw [popStepW, popStep]
      split
      · rfl
      · congr 1; funext b
        rw [moveW_eq (v := { v with csize := v.csize - 1, slotIdx := v.slotIdx - 1 }) hf]
    rw [this]

theorem Core.growSlotsW {h : Heap X} {v : Vec} {xs us fs} (c : Core N h v xs us fs) :
    Vec.growSlotsW v = some (Vec.growSlots v) := by
  rw [Vec.growSlotsW, Vec.growSlots]
  split
  · rfl
  · rename_i ha
    split
    · rename_i hs
      have hi := c.idx.resolve_right ha
      rw [copied_eq fun k hk => written_of c.arr (by omega)]; rfl
    · rfl

theorem pushBackW_eq {h : Heap X} {v : Vec} {xs us fs} (c : Core N h v xs us fs) (x : X) : pushBackW N v h x = pushBack N v h x := by
  rw [pushBackW, pushBack, blockCheckW, blockCheck, c.growSlotsW]
  rfl

theorem Core.div_cases {h : Heap X} {v : Vec} {xs us fs} (c : Core N h v xs us fs) (hu : us = [] → v.avail = 0) (ha : v.avail ≠ 0) :
    (v.bsize = blockSize N → xs ≠ [] ∧ 2 ^ N ∣ xs.length ∧ xs.length / 2 ^ N = us.length) ∧
      (v.bsize ≠ blockSize N → xs.length / 2 ^ N < us.length) := by
  have hB := blockSize_pos N
  have hlen := c.len
  obtain ⟨us, b, rfl⟩ : ∃ us' b, us = us' ++ [b] :=
    ⟨us.dropLast, us.getLast (fun e => ha (hu e)), (List.dropLast_concat_getLast _).symm⟩
  have hcs := c.last_size
  have hbz := c.bsz
  rw [← blockSize_eq N]
  refine ⟨fun hb => ⟨?_, ?_, ?_⟩, fun hb => ?_⟩
  · intro hx; subst hx; simp at hlen; omega
  · rw [hlen, hcs, hb]; exact Nat.dvd_add (Nat.dvd_mul_left ..) (Nat.dvd_refl _)
  · rw [hlen, hcs, hb, Nat.add_div_right _ hB, Nat.mul_div_cancel _ hB]; simp
  · rw [hlen, hcs, Nat.mul_comm, Nat.mul_add_div hB, Nat.div_eq_of_lt (show v.bsize < _ by omega)]; simp

theorem Core.iterateW {h : Heap X} {v : Vec} {xs us fs} (c : Core N h v xs us fs) (hu : us = [] → v.avail = 0) :
    Vec.iterateW N v h = if xs ≠ [] ∧ 2 ^ N ∣ xs.length ∧ slotGet v.dataptr ((xs.length / 2 ^ N : Nat) : Int) = none
      then none else some xs := by
  have hB := blockSize_pos N
  have hlen := c.len
  by_cases ha : v.avail = 0
  · obtain ⟨rfl, hb, he⟩ := c.null_iter ha
    rw [if_neg (by simp)]
    have hp : v.dataptr = none := by
      have := c.arr.len; rw [ha] at this
      have hn := c.ne
      cases hd : v.dataptr with
      | none => rfl
      | some l => rw [hd] at this hn; simp at this; exact absurd (by rw [this]) hn
    have hcs : v.csize = 0 := by simpa using hlen.symm
    have hus : us = [] := List.length_eq_zero_iff.1 (by have := c.arr.le; omega)
    have hbs : v.bsize = blockSize N := by have := c.size; rw [hus, hcs] at this; simp at this; omega
    have e1 : endW N v = some ⟨.static, none, 0, 0⟩ := by
      rw [endW, if_pos hbs, hp]; rfl
    rw [Vec.iterateW, beginW, if_pos hcs, e1]
    simp [Iter.collectW, Iter.ne]
  · obtain ⟨l, hl, hll, _⟩ := c.arr.getD (by omega)
    have hidx := c.idx.resolve_right ha
    obtain ⟨d1, d2⟩ := c.div_cases hu ha
    by_cases hW : xs ≠ [] ∧ 2 ^ N ∣ xs.length ∧ slotGet v.dataptr ((xs.length / 2 ^ N : Nat) : Int) = none
    · rw [if_pos hW]
      obtain ⟨h1, h2, h3⟩ := hW
      have hb : v.bsize = blockSize N := by
        refine Classical.byContradiction fun hb => ?_
        exact written_of c.arr (d2 hb) h3
      obtain ⟨_, _, e⟩ := d1 hb
      have he : endW N v = none := by
        rw [endW, if_pos hb]
        simp only [hl]
        rw [← hl, hidx, show ((us.length : Int) - 1 + 1) = ((xs.length / 2 ^ N : Nat) : Int) by omega]
        exact Iter.makeW_none _ _ _ h3
      rw [Vec.iterateW, he]
      cases beginW N v <;> rfl
    · rw [if_neg hW]
      have hwr : ∀ k : Nat, k ≤ xs.length / 2 ^ N → slotGet v.dataptr (k : Int) ≠ none := by
        intro k hk
        by_cases hb : v.bsize = blockSize N
        · obtain ⟨a1, a2, a3⟩ := d1 hb
          by_cases hkl : k < us.length
          · exact written_of c.arr hkl
          · have : k = xs.length / 2 ^ N := by omega
            rw [this]; exact fun e => hW ⟨a1, a2, e⟩
        · exact written_of c.arr (Nat.lt_of_le_of_lt hk (d2 hb))
      have hi : xs.length < v.avail * blockSize N := by
        have := hwr _ (Nat.le_refl _)
        rw [slotGet_nat] at this
        have hlt : xs.length / 2 ^ N < v.avail := by
          refine Classical.byContradiction fun hn => this ?_
          rw [List.getElem?_eq_none (by rw [c.arr.len]; omega)]; rfl
        rw [← blockSize_eq N] at hlt
        exact (Nat.div_lt_iff_lt_mul hB).1 hlt
      obtain ⟨e, he, hd⟩ := c.end_denotes hu ha hi
      obtain ⟨b0, hb0, hd0⟩ := c.begin_denotes hu ha
      have he' : endW N v = end? N v := by
        rw [endW, end?]
        split
        · rename_i hb
          simp only [hl]
          rw [← hl]
          obtain ⟨a1, a2, a3⟩ := d1 hb
          refine Iter.makeW_eq _ _ _ ?_
          rw [hidx, show ((us.length : Int) - 1 + 1) = ((xs.length / 2 ^ N : Nat) : Int) by omega]
          exact hwr _ (Nat.le_refl _)
        · rename_i hb
          refine Iter.makeW_eq _ _ _ ?_
          have := Nat.lt_of_le_of_lt (Nat.zero_le _) (d2 hb)
          rw [hidx, show ((us.length : Int) - 1) = ((us.length - 1 : Nat) : Int) by omega]
          exact written_of c.arr (by omega)
      have hb' : beginW N v = begin? N v := by
        rw [beginW, begin?, he']
        split
        · rfl
        · exact Iter.makeW_eq _ _ _ (hwr 0 (Nat.zero_le _))
      have := c.iterate hu (.inr hi)
      rw [← this, Vec.iterateW, Vec.iterate, he', hb', he, hb0]
      simp only [Option.bind_some]
      refine hd.collectW hB h _ hd0 (Nat.zero_le _) fun k _ hk => hwr k ?_
      rw [hlen, ← blockSize_eq N]; exact hk

end Vec

open Vec

/-! ## C140 -/

/-- In every reachable state a loop from `begin()` to `end()` over a vector that was not moved from sees its elements, unless the
elements exactly fill the blocks in use and the entry for the next block was never written (or does not exist): then `end()` is undefined. -/
theorem iterate_written_partial (N : Nat) (w : World X) (aw : AWorld X) (h : Reached N w aw) (i : Nat) (a : AObj X) (ha : aw i = some a)
    (hm : a.moved = false) :
    ∃ v, w.objs i = some v ∧ v.iterateW N w.heap =
      if a.elems ≠ [] ∧ 2 ^ N ∣ a.elems.length ∧ slotGet v.dataptr ((a.elems.length / 2 ^ N : Nat) : Int) = none
      then none else some a.elems := by
  obtain ⟨us, fs, W⟩ := h.inv
  obtain ⟨v, hv, c, hr, hu⟩ := W.getLive ha hm
  exact ⟨v, hv, c.iterateW hu⟩

/-- In every reachable state `push_back`, `pop_back` and `clear` on a vector that was not moved from read no block pointer that was
never written: making such reads undefined changes nothing. -/
theorem updates_written_partial (N : Nat) (w : World X) (aw : AWorld X) (h : Reached N w aw) (i : Nat) (a : AObj X) (ha : aw i = some a)
    (hm : a.moved = false) :
    ∃ v, w.objs i = some v ∧ (∀ x, v.pushBackW N w.heap x = v.pushBack N w.heap x) ∧
      v.popBackW N w.heap = v.popBack N w.heap ∧ v.clearW N w.heap = v.clear N w.heap := by
  obtain ⟨us, fs, W⟩ := h.inv
  obtain ⟨v, hv, c, hr, hu⟩ := W.getLive ha hm
  exact ⟨v, hv, pushBackW_eq c, popBackW_eq _ ⟨_, c.farr, c.fidx⟩, clearW_eq _ ⟨_, c.farr, c.fidx⟩⟩

/-! ### a vector that only grew -/

/-- nothing was written after the last block in use, and no block waits for reuse -/
structure Fresh (v : Vec) : Prop where
  free : v.freeIdx = 0
  after : ∀ k : Nat, v.slotIdx < (k : Int) → slotGet v.dataptr (k : Int) = none
  used : v.bsize ≠ 0

theorem Fresh.growSlots {h : Heap X} {v : Vec} {xs us fs} (f : Fresh v) (c : Core N h v xs us fs) : Fresh v.growSlots := by
  rw [Vec.growSlots]
  split
  · exact ⟨f.free, fun k _ => slotGet_replicate 64 k, f.used⟩
  · rename_i ha
    split
    · rename_i hs
      refine ⟨f.free, fun k hk => ?_, f.used⟩
      simp only at hk ⊢
      obtain ⟨l, hl, hll, _⟩ := c.arr.getD (by omega)
      rw [hl, slotGet_nat]
      simp only [Option.map_some, Option.getD_some]
      rw [List.getElem?_append_right (by simp; omega), List.getElem?_replicate]
      split <;> rfl
    · exact f

theorem Fresh.pushBack {h h' : Heap X} {v v' : Vec} {xs us fs x} (f : Fresh v) (c : Core N h v xs us fs)
    (he : v.pushBack N h x = some (v', h')) : Fresh v' := by
  have f' := f.growSlots c
  rw [Vec.pushBack] at he
  simp only [Option.bind_eq_some_iff, Option.map_eq_some_iff] at he
  obtain ⟨r, hr, b, hb, h1, _, e⟩ := he
  cases e
  have : r.1.freeIdx = 0 ∧ ∀ k : Nat, r.1.slotIdx < (k : Int) → slotGet r.1.dataptr (k : Int) = none := by
    rw [blockCheck] at hr
    split at hr
    · rw [getNewBlock, if_pos f'.free] at hr
      simp only [Option.bind_some, Option.map_eq_some_iff] at hr
      obtain ⟨arr, ha, e⟩ := hr
      subst e
      refine ⟨f'.free, fun k hk => ?_⟩
      simp only at hk ⊢
      rw [slotSet_after ha k hk]
      exact f'.after k (by omega)
    · cases hr; exact ⟨f.free, f.after⟩
  exact ⟨this.1, this.2, Nat.succ_ne_zero _⟩

theorem push_all (xs : List X) : ∀ (w : World X) (aw : AWorld X) (a : AObj X) (v : Vec), Reached N w aw → aw 0 = some a → a.moved = false →
    w.objs 0 = some v → Fresh v → ∃ w' os aw' a' v', run N w (xs.map (.push 0)) = some (w', os) ∧ Reached N w' aw' ∧ aw' 0 = some a' ∧
      a'.moved = false ∧ a'.elems = a.elems ++ xs ∧ w'.objs 0 = some v' ∧ Fresh v' := by
  induction xs with
  | nil => intro w aw a v h ha hm hv f; exact ⟨w, [], aw, a, v, rfl, h, ha, hm, by simp, hv, f⟩
  | cons x xs ih =>
    intro w aw a v h ha hm hv f
    obtain ⟨us, fs, W⟩ := h.inv
    obtain ⟨v0, hv0, c, hr, hu⟩ := W.getLive ha hm
    rw [hv] at hv0; cases hv0
    have hi : ideal N aw (.push 0 x) = some (upd aw 0 (some ⟨a.elems ++ [x], reservePush N a.reserved a.elems.length, a.moved⟩), .done) := by
      simp only [ideal, ha, Option.map_some]
    have hc : careful N aw (.push 0 x) = true := by simp [careful, ha, hm]
    obtain ⟨w1, us1, fs1, e1, W1, _⟩ := step w aw us fs W _ _ _ hi hc
    have h1 := Reached.call h hc hi e1
    have e1' := e1
    simp only [exec, hv, Option.bind_some, Option.map_eq_some_iff] at e1'
    obtain ⟨r, hr1, hr2⟩ := e1'
    cases hr2
    obtain ⟨w', os, aw', a', v', g1, g2, g3, g4, g5, g6, g7⟩ := ih _ _ ⟨a.elems ++ [x], reservePush N a.reserved a.elems.length, a.moved⟩ r.1 h1
      (upd_same _ _ _) hm (by simp [upd]) (f.pushBack c hr1)
    refine ⟨w', .done :: os, aw', a', v', ?_, g2, g3, g4, by rw [g5]; simp, g6, g7⟩
    rw [List.map_cons, run, e1]
    simp only [Option.bind_some, g1, Option.map_some]

/-- A vector filled by `push_back` alone, for every block size and every sequence of values: a loop over it sees the values, unless
their number is a positive multiple of the block size; then `end()` reads a block pointer that was never written (or lies
outside the array), and every loop over the vector is undefined. -/
theorem push_only_iterate (N : Nat) (xs : List X) :
    ∃ w os v, run N World.empty (.new 0 :: xs.map (.push 0)) = some (w, os) ∧ w.objs 0 = some v ∧
      v.iterateW N w.heap = if xs ≠ [] ∧ 2 ^ N ∣ xs.length then none else some xs := by
  have h0 : Reached N (⟨upd (World.empty : World X).objs 0 (some (Vec.default N)), Heap.empty⟩ : World X)
      (upd noObjs 0 (some ⟨[], 0, false⟩)) := .call .start (op := .new 0) (o := .done) rfl rfl rfl
  obtain ⟨w, os, aw, a, v, g1, g2, g3, g4, g5, g6, g7⟩ := push_all xs _ _ ⟨[], 0, false⟩ (Vec.default N) h0 (upd_same _ _ _) rfl
    (by simp [upd]) ⟨rfl, fun k _ => rfl, Nat.ne_of_gt (blockSize_pos N)⟩
  simp only [List.nil_append] at g5
  refine ⟨w, .done :: os, v, ?_, g6, ?_⟩
  · rw [run]
    simp only [exec, Option.bind_some]
    rw [show (World.empty : World X).heap = Heap.empty from rfl, g1]
    rfl
  · obtain ⟨us, fs, W⟩ := g2.inv
    obtain ⟨v1, hv1, c, hr, hu⟩ := W.getLive g3 g4
    rw [g6] at hv1; cases hv1
    rw [c.iterateW hu, g5]
    by_cases hx : xs ≠ [] ∧ 2 ^ N ∣ xs.length
    · rw [if_pos hx, if_pos]
      refine ⟨hx.1, hx.2, ?_⟩
      have hp := List.length_pos_iff.2 hx.1
      have hB := blockSize_pos N
      have ha : v.avail ≠ 0 := fun h => hx.1 (g5 ▸ (c.null_iter h).1)
      have hd := c.div_cases hu ha
      rw [g5] at hd
      have hb : v.bsize = blockSize N := by
        refine Classical.byContradiction fun hb => g7.used ?_
        have hle := c.bsz
        have := c.size
        rw [← c.len, g5] at this
        have hdv : blockSize N ∣ v.bsize := by
          refine (Nat.dvd_add_right (Nat.dvd_mul_left (blockSize N) (us 0).length)).1 ?_
          rw [← this]
          exact Nat.dvd_add (by rw [blockSize_eq]; exact hx.2) (Nat.dvd_refl _)
        exact Nat.eq_zero_of_dvd_of_lt hdv (by omega)
      refine g7.after _ ?_
      have := c.idx.resolve_right ha
      rw [(hd.1 hb).2.2]; omega
    · rw [if_neg hx, if_neg (fun h => hx ⟨h.1, h.2.1⟩)]

/-- Blocks of four: eight elements fill two blocks, and `end()` would read the third entry; with seven, or after a ninth was added and
removed again (which writes the third entry), the loop is fine. -/
example : (∃ w os v, run 2 World.empty (.new 0 :: [1, 2, 3, 4, 5, 6, 7, 8].map (.push 0)) = some (w, os) ∧ w.objs 0 = some v ∧
      v.iterateW 2 w.heap = none ∧ v.iterate 2 w.heap = some [1, 2, 3, 4, 5, 6, 7, 8]) ∧
    (∃ w os v, run 2 World.empty (.new 0 :: [1, 2, 3, 4, 5, 6, 7].map (.push 0)) = some (w, os) ∧ w.objs 0 = some v ∧
      v.iterateW 2 w.heap = some [1, 2, 3, 4, 5, 6, 7]) ∧
    ∃ w os v, run 2 World.empty (.new 0 :: [1, 2, 3, 4, 5, 6, 7, 8, 9].map (.push 0) ++ [.pop 0, .pop 0, .push 0 10]) = some (w, os) ∧
      w.objs 0 = some v ∧ v.iterateW 2 w.heap = some [1, 2, 3, 4, 5, 6, 7, 10] :=
  ⟨⟨_, _, _, rfl, rfl, by decide, by decide⟩, ⟨_, _, _, rfl, rfl, by decide⟩, ⟨_, _, _, rfl, rfl, by decide⟩⟩

/-- `updates_written_partial` covers a push that moves the 64 entries of the array to a larger one, and a `pop_back` that moves a block to
the list of spare blocks. -/
example : ∃ w aw a, Reached (X := Nat) 0 w aw ∧ aw 0 = some a ∧ a.moved = false ∧ a.elems.length = 64 ∧ a.reserved = 64 := by
  obtain ⟨w, -, r⟩ := after_failures_partial 0 _ _ .start [Op.newSize 0 63 7, .push 0 8] _ _ rfl (by decide)
  exact ⟨w, _, _, r, rfl, rfl, rfl, rfl⟩

end Verif.Block.Vector
