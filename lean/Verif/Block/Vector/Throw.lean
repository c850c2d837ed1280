import Verif.Block.Vector.World

/-
Model of exceptions inside `emplace_back` / `push_back` and `assign` of gmlc/containers/StableBlockVector.hpp: thrown by
`new X*[]`, by the allocator of the blocks, or by the element type.

`push_back` is `noexcept` when copying (moving) an element is (142, 149), so for such element types a failing allocation
ends the program there; `emplace_back` (135) lets it through.
-/
namespace Verif.Block.Vector
open Verif.Block

/-- What fails during the call. -/
inductive Fault where
  | array      -- `new X*[]` of StableBlockVector.hpp:382 or 386
  | block      -- `a.allocate` of StableBlockVector.hpp:418
  | element    -- the constructor of the element, StableBlockVector.hpp:139, 146 or 154
deriving DecidableEq

variable {X : Type}

namespace Vec

/-- StableBlockVector.hpp:135-157 with 378-396 and 416-423, when the given operation throws if the call gets to it.  The
flag says whether it did; if not, the call is an ordinary one.
* The arrays are allocated before any member changes (382, 386).
* `dataptr[++dataSlotIndex] = getNewBlock()` (393): the right operand is evaluated first since C++17, so a failing block
  allocation leaves the members as they are after the array has been enlarged.
* `new (&(dataptr[dataSlotIndex][bsize++])) X(...)` (139): the address is computed, and so `bsize` increased, before the
  constructor runs; `++csize` is not reached. -/
def pushFault (N : Nat) (v : Vec) (h : Heap X) (x : X) : Fault → Option (Bool × Vec × Heap X)
  | .array =>
    if v.bsize ≥ blockSize N ∧ (v.avail = 0 ∨ v.slotIdx ≥ (v.avail : Int) - 1) then some (true, v, h)
    else (pushBack N v h x).map fun r => (false, r)
  | .block =>
    if v.bsize ≥ blockSize N ∧ v.growSlots.freeIdx = 0 then some (true, v.growSlots, h)
    else (pushBack N v h x).map fun r => (false, r)
  | .element =>
    (blockCheck N v h).bind fun r =>
    (slotGet r.1.dataptr r.1.slotIdx).map fun _ => (true, { r.1 with bsize := r.1.bsize + 1 }, r.2)

/-- StableBlockVector.hpp:179-182 and 200-203 when the assignment of the element with index `k` throws, leaving `junk`
in it. -/
def assignThrow (N : Nat) (v : Vec) (h : Heap X) (junk : X) : Nat → Nat → List X → Option (Heap X)
  | 0, ii, _ => set N v h ii junk
  | _ + 1, _, [] => none
  | k + 1, ii, y :: ys => (set N v h ii y).bind fun h => assignThrow N v h junk k (ii + 1) ys

end Vec

/-- The call `emplace_back(x)` on object `i` when `f` fails. -/
def execFault (N : Nat) (w : World X) (i : Nat) (x : X) (f : Fault) : Option (World X × Obs X) :=
  (w.objs i).bind fun v => (v.pushFault N w.heap x f).map fun r =>
    (⟨upd w.objs i (some r.2.1), r.2.2⟩, if r.1 then .threw else .done)

/-- The call `assign(first, last)` or `move_assign(first, last)` on object `i`, the range having the values `ys`, when
assigning to the element with index `k` throws and leaves `junk` in it. -/
def execAssignThrow (N : Nat) (w : World X) (i k : Nat) (ys : List X) (junk : X) : Option (World X × Obs X) :=
  (w.objs i).bind fun v => (v.assignThrow N w.heap junk k 0 ys).map fun h => (⟨w.objs, h⟩, .threw)

namespace Vec
variable {N : Nat} {h : Heap X} {v : Vec} {xs : List X} {us fs : List Nat}

theorem Core.pushArray (c : Core N h v xs us fs) (x : X) :
    v.pushFault N h x .array = some (true, v, h) ∨
      v.pushFault N h x .array = (Vec.pushBack N v h x).map fun r => (false, r) := by
  rw [pushFault]
  split
  · exact .inl rfl
  · exact .inr rfl

theorem Core.pushBlock (c : Core N h v xs us fs) (x : X) :
    (v.pushFault N h x .block = some (true, v.growSlots, h) ∧ Core N h v.growSlots xs us fs ∧
      v.growSlots.avail = capPush N v.avail v.csize) ∨
      v.pushFault N h x .block = (Vec.pushBack N v h x).map fun r => (false, r) := by
  rw [pushFault]
  split
  · rename_i h1
    obtain ⟨g1, g2, _⟩ := c.growSlots (Nat.le_antisymm c.bsz h1.1)
    exact .inl ⟨rfl, g1, g2⟩
  · exact .inr rfl

theorem Core.assignThrow (junk : X) (k : Nat) : ∀ {h : Heap X} {xs : List X} (ii : Nat) (ys : List X),
    Core N h v xs us fs → h.Wf → k < ys.length → ii + k < xs.length →
    ∃ h', Vec.assignThrow N v h junk k ii ys = some h' ∧
      Core N h' v (xs.take ii ++ ys.take k ++ junk :: xs.drop (ii + k + 1)) us fs ∧
      Heap.Frame h h' (us ++ fs) (us ++ fs) := by
  induction k with
  | zero =>
    intro h xs ii ys c w _ hk
    obtain ⟨h', e, c', f⟩ := c.set_eq w (n := ii) (by omega) junk
    refine ⟨h', by rw [Vec.assignThrow]; exact e, ?_, f⟩
    rw [List.set_eq_take_append_cons_drop, if_pos (by omega)] at c'
    simpa using c'
  | succ k ih =>
    intro h xs ii ys c w hy hk
    cases ys with
    | nil => simp at hy
    | cons y ys =>
      obtain ⟨h1, e, c', f⟩ := c.set_eq w (n := ii) (by omega) y
      obtain ⟨h2, e2, c2, f2⟩ := ih (ii + 1) ys c' f.wf (by simpa using hy) (by rw [List.length_set]; omega)
      refine ⟨h2, by rw [Vec.assignThrow, e]; exact e2, ?_, f.trans f2⟩
      have e3 : (xs.set ii y).take (ii + 1) = xs.take ii ++ [y] := by
        rw [List.set_eq_take_append_cons_drop, if_pos (by omega), List.take_append, List.length_take,
          Nat.min_eq_left (by omega), Nat.add_sub_cancel_left, List.take_take, Nat.min_eq_right (by omega)]
        rfl
      have e4 : (xs.set ii y).drop (ii + 1 + k + 1) = xs.drop (ii + (k + 1) + 1) := by
        rw [List.drop_set, if_pos (by omega)]; congr 1; omega
      rw [e3, e4] at c2
      simpa using c2

/-! ### after a throwing element constructor -/

/-- the vector left behind: a used-up cell without element -/
structure Broken (N : Nat) (h : Heap X) (v : Vec) (xs : List X) (us fs : List Nat) (b : Nat) : Prop where
  core : Core N h { v with bsize := v.bsize - 1 } xs (us ++ [b]) fs
  pos : 0 < v.bsize
  le : v.bsize ≤ blockSize N

theorem Core.pushElement (c : Core N h v xs us fs) (w : h.Wf) (x : X) :
    ∃ v' h' us' b fs', v.pushFault N h x .element = some (true, v', h') ∧ Broken N h' v' xs us' fs' b ∧
      Heap.Frame h h' (us ++ fs) ((us' ++ [b]) ++ fs') ∧ us <+: us' ++ [b] := by
  obtain ⟨v', h', us', b, fs', e, c', f, p, hb, _⟩ := c.blockCheck w
  refine ⟨{ v' with bsize := v'.bsize + 1 }, h', us', b, fs', ?_, ⟨?_, Nat.succ_pos _, hb⟩, f, p⟩
  · rw [pushFault, e]
    simp only [Option.bind_some]
    rw [c'.last_idx, c'.last_get]; rfl
  · exact c'

variable {b : Nat}

theorem Broken.idx (B : Broken N h v xs us fs b) : v.slotIdx = (us.length : Int) := B.core.last_idx
theorem Broken.get (B : Broken N h v xs us fs b) : slotGet v.dataptr (us.length : Int) = some b := B.core.last_get
theorem Broken.live (B : Broken N h v xs us fs b) : h.live b = true := B.core.last_live
theorem Broken.size (B : Broken N h v xs us fs b) : v.csize = us.length * blockSize N + (v.bsize - 1) := B.core.last_size
theorem Broken.hole (B : Broken N h v xs us fs b) : h.cells b (v.bsize - 1) = none := by
  have h1 := B.pos
  have h2 := B.le
  rw [B.core.cells us.length b (by simp) _ (by omega), List.getElem?_eq_none]
  have := B.core.len
  have := B.size
  simp only at *
  omega

theorem Broken.destroyDown (B : Broken N h v xs us fs b) : destroyDown N v.dataptr v.slotIdx v.bsize h = none := by
  obtain ⟨n, hn⟩ : ∃ n, v.bsize = n + 1 := ⟨v.bsize - 1, by have := B.pos; omega⟩
  have hh := B.hole
  rw [hn] at hh ⊢
  rw [Vec.destroyDown, B.idx, B.get]
  simp only [Option.bind_some, Nat.add_sub_cancel] at hh ⊢
  rw [Heap.destroy, if_neg (by rw [hh]; simp)]
  rfl

theorem Broken.ptr (B : Broken N h v xs us fs b) : ∃ l, v.dataptr = some l := by
  have := B.get
  cases hd : v.dataptr with
  | none => rw [hd] at this; simp [slotGet] at this
  | some l => exact ⟨l, rfl⟩

theorem Broken.freeAll (B : Broken N h v xs us fs b) : Vec.freeAll N v h = none := by
  obtain ⟨l, hl⟩ := B.ptr
  have := B.destroyDown
  rw [Vec.freeAll]
  split
  · rename_i e; rw [e] at hl; cases hl
  · rw [B.destroyDown]; rfl

theorem Broken.clear (B : Broken N h v xs us fs b) : Vec.clear N v h = none := by
  rw [Vec.clear, if_neg, B.destroyDown]
  · rfl
  · have := B.core.arr.le
    simp at this ⊢
    omega

theorem Broken.popBack (B : Broken N h v xs us fs b) (hx : xs ≠ []) : Vec.popBack N v h = none := by
  have hl := B.core.len
  have hne : v.csize ≠ 0 := by
    intro e
    rw [e] at hl
    exact hx (List.length_eq_zero_iff.1 hl)
  rw [Vec.popBack, if_neg hne, popStep, if_pos B.pos]
  simp only [Option.bind_some]
  rw [B.idx, B.get]
  simp only [Option.bind_some]
  rw [Heap.destroy, if_neg (by rw [B.hole]; simp)]
  rfl

theorem Broken.back (B : Broken N h v xs us fs b) : Vec.back N v h = none := by
  have := B.pos
  rw [Vec.back, if_neg (by omega), B.idx, B.get]
  simp only [Option.bind_some]
  rw [Heap.read]
  split
  · exact B.hole
  · rfl

/-- the first cell without element, through `operator[]` -/
theorem Broken.cell (B : Broken N h v xs us fs b) : cell N v v.csize = some (b, v.bsize - 1) := by
  have h1 := B.pos
  have h2 := B.le
  have hB := blockSize_pos N
  rw [Vec.cell, shr_eq, mask_eq]
  have e1 : v.csize / blockSize N = us.length := by
    rw [B.size, Nat.mul_comm, Nat.mul_add_div hB, Nat.div_eq_of_lt (by omega)]; rfl
  have e2 : v.csize % blockSize N = v.bsize - 1 := by
    rw [B.size, Nat.mul_comm, Nat.mul_add_mod, Nat.mod_eq_of_lt (by omega)]
  rw [e1, e2, B.get]; rfl

theorem collect_undefined {bs : Nat} {arr : SlotPtr} (hb : 0 < bs) (h : Heap X) {last : Iter} {M : Nat}
    (dl : Iter.Denotes bs arr last M) (j : Nat) : ∀ {it : Iter} {n fuel : Nat}, Iter.Denotes bs arr it n →
      n + j < M → j < fuel →
      (∃ b, slotGet arr (((n + j) / bs : Nat) : Int) = some b ∧ h.read bs b ((n + j) % bs) = none) →
      Iter.collect bs arr h last fuel it = none := by
  induction j with
  | zero =>
    intro it n fuel d hM hf hr
    obtain ⟨b, hb1, hb2⟩ := hr
    rw [Nat.add_zero] at hb1 hb2
    obtain ⟨fuel, rfl⟩ : ∃ f, fuel = f + 1 := ⟨fuel - 1, by omega⟩
    rw [Iter.collect]
    split
    · rw [d.deref_eq h hb1, hb2]; rfl
    · rename_i hne
      rw [Iter.ne_eq_not_eq] at hne
      have := (Iter.Denotes.eq_iff d dl).1 (by simpa using hne)
      omega
  | succ j ih =>
    intro it n fuel d hM hf hr
    obtain ⟨fuel, rfl⟩ : ∃ f, fuel = f + 1 := ⟨fuel - 1, by omega⟩
    rw [Iter.collect]
    split
    · cases it.deref bs h with
      | none => rfl
      | some x =>
        obtain ⟨it', d'⟩ := dl.mono (m := n + 1) (by omega)
        have hi : it.incr bs arr = some it' := by
          rw [Iter.incr_eq]; exact d.add hb d'
        simp only [Option.bind_some, hi]
        rw [ih d' (by omega) (by omega) (by rw [show n + 1 + j = n + (j + 1) by omega]; exact hr)]
        rfl
    · rename_i hne
      rw [Iter.ne_eq_not_eq] at hne
      have := (Iter.Denotes.eq_iff d dl).1 (by simpa using hne)
      omega

theorem Broken.iterate (B : Broken N h v xs us fs b) (hx : xs ≠ []) : Vec.iterate N v h = none := by
  have hB := blockSize_pos N
  have h1 := B.pos
  have h2 := B.le
  have hl := B.core.len
  simp only at hl
  have hsz := B.size
  have hne : v.csize ≠ 0 := by
    intro e
    rw [e] at hl
    exact hx (List.length_eq_zero_iff.1 hl)
  obtain ⟨l, hd⟩ := B.ptr
  have harr := B.core.arr
  simp only at harr
  rw [Vec.iterate, begin?, if_neg hne]
  cases he : Vec.end? N v with
  | none => cases Iter.make v.dataptr (.slot 0) 0 <;> rfl
  | some e =>
    have hde : Iter.Denotes (blockSize N) v.dataptr e (v.csize + 1) := by
      have e0 : v.csize + 1 = us.length * blockSize N + v.bsize := by omega
      unfold Iter.Denotes
      rw [← he, e0]
      by_cases hb : v.bsize = blockSize N
      · have e1 : (us.length * blockSize N + v.bsize) / blockSize N = us.length + 1 := by
          rw [hb, Nat.add_div_right _ hB, Nat.mul_div_cancel _ hB]
        have e2 : (us.length * blockSize N + v.bsize) % blockSize N = 0 := by
          rw [hb, Nat.add_mod_right, Nat.mul_mod_left]
        rw [e1, e2, end?, if_pos hb, B.idx, hd]
        rfl
      · have e1 : (us.length * blockSize N + v.bsize) / blockSize N = us.length := by
          rw [Nat.mul_comm, Nat.mul_add_div hB, Nat.div_eq_of_lt (show v.bsize < _ by omega)]; rfl
        have e2 : (us.length * blockSize N + v.bsize) % blockSize N = v.bsize := by
          rw [Nat.mul_comm, Nat.mul_add_mod, Nat.mod_eq_of_lt (by omega)]
        rw [e1, e2, end?, if_neg hb, B.idx]
    obtain ⟨b0, d0⟩ := hde.mono (m := 0) (by omega)
    have hb0 : Iter.make v.dataptr (.slot 0) 0 = some b0 := by
      rw [← d0]; simp
    rw [hb0]
    simp only [Option.bind_some]
    have hc := B.cell
    rw [Vec.cell, shr_eq, mask_eq] at hc
    simp only [Option.map_eq_some_iff, Prod.mk.injEq] at hc
    obtain ⟨b', hb', rfl, hm⟩ := hc
    refine collect_undefined hB h hde v.csize d0 (by omega) (by omega) ⟨b', by rw [Nat.zero_add]; exact hb', ?_⟩
    rw [Nat.zero_add, hm, Heap.read]
    split
    · exact B.hole
    · rfl

theorem blockCheck_setCell (N : Nat) (v : Vec) (h : Heap X) (n b j : Nat) (x : Option X) :
    Vec.blockCheck N { v with csize := n } (h.setCell b j x) =
      (Vec.blockCheck N v h).map fun r => ({ r.1 with csize := n }, r.2.setCell b j x) := by
  have hg : Vec.growSlots { v with csize := n } = { v.growSlots with csize := n } := by
    simp only [Vec.growSlots]
    split
    · rfl
    · split <;> rfl
  rw [Vec.blockCheck, Vec.blockCheck]
  simp only
  split
  · rw [hg, getNewBlock, getNewBlock]
    simp only
    split
    · simp only [Option.bind_some, Heap.alloc, Heap.setCell]
      cases slotSet v.growSlots.dataptr (v.growSlots.slotIdx + 1) h.next <;> rfl
    · cases slotGet v.growSlots.freeblocks (v.growSlots.freeIdx - 1) with
      | none => rfl
      | some b' =>
        simp only [Option.map_some, Option.bind_some]
        cases slotSet v.growSlots.dataptr (v.growSlots.slotIdx + 1) b' <;> rfl
  · rfl

theorem blockCheck_cells {v' : Vec} {h' : Heap X} (e : Vec.blockCheck N v h = some (v', h')) :
    h'.cells = h.cells ∧ v'.csize = v.csize := by
  have hg : v.growSlots.csize = v.csize := by
    rw [Vec.growSlots]
    split
    · rfl
    · split <;> rfl
  rw [Vec.blockCheck] at e
  split at e
  · rw [getNewBlock] at e
    split at e
    · simp only [Option.bind_some, Option.map_eq_some_iff, Prod.mk.injEq] at e
      obtain ⟨p, _, rfl, rfl⟩ := e
      exact ⟨rfl, hg⟩
    · simp only [Option.bind_eq_some_iff, Option.map_eq_some_iff, Prod.mk.injEq] at e
      obtain ⟨r, ⟨b', _, rfl⟩, p, _, rfl, rfl⟩ := e
      exact ⟨rfl, hg⟩
  · simp only [Option.some.injEq, Prod.mk.injEq] at e
    rw [← e.1, ← e.2]
    exact ⟨rfl, rfl⟩

/-- The next insertion succeeds, but its element is not where it should be. -/
theorem Broken.push (B : Broken N h v xs us fs b) (w : h.Wf) (y : X) :
    ∃ v' h', Vec.pushBack N v h y = some (v', h') ∧ v'.csize = xs.length + 1 ∧
      Vec.get N v' h' xs.length = none := by
  have hB := blockSize_pos N
  have h1 := B.pos
  have hl := B.core.len
  simp only at hl
  have hsz := B.size
  have hcell := B.cell
  have hhole := B.hole
  rw [hl]
  rcases Nat.lt_or_eq_of_le B.le with hb | hb
  · refine ⟨{ v with bsize := v.bsize + 1, csize := v.csize + 1 }, h.setCell b v.bsize (some y), ?_, rfl, ?_⟩
    · rw [Vec.pushBack, Vec.blockCheck, if_neg (by omega)]
      simp only [Option.bind_some]
      rw [B.idx, B.get]
      simp only [Option.bind_some]
      rw [Heap.construct_eq y B.live hb]
      · rfl
      · rw [B.core.cells us.length b (by simp) _ hb, List.getElem?_eq_none (by omega)]
    · unfold Vec.get Vec.cell at *
      simp only [hcell, Option.bind_some]
      have : (h.setCell b v.bsize (some y)).cells b (v.bsize - 1) = none := by
        rw [Heap.setCell_cells, if_neg (by omega), hhole]
      rw [Heap.read, this]
      simp
  · obtain ⟨h2, e2, c2, f2⟩ := B.core.pushCell w (by simp only; omega) y
    rw [Heap.construct_eq y B.live (by omega) hhole] at e2
    cases e2
    simp only at c2 f2
    have w2 := f2.wf
    rw [show v.bsize - 1 + 1 = v.bsize by omega] at c2
    obtain ⟨v3, h3, us3, b3, fs3, e3, c3, f3, p3, hb3, _⟩ := c2.blockCheck w2
    have e4 := blockCheck_setCell N v h (v.csize + 1) b (v.bsize - 1) (some y)
    have e5 : Vec.blockCheck N { v with csize := v.csize + 1 } (h.setCell b (v.bsize - 1) (some y)) = some (v3, h3) := e3
    rw [e5] at e4
    obtain ⟨⟨v4, h4⟩, e6, e7⟩ := Option.map_eq_some_iff.1 e4.symm
    simp only [Prod.mk.injEq] at e7
    obtain ⟨e7, e8⟩ := e7
    obtain ⟨hc4, hs4⟩ := blockCheck_cells e6
    have hpb : (us3 ++ [b3])[us.length]? = some b := by
      obtain ⟨t, ht⟩ := p3
      rw [← ht, List.append_assoc]; simp
    have hl3 := c3.len
    have hs3 := c3.last_size
    have hcs3 : v3.csize = v.csize + 1 := by rw [← e7]
    have hne : b3 ≠ b := by
      rintro rfl
      have := us_inj c3.nodup hpb (k' := us3.length) (by simp)
      rw [this] at hsz
      omega
    have hd : v4.dataptr = v3.dataptr := by rw [← e7]
    have hbs : v4.bsize = v3.bsize := by rw [← e7]
    have hsi : v4.slotIdx = v3.slotIdx := by rw [← e7]
    have hlv : h4.live = h3.live := by rw [← e8]; rfl
    refine ⟨{ v4 with bsize := v4.bsize + 1, csize := v4.csize + 1 }, h4.setCell b3 v4.bsize (some y), ?_, ?_, ?_⟩
    · rw [Vec.pushBack, e6]
      simp only [Option.bind_some]
      rw [hsi, hd, c3.last_idx, c3.last_get]
      simp only [Option.bind_some]
      rw [Heap.construct_eq y (by rw [hlv]; exact c3.last_live) (by omega)]
      · rfl
      · have := c3.cells us3.length b3 (by simp) v3.bsize hb3
        rw [← e8, Heap.setCell_cells, if_neg (by intro h; exact hne h.1), List.getElem?_eq_none (by omega)] at this
        rw [hbs]; exact this
    · simp only [hs4]
    · have hcell' : Vec.cell N v3 v.csize = some (b, v.bsize - 1) := by
        unfold Vec.cell at hcell ⊢
        obtain ⟨b', hb', he⟩ := Option.map_eq_some_iff.1 hcell
        have : v.csize / blockSize N = us.length := by
          rw [hsz, Nat.mul_comm, Nat.mul_add_div hB, Nat.div_eq_of_lt (by omega)]; rfl
        rw [shr_eq, this, c3.arr.slotGet hpb]
        simp only [Prod.mk.injEq] at he
        simp only [Option.map_some, he.2]
      unfold Vec.get Vec.cell at *
      simp only [hd, hcell', Option.bind_some]
      have : (h4.setCell b3 v4.bsize (some y)).cells b (v.bsize - 1) = none := by
        rw [Heap.setCell_cells, if_neg (by intro h; exact hne h.1.symm), hc4, hhole]
      rw [Heap.read, this]
      simp

end Vec
end Verif.Block.Vector
