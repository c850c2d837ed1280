import Verif.Block.Deque.World

/-
Model of exceptions inside the insertions and `assign` of gmlc/containers/StableBlockDeque.hpp: thrown by `new X*[]`, by
the allocator of the blocks, or by the element type.
-/
namespace Verif.Block.Deque
open Verif.Block

/-- What fails during the call. -/
inductive Fault where
  | array      -- `new X*[]` of StableBlockDeque.hpp:479, 497, 514 or 533
  | block      -- `a.allocate` of StableBlockDeque.hpp:573
  | element    -- the constructor of the element, StableBlockDeque.hpp:183, 191, 197, 220, 228 or 234
deriving DecidableEq

variable {X : Type}

namespace Deq

/-- StableBlockDeque.hpp:479-483 and 514-518: the members once the first array has been allocated. -/
def firstArray (N : Nat) (v : Deq) : Deq :=
  let fsize : Int := (blockSize N / 2 : Nat) - 1
  ⟨v.csize, some (List.replicate 64 none), 64, 30, 30, fsize + 1, fsize, v.free⟩

/-- StableBlockDeque.hpp:179-199 with 475-508 and 569-576 (`emplace_back` and both `push_back`s), when the given operation
throws if the call gets to it.  The flag says whether it did; if not, the call is an ordinary one.
* The arrays are allocated before any member changes (479, 496-501).
* 484 and 505: the members have been changed up to there; `dataptr[++dataSlotBack] = getNewBlock()` evaluates the right
  operand first since C++17.
* `new (&(dataptr[dataSlotBack][bsize++])) X(...)` (183): the address is computed, and so `bsize` increased, before the
  constructor runs; `++csize` is not reached. -/
def pushBackFault (P : Pol) (N : Nat) (v : Deq) (h : Heap X) (x : X) : Fault → Option (Bool × Deq × Heap X)
  | .array =>
    if v.bsize ≥ blockSize N ∧ (v.avail = 0 ∨ (v.back ≥ (v.avail : Int) - 1 ∧ ¬ v.front > 5)) then some (true, v, h)
    else (pushBack P N v h x).map fun r => (false, r)
  | .block =>
    if v.bsize ≥ blockSize N ∧ v.free.idx = 0 then
      if v.avail = 0 then some (true, firstArray N v, h) else (roomBack P v).map fun v => (true, v, h)
    else (pushBack P N v h x).map fun r => (false, r)
  | .element =>
    (blockCheck P N v h).bind fun r =>
    (slotGet r.1.dataptr r.1.back).bind fun _ =>
    (natIdx r.1.bsize).map fun _ => (true, { r.1 with bsize := r.1.bsize + 1 }, r.2)

/-- StableBlockDeque.hpp:216-236 with 510-549 and 569-576 (`emplace_front` and both `push_front`s), likewise; at 220
`fsize` is decreased before the constructor runs. -/
def pushFrontFault (P : Pol) (N : Nat) (v : Deq) (h : Heap X) (x : X) : Fault → Option (Bool × Deq × Heap X)
  | .array =>
    if v.fsize < 0 ∧ (v.avail = 0 ∨ (v.front = 0 ∧ ¬ v.back < (v.avail : Int) - 5)) then some (true, v, h)
    else (pushFront P N v h x).map fun r => (false, r)
  | .block =>
    if v.fsize < 0 ∧ v.free.idx = 0 then
      if v.avail = 0 then some (true, firstArray N v, h) else (roomFront P v).map fun v => (true, v, h)
    else (pushFront P N v h x).map fun r => (false, r)
  | .element =>
    (blockCheckFront P N v h).bind fun r =>
    (slotGet r.1.dataptr r.1.front).bind fun _ =>
    (natIdx r.1.fsize).map fun _ => (true, { r.1 with fsize := r.1.fsize - 1 }, r.2)

/-- StableBlockDeque.hpp:261-265 and 294-298 when the assignment of the element with index `k` throws, leaving `junk`
in it. -/
def assignThrowLoop (bs : Nat) (arr : SlotPtr) (junk : X) : Nat → List X → Iter → Heap X → Option (Heap X)
  | 0, _, it, h => InRange.put bs h it junk
  | _ + 1, [], _, _ => none
  | k + 1, y :: ys, it, h =>
    (InRange.put bs h it y).bind fun h =>
    (it.incr bs arr).bind fun it => assignThrowLoop bs arr junk k ys it h

/-- StableBlockDeque.hpp:253-265 and 286-298, likewise; `end()` is formed as well (259, 292). -/
def assignThrow (N : Nat) (v : Deq) (h : Heap X) (junk : X) (k : Nat) (ys : List X) : Option (Heap X) :=
  (begin? N v).bind fun b =>
  (end? N v).bind fun _ => assignThrowLoop (blockSize N) v.dataptr junk k ys b h

end Deq

/-- The call `emplace_front(x)` (if `front`) or `emplace_back(x)` on object `i` when `f` fails. -/
def execFault (P : Pol) (N : Nat) (w : World X) (front : Bool) (i : Nat) (x : X) (f : Fault) : Option (World X × Obs X) :=
  (w.objs i).bind fun v =>
    (if front then v.pushFrontFault P N w.heap x f else v.pushBackFault P N w.heap x f).map fun r =>
      (⟨upd w.objs i (some r.2.1), r.2.2⟩, if r.1 then .threw else .done)

/-- The call `assign(first, last)` or `move_assign(first, last)` on object `i`, the range having the values `ys`, when
assigning to the element with index `k` throws and leaves `junk` in it. -/
def execAssignThrow (N : Nat) (w : World X) (i k : Nat) (ys : List X) (junk : X) : Option (World X × Obs X) :=
  (w.objs i).bind fun v => (v.assignThrow N w.heap junk k ys).map fun h => (⟨w.objs, h⟩, .threw)

variable {N : Nat} {h : Heap X} {v : Deq} {xs : List X} {us fs : List Nat} {F f1 bz : Nat}

theorem Core.pushBackNoMem (P : Pol) (c : Core N h v xs us fs F f1 bz) (x : X) {f : Fault} (hf : f = .array ∨ f = .block) :
    (∃ v' F', v.pushBackFault P N h x f = some (true, v', h) ∧ Core N h v' xs us fs F' f1 bz) ∨
      v.pushBackFault P N h x f = (v.pushBack P N h x).map fun r => (false, r) := by
  rcases hf with rfl | rfl
  · rw [Deq.pushBackFault]
    split
    · exact .inl ⟨v, F, rfl, c⟩
    · exact .inr rfl
  · rw [Deq.pushBackFault]
    split
    · rw [if_neg (by have := c.avail_pos; omega)]
      obtain ⟨v', F', e, c', _⟩ := c.roomBack_eq P
      exact .inl ⟨v', F', by rw [e]; rfl, c'⟩
    · exact .inr rfl

theorem Core.pushFrontNoMem (P : Pol) (c : Core N h v xs us fs F f1 bz) (ho : P.memmove = true ∨ ¬ Overlap v)
    (x : X) {f : Fault} (hf : f = .array ∨ f = .block) :
    (∃ v' F', v.pushFrontFault P N h x f = some (true, v', h) ∧ Core N h v' xs us fs F' f1 bz) ∨
      v.pushFrontFault P N h x f = (v.pushFront P N h x).map fun r => (false, r) := by
  rcases hf with rfl | rfl
  · rw [Deq.pushFrontFault]
    split
    · exact .inl ⟨v, F, rfl, c⟩
    · exact .inr rfl
  · rw [Deq.pushFrontFault]
    split
    · rename_i hc
      rw [if_neg (by have := c.avail_pos; omega)]
      obtain ⟨v', F', e, c'⟩ := c.roomFront_eq P ho (by have := c.fsz; omega)
      exact .inl ⟨v', F' + 1, by rw [e]; rfl, c'⟩
    · exact .inr rfl

theorem Core.assignThrowLoop (junk : X) (k : Nat) : ∀ {h : Heap X} {xs : List X} (n : Nat) {it : Iter} (ys : List X),
    Core N h v xs us fs F f1 bz → h.Wf → Iter.Denotes (blockSize N) v.dataptr it (F * blockSize N + (f1 + n)) →
    k < ys.length → n + k < xs.length →
    ∃ h', Deq.assignThrowLoop (blockSize N) v.dataptr junk k ys it h = some h' ∧
      Core N h' v (xs.take n ++ ys.take k ++ junk :: xs.drop (n + k + 1)) us fs F f1 bz ∧
      Heap.Frame h h' (us ++ fs) (us ++ fs) := by
  induction k with
  | zero =>
    intro h xs n it ys c w d _ hk
    obtain ⟨h', e, c', f⟩ := c.set_eq w (n := n) (by omega) junk
    refine ⟨h', by rw [Deq.assignThrowLoop, c.put_eq (by omega) d]; exact e, ?_, f⟩
    rw [List.set_eq_take_append_cons_drop, if_pos (by omega)] at c'
    simpa using c'
  | succ k ih =>
    intro h xs n it ys c w d hy hk
    cases ys with
    | nil => simp at hy
    | cons y ys =>
      obtain ⟨h1, e, c', f⟩ := c.set_eq w (n := n) (by omega) y
      have hB := blockSize_pos N
      obtain ⟨it', d'⟩ : ∃ it', Iter.Denotes (blockSize N) v.dataptr it' (F * blockSize N + (f1 + (n + 1))) := by
        obtain ⟨b, _, hs⟩ := c.slot_pos (n := n + 1) (by omega)
        rw [Iter.denotes_iff]
        cases hd : v.dataptr with
        | none => rw [hd] at hs; simp [slotGet] at hs
        | some l =>
          rw [hd, slotGet_nat] at hs
          rcases Nat.lt_or_ge ((F * blockSize N + (f1 + (n + 1))) / blockSize N) l.length with h1 | h1
          · exact h1
          · rw [Option.getD_some, List.getElem?_eq_none h1] at hs; cases hs
      have hinc : it.incr (blockSize N) v.dataptr = some it' := by
        rw [Iter.incr_eq]; exact d.add hB (by simpa [Nat.add_assoc] using d')
      obtain ⟨h2, e2, c2, f2⟩ := ih (n + 1) ys c' f.wf d' (by simpa using hy) (by rw [List.length_set]; omega)
      refine ⟨h2, ?_, ?_, f.trans f2⟩
      · rw [Deq.assignThrowLoop, c.put_eq (by omega) d, e]
        simp only [Option.bind_some]
        rw [hinc]; exact e2
      · have e3 : (xs.set n y).take (n + 1) = xs.take n ++ [y] := by
          rw [List.set_eq_take_append_cons_drop, if_pos (by omega), List.take_append, List.length_take,
            Nat.min_eq_left (by omega), Nat.add_sub_cancel_left, List.take_take, Nat.min_eq_right (by omega)]
          rfl
        have e4 : (xs.set n y).drop (n + 1 + k + 1) = xs.drop (n + (k + 1) + 1) := by
          rw [List.drop_set, if_pos (by omega)]; congr 1; omega
        rw [e3, e4] at c2
        simpa using c2

theorem Core.assignThrow (c : Core N h v xs us fs F f1 bz) (w : h.Wf) (hi : Core.Iterable N v) (junk : X) {k : Nat}
    {ys : List X} (hy : k < ys.length) (hk : k < xs.length) :
    ∃ h', v.assignThrow N h junk k ys = some h' ∧
      Core N h' v (ys.take k ++ junk :: xs.drop (k + 1)) us fs F f1 bz ∧
      Heap.Frame h h' (us ++ fs) (us ++ fs) := by
  obtain ⟨b, hb, db⟩ := c.begin_eq (by omega)
  obtain ⟨e, he, _⟩ := c.end_eq hi
  obtain ⟨h', e', c', f⟩ := c.assignThrowLoop junk k 0 ys w db hy (by omega)
  refine ⟨h', ?_, by simpa using c', f⟩
  rw [Deq.assignThrow, hb, he]
  exact e'

/-! ### after a throwing element constructor at the back -/

/-- the deque left behind: a used-up cell without element after the last -/
structure BrokenB (N : Nat) (h : Heap X) (v : Deq) (xs : List X) (us fs : List Nat) (F f1 bz : Nat) : Prop where
  core : Core N h { v with bsize := (bz : Int) } xs us fs F f1 bz
  bsz : v.bsize = (bz : Int) + 1
  lt : bz < blockSize N

namespace BrokenB

theorem make (P : Pol) (x : X) {v1 : Deq} {h1 : Heap X} (e : v.blockCheck P N h = some (v1, h1))
    (c : Core N h1 v1 xs us fs F f1 bz) (lt : bz < blockSize N) :
    v.pushBackFault P N h x .element = some (true, { v1 with bsize := v1.bsize + 1 }, h1) ∧
      BrokenB N h1 { v1 with bsize := v1.bsize + 1 } xs us fs F f1 bz := by
  obtain ⟨b, hl⟩ := c.last
  have hne := c.ne
  have hbk : v1.back = ((F + (us.length - 1) : Nat) : Int) := by rw [c.back]; omega
  refine ⟨?_, ⟨?_, by rw [c.bsz], lt⟩⟩
  · rw [Deq.pushBackFault, e]
    simp only [Option.bind_some]
    rw [c.arr.slotGet' hl hbk]
    simp only [Option.bind_some]
    rw [natIdx, if_pos (by rw [c.bsz]; omega)]; rfl
  · have : ({ v1 with bsize := (bz : Int) } : Deq) = v1 := by rw [← c.bsz]
    simp only
    rw [this]; exact c

theorem slot (B : BrokenB N h v xs us fs F f1 bz) : ∃ b, slotGet v.dataptr v.back = some b ∧ h.live b = true ∧
    h.cells b bz = none ∧ us[us.length - 1]? = some b := by
  obtain ⟨b, hl⟩ := B.core.last
  have hne := B.core.ne
  have hbk : v.back = ((F + (us.length - 1) : Nat) : Int) := by have := B.core.back; simp only at this; omega
  have hs := B.core.size'
  refine ⟨b, B.core.arr.slotGet' hl hbk, B.core.grid.live b (Grid.mem hl), ?_, hl⟩
  rw [B.core.grid.cells _ b hl _ B.lt]
  exact content_ge (by omega)

theorem destroyAt (P : Pol) (hP : P.triv = false) (B : BrokenB N h v xs us fs F f1 bz) :
    destroyAt P N v.dataptr v.back (bz : Int) h = none := by
  obtain ⟨b, hs, hl, hc, _⟩ := B.slot
  rw [Deque.destroyAt, hs]
  simp only [Option.bind_some, natIdx]
  rw [if_pos (by omega)]
  simp only [Option.bind_some, Int.toNat_natCast]
  rw [if_neg (by rw [hP]; simp), Heap.destroy, if_neg (by rw [hc]; simp)]

theorem destroyDown (P : Pol) (hP : P.triv = false) (B : BrokenB N h v xs us fs F f1 bz) {n : Nat} (hn : 0 < n) :
    Deq.destroyDown P N v.dataptr v.back v.bsize n h = none := by
  obtain ⟨m, rfl⟩ : ∃ m, n = m + 1 := ⟨n - 1, by omega⟩
  rw [Deq.destroyDown, B.bsz, show (bz : Int) + 1 - 1 = bz by omega, B.destroyAt P hP]
  rfl

theorem ptr (B : BrokenB N h v xs us fs F f1 bz) : ∃ l, v.dataptr = some l := by
  obtain ⟨l, hl, _⟩ := B.core.ptr
  exact ⟨l, hl⟩

theorem freeAll (P : Pol) (hP : P.triv = false) (B : BrokenB N h v xs us fs F f1 bz) : v.freeAll P N h = none := by
  obtain ⟨l, hl⟩ := B.ptr
  have hs := B.core.size'
  have hb := B.bsz
  have hf := B.core.fsz
  simp only at hf
  have hfr := B.core.front
  have hbk := B.core.back
  simp only at hfr hbk
  rw [Deq.freeAll]
  split
  · rename_i e; rw [e] at hl; cases hl
  · split
    · rename_i hbf
      have hL : us.length = 1 := by omega
      rw [hL] at hs
      rw [B.destroyDown P hP (by omega)]; rfl
    · rw [B.destroyDown P hP (by omega)]; rfl

theorem clear (P : Pol) (hP : P.triv = false) (B : BrokenB N h v xs us fs F f1 bz) (hx : xs ≠ []) :
    v.clear P N h = none := by
  have hl := B.core.len
  simp only at hl
  have hc : v.csize ≠ 0 := by
    intro e; rw [e] at hl; exact hx (List.length_eq_zero_iff.1 hl)
  have hav := B.core.avail_pos
  simp only at hav
  rw [Deq.clear, if_neg (by omega), B.destroyDown P hP (by have := B.bsz; omega)]
  rfl

theorem popBack (P : Pol) (hP : P.triv = false) (B : BrokenB N h v xs us fs F f1 bz) (hx : xs ≠ []) :
    v.popBack P N h = none := by
  have hl := B.core.len
  simp only at hl
  have hc : v.csize ≠ 0 := by
    intro e; rw [e] at hl; exact hx (List.length_eq_zero_iff.1 hl)
  have hb := B.bsz
  rw [Deq.popBack, if_neg hc, Deq.popBackStep, if_pos (by simp only; omega)]
  simp only [Option.bind_some]
  rw [hb, show (bz : Int) + 1 - 1 = bz by omega, B.destroyAt P hP]
  rfl

theorem backVal (B : BrokenB N h v xs us fs F f1 bz) : v.backVal N h = none := by
  have hb := B.bsz
  obtain ⟨b, hs, hl, hc, _⟩ := B.slot
  rw [Deq.backVal, if_neg (by omega), readAt, hs]
  simp only [Option.bind_some, natIdx]
  rw [if_pos (by omega)]
  simp only [Option.bind_some]
  rw [show (v.bsize - 1).toNat = bz by omega, Heap.read, hc]
  simp

theorem csize (B : BrokenB N h v xs us fs F f1 bz) : v.csize = xs.length := B.core.len.symm
theorem get (B : BrokenB N h v xs us fs F f1 bz) {n : Nat} (hn : n < xs.length) : v.get N h n = some xs[n] :=
  B.core.get_eq hn
theorem frontVal (B : BrokenB N h v xs us fs F f1 bz) (hn : 0 < xs.length) : v.frontVal N h = some xs[0] :=
  B.core.front_eq hn
theorem cell (B : BrokenB N h v xs us fs F f1 bz) (n : Nat) : v.cell N n = Deq.cell N { v with bsize := (bz : Int) } n := rfl

end BrokenB

/-! ### after a throwing element constructor at the front -/

/-- the deque left behind: a used-up cell without element before the first -/
structure BrokenF (N : Nat) (h : Heap X) (v : Deq) (xs : List X) (us fs : List Nat) (F f1 bz : Nat) : Prop where
  core : Core N h { v with fsize := (f1 : Int) } xs us fs F (f1 + 1) bz
  fsz : v.fsize = (f1 : Int) - 1

namespace BrokenF

theorem make (P : Pol) (x : X) {v1 : Deq} {h1 : Heap X} (e : v.blockCheckFront P N h = some (v1, h1))
    (c : Core N h1 v1 xs us fs F (f1 + 1) bz) :
    v.pushFrontFault P N h x .element = some (true, { v1 with fsize := v1.fsize - 1 }, h1) ∧
      BrokenF N h1 { v1 with fsize := v1.fsize - 1 } xs us fs F f1 bz := by
  have hne := c.ne
  have h0 := List.getElem?_eq_getElem hne
  have hfs : v1.fsize = (f1 : Int) := by rw [c.fsz]; omega
  refine ⟨?_, ⟨?_, by rw [hfs]⟩⟩
  · rw [Deq.pushFrontFault, e]
    simp only [Option.bind_some]
    rw [c.arr.slotGet' (i := v1.front) h0 (by rw [c.front]; simp)]
    simp only [Option.bind_some]
    rw [natIdx, if_pos (by rw [hfs]; omega)]; rfl
  · have : ({ v1 with fsize := (f1 : Int) } : Deq) = v1 := by rw [← hfs]
    simp only
    rw [this]; exact c

theorem lt (B : BrokenF N h v xs us fs F f1 bz) : f1 < blockSize N := by
  have := B.core.f1le; omega

theorem slot (B : BrokenF N h v xs us fs F f1 bz) : ∃ b, slotGet v.dataptr v.front = some b ∧ h.live b = true ∧
    h.cells b f1 = none ∧ us[0]? = some b := by
  have h0 := List.getElem?_eq_getElem B.core.ne
  refine ⟨_, B.core.arr.slotGet' h0 (by have := B.core.front; simp only at this; rw [this]; simp),
    B.core.grid.live _ (Grid.mem h0), ?_, h0⟩
  rw [B.core.grid.cells _ _ h0 _ B.lt]
  exact content_lt (by omega)

/-- every index is off by one -/
theorem cell (B : BrokenF N h v xs us fs F f1 bz) (n : Nat) :
    v.cell N (n + 1) = Deq.cell N { v with fsize := (f1 : Int) } n := by
  rw [Deq.cell, Deq.cell]
  simp only
  rw [B.fsz, show ((f1 : Int) - 1 + ((n + 1 : Nat) : Int) + 1) = (f1 : Int) + n + 1 by omega]

theorem get_succ (B : BrokenF N h v xs us fs F f1 bz) {n : Nat} (hn : n < xs.length) :
    v.get N h (n + 1) = some xs[n] := by
  have := B.core.get_eq hn
  rw [Deq.get] at this ⊢
  rw [B.cell]; exact this

theorem cell_zero (B : BrokenF N h v xs us fs F f1 bz) : ∃ b, v.cell N 0 = some (b, f1) ∧ h.cells b f1 = none := by
  obtain ⟨b, hs, hl, hc, _⟩ := B.slot
  refine ⟨b, ?_, hc⟩
  have hB := blockSize_pos N
  rw [Deq.cell, B.fsz, show ((f1 : Int) - 1 + ((0 : Nat) : Int) + 1).toNat = f1 by omega, shr_eq, mask_eq,
    Nat.div_eq_of_lt B.lt, Nat.mod_eq_of_lt B.lt]
  simp only [Int.natCast_zero, Int.add_zero]
  rw [hs]; rfl

theorem get_zero (B : BrokenF N h v xs us fs F f1 bz) : v.get N h 0 = none := by
  obtain ⟨b, hb, hc⟩ := B.cell_zero
  rw [Deq.get, hb]
  simp only [Option.bind_some]
  rw [Heap.read, hc]; simp

theorem frontVal (B : BrokenF N h v xs us fs F f1 bz) : v.frontVal N h = none := by
  obtain ⟨b, hs, hl, hc, _⟩ := B.slot
  have hlt := B.lt
  have hf := B.fsz
  rw [Deq.frontVal, if_neg (by omega), readAt, hs]
  simp only [Option.bind_some, natIdx]
  rw [if_pos (by omega)]
  simp only [Option.bind_some]
  rw [show (v.fsize + 1).toNat = f1 by omega, Heap.read, hc]
  simp

theorem popFront (P : Pol) (hP : P.triv = false) (B : BrokenF N h v xs us fs F f1 bz) (hx : xs ≠ []) :
    v.popFront P N h = none := by
  have hl := B.core.len
  simp only at hl
  have hc : v.csize ≠ 0 := by
    intro e; rw [e] at hl; exact hx (List.length_eq_zero_iff.1 hl)
  obtain ⟨b, hs, hlv, hcl, _⟩ := B.slot
  have hlt := B.lt
  have hf := B.fsz
  rw [Deq.popFront, if_neg hc, Deq.popFrontStep, if_pos (by simp only; omega)]
  simp only [Option.bind_some]
  rw [Deque.destroyAt, hs]
  simp only [Option.bind_some, natIdx]
  rw [if_pos (by omega)]
  simp only [Option.bind_some]
  rw [show (v.fsize + 1).toNat = f1 by omega, if_neg (by rw [hP]; simp), Heap.destroy, if_neg (by rw [hcl]; simp)]
  rfl

theorem csize (B : BrokenF N h v xs us fs F f1 bz) : v.csize = xs.length := B.core.len.symm

theorem destroyDown_snoc (P : Pol) {p : SlotPtr} {i : Int} (n : Nat) : ∀ {hi : Int} {h h1 : Heap X},
    Deq.destroyDown P N p i hi n h = some h1 → Deque.destroyAt P N p i (hi - n - 1) h1 = none →
    Deq.destroyDown P N p i hi (n + 1) h = none := by
  induction n with
  | zero =>
    intro hi h h1 e e1
    simp only [Deq.destroyDown, Option.some.injEq] at e
    subst e
    rw [Deq.destroyDown, show hi - 1 = hi - ((0 : Nat) : Int) - 1 by omega, e1]; rfl
  | succ n ih =>
    intro hi h h1 e e1
    rw [Deq.destroyDown] at e ⊢
    obtain ⟨h2, e2, e3⟩ := Option.bind_eq_some_iff.1 e
    rw [e2]
    simp only [Option.bind_some]
    exact ih e3 (by rw [show hi - 1 - (n : Int) - 1 = hi - ((n + 1 : Nat) : Int) - 1 by omega]; exact e1)

/-- The hole is reached when the elements of the first block are destroyed. -/
theorem freeAll (P : Pol) (hP : P.triv = false) (B : BrokenF N h v xs us fs F f1 bz) (w : h.Wf) :
    v.freeAll P N h = none := by
  have hB := blockSize_pos N
  have c := B.core
  have hne := c.ne
  have hs := c.size'
  have hbl := c.bzle
  have hfl := c.f1le
  have hbsz : v.bsize = (bz : Int) := c.bsz
  have hback : v.back = (F : Int) + us.length - 1 := c.back
  have hfront : v.front = (F : Int) := c.front
  have harr : ArrAt v.dataptr v.avail F us := c.arr
  have hole : ∀ {h1 : Heap X} {g : Nat → Option X} {us1 gs : List Nat} {b : Nat} {i : Int},
      Grid (blockSize N) h1 us1 gs g → us1[0]? = some b → slotGet v.dataptr i = some b → g f1 = none →
      Deque.destroyAt P N v.dataptr i (f1 : Int) h1 = none := by
    intro h1 g us1 gs b i G hb hs hg
    have hc := G.cells 0 b hb f1 B.lt
    rw [Nat.zero_mul, Nat.zero_add, hg] at hc
    rw [Deque.destroyAt, hs]
    simp only [Option.bind_some, natIdx]
    rw [if_pos (by omega)]
    simp only [Option.bind_some, Int.toNat_natCast]
    rw [if_neg (by rw [hP]; simp), Heap.destroy, if_neg (by rw [hc]; simp)]
  obtain ⟨l, hl, hlen⟩ := c.ptr
  simp only at hl
  rw [Deq.freeAll, hl]
  simp only
  rw [← hl]
  split
  · rename_i hbf
    have hL : us.length = 1 := by omega
    obtain ⟨u0, rfl⟩ : ∃ u0, us = [u0] := List.length_eq_one_iff.1 hL
    simp only [List.length_singleton, Nat.sub_self, Nat.zero_mul, Nat.zero_add] at hs
    have hsb := harr.slotGet' (i := v.front) (k := 0) (b := u0) (by simp) (by omega)
    rw [← hbf] at hsb
    obtain ⟨h1, e1, G1, fr1⟩ := c.grid.destroyDown P (bz - (f1 + 1)) w (k := 0) (j := f1 + 1) hsb (by simp) (by omega)
      (fun q h1 h2 => .inr (content_in (by omega) (by omega)))
    have hn : (v.bsize - 1 - v.fsize).toNat = bz - (f1 + 1) + 1 := by rw [hbsz, B.fsz]; omega
    have hb' : v.bsize = ((f1 + 1 + (bz - (f1 + 1)) : Nat) : Int) := by omega
    rw [hn, hb', destroyDown_snoc P _ e1]
    · rfl
    · rw [show ((f1 + 1 + (bz - (f1 + 1)) : Nat) : Int) - ((bz - (f1 + 1) : Nat) : Int) - 1 = (f1 : Int) by omega]
      refine hole G1 (by simp) hsb ?_
      rw [if_neg (by omega)]
      exact content_lt (by omega)
  · rename_i hbf
    have hL : 1 < us.length := by omega
    obtain ⟨us', ul, rfl⟩ : ∃ us' b, us = us' ++ [b] :=
      ⟨us.dropLast, us.getLast (List.length_pos_iff.1 hne), (List.dropLast_concat_getLast _).symm⟩
    obtain ⟨u0, mids, rfl⟩ : ∃ b m, us' = b :: m := by
      cases us' with
      | nil => simp at hL
      | cons b m => exact ⟨b, m, rfl⟩
    simp only [List.length_append, List.length_cons, List.length_nil, Nat.zero_add, Nat.add_sub_cancel] at hs
    have hbk : v.back = ((F + (mids.length + 1) : Nat) : Int) := by
      rw [hback]; simp; omega
    have hsl := harr.slotGet' (i := v.back) (k := mids.length + 1) (b := ul) (by simp) hbk
    have hsf := harr.slotGet' (i := v.front) (k := 0) (b := u0) (by simp) (by omega)
    have hmul := Nat.le_mul_of_pos_left (blockSize N) (show 0 < mids.length + 1 by omega)
    obtain ⟨h1, e1, G1, fr1⟩ := c.grid.destroyDown P bz w (k := mids.length + 1) (j := 0) hsl (by simp) (by omega)
      (fun q h1 h2 => .inr (content_in (by omega) (by omega)))
    rw [Nat.zero_add] at e1
    rw [show v.bsize.toNat = bz by omega, hbsz, e1]
    simp only [Option.bind_some]
    obtain ⟨h2, e2, G2, fr2⟩ := Core.deallocSlot_eq fr1.wf G1 hsl (by
      intro j hj
      simp only [List.length_cons]
      split
      · rfl
      · exact content_ge (by omega))
    rw [e2]
    simp only [Option.bind_some]
    obtain ⟨h3, g3, e3, G3, hg3, fr3⟩ := Core.freeMid_eq P (F := F) (p := v.dataptr) mids.length rfl G2 fr2.wf (by
      intro k b hb
      refine harr.slotGet' (k := k + 1) ?_ (by omega)
      rw [List.cons_append, List.getElem?_cons_succ, List.getElem?_append_left (List.getElem?_eq_some_iff.1 hb).1]
      exact hb) (by
      intro q h1 h2
      rw [if_neg (by omega)]
      exact content_in (by omega) (by omega))
    have hcnt : (v.back - 1 - v.front).toNat = mids.length := by omega
    rw [hcnt, show v.back - 1 = ((F + mids.length : Nat) : Int) by omega, e3]
    simp only [Option.bind_some]
    obtain ⟨h4, e4, G4, fr4⟩ := G3.destroyDown P (blockSize N - (f1 + 1)) fr3.wf (k := 0) (j := f1 + 1) hsf (by simp)
      (by omega) (by
      intro q h1 h2
      refine .inr ?_
      rw [hg3 _ (by omega), if_neg (by omega)]
      exact content_in (by omega) (by omega))
    rw [show ((blockSize N : Int) - 1 - v.fsize).toNat = blockSize N - (f1 + 1) + 1 by rw [B.fsz]; omega]
    rw [show f1 + 1 + (blockSize N - (f1 + 1)) = blockSize N by omega] at e4
    rw [destroyDown_snoc P _ e4]
    · rfl
    · rw [show (blockSize N : Int) - ((blockSize N - (f1 + 1) : Nat) : Int) - 1 = (f1 : Int) by omega]
      refine hole G4 (by simp) hsf ?_
      rw [if_neg (by omega), hg3 _ B.lt, if_neg (by omega)]
      exact content_lt (by omega)

end BrokenF

end Verif.Block.Deque
