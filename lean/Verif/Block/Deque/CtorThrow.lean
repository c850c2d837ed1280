import Verif.Block.Deque.Throw

/-
Model of exceptions inside the constructors of gmlc/containers/StableBlockDeque.hpp that allocate: the one with a size (51-111) and
the copy constructor (113-132).  Neither they nor `emplace_back` are `noexcept`.  An exception that leaves a constructor ends the life
of the members, which are plain pointers and numbers; the destructor of the object does not run.
-/
namespace Verif.Block.Deque
open Verif.Block

/-- What fails during the constructor; the operations of each kind are counted from 0. -/
inductive CFault where
  | array             -- `new X*[]` of StableBlockDeque.hpp:53 or 114
  | block (k : Nat)   -- `a.allocate` number `k`: StableBlockDeque.hpp:60, 87, 99, 105, 129, or 573 called from 124 and 281
  | element (k : Nat) -- the construction of element `k`: StableBlockDeque.hpp:91, 95, 101, 107, or 183 called from 281
deriving DecidableEq

/-- How a constructor ends. -/
inductive Made (X : Type) where
  | made (v : Deq) (h : Heap X)
  | threw (arrays : Nat) (h : Heap X)   -- with the number of arrays of block pointers it allocated and did not delete

variable {X : Type}

namespace Deq

/-- StableBlockDeque.hpp:87-103 as far as the end of block number `m - 1`, for `m > 0`: the block at slot `front` from cell
`fsize + 1` on, and `m - 1` further whole blocks. -/
def fillTo (N : Nat) (init : X) (p : SlotPtr) (front fsize : Int) (m : Nat) (h : Heap X) : Option (SlotPtr × Heap X) :=
  (slotSet p front h.alloc.1).bind fun p =>
  (constructUp N p front init (fsize + 1) ((blockSize N : Int) - (fsize + 1)).toNat h.alloc.2).bind fun h =>
  fillMid N init (m - 1) (front + 1) p h

/-- StableBlockDeque.hpp:51-111, when the given operation throws if the constructor gets to it.  The blocks are allocated from
slot `front` to slot `back`, each after all cells of the blocks before it are constructed; element `k` is the one in cell
`fsize + 1 + k` counted from the start of the first block. -/
def ofSizeFault (N : Nat) (h : Heap X) (startSize : Nat) (init : X) (f : CFault) : Option (Made X) :=
  let avail := Nat.max ((startSize >>> N) + 2) 64
  let p : SlotPtr := some (List.replicate avail none)
  let l := layout N startSize avail
  let front := l.1
  let back := l.2.1
  let fsize := l.2.2.1
  let normal : Option (Made X) := (ofSize N h startSize init).map fun r => .made r.1 r.2
  match f with
  | .array => some (.threw 0 h)
  | .block 0 => some (.threw 1 h)
  | .block (k + 1) =>
    if startSize ≠ 0 ∧ ((k + 1 : Nat) : Int) ≤ back - front then
      (fillTo N init p front fsize (k + 1) h).map fun r => .threw 1 r.2
    else normal
  | .element k =>
    if k < startSize then
      let q := (fsize + 1 + k).toNat / blockSize N
      let j := (fsize + 1 + k).toNat % blockSize N
      if q = 0 then
        (slotSet p front h.alloc.1).bind fun p =>
        (constructUp N p front init (fsize + 1) k h.alloc.2).map fun h => .threw 1 h
      else
        (fillTo N init p front fsize q h).bind fun r =>
        (slotSet r.1 (front + q) r.2.alloc.1).bind fun p =>
        (constructUp N p (front + q) init 0 j r.2.alloc.2).map fun h => .threw 1 h
    else normal

/-- StableBlockDeque.hpp:280-283: `t` rounds, and one in which `f` fails.  The flag says whether that round got to the failing
operation. -/
def pushFromFault (P : Pol) (N : Nat) (R : InRange X) (f : Fault) : Nat → R.S → Deq → Heap X → Option (Bool × Deq × Heap X)
  | 0, s, v, h => if R.atEnd s = false then (R.fetch s h).bind fun r => v.pushBackFault P N r.2 r.1 f else none
  | t + 1, s, v, h =>
    if R.atEnd s = false then
      (R.fetch s h).bind fun r =>
      (pushBack P N v r.2 r.1).bind fun r =>
      (R.next s).bind fun s => pushFromFault P N R f t s r.1 r.2
    else none

/-- StableBlockDeque.hpp:113-132, when the given operation throws if the constructor gets to it.  Lines 257-278 of `assign` do
nothing because there are no elements yet.  There are no free blocks, so that block `k + 1` is allocated by the `emplace_back` of the
element in cell `(k + 1) * blockSize` counted from the start of the first block (that it is is a theorem; the model has no outcome
for the other case). -/
def copyCtorFault (P : Pol) (N : Nat) (sbd : Deq) (h : Heap X) (f : CFault) : Option (Made X) :=
  let avail := Nat.max sbd.avail 64
  let p : SlotPtr := some (List.replicate avail none)
  let normal : Option (Made X) := (copyCtor P N sbd h).map fun r => .made r.1 r.2
  let push (t : Nat) (f : Fault) : Option (Made X) :=
    if t < sbd.csize then
      (slotSet p sbd.front h.alloc.1).bind fun p =>
      (begin? N sbd).bind fun b =>
      (end? N sbd).bind fun e =>
      (pushFromFault P N (.iter (blockSize N) sbd.dataptr e fun _ => none) f t (0, b)
        ⟨0, p, avail, sbd.front, sbd.front, sbd.fsize + 1, sbd.fsize, ⟨0, 0, none⟩⟩ h.alloc.2).bind fun r =>
        if r.1 = true then some (.threw 1 r.2.2) else none
    else normal
  match f with
  | .array => some (.threw 0 h)
  | .block 0 => some (.threw 1 h)
  | .block (k + 1) => if sbd.dataptr.isSome then push ((k + 1) * blockSize N - (sbd.fsize + 1).toNat) .block else normal
  | .element k => if sbd.dataptr.isSome then push k .element else normal

end Deq

/-- The constructions of an object by a program: how many elements with which value, or as a copy of object `j`. -/
inductive Ctor (X : Type) where
  | size (n : Nat) (x : X)
  | copy (j : Nat)

/-- The construction of a further object when `f` fails. -/
def execCtorFault (P : Pol) (N : Nat) (w : World X) (f : CFault) : Ctor X → Option (Made X)
  | .size n x => Deq.ofSizeFault N w.heap n x f
  | .copy j => (w.objs j).bind fun v => v.copyCtorFault P N w.heap f

open Core
variable {N : Nat} {h : Heap X} {v : Deq} {xs : List X} {us fs : List Nat} {F f1 bz : Nat}

/-! ### the constructor with a size -/

theorem fillTo_eq (w : h.Wf) (x : X) {avail F f1 m : Nat} (hm : 0 < m) (hle : F + m ≤ avail) (hf : f1 ≤ blockSize N) :
    ∃ p' h' us', Deq.fillTo N x (some (List.replicate avail none)) (F : Int) ((f1 : Int) - 1) m h = some (p', h') ∧ us'.length = m ∧
      Grid (blockSize N) h' us' [] (part f1 (m * blockSize N) x) ∧ ArrAt p' avail F us' ∧
      Heap.Frame h h' ([] ++ []) (us' ++ []) := by
  have hB := blockSize_pos N
  have G0 : Grid (blockSize N) h [] [] (fun _ => none : Nat → Option X) := ⟨by simp, by simp, by simp, by simp⟩
  obtain ⟨G1, fr1⟩ := allocBack w G0 (fun _ _ => rfl)
  rw [Deq.fillTo]
  generalize hbb : h.alloc.1 = b at *
  generalize hhh : h.alloc.2 = h1 at *
  rw [List.nil_append] at G1
  obtain ⟨p1, e1, a1⟩ := ArrAt.one (p := some (List.replicate avail none)) (l := List.replicate avail none) (i := F) (b := b) rfl (by simp; omega)
  rw [List.length_replicate] at a1
  rw [e1]
  simp only [Option.bind_some]
  have hb0 : [b][0]? = some b := rfl
  obtain ⟨h2, e2, G2, fr2⟩ := G1.constructUp x (blockSize N - f1) (N := N) (p := p1) (i := (F : Int))
    (k := 0) (b := b) (j := f1) fr1.wf (a1.slotGet' hb0 (by simp)) hb0 (by omega) (fun _ _ _ => rfl)
  rw [show (f1 : Int) - 1 + 1 = (f1 : Int) by omega, show ((blockSize N : Int) - (f1 : Int)).toNat = blockSize N - f1 by omega, e2]
  simp only [Option.bind_some]
  have G2' : Grid (blockSize N) h2 [b] [] (part f1 ([b].length * blockSize N) x) := G2.congr (by
    intro q hq
    simp only [List.length_singleton, Nat.one_mul] at hq
    simp only [part, List.length_singleton, Nat.one_mul, Nat.zero_mul, Nat.zero_add]
    (repeat' split) <;> first | rfl | omega)
  obtain ⟨p3, h3, us3, e3, l3, G3, a3, fr3⟩ := fillMid_eq x (avail := avail) (F := F) (m - 1) fr2.wf G2' a1
    (by simp; omega) (by simp; omega)
  simp only [List.length_singleton] at e3 l3
  have hl3 : us3.length = m := by omega
  rw [show (F : Int) + 1 = ((F + 1 : Nat) : Int) by omega, e3]
  rw [hl3] at G3
  exact ⟨p3, h3, us3, rfl, hl3, G3, a3, (fr1.trans fr2).trans fr3⟩

/-! ### the copy constructor -/

theorem Core.roomBack_free (P : Pol) {v' : Deq} (e : v.roomBack P = some v') : v'.free = v.free := by
  rw [Deq.roomBack] at e
  split at e
  · split at e <;>
    · simp only [Option.bind_eq_some_iff, Option.map_eq_some_iff] at e
      obtain ⟨_, _, _, _, rfl⟩ := e
      rfl
  · cases e; rfl

theorem Core.blockCheck_free (P : Pol) (hf : v.free.idx = 0) {v' : Deq} {h' : Heap X} (e : v.blockCheck P N h = some (v', h'))
    (ha : v.avail ≠ 0) : v'.free.idx = 0 := by
  rw [Deq.blockCheck, if_neg ha] at e
  split at e
  · simp only [Option.bind_eq_some_iff, Option.map_eq_some_iff] at e
    obtain ⟨v1, e1, ⟨b, f, h1⟩, e2, p, _, e3⟩ := e
    cases e3
    have h0 := Core.roomBack_free P e1
    rw [← h0] at hf
    rw [FreeL.get, if_pos hf] at e2
    cases e2
    exact hf
  · cases e; exact hf

/-- With no free block a new block is allocated only when it gets an element. -/
theorem Core.pushBack' (P : Pol) (c : Core N h v xs us [] F f1 bz) (w : h.Wf) (x : X) :
    ∃ v' h' us' F' bz', v.pushBack P N h x = some (v', h') ∧ Core N h' v' (xs ++ [x]) us' [] F' f1 bz' ∧
      Heap.Frame h h' us us' ∧ 0 < bz' := by
  obtain ⟨v1, h1, us1, fs1, F1, bz1, e1, c1, fr1, p1, b1⟩ := c.blockCheck_eq P w
  have hf : v.free.idx = 0 := by rw [c.free.idx]; rfl
  have := Core.blockCheck_free P hf e1 (by have := c.avail_pos; omega)
  have hfs : fs1 = [] := List.length_eq_zero_iff.1 (by rw [← c1.free.idx, this])
  subst hfs
  obtain ⟨h2, e2, c2, fr2⟩ := c1.pushCell fr1.wf b1 x
  refine ⟨_, h2, us1, F1, bz1 + 1, ?_, c2, by simpa using fr1.trans fr2, Nat.succ_pos _⟩
  rw [Deq.pushBack, e1]
  simp only [Option.bind_some, e2, Option.map_some]

theorem Core.pushFirst (P : Pol) {s : Deq} {ys : List X} {us2 fs2 : List Nat} {F2 g1 bz2 : Nat} {last : Iter} (f : Fault) (t : Nat) :
    ∀ {h : Heap X} {v : Deq} {us : List Nat} {F bz : Nat} {it : Iter} {p k : Nat},
    Core N h v (ys.take p) us [] F f1 bz → (us.length = 1 ∨ 0 < bz) → Core N h s ys us2 fs2 F2 g1 bz2 → h.Wf →
    (∀ b, b ∈ us → b ∉ us2 ++ fs2) →
    Iter.Denotes (blockSize N) s.dataptr it (F2 * blockSize N + (g1 + p)) →
    Iter.Denotes (blockSize N) s.dataptr last (F2 * blockSize N + (g1 + ys.length)) →
    (hp : p + t < ys.length) →
    ∃ v' h' us' F' bz', Deq.pushFromFault P N (.iter (blockSize N) s.dataptr last fun _ => none) f t (k, it) v h =
        v'.pushBackFault P N h' ys[p + t] f ∧
      Core N h' v' (ys.take (p + t)) us' [] F' f1 bz' ∧ Heap.Frame h h' us us' ∧ (us'.length = 1 ∨ 0 < bz') := by
  induction t with
  | zero =>
    intro h v us F bz it p k c hb c2 w hd d dl hp
    refine ⟨v, h, us, F, bz, ?_, c, Heap.Frame.refl w, hb⟩
    have he : it.eq last = false := by rw [eq_denotes d dl]; simp; omega
    rw [Deq.pushFromFault, if_pos he]
    simp only [c2.deref_eq (show p < ys.length by omega) d, Option.bind_some]
    rfl
  | succ t ih =>
    intro h v us F bz it p k c hb c2 w hd d dl hp
    have he : it.eq last = false := by rw [eq_denotes d dl]; simp; omega
    obtain ⟨it', d'⟩ := dl.mono (m := F2 * blockSize N + (g1 + (p + 1))) (by omega)
    have hi : it.incr (blockSize N) s.dataptr = some it' := by
      rw [Iter.incr_eq]; exact d.add (blockSize_pos N) (by rw [show F2 * blockSize N + (g1 + p) + 1 = F2 * blockSize N + (g1 + (p + 1)) by omega]; exact d')
    have hlv : ∀ b, b ∈ us2 ++ fs2 → b < h.next := fun b hb => w.live b (c2.grid.live b hb)
    obtain ⟨v1, h1, us1, F1, bz1, e1, c1, f1', b1⟩ := c.pushBack' P w ys[p]
    have c21 := c2.frame (f1'.agree hlv fun b hb hb' => hd b hb' hb)
    have hd1 := f1'.disjoint hlv hd
    obtain ⟨v2, h2, us2', F2', bz2', e2, c2', f2, b2⟩ := ih (it := it') (p := p + 1) (k := k + 1)
      (by rw [List.take_add_one, List.getElem?_eq_getElem (by omega)]; exact c1) (.inr b1) c21 f1'.wf hd1 d' dl (by omega)
    have hpt : p + 1 + t = p + (t + 1) := by omega
    refine ⟨v2, h2, us2', F2', bz2', ?_, by rw [← hpt]; exact c2', f1'.trans f2, b2⟩
    rw [Deq.pushFromFault, if_pos he]
    simp only [c2.deref_eq (show p < ys.length by omega) d, Option.bind_some, e1, hi, Option.map_some]
    rw [e2]
    simp only [hpt]

end Verif.Block.Deque
