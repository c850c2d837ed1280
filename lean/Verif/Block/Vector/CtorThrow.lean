import Verif.Block.Vector.Throw

/-
Model of exceptions inside the constructors of gmlc/containers/StableBlockVector.hpp that allocate: the one with a size (51-80) and
the copy constructor (82-90).  An exception that leaves a constructor ends the life of the members, which are plain pointers and
numbers; the destructor of the object does not run.
-/
namespace Verif.Block.Vector
open Verif.Block

/-- What fails during the constructor; the operations of each kind are counted from 0. -/
inductive CFault where
  | array             -- `new X*[]` of StableBlockVector.hpp:56 or 85
  | block (k : Nat)   -- `a.allocate` number `k`: StableBlockVector.hpp:64, 67, or 418 called from 189
  | element (k : Nat) -- the copy construction of element `k`: StableBlockVector.hpp:71, 75, or 146 called from 189
deriving DecidableEq

/-- How a constructor ends. -/
inductive Made (X : Type) where
  | made (v : Vec) (h : Heap X)
  | threw (arrays : Nat) (h : Heap X)   -- with the number of arrays of block pointers it allocated and did not delete
  | ended                               -- `std::terminate`

variable {X : Type}

namespace Vec

/-- StableBlockVector.hpp:51-80, when the given operation throws if the constructor gets to it.  The constructor is
`noexcept(std::is_nothrow_copy_constructible<X>::value)` (54), the parameter `nothrow`: then the exception ends the program.
Blocks 0, ..., `startSize >> N` are allocated in this order (64, 66-67); element `k` is the one in cell `k % blockSize` of block
`k / blockSize`, constructed after all elements before it (70-76). -/
def ofSizeFault (N : Nat) (nothrow : Bool) (h : Heap X) (startSize : Nat) (init : X) (f : CFault) : Option (Made X) :=
  let slots := Nat.max ((startSize >>> N) + 1) 64
  let idx := startSize >>> N
  let bsize := startSize &&& cntmask N
  let arr : SlotPtr := some (List.replicate slots none)
  let throws (arrays : Nat) (h : Heap X) : Made X := if nothrow then .ended else .threw arrays h
  match f with
  | .array => some (throws 0 h)
  | .block k =>
    if k ≤ idx then (fillBlocks N init idx bsize k 0 arr h).map fun r => throws 1 r.2
    else (ofSize N h startSize init).map fun r => .made r.1 r.2
  | .element k =>
    if k < startSize then
      (fillBlocks N init idx bsize (k >>> N) 0 arr h).bind fun r =>
      let ab := r.2.alloc
      (slotSet r.1 ((k >>> N : Nat) : Int) ab.1).bind fun _ =>
      (constructUp N ab.2 ab.1 init 0 (k &&& cntmask N)).map fun h => throws 1 h
    else (ofSize N h startSize init).map fun r => .made r.1 r.2

/-- StableBlockVector.hpp:188-191: `t` rounds, and one in which `f` fails.  The flag says whether that round got to the failing
operation. -/
def pushFromFault (N : Nat) (R : InRange X) (f : Fault) : Nat → R.S → Vec → Heap X → Option (Bool × Vec × Heap X)
  | 0, s, v, h => if R.atEnd s = false then (R.fetch s h).bind fun r => v.pushFault N r.2 r.1 f else none
  | t + 1, s, v, h =>
    if R.atEnd s = false then
      (R.fetch s h).bind fun r =>
      (pushBack N v r.2 r.1).bind fun r =>
      (R.next s).bind fun s => pushFromFault N R f t s r.1 r.2
    else none

/-- StableBlockVector.hpp:82-90, when the given operation throws if the constructor gets to it.  The loops 179-182 and 188-191 of
`assign` find no elements to overwrite.  There are no free blocks, so that block `k` is allocated by the `push_back` of element
`k * blockSize` (that it is is a theorem; the model has no outcome for the other case).  `push_back` is
`noexcept(std::is_nothrow_copy_constructible<X>::value)` (142), the constructor itself is not. -/
def copyCtorFault (N : Nat) (nothrow : Bool) (sbv : Vec) (h : Heap X) (f : CFault) : Option (Made X) :=
  match sbv.dataptr with
  | none => some (.made (default N) h)
  | some _ =>
    let v0 := { default N with dataptr := some (List.replicate sbv.avail none), avail := sbv.avail, slotIdx := -1 }
    let push (t : Nat) (f : Fault) : Option (Made X) :=
      if t < sbv.csize then
        (begin? N sbv).bind fun b =>
        (end? N sbv).bind fun e =>
        (pushFromFault N (.iter (blockSize N) sbv.dataptr e fun _ => none) f t (0, b) v0 h).bind fun r =>
          if r.1 = true then some (if nothrow then .ended else .threw 1 r.2.2) else none
      else (copyCtor N sbv h).map fun r => .made r.1 r.2
    match f with
    | .array => some (.threw 0 h)
    | .block k => push (k * blockSize N) .block
    | .element k => push k .element

end Vec

/-- The constructions of an object by a program: how many elements with which value, or as a copy of object `j`. -/
inductive Ctor (X : Type) where
  | size (n : Nat) (x : X)
  | copy (j : Nat)

/-- The construction of a further object when `f` fails. -/
def execCtorFault (N : Nat) (nothrow : Bool) (w : World X) (f : CFault) : Ctor X → Option (Made X)
  | .size n x => Vec.ofSizeFault N nothrow w.heap n x f
  | .copy j => (w.objs j).bind fun v => v.copyCtorFault N nothrow w.heap f

namespace Vec
variable {N : Nat} {h : Heap X} {v : Vec} {xs : List X} {us fs : List Nat}

/-! ### the constructor with a size -/

theorem Core.slots (slots : Nat) (hs : 0 < slots) (init : X) :
    Core N h ⟨0 * blockSize N, some (List.replicate slots none), slots,
      ((0 : Nat) : Int) - 1, blockSize N, 0, 0, none⟩ (List.replicate (0 * blockSize N) init) [] [] := by
  refine ⟨ArrOK.nil slots, ?_, ⟨rfl, rfl⟩, rfl, .inl rfl, Nat.le_refl _, by simp, by simp, by simp,
    by simp, by simp, by simp, by simp⟩
  intro e
  have := congrArg (fun p => (Option.getD p []).length) e
  simp at this; omega

/-- rounds that fill whole blocks -/
theorem Core.fillFull (init : X) (last bsize slots : Nat) (hls : last < slots) : ∀ (n ii : Nat) {h : Heap X} {arr : SlotPtr} {us : List Nat},
    ii + n ≤ last →
    Core N h ⟨ii * blockSize N, arr, slots, (ii : Int) - 1, blockSize N, 0, 0, none⟩
      (List.replicate (ii * blockSize N) init) us [] → us.length = ii → h.Wf →
    ∃ arr' h' us', Vec.fillBlocks N init last bsize n ii arr h = some (arr', h') ∧
      Core N h' ⟨(ii + n) * blockSize N, arr', slots, ((ii + n : Nat) : Int) - 1, blockSize N, 0, 0, none⟩
        (List.replicate ((ii + n) * blockSize N) init) us' [] ∧
      Heap.Frame h h' us us' ∧ us'.length = ii + n := by
  intro n
  induction n with
  | zero =>
    intro ii h arr us _ c hu w
    exact ⟨arr, h, us, rfl, c, Heap.Frame.refl w, hu⟩
  | succ n ih =>
    intro ii h arr us hn c hu w
    obtain ⟨p', e1, c1, f1⟩ := c.addFresh w rfl (by simp only; omega)
    obtain ⟨h2, e2, c2, f2⟩ := c1.constructUp init (blockSize N) f1.wf (by simp)
    obtain ⟨arr', h3, us3, e3, c3, f3, l3⟩ := ih (ii + 1) (h := h2) (arr := p') (us := us ++ [h.next])
      (by omega)
      (by
        have : (ii + 1) * blockSize N = ii * blockSize N + blockSize N := by
          rw [Nat.add_mul, Nat.one_mul]
        rw [this]
        simpa [hu, List.replicate_append_replicate] using c2)
      (by simp [hu]) f2.wf
    have hii : ii + 1 + n = ii + (n + 1) := by omega
    rw [hii] at c3 l3
    refine ⟨arr', h3, us3, ?_, c3, ((by simpa using f1.trans f2 : Heap.Frame h h2 us (us ++ [h.next]))).trans f3, l3⟩
    rw [Vec.fillBlocks]
    simp only [Heap.alloc_fst]
    rw [hu] at e1
    rw [e1]
    simp only [Option.bind_some]
    rw [if_pos (by omega)]
    simp only at e2
    rw [e2]
    exact e3

/-! ### the copy constructor -/

theorem Core.pushBack' (c : Core N h v xs us []) (w : h.Wf) (x : X) :
    ∃ v' h' us', Vec.pushBack N v h x = some (v', h') ∧ Core N h' v' (xs ++ [x]) us' [] ∧
      Heap.Frame h h' us us' ∧ 0 < v'.bsize := by
  obtain ⟨v', h', us', fs', e, c', f, _⟩ := c.pushBack w x
  have hf := c.fidx
  simp only [List.length_nil] at hf
  have key : v'.freeIdx = 0 ∧ 0 < v'.bsize := by
    simp only [Vec.pushBack, Option.bind_eq_some_iff, Option.map_eq_some_iff] at e
    obtain ⟨⟨v1, h1⟩, e1, b, _, h2, _, e2⟩ := e
    cases e2
    refine ⟨?_, Nat.succ_pos _⟩
    simp only
    rw [Vec.blockCheck] at e1
    split at e1
    · have hg : v.growSlots.freeIdx = 0 := by
        rw [Vec.growSlots]; split
        · exact hf
        · split <;> exact hf
      simp only [Vec.getNewBlock, hg, if_pos, Option.bind_some, Option.map_eq_some_iff] at e1
      obtain ⟨_, _, e1⟩ := e1
      cases e1
      first | exact hg | rfl
    · cases e1; exact hf
  have hfs : fs' = [] := List.length_eq_zero_iff.1 (by rw [← c'.fidx, key.1])
  subst hfs
  exact ⟨v', h', us', e, c', by simpa using f, key.2⟩

theorem Core.pushFirst {s : Vec} {ys : List X} {us2 fs2 : List Nat} {last : Iter} (f : Fault) (t : Nat) :
    ∀ {h : Heap X} {v : Vec} {us : List Nat} {it : Iter} {p k : Nat},
    Core N h v (ys.take p) us [] → 0 < v.bsize → Core N h s ys us2 fs2 → h.Wf → (∀ b, b ∈ us → b ∉ us2 ++ fs2) →
    Iter.Denotes (blockSize N) s.dataptr it p → Iter.Denotes (blockSize N) s.dataptr last ys.length →
    (hp : p + t < ys.length) →
    ∃ v' h' us', pushFromFault N (.iter (blockSize N) s.dataptr last fun _ => none) f t (k, it) v h = v'.pushFault N h' ys[p + t] f ∧
      Core N h' v' (ys.take (p + t)) us' [] ∧ Heap.Frame h h' us us' ∧ 0 < v'.bsize := by
  induction t with
  | zero =>
    intro h v us it p k c hb c2 w hd d dl hp
    refine ⟨v, h, us, ?_, c, Heap.Frame.refl w, hb⟩
    have he : it.eq last = false := by rw [eq_denotes d dl]; simp; omega
    rw [pushFromFault, if_pos he]
    simp only [c2.deref_eq (show p < ys.length by omega) d, Option.bind_some]
    rfl
  | succ t ih =>
    intro h v us it p k c hb c2 w hd d dl hp
    have he : it.eq last = false := by rw [eq_denotes d dl]; simp; omega
    obtain ⟨it', d'⟩ := dl.mono (m := p + 1) (by omega)
    have hi : it.incr (blockSize N) s.dataptr = some it' := by
      rw [Iter.incr_eq]; exact d.add (blockSize_pos N) d'
    obtain ⟨v1, h1, us1, e1, c1, f1, b1⟩ := c.pushBack' w ys[p]
    have c21 := c2.frame fun b hb => f1.keep b (w.live b (c2.live b hb)) fun hb' => hd b hb' hb
    have hd1 := f1.disjoint (B := us2 ++ fs2) (fun b hb => w.live b (c2.live b hb)) hd
    obtain ⟨v2, h2, us2', e2, c2', f2, b2⟩ := ih (it := it') (p := p + 1) (k := k + 1)
      (by rw [List.take_add_one, List.getElem?_eq_getElem (by omega)]; exact c1) b1 c21 f1.wf hd1 d' dl (by omega)
    have hpt : p + 1 + t = p + (t + 1) := by omega
    refine ⟨v2, h2, us2', ?_, by rw [← hpt]; exact c2', f1.trans f2, b2⟩
    rw [pushFromFault, if_pos he]
    simp only [c2.deref_eq (show p < ys.length by omega) d, Option.bind_some, e1, hi, Option.map_some]
    rw [e2]
    simp only [hpt]

end Vec
end Verif.Block.Vector
