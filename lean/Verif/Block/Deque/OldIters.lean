import Verif.Block.Deque.ArraysProps

/-
C154: an iterator of a StableBlockDeque that is kept while elements are added and removed at both ends.  An iterator
holds a pointer into the array of block pointers, a pointer to the element and the offset in the block
(BlockIterator.hpp:20-23).  The elements never move, but when the array has no free entry at the end where a block is
added, its entries are moved to other places of the same array, or copied into a larger one and the old one is deleted
(StableBlockDeque.hpp:487-504 and 522-545).
-/
namespace Verif.Block.Deque
open Verif.Block

variable {X : Type} {N : Nat}

/-- BlockIterator.hpp:20-23: an iterator, with the number of the array of block pointers its member `vec` points into. -/
structure Held where
  arr : Option Nat
  it : Iter

/-- The array `vec` points into, seen at a later moment: if it is no longer the one of the object, it has been deleted
(C108: each array that exists belongs to one object) and reading it is undefined. -/
def Held.slots (v : ADeq) (p : Held) : SlotPtr := if p.arr = v.d then v.v.dataptr else none

/-- `begin() + k` (StableBlockDeque.hpp:419-430, BlockIterator.hpp:94-99). -/
def heldAt (N : Nat) (v : ADeq) (k : Nat) : Option Held :=
  (Deq.begin? N v.v).bind fun b => (b.add (blockSize N) v.v.dataptr k).map fun it => ⟨v.d, it⟩

/-- `end()` (StableBlockDeque.hpp:432-442). -/
def heldEnd (N : Nat) (v : ADeq) : Option Held := (Deq.end? N v.v).map fun it => ⟨v.d, it⟩

/-- `*p` (BlockIterator.hpp:42). -/
def Held.deref (N : Nat) (h : Heap X) (p : Held) : Option X := p.it.deref (blockSize N) h

/-- `++p` (BlockIterator.hpp:81-87) on an iterator of `v`. -/
def Held.incr (N : Nat) (v : ADeq) (p : Held) : Option Held :=
  (p.it.incr (blockSize N) (p.slots v)).map fun it => ⟨p.arr, it⟩

/-- `p != q` (BlockIterator.hpp:53-56): entries of different arrays are different. -/
def Held.ne (p q : Held) : Bool := p.it.ne q.it || decide (p.arr ≠ q.arr)

/-- The loop `for (; p != last; ++p) out.push_back(*p);` on iterators of `v`, for at most `fuel` rounds (`none` if it is
undefined or did not stop by then). -/
def Held.walk (N : Nat) (v : ADeq) (h : Heap X) (last : Held) : Nat → Held → Option (List X)
  | 0, p => if p.ne last then none else some []
  | fuel + 1, p =>
    if p.ne last then
      (p.deref N h).bind fun x =>
      (p.incr N v).bind fun q => (walk N v h last fuel q).map fun xs => x :: xs
    else some []

/-- The calls C154 speaks about: adding and removing at both ends, and shrink_to_fit, of object `i`. -/
def Op.ends (i : Nat) : Op X → Bool
  | .push j _ | .pushFront j _ | .pop j | .popFront j | .shrink j => j == i
  | _ => false

/-- The call finds room: the last (first) block is not full or the array of block pointers has a free entry behind
(before) it. -/
def Deq.roomy (N : Nat) (v : Deq) : Op X → Bool
  | .push _ _ => decide (v.bsize < 2 ^ N) || decide (v.back + 1 < v.avail)
  | .pushFront _ _ => decide (0 ≤ v.fsize) || decide (0 < v.front)
  | _ => true

/-- Every call on object `i` finds room. -/
def roomyRun (P : Pol) (N i : Nat) : TWorld X → List (Op X) → Bool
  | _, [] => true
  | w, op :: ops => ((w.objs i).all fun a => a.v.roomy N op) &&
      (match execT P N w op with | some r => roomyRun P N i r.1 ops | none => true)

/-! ### Positions in the array -/

/-- where element `n` is, counted from the beginning of the first block the array has room for -/
def Deq.pos (N : Nat) (v : Deq) (n : Nat) : Int := v.front * (blockSize N : Int) + (v.fsize + 1) + n

theorem Core.pos_eq {h : Heap X} {v : Deq} {xs : List X} {us fs : List Nat} {F f1 bz : Nat}
    (c : Core N h v xs us fs F f1 bz) (n : Nat) :
    v.pos N n = ((F * blockSize N + (f1 + n) : Nat) : Int) := by
  rw [Deq.pos, c.front, c.fsz]
  push_cast
  omega

namespace ADeq

theorem pushBack_pos {P : Pol} {a a' : ADeq} {L L' : Ledger} {h h' : Heap X} {x : X} (ha : a.v.avail ≠ 0)
    (hr : a.v.bsize < 2 ^ N ∨ a.v.back + 1 < a.v.avail) (e : pushBack P N a h L x = some (a', h', L')) (n : Nat) :
    a'.d = a.d ∧ a'.v.pos N n = a.v.pos N n := by
  simp only [pushBack, Option.bind_eq_some_iff, Option.map_eq_some_iff] at e
  obtain ⟨⟨b, h1, L1⟩, e1, _, _, e⟩ := e
  cases e
  suffices K : b.d = a.d ∧ b.v.front = a.v.front ∧ b.v.fsize = a.v.fsize by
    refine ⟨K.1, ?_⟩
    simp only [Deq.pos, K.2.1, K.2.2]
  unfold blockCheck at e1
  split at e1
  · rename_i hb
    have hb' : ¬ a.v.bsize < 2 ^ N := by
      rw [blockSize_eq] at hb; push_cast at hb; omega
    have hr := hr.resolve_left hb'
    simp only [Option.bind_eq_some_iff, Option.map_eq_some_iff] at e1
    obtain ⟨⟨g, L2⟩, eg, ⟨b', v', h2⟩, en, _, _, e1⟩ := e1
    cases e1
    have : ¬ a.v.back ≥ (a.v.avail : Int) - 1 := by omega
    simp only [roomBack, Deq.roomBack, if_neg this, Option.bind_some] at eg
    cases eg
    exact ⟨rfl, rfl, rfl⟩
  · cases e1; exact ⟨rfl, rfl, rfl⟩

theorem pushFront_pos {P : Pol} {a a' : ADeq} {L L' : Ledger} {h h' : Heap X} {x : X} (ha : a.v.avail ≠ 0)
    (hf : -1 ≤ a.v.fsize) (h0 : 0 ≤ a.v.front)
    (hr : 0 ≤ a.v.fsize ∨ 0 < a.v.front) (e : pushFront P N a h L x = some (a', h', L')) (n : Nat) :
    a'.d = a.d ∧ a'.v.pos N (n + 1) = a.v.pos N n := by
  simp only [pushFront, Option.bind_eq_some_iff, Option.map_eq_some_iff] at e
  obtain ⟨⟨b, h1, L1⟩, e1, _, _, e⟩ := e
  cases e
  suffices K : b.d = a.d ∧ b.v.front * (blockSize N : Int) + b.v.fsize = a.v.front * (blockSize N : Int) + a.v.fsize by
    refine ⟨K.1, ?_⟩
    have := K.2
    simp only [Deq.pos]
    push_cast
    omega
  unfold blockCheckFront at e1
  split at e1
  · rename_i hb
    have hr := hr.resolve_left (by omega)
    simp only [Option.bind_eq_some_iff, Option.map_eq_some_iff] at e1
    obtain ⟨⟨g, L2⟩, eg, ⟨b', v', h2⟩, en, _, _, e1⟩ := e1
    cases e1
    have : ¬ a.v.front = 0 := by omega
    simp only [roomFront, Deq.roomFront, if_neg this, Option.bind_some] at eg
    cases eg
    refine ⟨rfl, ?_⟩
    simp only [Int.sub_mul]
    omega
  · cases e1; exact ⟨rfl, rfl⟩

theorem popBack_pos {P : Pol} {a a' : ADeq} {L L' : Ledger} {h h' : Heap X}
    (e : popBack P N a h L = some (a', h', L')) (n : Nat) : a'.d = a.d ∧ a'.v.pos N n = a.v.pos N n := by
  unfold popBack at e
  split at e
  · cases e; exact ⟨rfl, rfl⟩
  · simp only [Option.bind_eq_some_iff, Option.map_eq_some_iff] at e
    obtain ⟨⟨b, L1⟩, e1, _, _, e⟩ := e
    cases e
    unfold popBackStep at e1
    split at e1
    · cases e1; exact ⟨rfl, rfl⟩
    · simp only [Option.bind_eq_some_iff, Option.map_eq_some_iff] at e1
      obtain ⟨_, _, q, _, e1⟩ := e1
      cases e1; exact ⟨rfl, rfl⟩

theorem popFront_pos {P : Pol} {a a' : ADeq} {L L' : Ledger} {h h' : Heap X} (hc : a.v.csize ≠ 0)
    (e : popFront P N a h L = some (a', h', L')) (n : Nat) : a'.d = a.d ∧ a'.v.pos N n = a.v.pos N (n + 1) := by
  unfold popFront at e
  rw [if_neg hc] at e
  simp only [Option.bind_eq_some_iff, Option.map_eq_some_iff] at e
  obtain ⟨⟨b, L1⟩, e1, _, _, e⟩ := e
  cases e
  unfold popFrontStep at e1
  split at e1
  · cases e1
    refine ⟨rfl, ?_⟩
    simp only [Deq.pos]; push_cast; omega
  · rename_i hf
    simp only [ne_eq, Decidable.not_not] at hf
    simp only [Option.bind_eq_some_iff, Option.map_eq_some_iff] at e1
    obtain ⟨_, _, q, _, e1⟩ := e1
    cases e1
    refine ⟨rfl, ?_⟩
    simp only [Deq.pos, hf, Int.add_mul]; push_cast; omega

end ADeq

theorem stay_run {P : Pol} {k : Nat} (ops : List (Op X)) : ∀ {w w' : TWorld X} {aw : AWorld X} {us fs : Nat → List Nat}
    {n m : Nat} {a : ADeq} {obs : List (Obs X)}, TInv w → WInv N w.erase aw us fs → (∀ op, op ∈ ops → op.ends k = true) →
    follow k n aw ops = some m → carefulRun P N w.erase ops = true → roomyRun P N k w ops = true →
    w.objs k = some a → runT P N w ops = some (w', obs) →
    ∃ a', w'.objs k = some a' ∧ a'.d = a.d ∧ a'.v.pos N m = a.v.pos N n := by
  induction ops with
  | nil =>
    intro w w' aw us fs n m a obs _ _ _ hf _ _ ha e
    cases e
    simp only [follow] at hf
    split at hf <;> cases hf
    exact ⟨a, ha, rfl, rfl⟩
  | cons op ops ih =>
    intro w w' aw us fs n m a obs I W hg hf hc hr ha e
    obtain ⟨xs, hx, hl⟩ := follow_lt hf
    simp only [follow] at hf
    split at hf <;> [skip; cases hf]
    simp only [Option.bind_eq_some_iff] at hf
    obtain ⟨⟨aw1, o1⟩, h1, n1, h2, h3⟩ := hf
    simp only [runT, Option.bind_eq_some_iff, Option.map_eq_some_iff] at e
    obtain ⟨⟨w1, o⟩, e1, ⟨w2, os⟩, e2, e⟩ := e
    cases e
    have R : runT P N w [op] = some (w1, [o]) := by simp [runT, e1]
    obtain ⟨E, I1⟩ := run_of_runT [op] I _ R
    have E' : exec P N w.erase op = some (w1.erase, o) := by
      simp only [run, Option.bind_eq_some_iff, Option.map_eq_some_iff] at E
      obtain ⟨⟨v1, p1⟩, q1, ⟨v2, p2⟩, q2, q3⟩ := E
      cases q2
      simp only [Prod.mk.injEq, List.cons.injEq, and_true] at q3
      obtain ⟨rfl, rfl⟩ := q3
      exact q1
    rw [carefulRun, Bool.and_eq_true, E'] at hc
    rw [roomyRun, Bool.and_eq_true, e1, ha] at hr
    obtain ⟨w1', us1, fs1, e1', W1, _⟩ := step P w.erase aw us fs W op aw1 o1 h1 hc.1
    rw [E'] at e1'
    cases e1'
    obtain ⟨v, hv, r⟩ := W.getSome hx
    simp only [TWorld.erase, ha, Option.map_some, Option.some.injEq] at hv
    subst hv
    rcases r with ⟨F, f1, bz, c⟩ | ⟨_, _, _, h0⟩
    swap
    · subst h0; simp at hl
    have hav : a.v.avail ≠ 0 := by have := c.avail_pos; omega
    suffices K : ∃ a1, w1.objs k = some a1 ∧ a1.d = a.d ∧ a1.v.pos N n1 = a.v.pos N n by
      obtain ⟨a1, k1, k2, k3⟩ := K
      obtain ⟨a', j1, j2, j3⟩ := ih I1 W1 (fun op h => hg op (List.mem_cons_of_mem _ h)) h3 hc.2 hr.2 k1 e2
      exact ⟨a', j1, j2.trans k2, j3.trans k3⟩
    have hop := hg op List.mem_cons_self
    have hroom := hr.1
    have hlen := c.len
    have hfs := c.fsz
    have hfr := c.front
    cases op <;> simp only [Op.ends, beq_iff_eq, reduceCtorEq] at hop <;> subst hop <;>
      simp only [execT, TWorld.on, ha, Option.bind_some, Option.map_eq_some_iff] at e1 <;>
      obtain ⟨⟨a1, g1, L1⟩, e1, e3⟩ := e1 <;> cases e3 <;> refine ⟨a1, by simp [upd], ?_⟩ <;>
      simp only [Op.newIdx, if_true, Option.some.injEq] at h2
    · subst h2
      simp only [Option.all_some, Deq.roomy, Bool.or_eq_true, decide_eq_true_eq] at hroom
      exact ADeq.pushBack_pos hav hroom e1 n
    · subst h2
      simp only [Option.all_some, Deq.roomy, Bool.or_eq_true, decide_eq_true_eq] at hroom
      exact ADeq.pushFront_pos hav (by omega) (by omega) hroom e1 n
    · subst h2
      exact ADeq.popBack_pos e1 n
    · split at h2
      · cases h2
      · rename_i hn0
        cases h2
        have := ADeq.popFront_pos (by omega) e1 (n - 1)
        rwa [Nat.sub_add_cancel (by omega)] at this
    · subst h2
      simp only [ADeq.shrinkToFit, Option.map_eq_some_iff] at e1
      obtain ⟨_, _, e1⟩ := e1
      cases e1; exact ⟨rfl, rfl⟩

/-- Without room behind the last block but before the first, the entries of the array are moved. -/
theorem ADeq.pushBack_shift {P : Pol} {a a' : ADeq} {L L' : Ledger} {h h' : Heap X} {x : X} (ha : a.v.avail ≠ 0)
    (hb : a.v.bsize = (2 ^ N : Nat)) (hr : a.v.back + 1 = a.v.avail) (hf : 5 < a.v.front)
    (e : pushBack P N a h L x = some (a', h', L')) :
    a'.d = a.d ∧ a'.v.front = a.v.front / 2 ∧ a'.v.fsize = a.v.fsize := by
  simp only [pushBack, Option.bind_eq_some_iff, Option.map_eq_some_iff] at e
  obtain ⟨⟨b, h1, L1⟩, e1, _, _, e⟩ := e
  cases e
  suffices K : b.d = a.d ∧ b.v.front = a.v.front / 2 ∧ b.v.fsize = a.v.fsize from K
  have hb' : a.v.bsize ≥ (blockSize N : Int) := by rw [blockSize_eq, hb]; exact Int.le_refl _
  have hbk : a.v.back ≥ (a.v.avail : Int) - 1 := by omega
  simp only [blockCheck, if_pos hb', if_neg ha, Option.bind_eq_some_iff, Option.map_eq_some_iff] at e1
  obtain ⟨⟨g, L2⟩, eg, ⟨b', v', h2⟩, en, _, _, e1⟩ := e1
  cases e1
  have hf' : a.v.front > 5 := hf
  simp only [roomBack, Deq.roomBack, if_pos hbk, if_pos hf', Option.bind_eq_some_iff, Option.map_eq_some_iff] at eg
  obtain ⟨u, ⟨l, _, l', _, eu⟩, eg⟩ := eg
  cases eu
  cases eg
  exact ⟨rfl, rfl, rfl⟩

/-- Without room on both sides, the array is replaced. -/
theorem ADeq.pushBack_grow {P : Pol} {a a' : ADeq} {L L' : Ledger} {h h' : Heap X} {x : X} (ha : a.v.avail ≠ 0)
    (hb : a.v.bsize = (2 ^ N : Nat)) (hr : a.v.back + 1 = a.v.avail) (hf : a.v.front ≤ 5) {y : Nat} (hd : a.d = some y)
    (wf : L.Wf) (hy : y ∈ L.live) (e : pushBack P N a h L x = some (a', h', L')) : a'.d ≠ some y ∧ y ∉ L'.live := by
  simp only [pushBack, Option.bind_eq_some_iff, Option.map_eq_some_iff] at e
  obtain ⟨⟨b, h1, L1⟩, e1, _, _, e⟩ := e
  cases e
  suffices K : b.d ≠ some y ∧ y ∉ L1.live from K
  have hb' : a.v.bsize ≥ (blockSize N : Int) := by rw [blockSize_eq, hb]; exact Int.le_refl _
  have hbk : a.v.back ≥ (a.v.avail : Int) - 1 := by omega
  simp only [blockCheck, if_pos hb', if_neg ha, Option.bind_eq_some_iff, Option.map_eq_some_iff] at e1
  obtain ⟨⟨g, L2⟩, eg, ⟨b', v', h2⟩, en, _, _, e1⟩ := e1
  cases e1
  have hf' : ¬ a.v.front > 5 := by omega
  have hne : y ≠ L.next := by have := wf y hy; omega
  simp only [roomBack, if_pos hbk, if_neg hf', Option.bind_eq_some_iff, Option.map_eq_some_iff] at eg
  obtain ⟨u, _, L3, el, eg⟩ := eg
  cases eg
  have hyl : y ∈ L.alloc.2.live := List.mem_cons_of_mem _ hy
  rw [hd, Ledger.delete, if_pos hyl] at el
  cases el
  refine ⟨fun h => hne ?_, by simp⟩
  simpa [Ledger.alloc] using h.symm

/-! ### Kept iterators -/

theorem Held.walk_eq {v : ADeq} {h : Heap X} {last : Iter} (n : Nat) : ∀ (it : Iter),
    Held.walk N v h ⟨v.d, last⟩ n ⟨v.d, it⟩ = Iter.collect (blockSize N) v.v.dataptr h last n it := by
  induction n with
  | zero => intro it; simp [Held.walk, Iter.collect, Held.ne]
  | succ n ih =>
    intro it
    simp only [Held.walk, Iter.collect, Held.ne, Held.deref, Held.incr, Held.slots, ne_eq, not_true_eq_false,
      decide_false, Bool.or_false, if_true]
    split
    · cases it.deref (blockSize N) h with
      | none => rfl
      | some x =>
        cases it.incr (blockSize N) v.v.dataptr with
        | none => rfl
        | some q => simp [ih q]
    · rfl

theorem denotes_blk {bs : Nat} {arr : SlotPtr} {it : Iter} {n b : Nat} (d : Iter.Denotes bs arr it n)
    (hs : slotGet arr ((n / bs : Nat) : Int) = some b) : it.blk = some b := by
  obtain ⟨v1, o1, p1, r1⟩ := d.eqs
  rw [v1] at r1
  cases arr with
  | none => simp [slotGet] at hs
  | some l =>
    simp only [slotGet, derefVec] at hs r1
    rw [if_pos (Int.natCast_nonneg _)] at hs r1
    rw [r1] at hs; simpa using hs

theorem heldAt_eq {h : Heap X} {a : ADeq} {xs : List X} {us fs : List Nat} {F f1 bz : Nat}
    (c : Core N h a.v xs us fs F f1 bz) {n : Nat} (hn : n < xs.length) :
    ∃ it, heldAt N a n = some ⟨a.d, it⟩ ∧
      Iter.Denotes (blockSize N) a.v.dataptr it (F * blockSize N + (f1 + n)) := by
  obtain ⟨b, hb, d⟩ := c.begin_eq (by omega)
  have hex : ∃ it, Iter.Denotes (blockSize N) a.v.dataptr it (F * blockSize N + (f1 + n)) := by
    obtain ⟨bb, h1, h2⟩ := c.slot_pos hn
    rw [Iter.denotes_iff]
    obtain ⟨l, hl, hlen, hle, _⟩ := c.arr.ex
    have := (List.getElem?_eq_some_iff.1 h1).1
    rw [hl, Option.getD_some, Core.div_base (blockSize_pos N)]
    omega
  obtain ⟨it, di⟩ := hex
  refine ⟨it, ?_, di⟩
  have := d.add (blockSize_pos N) (m := n) (by rw [Nat.add_assoc]; exact di)
  simp [heldAt, hb, Iter.add, this]

/-- The iterator at a position of another array that has the same block there. -/
theorem denotes_other {bs : Nat} {arr arr' : SlotPtr} {it : Iter} {n b : Nat} (d : Iter.Denotes bs arr it n)
    (h1 : slotGet arr ((n / bs : Nat) : Int) = some b) (h2 : slotGet arr' ((n / bs : Nat) : Int) = some b) :
    Iter.Denotes bs arr' it n := by
  obtain ⟨q1, q2, q3, q4⟩ := d.eqs
  refine .of q1 q2 q3 ?_
  rw [denotes_blk d h1, q1]
  cases arr' with
  | none => simp [slotGet] at h2
  | some l =>
    simp only [slotGet, derefVec] at h2 ⊢
    rw [if_pos (Int.natCast_nonneg _)] at h2 ⊢
    cases hl : l[((n / bs : Nat) : Int).toNat]? with
    | none => rw [hl] at h2; simp at h2
    | some o => rw [hl] at h2; simpa using h2

/-! ## C154 -/

/-- C154.  An iterator to element `n` of a StableBlockDeque, kept while elements are added and removed at both ends: it can
always be dereferenced and gives the same element; as long as every call finds room in the array of block pointers, the
loop from it to the new `end()` sees the elements from the new position `m` of that element on.  (If a call finds no
room, see the violations below.) -/
theorem old_iterator_partial (P : Pol) (N : Nat) (pre post : List (Op X)) (k n m : Nat)
    (aw : AWorld X) (obs : List (Obs X)) (h : idealRun noObjs pre = some (aw, obs))
    (hc : carefulRun P N World.empty (pre ++ post) = true) (hp : ∀ op, op ∈ post → op.ends k = true)
    (hf : follow k n aw post = some m) :
    ∃ w w' v v' p obs' a aw' a', runT P N TWorld.empty pre = some (w, obs) ∧ runT P N w post = some (w', obs') ∧
      w.objs k = some v ∧ w'.objs k = some v' ∧ heldAt N v n = some p ∧
      aw k = some a ∧ idealRun aw post = some (aw', obs') ∧ aw' k = some a' ∧
      p.deref N w'.heap = a[n]? ∧ n < a.length ∧
      (roomyRun P N k w post = true → v'.v.iterable N = true → ∃ e, heldEnd N v' = some e ∧
        Held.walk N v' w'.heap e (a'.length + 1) p = some (a'.drop m)) := by
  obtain ⟨c1, c2⟩ := careful_split pre post World.empty hc
  obtain ⟨w, us, fs, e, W⟩ := runs P pre World.empty noObjs _ _ WInv.empty aw obs h c1
  obtain ⟨tw, e1, ew⟩ := arrays_no_double_delete P N pre (ideal_namesOk pre (fun _ => rfl) _ h) w obs e
  have I := (run_of_runT pre TInv.empty _ e1).2
  obtain ⟨w', aw', os, us', fs', e', hi', W', had, a, a', ha, ha', g1, g2, g3⟩ :=
    follow_run post w aw us fs n m W hf (c2 w obs e)
  have hcp := c2 w obs e
  rw [← ew] at e' hcp
  obtain ⟨tw', e2, ew'⟩ := runT_of_run (used := fun j => (aw j).isSome) post I (fun j hj => by
    have r := W.rep j
    have hn : aw j = none := by simpa using hj
    rw [hn] at r
    have : w.objs j = none := by
      cases ho : w.objs j with
      | none => rfl
      | some v => rw [ho] at r; exact r.elim
    rw [← ew] at this
    simpa [TWorld.erase] using this) (ideal_namesOk post (fun _ => rfl) _ hi') _ e'
  dsimp only at ew' e2
  obtain ⟨v0, hv, r⟩ := W.getSome ha
  obtain ⟨v0', hv', r'⟩ := W'.getSome ha'
  rcases r with ⟨F, f1, bz, C⟩ | ⟨_, _, _, h0⟩
  swap
  · subst h0; simp at g1
  rcases r' with ⟨F', f1', bz', C'⟩ | ⟨_, _, _, h0⟩
  swap
  · subst h0; simp at g2
  obtain ⟨b, hb, hcell⟩ := C.cell_eq g1
  obtain ⟨b', hb', hcell'⟩ := C'.cell_eq g2
  have hbb : b' = b ∧ (f1' + m) % blockSize N = (f1 + n) % blockSize N := by
    simp only [World.addr, hv, hv', Option.bind_some, hcell, hcell', Option.some.injEq, Prod.mk.injEq] at had
    exact had
  obtain ⟨rfl, hmod⟩ := hbb
  have W2 : WInv N tw.erase aw us fs := by rw [ew]; exact W
  rw [← ew] at hv
  rw [← ew'] at hv'
  simp only [TWorld.erase, Option.map_eq_some_iff] at hv hv'
  obtain ⟨v, hv, rfl⟩ := hv
  obtain ⟨v', hv', rfl⟩ := hv'
  have hh : tw'.heap = w'.heap := by rw [← ew']; rfl
  obtain ⟨it, hat, di⟩ := heldAt_eq C g1
  have hB := blockSize_pos N
  obtain ⟨bs, hs1, hs2⟩ := C.slot_pos g1
  rw [hb] at hs1; cases hs1
  obtain ⟨bs, hs1, hs2'⟩ := C'.slot_pos g2
  rw [hb'] at hs1; cases hs1
  refine ⟨tw, tw', v, v', _, os, a, aw', a', e1, e2, hv, hv', hat, ha, hi', ha', ?_, g1, ?_⟩
  · rw [hh, Held.deref, Iter.deref, denotes_blk di hs2]
    obtain ⟨q1, q2, q3, q4⟩ := di.eqs
    simp only
    rw [q3, q2, if_pos (Int.natCast_nonneg _), Int.toNat_natCast, Core.mod_base, ← hmod, C'.cell_val hb',
      List.getElem?_eq_getElem g2, g3, List.getElem?_eq_getElem g1]
  · intro hroom hit
    obtain ⟨v1, hv1, hd, hpos⟩ := stay_run post I W2 hp hf hcp hroom hv e2
    rw [hv'] at hv1; cases hv1
    rw [C.pos_eq, C'.pos_eq] at hpos
    have hpos : F' * blockSize N + (f1' + m) = F * blockSize N + (f1 + n) := by exact_mod_cast hpos
    rw [hpos] at hs2'
    have dn : Iter.Denotes (blockSize N) v'.v.dataptr it (F' * blockSize N + (f1' + m)) := by
      rw [hpos]; exact denotes_other di hs2 hs2'
    obtain ⟨en, hen, den⟩ := C'.end_eq (iterable_iff.1 hit)
    refine ⟨⟨v'.d, en⟩, by simp [heldEnd, hen], ?_⟩
    rw [← hd, Held.walk_eq, hh]
    refine Iter.Denotes.collect hB _ (a'.drop m) dn ?_ (by rw [List.length_drop]; omega) ?_
    · have : F' * blockSize N + (f1' + m) + (a'.drop m).length = F' * blockSize N + (f1' + a'.length) := by
        rw [List.length_drop]; omega
      rw [this]; exact den
    · intro j hj
      rw [List.length_drop] at hj
      obtain ⟨bj, h1, h2⟩ := C'.slot_pos (n := m + j) (by omega)
      have : F' * blockSize N + (f1' + m) + j = F' * blockSize N + (f1' + (m + j)) := by omega
      rw [this]
      refine ⟨bj, h2, ?_⟩
      rw [Core.mod_base, C'.cell_val h1, List.getElem_drop, List.getElem?_eq_getElem (by omega)]

/-- An iterator to the second element is kept while elements are added and removed at both ends. -/
example : (idealRun noObjs [Op.new 0, .push 0 'a', .push 0 'b']).map (fun r => r.1 0) = some (some ['a', 'b']) ∧
    carefulRun ⟨false, false⟩ 1 World.empty ([Op.new 0, .push 0 'a', .push 0 'b'] ++
      [.push 0 'c', .pushFront 0 'd', .pushFront 0 'e', .popFront 0, .push 0 'f', .pop 0, .push 0 'g']) = true ∧
    follow 0 1 (upd noObjs 0 (some ['a', 'b']))
      [.push 0 'c', .pushFront 0 'd', .pushFront 0 'e', .popFront 0, .push 0 'f', .pop 0, .push 0 'g'] = some 2 ∧
    (runT ⟨false, false⟩ 1 TWorld.empty [Op.new 0, .push 0 'a', .push 0 'b']).bind (fun r => (r.1.objs 0).bind fun v =>
      (heldAt 1 v 1).bind fun p => (runT ⟨false, false⟩ 1 r.1
        [.push 0 'c', .pushFront 0 'd', .pushFront 0 'e', .popFront 0, .push 0 'f', .pop 0, .push 0 'g']).bind fun s =>
      (s.1.objs 0).bind fun v' => (heldEnd 1 v').bind fun e => Held.walk 1 v' s.1.heap e 6 p) = some ['b', 'c', 'g'] ∧
    (runT ⟨false, false⟩ 1 TWorld.empty [Op.new 0, .push 0 'a', .push 0 'b']).map (fun r =>
      roomyRun ⟨false, false⟩ 1 0 r.1
        [.push 0 'c', .pushFront 0 'd', .pushFront 0 'e', .popFront 0, .push 0 'f', .pop 0, .push 0 'g']) = some true := by
  decide

/-- A state without room behind the last block, and the state after one `push_back`. -/
theorem pushed (P : Pol) (N : Nat) (pre : List (Op X)) (k : Nat) (x : X)
    (aw : AWorld X) (obs : List (Obs X)) (h : idealRun noObjs pre = some (aw, obs))
    (hc : carefulRun P N World.empty (pre ++ [.push k x]) = true) (a : List X) (ha : aw k = some a) (hne : a ≠ [])
    (w : TWorld X) (v : ADeq) (hw : runT P N TWorld.empty pre = some (w, obs)) (hv : w.objs k = some v) :
    ∃ w' v' us fs F f1 bz us' fs' F' f1' bz', runT P N w [.push k x] = some (w', [.done]) ∧ w'.objs k = some v' ∧
      TInv w ∧ TInv w' ∧ Core N w.heap v.v a us fs F f1 bz ∧ Core N w'.heap v'.v (a ++ [x]) us' fs' F' f1' bz' ∧
      v.pushBack P N w.heap w.arrays x = some (v', w'.heap, w'.arrays) := by
  obtain ⟨c1, c2⟩ := careful_split pre [.push k x] World.empty hc
  obtain ⟨E, I⟩ := run_of_runT pre TInv.empty _ hw
  obtain ⟨w0, us, fs, e, W⟩ := runs P pre World.empty noObjs _ _ WInv.empty aw obs h c1
  have hw0 : w0 = w.erase := by
    have : run P N World.empty pre = some (w.erase, obs) := E
    rw [e] at this; cases this; rfl
  subst hw0
  have hcp := c2 _ _ e
  rw [carefulRun, Bool.and_eq_true] at hcp
  have hi : ideal aw (.push k x) = some (upd aw k (some (a ++ [x])), .done) := by simp [ideal, ha]
  obtain ⟨w1, us1, fs1, e1, W1, _⟩ := step P w.erase aw us fs W (.push k x) _ _ hi hcp.1
  obtain ⟨tw', e2, ew'⟩ := runT_of_run (P := P) (N := N) (used := fun j => (aw j).isSome) [.push k x] I (fun j hj => by
    have r := W.rep j
    have hn : aw j = none := by simpa using hj
    rw [hn] at r
    have : w.erase.objs j = none := by
      cases ho : w.erase.objs j with
      | none => rfl
      | some v => rw [ho] at r; exact r.elim
    simpa [TWorld.erase] using this) (by simp [namesOk, Op.declares]) (w1, [.done]) (by simp [run, e1])
  dsimp only at e2 ew'
  have I' := (run_of_runT [.push k x] I _ e2).2
  obtain ⟨v0, hv0, r⟩ := W.getSome ha
  simp only [TWorld.erase, hv, Option.map_some, Option.some.injEq] at hv0
  subst hv0
  rcases r with ⟨F, f1, bz, C⟩ | ⟨_, _, _, h0⟩
  swap
  · exact absurd h0 hne
  obtain ⟨v0', hv', r'⟩ := W1.getSome (i := k) (a := a ++ [x]) (by simp [upd])
  rcases r' with ⟨F', f1', bz', C'⟩ | ⟨_, _, _, h0⟩
  swap
  · simp at h0
  rw [← ew'] at hv' C'
  simp only [TWorld.erase, Option.map_eq_some_iff] at hv'
  obtain ⟨v', hv', rfl⟩ := hv'
  refine ⟨tw', v', us k, fs k, F, f1, bz, us1 k, fs1 k, F', f1', bz', e2, hv', I, I', C, C', ?_⟩
  simp only [runT, execT, TWorld.on, hv, Option.bind_some, Option.bind_eq_some_iff, Option.map_eq_some_iff] at e2
  obtain ⟨⟨w2, o2⟩, ⟨⟨v2, h2, L2⟩, e3, e4⟩, _, e5, e6⟩ := e2
  cases e4
  cases e5
  cases e6
  simp only [upd, if_true, Option.some.injEq] at hv'
  subst hv'
  exact e3

/-- If there is no room behind the last block, but more than five free entries before the first (`F` of them), one
`push_back` moves the entries of the array: from then on an older iterator, advanced over the end of its block, is not at
the next element but `F - F / 2` blocks further on. -/
theorem old_iterator_shifted_violation (P : Pol) (N : Nat) (pre : List (Op X)) (k n F : Nat) (x : X)
    (aw : AWorld X) (obs : List (Obs X)) (h : idealRun noObjs pre = some (aw, obs))
    (hc : carefulRun P N World.empty (pre ++ [.push k x]) = true) (a : List X) (ha : aw k = some a)
    (w : TWorld X) (v : ADeq) (hw : runT P N TWorld.empty pre = some (w, obs)) (hv : w.objs k = some v)
    (hF : v.v.front = F) (h5 : 5 < F) (hb : v.v.bsize = (2 ^ N : Nat)) (hbk : v.v.back + 1 = v.v.avail)
    (hend : (v.v.fsize + 1 + n + 1) % (2 ^ N : Nat) = 0) (hn : n + 1 + (F - F / 2) * 2 ^ N ≤ a.length) :
    ∃ w' v' p q, runT P N w [.push k x] = some (w', [.done]) ∧ w'.objs k = some v' ∧ heldAt N v n = some p ∧
      p.incr N v' = some q ∧ q.deref N w'.heap = (a ++ [x])[n + 1 + (F - F / 2) * 2 ^ N]? ∧
      n + 1 < n + 1 + (F - F / 2) * 2 ^ N ∧ n + 1 + (F - F / 2) * 2 ^ N < (a ++ [x]).length := by
  have hne : a ≠ [] := by rintro rfl; simp at hn
  obtain ⟨w', v', us, fs, F0, f1, bz, us', fs', F', f1', bz', e, hv', I, I', C, C', ep⟩ :=
    pushed P N pre k x aw obs h hc a ha hne w v hw hv
  have hav : v.v.avail ≠ 0 := by have := C.avail_pos; omega
  obtain ⟨d1, d2, d3⟩ := ADeq.pushBack_shift (N := N) hav hb hbk (by omega) ep
  have hFF : F0 = F := by have := C.front; omega
  subst hFF
  have hF' : F' = F0 / 2 := by have := C'.front; omega
  have hf1 : f1' = f1 := by have := C'.fsz; have := C.fsz; omega
  subst hf1
  subst hF'
  have hB := blockSize_pos N
  have hpow : blockSize N = 2 ^ N := blockSize_eq N
  obtain ⟨it, hat, di⟩ := heldAt_eq C (n := n) (by omega)
  have hn' : n + 1 + (F0 - F0 / 2) * 2 ^ N < (a ++ [x]).length := by simp; omega
  obtain ⟨it', hat', di'⟩ := heldAt_eq C' hn'
  have hstep : F0 / 2 * blockSize N + (f1' + (n + 1 + (F0 - F0 / 2) * 2 ^ N)) =
      (F0 + ((f1' + n) / blockSize N + 1)) * blockSize N ∧ (f1' + n) % blockSize N + 1 = blockSize N := by
    have hm : (f1' + n + 1) % blockSize N = 0 := by
      have := C.fsz
      rw [this] at hend
      have : ((f1' : Int) - 1 + 1 + n + 1) = ((f1' + n + 1 : Nat) : Int) := by push_cast; omega
      rw [this, ← hpow] at hend
      exact_mod_cast hend
    have h1 := Nat.mod_lt (f1' + n) hB
    have h2 : (f1' + n + 1) % blockSize N = ((f1' + n) % blockSize N + 1) % blockSize N := by
      rw [Nat.add_mod, Nat.add_mod ((f1' + n) % _)]; simp
    have h3 : (f1' + n) % blockSize N + 1 = blockSize N := by
      by_contra h4
      rw [h2, Nat.mod_eq_of_lt (by omega)] at hm; omega
    refine ⟨?_, h3⟩
    have h4 := Nat.div_add_mod (f1' + n) (blockSize N)
    have h5 : F0 / 2 * blockSize N + (F0 - F0 / 2) * blockSize N = F0 * blockSize N := by
      rw [← Nat.add_mul]; congr 1; omega
    rw [← hpow, Nat.add_mul, Nat.add_mul, Nat.one_mul, Nat.mul_comm ((f1' + n) / blockSize N)]
    omega
  obtain ⟨s1, s2⟩ := hstep
  rw [s1] at di'
  obtain ⟨q1, q2, q3, q4⟩ := di.eqs
  have hincr : it.incr (blockSize N) v'.v.dataptr = some it' := by
    rw [Iter.incr, Iter.check, if_pos]
    · rw [← di', Iter.make, Nat.mul_div_cancel _ hB, Nat.mul_mod_left]
      simp only [q1, q2, Core.mod_base, Core.div_base hB, Iter.moveVec]
      have e1 : (((f1' + n) % blockSize N : Nat) : Int) + 1 - (blockSize N : Int) = 0 := by omega
      rw [e1]
      simp only [Int.zero_ediv, Int.zero_emod, Int.add_zero]
      have e2 : ((F0 + (f1' + n) / blockSize N : Nat) : Int) + 1 = ((F0 + ((f1' + n) / blockSize N + 1) : Nat) : Int) := by
        push_cast; omega
      rw [e2]; rfl
    · simp only [q2, Core.mod_base]; omega
  refine ⟨w', v', _, ⟨v.d, it'⟩, e, hv', hat, ?_, ?_, ?_, hn'⟩
  · simp only [Held.incr, Held.slots, d1, if_true, hincr, Option.map_some]
  · rw [Held.deref, C'.deref_eq hn' (by rw [s1]; exact di'), List.getElem?_eq_getElem hn']
  · have : 0 < (F0 - F0 / 2) * 2 ^ N := Nat.mul_pos (by omega) (Nat.two_pow_pos N)
    omega

/-- 34 blocks of one element in the entries 30 to 63, `F = 30`: after a `push_back` the iterator to element 0 is advanced
to element 16. -/
example :
    carefulRun ⟨true, true⟩ 0 World.empty ((Op.new 0 :: (List.range 34 : List Nat).map (Op.push 0)) ++ [.push 0 34]) = true ∧
    (runT ⟨true, true⟩ 0 TWorld.empty (Op.new 0 :: (List.range 34 : List Nat).map (Op.push 0))).bind (fun r => (r.1.objs 0).bind fun v =>
      (heldAt 0 v 0).bind fun p => (runT ⟨true, true⟩ 0 r.1 [.push 0 34]).bind fun s => (s.1.objs 0).bind fun v' =>
        (p.incr 0 v').map fun q => ([v.v.front, v.v.bsize, v.v.back, v.v.avail], p.deref 0 s.1.heap, q.deref 0 s.1.heap)) =
      some ([30, 1, 63, 64], some 0, some 16) := by
  decide

/-- If there is no room behind the last block and at most five free entries before the first, one `push_back` deletes the
array all older iterators point into, and to advance one over the end of its block is undefined. -/
theorem old_iterator_grown_violation (P : Pol) (N : Nat) (pre : List (Op X)) (k n : Nat) (x : X)
    (aw : AWorld X) (obs : List (Obs X)) (h : idealRun noObjs pre = some (aw, obs))
    (hc : carefulRun P N World.empty (pre ++ [.push k x]) = true) (a : List X) (ha : aw k = some a) (hn : n < a.length)
    (w : TWorld X) (v : ADeq) (hw : runT P N TWorld.empty pre = some (w, obs)) (hv : w.objs k = some v)
    (h5 : v.v.front ≤ 5) (hb : v.v.bsize = (2 ^ N : Nat)) (hbk : v.v.back + 1 = v.v.avail)
    (hend : (v.v.fsize + 1 + n + 1) % (2 ^ N : Nat) = 0) :
    ∃ w' v' p, runT P N w [.push k x] = some (w', [.done]) ∧ w'.objs k = some v' ∧ heldAt N v n = some p ∧
      (∃ y, p.arr = some y ∧ y ∉ w'.arrays.live) ∧ p.incr N v' = none := by
  have hne : a ≠ [] := by rintro rfl; simp at hn
  obtain ⟨w', v', us, fs, F0, f1, bz, us', fs', F', f1', bz', e, hv', I, I', C, C', ep⟩ :=
    pushed P N pre k x aw obs h hc a ha hne w v hw hv
  have hav : v.v.avail ≠ 0 := by have := C.avail_pos; omega
  obtain ⟨y, hy⟩ : ∃ y, v.d = some y := by
    have h1 := (I.ok k v hv).d
    obtain ⟨l, hl, _⟩ := C.ptr
    rw [hl] at h1
    exact Option.isSome_iff_exists.1 (by simpa using h1)
  have O := I.owns hv
  obtain ⟨d1, d2⟩ := ADeq.pushBack_grow (N := N) hav hb hbk h5 hy O.wf
    (O.live y (by simp [ADeq.T, ADeq.owned, hy])) ep
  obtain ⟨it, hat, di⟩ := heldAt_eq C hn
  have hB := blockSize_pos N
  have hpow : blockSize N = 2 ^ N := blockSize_eq N
  refine ⟨w', v', _, e, hv', hat, ⟨y, hy, d2⟩, ?_⟩
  have hsl : Held.slots v' ⟨v.d, it⟩ = none := by
    rw [Held.slots, if_neg]
    intro h1
    exact d1 (h1.symm.trans hy)
  obtain ⟨q1, q2, q3, q4⟩ := di.eqs
  rw [Held.incr, hsl, Iter.incr, Iter.check, if_pos]
  · simp only [q1, Iter.moveVec, derefVec]; rfl
  · simp only [q2, Core.mod_base]
    have hm : (f1 + n + 1) % blockSize N = 0 := by
      have := C.fsz
      rw [this] at hend
      have : ((f1 : Int) - 1 + 1 + n + 1) = ((f1 + n + 1 : Nat) : Int) := by push_cast; omega
      rw [this, ← hpow] at hend
      exact_mod_cast hend
    have h1 := Nat.mod_lt (f1 + n) hB
    have h2 : (f1 + n + 1) % blockSize N = ((f1 + n) % blockSize N + 1) % blockSize N := by
      rw [Nat.add_mod, Nat.add_mod ((f1 + n) % _)]; simp
    have h3 : (f1 + n) % blockSize N + 1 = blockSize N := by
      by_contra h4
      rw [h2, Nat.mod_eq_of_lt (by omega)] at hm; omega
    omega

set_option maxRecDepth 4000 in
/-- The entries 5 to 63 hold blocks of one element: after a `push_back` the iterator to element 0 cannot be advanced. -/
example :
    carefulRun ⟨true, true⟩ 0 World.empty ((Op.new 0 :: (List.range 34 : List Nat).map (Op.push 0) ++
      (List.range 25 : List Nat).map (Op.pushFront 0)) ++ [.push 0 34]) = true ∧
    (runT ⟨true, true⟩ 0 TWorld.empty (Op.new 0 :: (List.range 34 : List Nat).map (Op.push 0) ++
      (List.range 25 : List Nat).map (Op.pushFront 0))).bind (fun r => (r.1.objs 0).bind fun v =>
      (heldAt 0 v 0).bind fun p => (runT ⟨true, true⟩ 0 r.1 [.push 0 34]).bind fun s => (s.1.objs 0).map fun v' =>
        ([v.v.front, v.v.bsize, v.v.back, v.v.avail], (p.incr 0 v).isSome, p.deref 0 s.1.heap, (p.incr 0 v').isSome)) =
      some ([5, 1, 63, 64], true, some 24, false) := by
  decide

end Verif.Block.Deque
