import Verif.Block.Vector.ArraysProps

/-
C146: which calls of StableBlockVector request memory.  Arrays of block pointers (`new X*[n]`) and blocks (`a.allocate`) get consecutive
numbers in the models of Arrays.lean and Heap.lean, so that the number of requests made so far can be read off the state.
-/
namespace Verif.Block.Vector
open Verif.Block
variable {X : Type} {N : Nat}

/-! ### Specification -/

/-- How many times memory has been requested so far. -/
def TWorld.requests (w : TWorld X) : Nat := w.arrays.next + w.heap.next

/-- What happens to a call declared noexcept when there is no memory. -/
inductive Fate (X : Type) where
  | returns (w : TWorld X) (o : Obs X)
  | terminates
deriving Inhabited

/-- A call that is declared noexcept (for elements whose constructors and destructors do not throw) when no memory can be had: its first
request throws std::bad_alloc, which cannot leave the call and ends the program.  (StableBlockVector.hpp:48, 54, 92, 113, 144, 151, 159,
216, 248, and the destructor, which is noexcept by default.)  `none` is undefined behaviour. -/
def execNoMemory (N : Nat) (w : TWorld X) (op : Op X) : Option (Fate X) :=
  (execT N w op).map fun r => if r.1.requests = w.requests then .returns r.1 r.2 else .terminates

/-- The calls that can put elements into a vector or take elements out of it (destruction and moving whole vectors apart). -/
def Op.mayAsk : Op X → Bool
  | .pop _ | .clear _ | .push .. | .newSize .. | .copyNew .. | .copyAssign .. | .assign .. | .assignRange .. | .moveRange .. => true
  | _ => false

/-! ### Counting -/

theorem destroy_next {bs b j : Nat} {h h' : Heap X} (e : h.destroy bs b j = some h') : h'.next = h.next := by
  unfold Heap.destroy at e; split at e <;> cases e; rfl

theorem dealloc_next {bs b : Nat} {h h' : Heap X} (e : h.dealloc bs b = some h') : h'.next = h.next := by
  unfold Heap.dealloc at e; split at e <;> cases e; rfl

theorem construct_next {bs b j : Nat} {h h' : Heap X} {x : X} (e : h.construct bs b j x = some h') : h'.next = h.next := by
  unfold Heap.construct at e; split at e <;> cases e; rfl

theorem set_next {v : Vec} {h h' : Heap X} {n : Nat} {x : X} (e : v.set N h n x = some h') : h'.next = h.next := by
  simp only [Vec.set, Option.bind_eq_some_iff] at e
  obtain ⟨c, -, e⟩ := e
  unfold Heap.assign at e; split at e <;> cases e; rfl

theorem freeList_next {p : SlotPtr} (n : Nat) : ∀ (ii : Nat) {h h' : Heap X}, Vec.freeList N p n ii h = some h' → h'.next = h.next := by
  induction n with
  | zero => intro ii h h' e; cases e; rfl
  | succ n ih =>
    intro ii h h' e
    simp only [Vec.freeList, Option.bind_eq_some_iff] at e
    obtain ⟨b, -, h1, e1, e2⟩ := e
    rw [ih _ e2, dealloc_next e1]

theorem destroyDown_next {p : SlotPtr} {idx : Int} (n : Nat) : ∀ {h h' : Heap X}, Vec.destroyDown N p idx n h = some h' → h'.next = h.next := by
  induction n with
  | zero => intro h h' e; cases e; rfl
  | succ n ih =>
    intro h h' e
    simp only [Vec.destroyDown, Option.bind_eq_some_iff] at e
    obtain ⟨b, -, h1, e1, e2⟩ := e
    rw [ih e2, destroy_next e1]

theorem freeMid_next {p : SlotPtr} (n : Nat) : ∀ {h h' : Heap X}, Vec.freeMid N p n h = some h' → h'.next = h.next := by
  induction n with
  | zero => intro h h' e; cases e; rfl
  | succ n ih =>
    intro h h' e
    simp only [Vec.freeMid, Option.bind_eq_some_iff] at e
    obtain ⟨h1, e1, b, -, h2, e2, e3⟩ := e
    rw [ih e3, dealloc_next e2, destroyDown_next _ e1]

theorem deallocSlot_next {p : SlotPtr} {idx : Int} {h h' : Heap X} (e : Vec.deallocSlot N p idx h = some h') : h'.next = h.next := by
  simp only [Vec.deallocSlot, Option.bind_eq_some_iff] at e
  obtain ⟨b, -, e⟩ := e
  exact dealloc_next e

theorem freeAll_next {v : Vec} {h h' : Heap X} (e : v.freeAll N h = some h') : h'.next = h.next := by
  unfold Vec.freeAll at e
  split at e
  · cases e; rfl
  · simp only [Option.bind_eq_some_iff] at e
    obtain ⟨h1, e1, h2, e2, h3, e3, h4, e4, e5⟩ := e
    have a2 : h2.next = h1.next := by
      split at e2
      · exact deallocSlot_next e2
      · cases e2; rfl
    have a4 : h4.next = h3.next := by
      split at e4
      · exact deallocSlot_next e4
      · cases e4; rfl
    rw [freeList_next _ _ e5, a4, freeMid_next _ e3, a2, destroyDown_next _ e1]

theorem delete_next {L L' : Ledger} {p : Option Nat} (e : L.delete p = some L') : L'.next = L.next := by
  cases p with
  | none => cases e; rfl
  | some a => simp only [Ledger.delete] at e; split at e <;> cases e; rfl

namespace AVec

theorem freeAll_next {a : AVec} {h h' : Heap X} {L L' : Ledger} (e : a.freeAll N h L = some (h', L')) :
    h'.next = h.next ∧ L'.next = L.next := by
  unfold freeAll at e
  split at e
  · cases e; exact ⟨rfl, rfl⟩
  · simp only [Option.bind_eq_some_iff, Option.map_eq_some_iff] at e
    obtain ⟨h1, e1, L1, e2, L2, e3, e4⟩ := e
    cases e4
    exact ⟨Vector.freeAll_next e1, (delete_next e3).trans (delete_next e2)⟩

/-- StableBlockVector.hpp:400-412 requests memory. -/
def full (v : Vec) : Bool := v.freeAvail ≤ v.freeIdx

theorem moveBlock_next {a a' : AVec} {L L' : Ledger} {b : Nat} (e : moveBlocktoAvailable a L b = some (a', L')) :
    L'.next = L.next + (if full a.v then 1 else 0) ∧ a'.v.freeIdx = a.v.freeIdx + 1 ∧ (full a.v = false → a'.v.freeAvail = a.v.freeAvail) ∧
      a'.v.slotIdx = a.v.slotIdx ∧ a'.v.dataptr = a.v.dataptr := by
  simp only [moveBlocktoAvailable, Option.bind_eq_some_iff, Option.map_eq_some_iff] at e
  obtain ⟨⟨g, L1⟩, e1, arr, -, e2⟩ := e
  cases e2
  unfold growFree at e1
  by_cases h0 : a.v.freeIdx ≥ a.v.freeAvail
  · have hf : full a.v = true := by simpa [full] using h0
    rw [if_pos h0] at e1
    by_cases h1 : a.v.freeAvail = 0
    · rw [if_pos h1] at e1
      cases e1
      simp [hf, Ledger.alloc, Vec.growFree, h0, h1]
    · rw [if_neg h1] at e1
      simp only [Option.map_eq_some_iff] at e1
      obtain ⟨L2, e2, e3⟩ := e1
      cases e3
      have := delete_next e2
      simp [hf, this, Ledger.alloc, Vec.growFree, h0, h1]
  · have hf : full a.v = false := by simpa [full] using h0
    rw [if_neg h0] at e1
    cases e1
    simp [hf]

/-- `pop_back` requests memory -/
def popAllocs (v : Vec) : Bool := decide (v.csize ≠ 0) && decide (v.bsize = 0) && full v

theorem popBack_next {a a' : AVec} {h h' : Heap X} {L L' : Ledger} (e : a.popBack N h L = some (a', h', L')) :
    h'.next = h.next ∧ L'.next = L.next + (if popAllocs a.v then 1 else 0) := by
  unfold popBack at e
  split at e
  · rename_i h0; cases e; simp [popAllocs, h0]
  · rename_i h0
    simp only [Option.bind_eq_some_iff, Option.map_eq_some_iff] at e
    obtain ⟨⟨a1, L1⟩, e1, b, -, h2, e2, e3⟩ := e
    cases e3
    refine ⟨destroy_next e2, ?_⟩
    unfold popStep at e1
    simp only at e1
    split at e1
    · rename_i hb
      cases e1
      have : a.v.bsize ≠ 0 := by omega
      simp [popAllocs, this]
    · rename_i hb
      have hb' : a.v.bsize = 0 := by omega
      simp only [Option.bind_eq_some_iff, Option.map_eq_some_iff] at e1
      obtain ⟨c, -, ⟨a2, L2⟩, e1, e3⟩ := e1
      cases e3
      have := (moveBlock_next e1).1
      simp only [popAllocs, hb', h0, ne_eq, not_false_eq_true, decide_true, Bool.true_and]
      exact this

theorem clearMid_next (n : Nat) : ∀ {a a' : AVec} {h h' : Heap X} {L L' : Ledger}, clearMid N n a h L = some (a', h', L') →
    h'.next = h.next ∧ L.next ≤ L'.next ∧ (L'.next = L.next ↔ n = 0 ∨ a.v.freeIdx + n ≤ a.v.freeAvail) := by
  induction n with
  | zero => intro a a' h h' L L' e; cases e; simp
  | succ n ih =>
    intro a a' h h' L L' e
    simp only [clearMid, Option.bind_eq_some_iff] at e
    obtain ⟨h1, e1, b, -, ⟨a2, L2⟩, e2, e3⟩ := e
    obtain ⟨i1, i2, i3⟩ := ih e3
    obtain ⟨m1, m2, m3, m4, m5⟩ := moveBlock_next e2
    refine ⟨i1.trans (destroyDown_next _ e1), ?_, ?_⟩
    · simp only at i2; omega
    · simp only at i2 i3
      by_cases hf : full a.v = true
      · have h0 : a.v.freeAvail ≤ a.v.freeIdx := by simpa [full] using hf
        rw [hf, if_pos rfl] at m1
        constructor
        · intro h; omega
        · intro h; omega
      · have hf : full a.v = false := by simpa using hf
        have h0 : ¬ a.v.freeAvail ≤ a.v.freeIdx := by simpa [full] using hf
        rw [hf, if_neg (by decide)] at m1
        have m3 := m3 hf
        rw [m2, m3] at i3
        constructor
        · intro h
          have := i3.1 (by omega)
          omega
        · intro h
          have := i3.2 (by omega)
          omega

/-- `clear` requests memory -/
def clearAllocs (v : Vec) : Bool := decide (v.avail ≠ 0) && decide (0 < v.slotIdx) && decide ((v.freeAvail : Int) < v.freeIdx + v.slotIdx)

theorem clear_next {a a' : AVec} {h h' : Heap X} {L L' : Ledger} (e : a.clear N h L = some (a', h', L')) :
    h'.next = h.next ∧ (L'.next = L.next ↔ clearAllocs a.v = false) := by
  unfold clear at e
  split at e
  · rename_i h0; cases e; simp [clearAllocs, h0]
  · rename_i h0
    simp only [Option.bind_eq_some_iff] at e
    obtain ⟨h1, e1, e⟩ := e
    have n1 := destroyDown_next _ e1
    split at e
    · rename_i hs
      simp only [Option.bind_eq_some_iff, Option.map_eq_some_iff] at e
      obtain ⟨b, -, ⟨q, L1⟩, e2, ⟨r, h2, L2⟩, e3, h3, e4, e5⟩ := e
      cases e5
      obtain ⟨m1, m2, m3, m4, m5⟩ := moveBlock_next e2
      obtain ⟨i1, i2, i3⟩ := clearMid_next _ e3
      simp only at i1 i2 i3 e4
      refine ⟨(destroyDown_next _ e4).trans (i1.trans n1), ?_⟩
      rw [m4, m2] at i3
      simp only [clearAllocs, h0, ne_eq, not_false_eq_true, decide_true, Bool.true_and, hs, decide_eq_false_iff_not]
      by_cases hf : full a.v = true
      · have h9 : a.v.freeAvail ≤ a.v.freeIdx := by simpa [full] using hf
        rw [hf, if_pos rfl] at m1
        constructor
        · intro h; omega
        · intro h; omega
      · have hf : full a.v = false := by simpa using hf
        have h9 : ¬ a.v.freeAvail ≤ a.v.freeIdx := by simpa [full] using hf
        rw [hf, if_neg (by decide)] at m1
        rw [m3 hf] at i3
        constructor
        · intro h
          have := i3.1 (by omega)
          omega
        · intro h
          have := i3.2 (by omega)
          omega
    · rename_i hs
      cases e
      simp [clearAllocs, hs, n1]

/-- `push_back` requests memory -/
def pushAllocs (N : Nat) (v : Vec) : Bool :=
  decide (Vec.blockSize N ≤ v.bsize) && (decide (v.avail = 0) || decide ((v.avail : Int) - 1 ≤ v.slotIdx) || decide (v.freeIdx = 0))

theorem pushBack_next {a a' : AVec} {h h' : Heap X} {L L' : Ledger} {x : X} (e : a.pushBack N h L x = some (a', h', L')) :
    h.next ≤ h'.next ∧ L.next ≤ L'.next ∧ (L'.next + h'.next = L.next + h.next ↔ pushAllocs N a.v = false) := by
  simp only [pushBack, Option.bind_eq_some_iff, Option.map_eq_some_iff] at e
  obtain ⟨⟨a1, h1, L1⟩, e1, b, -, h2, e2, e3⟩ := e
  cases e3
  have n2 := construct_next e2
  simp only at n2
  rw [n2]
  unfold blockCheck at e1
  split at e1
  · rename_i hb
    simp only [Option.bind_eq_some_iff, Option.map_eq_some_iff] at e1
    obtain ⟨⟨g, L2⟩, e3, ⟨b', v', h''⟩, e4, arr, -, e5⟩ := e1
    cases e5
    have hg : L2.next = L.next + (if a.v.avail = 0 ∨ (a.v.avail : Int) - 1 ≤ a.v.slotIdx then 1 else 0) ∧ g.v.freeIdx = a.v.freeIdx := by
      unfold growSlots at e3
      split at e3
      · rename_i h0; cases e3; simp [h0, Ledger.alloc, Vec.growSlots]
      · rename_i h0
        split at e3
        · rename_i h3
          simp only [Option.map_eq_some_iff] at e3
          obtain ⟨L3, e3, e6⟩ := e3
          cases e6
          have := delete_next e3
          simp [this, Ledger.alloc, Vec.growSlots, h0, h3]
        · rename_i h3
          cases e3; simp [h0]; omega
    have hn : h''.next = h.next + (if a.v.freeIdx = 0 then 1 else 0) := by
      unfold Vec.getNewBlock at e4
      simp only [hg.2] at e4
      split at e4
      · rename_i h0; cases e4; simp [h0, Heap.alloc]
      · rename_i h0
        simp only [Option.map_eq_some_iff] at e4
        obtain ⟨_, _, e4⟩ := e4
        cases e4; simp [h0]
    simp only [pushAllocs, show decide (Vec.blockSize N ≤ a.v.bsize) = true from decide_eq_true hb, Bool.true_and, Bool.or_eq_false_iff,
      decide_eq_false_iff_not, hg.1, hn]
    refine ⟨by omega, by omega, ?_⟩
    split <;> split <;> omega
  · rename_i hb
    cases e1
    have : decide (Vec.blockSize N ≤ a.v.bsize) = false := decide_eq_false hb
    simp [pushAllocs, this]

end AVec

/-! ## C146 -/

/-- C146: declaring a vector, moving vectors, destroying them, `shrink_to_fit` and all calls that only read or change elements request no
memory, so that a lack of memory cannot end the program in them. -/
theorem noexcept_no_memory (N : Nat) (w : TWorld X) (op : Op X)
    (hop : op.mayAsk = false) :
    execNoMemory N w op = (execT N w op).map fun r => .returns r.1 r.2 := by
  unfold execNoMemory
  cases he : execT N w op with
  | none => rfl
  | some r =>
    obtain ⟨w', o⟩ := r
    have key : w'.requests = w.requests := by
      unfold TWorld.requests
      cases op with
      | new i => simp only [execT] at he; split at he <;> cases he; rfl
      | moveNew i j =>
        simp only [execT] at he; split at he
        · simp only [Option.map_eq_some_iff] at he
          obtain ⟨b, -, he⟩ := he; cases he; rfl
        · cases he
      | moveAssign i j =>
        simp only [execT, AVec.moveAssign, Option.bind_eq_some_iff, Option.map_eq_some_iff] at he
        obtain ⟨a, -, b, -, q, ⟨⟨h1, L1⟩, e1, e2⟩, e3⟩ := he
        cases e2; cases e3
        obtain ⟨n1, n2⟩ := AVec.freeAll_next e1
        simp only [n1, n2]
      | destroy i =>
        simp only [execT, Option.bind_eq_some_iff, Option.map_eq_some_iff] at he
        obtain ⟨a, -, ⟨h1, L1⟩, e1, e2⟩ := he
        cases e2
        obtain ⟨n1, n2⟩ := AVec.freeAll_next e1
        simp only [n1, n2]
      | shrink i =>
        simp only [execT, TWorld.on, AVec.shrinkToFit, Option.bind_eq_some_iff, Option.map_eq_some_iff] at he
        obtain ⟨a, -, q, ⟨h1, e1, e2⟩, e3⟩ := he
        cases e2; cases e3
        simp only [freeList_next _ _ e1]
      | set i k x =>
        simp only [execT, exec, Option.map_eq_some_iff, Option.bind_eq_some_iff] at he
        obtain ⟨q, ⟨v, -, h1, e1, e2⟩, e3⟩ := he
        cases e2; cases e3
        simp only [set_next e1]; rfl
      | size | empty | get | «at» | front | back | iterate =>
        simp only [execT, Option.map_eq_some_iff] at he
        obtain ⟨q, -, e⟩ := he
        cases e; rfl
      | pop | clear | push | newSize | copyNew | copyAssign | assign | assignRange | moveRange => exact absurd hop (by simp [Op.mayAsk])
    simp [key]

/-- C146: `pop_back` without memory ends the program exactly if the vector is not empty, its last block is empty (it held the element
removed before) and the array of spare blocks is full or does not exist yet. -/
theorem pop_exact (N : Nat) (w : TWorld X) (i : Nat) (a : AVec) (ha : w.objs i = some a) (r : TWorld X × Obs X)
    (h : execT N w (.pop i) = some r) :
    execNoMemory N w (.pop i) =
      some (if a.v.csize ≠ 0 ∧ a.v.bsize = 0 ∧ a.v.freeAvail ≤ a.v.freeIdx then .terminates else .returns r.1 r.2) := by
  have he := h
  simp only [execT, TWorld.on, ha, Option.bind_some, Option.map_eq_some_iff] at he
  obtain ⟨⟨a', h', L'⟩, e1, rfl⟩ := he
  obtain ⟨n1, n2⟩ := AVec.popBack_next e1
  simp only [execNoMemory, h, Option.map_some, TWorld.requests, n1, n2]
  by_cases hp : AVec.popAllocs a.v = true
  · have h3 : a.v.csize ≠ 0 ∧ a.v.bsize = 0 ∧ a.v.freeAvail ≤ a.v.freeIdx := by simpa [AVec.popAllocs, AVec.full, and_assoc] using hp
    simp only [hp, if_true, if_pos h3]
    rw [if_neg (by omega)]
  · have h3 : ¬ (a.v.csize ≠ 0 ∧ a.v.bsize = 0 ∧ a.v.freeAvail ≤ a.v.freeIdx) := by simpa [AVec.popAllocs, AVec.full, and_assoc] using hp
    rw [if_neg hp, if_neg h3, if_pos (by omega)]

/-- C146: `clear` without memory ends the program exactly if the vector has more than one block and the blocks it gives up do not all fit
in the array of spare blocks. -/
theorem clear_exact (N : Nat) (w : TWorld X) (i : Nat) (a : AVec) (ha : w.objs i = some a) (r : TWorld X × Obs X)
    (h : execT N w (.clear i) = some r) :
    execNoMemory N w (.clear i) =
      some (if a.v.avail ≠ 0 ∧ 0 < a.v.slotIdx ∧ (a.v.freeAvail : Int) < a.v.freeIdx + a.v.slotIdx then .terminates else .returns r.1 r.2) := by
  have he := h
  simp only [execT, TWorld.on, ha, Option.bind_some, Option.map_eq_some_iff] at he
  obtain ⟨⟨a', h', L'⟩, e1, rfl⟩ := he
  obtain ⟨n1, n2⟩ := AVec.clear_next e1
  simp only [execNoMemory, h, Option.map_some, TWorld.requests, n1]
  by_cases hp : AVec.clearAllocs a.v = true
  · have h3 : a.v.avail ≠ 0 ∧ 0 < a.v.slotIdx ∧ (a.v.freeAvail : Int) < a.v.freeIdx + a.v.slotIdx := by
      simpa [AVec.clearAllocs, and_assoc] using hp
    rw [if_pos h3, if_neg]
    intro hn
    have := n2.1 (by omega)
    rw [this] at hp; cases hp
  · have h3 : ¬ (a.v.avail ≠ 0 ∧ 0 < a.v.slotIdx ∧ (a.v.freeAvail : Int) < a.v.freeIdx + a.v.slotIdx) := by
      simpa [AVec.clearAllocs, and_assoc] using hp
    rw [if_neg h3, if_pos]
    have := n2.2 (by simpa using hp)
    omega

/-- C146: `push_back` without memory ends the program exactly if the last block is full (or there is none) and there is no spare block or
no room for another block pointer. -/
theorem push_exact (N : Nat) (w : TWorld X) (i : Nat) (x : X) (a : AVec) (ha : w.objs i = some a) (r : TWorld X × Obs X)
    (h : execT N w (.push i x) = some r) :
    execNoMemory N w (.push i x) =
      some (if 2 ^ N ≤ a.v.bsize ∧ (a.v.avail = 0 ∨ (a.v.avail : Int) - 1 ≤ a.v.slotIdx ∨ a.v.freeIdx = 0) then .terminates
        else .returns r.1 r.2) := by
  have he := h
  simp only [execT, TWorld.on, ha, Option.bind_some, Option.map_eq_some_iff] at he
  obtain ⟨⟨a', h', L'⟩, e1, rfl⟩ := he
  obtain ⟨-, -, n2⟩ := AVec.pushBack_next e1
  simp only [execNoMemory, h, Option.map_some]
  rw [← Vec.blockSize_eq]
  by_cases hp : AVec.pushAllocs N a.v = true
  · have h3 : Vec.blockSize N ≤ a.v.bsize ∧ (a.v.avail = 0 ∨ (a.v.avail : Int) - 1 ≤ a.v.slotIdx ∨ a.v.freeIdx = 0) := by
      simpa [AVec.pushAllocs, or_assoc] using hp
    rw [if_pos h3, if_neg]
    intro hn
    have := n2.1 hn
    rw [this] at hp; cases hp
  · have h3 : ¬ (Vec.blockSize N ≤ a.v.bsize ∧ (a.v.avail = 0 ∨ (a.v.avail : Int) - 1 ≤ a.v.slotIdx ∨ a.v.freeIdx = 0)) := by
      simpa [AVec.pushAllocs, or_assoc] using hp
    have hq : (⟨upd w.objs i (some a'), h', L'⟩ : TWorld X).requests = w.requests := n2.2 (by simpa using hp)
    rw [if_neg h3, if_pos hq]

/-- The state of a careful program. -/
theorem TWorld.core {ops : List (Op X)} {aw : AWorld X} {obs obs' : List (Obs X)} {w : TWorld X}
    (h : idealRun N noObjs ops = some (aw, obs)) (hc : carefulRun N noObjs ops = true) (e : runT N TWorld.empty ops = some (w, obs'))
    {i : Nat} {s : AObj X} (hs : aw i = some s) (hm : s.moved = false) :
    ∃ a us fs, w.objs i = some a ∧ Vec.Core N w.heap a.v s.elems us fs ∧ a.v.avail = s.reserved := by
  obtain ⟨w0, us, fs, e0, W⟩ := runs ops World.empty noObjs _ _ WInv.empty aw obs h hc
  obtain ⟨e1, -⟩ := run_of_runT ops TInv.empty _ e
  have : (TWorld.empty : TWorld X).erase = World.empty := rfl
  rw [this, e0] at e1
  cases e1
  obtain ⟨v, hv, c, hr, -⟩ := W.getLive hs hm
  simp only [TWorld.erase, Option.map_eq_some_iff] at hv
  obtain ⟨a, ha, rfl⟩ := hv
  exact ⟨a, _, _, ha, c, hr⟩

/-- C146: as long as memory lasts, `pop_back` on a vector whose size is not a multiple of the block size needs none: it returns even if
there is no memory, and removes the last element as always. -/
theorem pop_no_memory_partial (N : Nat) (ops : List (Op X)) (aw : AWorld X) (obs obs' : List (Obs X)) (w : TWorld X)
    (h : idealRun N noObjs ops = some (aw, obs)) (hc : carefulRun N noObjs ops = true) (e : runT N TWorld.empty ops = some (w, obs'))
    (i : Nat) (s : AObj X) (hs : aw i = some s) (hm : s.moved = false) (hl : s.elems = [] ∨ ¬ 2 ^ N ∣ s.elems.length)
    (r : TWorld X × Obs X) (hr : execT N w (.pop i) = some r) : execNoMemory N w (.pop i) = some (.returns r.1 r.2) := by
  obtain ⟨a, us, fs, ha, c, -⟩ := TWorld.core h hc e hs hm
  rw [pop_exact N w i a ha r hr, if_neg]
  rintro ⟨h1, h2, -⟩
  have hz := c.size
  rw [h2, ← c.len, Vec.blockSize_eq] at hz
  rw [← c.len] at h1
  rcases hl with hl | hl
  · rw [hl] at h1; exact h1 rfl
  · refine hl ⟨us.length - 1, ?_⟩
    rw [Nat.mul_sub, Nat.mul_one, Nat.mul_comm]
    omega

/-- C146: `clear` on a vector with fewer elements than a block has needs no memory. -/
theorem clear_no_memory_partial (N : Nat) (ops : List (Op X)) (aw : AWorld X) (obs obs' : List (Obs X)) (w : TWorld X)
    (h : idealRun N noObjs ops = some (aw, obs)) (hc : carefulRun N noObjs ops = true) (e : runT N TWorld.empty ops = some (w, obs'))
    (i : Nat) (s : AObj X) (hs : aw i = some s) (hm : s.moved = false) (hl : s.elems.length < 2 ^ N)
    (r : TWorld X × Obs X) (hr : execT N w (.clear i) = some r) : execNoMemory N w (.clear i) = some (.returns r.1 r.2) := by
  obtain ⟨a, us, fs, ha, c, -⟩ := TWorld.core h hc e hs hm
  rw [clear_exact N w i a ha r hr, if_neg]
  rintro ⟨h1, h2, -⟩
  have hz := c.size
  rw [← c.len, Vec.blockSize_eq] at hz
  have hi := c.idx.resolve_right h1
  have : 2 * 2 ^ N ≤ us.length * 2 ^ N := Nat.mul_le_mul_right _ (by omega)
  omega

/-- C146: a program that runs when there is memory, for elements whose constructors and destructors do not throw, and one more call of a
function declared noexcept. -/
def runNoMemory (N : Nat) (ops : List (Op X)) (op : Op X) : Option (Fate X) :=
  (runT N TWorld.empty ops).bind fun r => execNoMemory N r.1 op

theorem runT_append (ops1 ops2 : List (Op X)) : ∀ (w : TWorld X),
    runT N w (ops1 ++ ops2) = (runT N w ops1).bind fun r => (runT N r.1 ops2).map fun s => (s.1, r.2 ++ s.2) := by
  induction ops1 with
  | nil => intro w; simp [runT]
  | cons op ops1 ih =>
    intro w
    simp only [List.cons_append, runT]
    cases execT N w op with
    | none => rfl
    | some q =>
      simp only [Option.bind_some, ih]
      cases runT N q.1 ops1 with
      | none => rfl
      | some t => simp only [Option.bind_some, Option.map_some]; cases runT N t.1 ops2 <;> rfl

theorem AVec.pushBack_free {a a' : AVec} {h h' : Heap X} {L L' : Ledger} {x : X} (e : a.pushBack N h L x = some (a', h', L')) :
    a'.v.freeAvail = a.v.freeAvail ∧ 0 < a'.v.bsize := by
  simp only [pushBack, Option.bind_eq_some_iff, Option.map_eq_some_iff] at e
  obtain ⟨⟨a1, h1, L1⟩, e1, b, -, h2, e2, e3⟩ := e
  cases e3
  refine ⟨?_, Nat.succ_pos _⟩
  unfold blockCheck at e1
  split at e1
  · simp only [Option.bind_eq_some_iff, Option.map_eq_some_iff] at e1
    obtain ⟨⟨g, L2⟩, e3, ⟨b', v', h''⟩, e4, arr, -, e5⟩ := e1
    cases e5
    have k := AVec.getNewBlock_keep e4
    have hg : g.v.freeAvail = a.v.freeAvail := by
      unfold growSlots at e3
      split at e3
      · rename_i h0; cases e3; simp [h0, Vec.growSlots]
      · rename_i h0
        split at e3
        · rename_i h3
          simp only [Option.map_eq_some_iff] at e3
          obtain ⟨L3, e3, e6⟩ := e3
          cases e6
          simp [Vec.growSlots, h0, h3]
        · cases e3; rfl
    simp only at k ⊢
    simp [← hg, k]
  · cases e1; rfl

/-- Vectors that have only been pushed to have no array of spare blocks. -/
theorem pushed_free (x : X) (n : Nat) : ∀ (w : TWorld X) (a : AVec) (r : TWorld X × List (Obs X)), w.objs 0 = some a → a.v.freeAvail = 0 →
    runT N w (List.replicate (n + 1) (.push 0 x)) = some r → ∃ a', r.1.objs 0 = some a' ∧ a'.v.freeAvail = 0 ∧ 0 < a'.v.bsize := by
  induction n with
  | zero =>
    intro w a r ha hf h
    simp only [List.replicate_succ, List.replicate_zero, runT, execT, TWorld.on, ha, Option.bind_some, Option.bind_eq_some_iff,
      Option.map_eq_some_iff, Option.some.injEq] at h
    obtain ⟨q, ⟨⟨a', h', L'⟩, e1, rfl⟩, s, rfl, rfl⟩ := h
    obtain ⟨k1, k2⟩ := AVec.pushBack_free e1
    exact ⟨a', by simp [upd], k1.trans hf, k2⟩
  | succ n ih =>
    intro w a r ha hf h
    rw [List.replicate_succ] at h
    simp only [runT, execT, TWorld.on, ha, Option.bind_some, Option.bind_eq_some_iff, Option.map_eq_some_iff] at h
    obtain ⟨q, ⟨⟨a', h', L'⟩, e1, rfl⟩, s, e2, rfl⟩ := h
    exact ih _ a' s (by simp [upd]) ((AVec.pushBack_free e1).1.trans hf) e2

/-- After any careful program, a vector that has not been moved from can be popped and cleared. -/
theorem removals_run (post : List (Op X)) : ∀ (w : TWorld X) (aw : AWorld X) (us fs : Nat → List Nat), TInv w → WInv N w.erase aw us fs →
    ∀ s, aw 0 = some s → s.moved = false → (∀ op, op ∈ post → op = .pop 0 ∨ op = .clear 0) → ∃ r, runT N w post = some r := by
  induction post with
  | nil => intro w aw us fs I W s hs hm hp; exact ⟨_, rfl⟩
  | cons op post ih =>
    intro w aw us fs I W s hs hm hp
    obtain ⟨aw', s', hi, hs', hm', hc⟩ : ∃ aw' s', ideal N aw op = some (aw', .done) ∧ aw' 0 = some s' ∧ s'.moved = false ∧
        careful N aw op = true := by
      rcases hp op (by simp) with rfl | rfl
      · exact ⟨_, { s with elems := s.elems.dropLast }, by simp [ideal, hs]; rfl, by simp [upd], hm, by simp [careful, hs, hm]⟩
      · exact ⟨_, { s with elems := [] }, by simp [ideal, hs]; rfl, by simp [upd], hm, by simp [careful, hs, hm]⟩
    obtain ⟨w1, us', fs', e, W', -⟩ := step w.erase aw us fs W op aw' _ hi hc
    have A := execT_agrees (N := N) I op (by
      intro i h
      rcases hp op (by simp) with rfl | rfl <;> cases h)
    rw [e] at A
    obtain ⟨w2, e2, rfl, I2⟩ := A
    obtain ⟨r, hr⟩ := ih w2 aw' us' fs' I2 W' s' hs' hm' fun op h => hp op (by simp [h])
    exact ⟨_, by simp only [runT, e2, Option.bind_some, hr, Option.map_some]; rfl⟩

/-- The state after declaring a vector and pushing `n + 1` elements, no more than fill 64 blocks. -/
theorem pushed (N : Nat) (x : X) (n : Nat) (hn : n + 1 ≤ 64 * 2 ^ N) :
    ∃ w obs a us fs, runT N TWorld.empty (.new 0 :: List.replicate (n + 1) (.push 0 x)) = some (w, obs) ∧ w.objs 0 = some a ∧
      Vec.Core N w.heap a.v (List.replicate (n + 1) x) us fs ∧ a.v.avail = 64 ∧ a.v.freeAvail = 0 ∧ 0 < a.v.bsize ∧
      ∀ post : List (Op X), (∀ op, op ∈ post → op = .pop 0 ∨ op = .clear 0) → ∃ r, runT N w post = some r := by
  obtain ⟨aw, obs, e, h⟩ := idealRun_pushes N x n (upd (upd noObjs 0 (some ⟨[], 0, false⟩)) 0 (some ⟨[x], 64, false⟩))
    [x] 64 (upd_same _ _ _) (by simp; omega)
  have hrun : idealRun N noObjs (.new 0 :: List.replicate (n + 1) (.push 0 x)) = some (aw, .done :: .done :: obs) := by
    simp only [List.replicate_succ, idealRun, ideal, Option.isNone_none, if_true, Option.bind_some, upd_same,
      Option.map_some, List.length_nil, reservePush, List.nil_append, Nat.zero_mul, e]
  have hb : ∀ op, op ∈ (Op.new 0 :: List.replicate (n + 1) (Op.push 0 x)) → op.basic = true := by
    intro op hop
    simp only [List.mem_cons, List.mem_replicate] at hop
    rcases hop with rfl | ⟨_, rfl⟩ <;> rfl
  have hc := basic_carefulRun _ noObjs (by intro i a h; cases h) hb _ hrun
  obtain ⟨w, r1, -⟩ := careful_arrays N _ aw _ hrun hc
  obtain ⟨a, us, fs, ha, c, hr⟩ := TWorld.core hrun hc r1 h rfl
  have r2 := r1
  simp only [runT, execT, TWorld.empty, Option.isNone_none, if_true, Option.bind_some, Option.map_eq_some_iff] at r2
  obtain ⟨⟨w1, obs1⟩, e2, e3⟩ := r2
  cases e3
  obtain ⟨a', h1, h2, h3⟩ := pushed_free x n _ (.default N) _ (by simp [upd]) rfl e2
  rw [ha] at h1; cases h1
  refine ⟨_, _, a, us, fs, r1, ha, by simpa [List.replicate_succ] using c, hr, h2, h3, fun post hpost => ?_⟩
  obtain ⟨w0, us0, fs0, e0, W⟩ := runs _ World.empty noObjs _ _ WInv.empty aw _ hrun hc
  obtain ⟨e1, I⟩ := run_of_runT _ TInv.empty _ r1
  rw [show (TWorld.empty : TWorld X).erase = World.empty from rfl, e0] at e1
  cases e1
  exact removals_run post _ aw us0 fs0 I W _ h rfl hpost

/-- C146 violation, for every block size: fill one block, push one more element, and clear the vector when there is no memory: the program
ends, in a call that is declared noexcept and only removes elements. -/
theorem clear_terminates_violation (N : Nat) (x : X) :
    runNoMemory N (.new 0 :: List.replicate (2 ^ N + 1) (.push 0 x)) (.clear 0) = some .terminates := by
  have hp : 0 < 2 ^ N := Nat.two_pow_pos N
  obtain ⟨w, obs, a, us, fs, r, ha, c, hr, hf, hb, hpost⟩ := pushed N x (2 ^ N) (by omega)
  rw [runNoMemory, r, Option.bind_some]
  have hz := c.size
  have hb2 := c.bsz
  rw [← c.len, List.length_replicate] at hz
  rw [Vec.blockSize_eq] at hz hb2
  have hu : 2 ≤ us.length := by
    refine Nat.le_of_not_lt fun hlt => ?_
    have : us.length * 2 ^ N ≤ 1 * 2 ^ N := Nat.mul_le_mul_right _ (by omega)
    omega
  have hi := c.idx.resolve_right (by omega)
  obtain ⟨q, e⟩ := hpost [.clear 0] (by simp)
  simp only [runT, Option.bind_eq_some_iff] at e
  obtain ⟨w', e, -⟩ := e
  rw [clear_exact N w 0 a ha w' e, if_pos ⟨by omega, by omega, by omega⟩]

/-- C146 violation, for every block size: fill one block, push one more element, pop it, and pop another one when there is no memory: the
program ends, in a call that is declared noexcept and only removes an element. -/
theorem pop_terminates_violation (N : Nat) (x : X) :
    runNoMemory N (.new 0 :: List.replicate (2 ^ N + 1) (.push 0 x) ++ [.pop 0]) (.pop 0) = some .terminates := by
  have hp : 0 < 2 ^ N := Nat.two_pow_pos N
  obtain ⟨w, obs, a, us, fs, r, ha, c, hr, hf, hb, hpost⟩ := pushed N x (2 ^ N) (by omega)
  have hz := c.size
  have hb2 := c.bsz
  have hl := c.len
  rw [List.length_replicate] at hl
  rw [← hl] at hz
  rw [Vec.blockSize_eq] at hz hb2
  have hu : us.length = 2 := by
    rcases Nat.lt_trichotomy us.length 2 with hlt | h | hlt
    · have : us.length * 2 ^ N ≤ 1 * 2 ^ N := Nat.mul_le_mul_right _ (by omega)
      omega
    · exact h
    · have : 3 * 2 ^ N ≤ us.length * 2 ^ N := Nat.mul_le_mul_right _ (by omega)
      omega
  have hb1 : a.v.bsize = 1 := by rw [hu] at hz; omega
  obtain ⟨q, e⟩ := hpost [.pop 0, .pop 0] (by simp)
  simp only [runT, Option.bind_eq_some_iff, Option.map_eq_some_iff] at e
  obtain ⟨w1, e, w2, ⟨w3, e2, -⟩, -⟩ := e
  have hrun : runT N TWorld.empty (.new 0 :: List.replicate (2 ^ N + 1) (.push 0 x) ++ [.pop 0]) = some (w1.1, obs ++ [w1.2]) := by
    rw [runT_append, r]; simp [runT, e]
  rw [runNoMemory, hrun, Option.bind_some]
  simp only [execT, TWorld.on, ha, Option.bind_some, Option.map_eq_some_iff] at e
  obtain ⟨⟨a', h', L'⟩, e1, rfl⟩ := e
  have hs : a'.v.csize = 2 ^ N ∧ a'.v.bsize = 0 ∧ a'.v.freeAvail = 0 := by
    simp only [AVec.popBack, AVec.popStep, hb1, show a.v.csize ≠ 0 by omega, if_false, if_true, Nat.lt_add_one, Option.bind_some,
      Option.bind_eq_some_iff, Option.map_eq_some_iff, gt_iff_lt, Nat.zero_lt_one] at e1
    obtain ⟨b, -, h2, -, e3⟩ := e1
    cases e3
    exact ⟨by simp [← hl], rfl, hf⟩
  rw [pop_exact N _ 0 a' (by simp [upd]) w3 e2, if_pos ⟨by omega, hs.2.1, by omega⟩]

/-- C146 violation: `push_back` of an element whose copy constructor does not throw, on a new vector, when there is no memory. -/
theorem push_terminates_violation (N : Nat) (x : X) : runNoMemory N [.new 0] (.push 0 x) = some .terminates := by
  have hp : 0 < 2 ^ N := Nat.two_pow_pos N
  obtain ⟨w, obs, a, us, fs, r, -⟩ := pushed N x 0 (by omega)
  have hn : runT N (TWorld.empty : TWorld X) [.new 0] = some (⟨upd TWorld.empty.objs 0 (some (.default N)), Heap.empty, .empty⟩, [.done]) := rfl
  rw [show (Op.new 0 :: List.replicate (0 + 1) (Op.push 0 x)) = [Op.new 0] ++ [Op.push 0 x] from rfl, runT_append, hn] at r
  rw [runNoMemory, hn, Option.bind_some]
  simp only [runT, Option.bind_some, Option.map_eq_some_iff, Option.bind_eq_some_iff] at r
  obtain ⟨_, ⟨q, e, -⟩, -⟩ := r
  rw [push_exact N _ 0 x (.default N) (by simp [upd]) q e, if_pos ⟨Nat.le_of_eq (Vec.blockSize_eq N).symm, .inl rfl⟩]

theorem constructUp_next {b : Nat} {x : X} (n : Nat) : ∀ (j : Nat) {h h' : Heap X}, Vec.constructUp N h b x j n = some h' → h'.next = h.next := by
  induction n with
  | zero => intro j h h' e; cases e; rfl
  | succ n ih =>
    intro j h h' e
    simp only [Vec.constructUp, Option.bind_eq_some_iff] at e
    obtain ⟨h1, e1, e2⟩ := e
    rw [ih _ e2, construct_next e1]

theorem fillBlocks_next {x : X} {last bsize : Nat} (n : Nat) : ∀ (ii : Nat) {arr arr' : SlotPtr} {h h' : Heap X},
    Vec.fillBlocks N x last bsize n ii arr h = some (arr', h') → h'.next = h.next + n := by
  induction n with
  | zero => intro ii arr arr' h h' e; cases e; rfl
  | succ n ih =>
    intro ii arr arr' h h' e
    simp only [Vec.fillBlocks, Option.bind_eq_some_iff] at e
    obtain ⟨arr1, -, h1, e1, e2⟩ := e
    rw [ih _ e2, constructUp_next _ _ e1]
    simp only [Heap.alloc]; omega

/-- C146 violation: the sized constructor always requests memory: for the array of block pointers and for every block, one even for no
elements. -/
theorem sized_requests (N : Nat) (w : TWorld X) (i n : Nat) (x : X) (r : TWorld X × Obs X) (h : execT N w (.newSize i n x) = some r) :
    r.1.requests = w.requests + (n / 2 ^ N + 2) ∧ execNoMemory N w (.newSize i n x) = some .terminates := by
  have key : r.1.requests = w.requests + (n / 2 ^ N + 2) := by
    have he := h
    simp only [execT] at he
    split at he
    · simp only [AVec.ofSize, Option.map_eq_some_iff] at he
      obtain ⟨q, ⟨⟨v, h'⟩, e, rfl⟩, rfl⟩ := he
      have : h'.next = w.heap.next + (n / 2 ^ N + 1) := by
        simp only [Vec.ofSize] at e
        split at e
        · rename_i h0
          simp only [Option.map_eq_some_iff] at e
          obtain ⟨_, -, e⟩ := e
          cases e
          simp [Heap.alloc, h0]
        · simp only [Option.map_eq_some_iff] at e
          obtain ⟨⟨_, h2⟩, e, e2⟩ := e
          cases e2
          rw [fillBlocks_next _ _ e, Nat.shiftRight_eq_div_pow]
      simp only [TWorld.requests, this, Ledger.alloc]; omega
    · cases he
  refine ⟨key, ?_⟩
  have hne : r.1.requests ≠ w.requests := by
    rw [key]; exact Nat.ne_of_gt (Nat.lt_add_of_pos_right (Nat.succ_pos _))
  simp only [execNoMemory, h, Option.map_some, if_neg hne]

/-- Non-vacuity: a vector of two-element blocks with three elements, popped when there is no memory. -/
example : ∃ w obs r, runT 1 TWorld.empty [.new 0, .push 0 'a', .push 0 'b', .push 0 'c'] = some (w, obs) ∧
    execNoMemory 1 w (.pop 0) = some (.returns r .done) ∧ (r.objs 0).map (·.v.csize) = some 2 ∧ execNoMemory 1 r (.pop 0) = some .terminates := by
  refine ⟨_, _, _, rfl, rfl, rfl, rfl⟩

/-- Non-vacuity: clearing a vector of two-element blocks with one element needs no memory, with three elements it does. -/
example : runNoMemory 1 [.new 0, .push 0 'a', .push 0 'b', .push 0 'c'] (.clear 0) = some .terminates ∧
    ∃ w, runNoMemory 1 [.new 0, .push 0 'a'] (.clear 0) = some (.returns w .done) := ⟨rfl, _, rfl⟩

end Verif.Block.Vector
