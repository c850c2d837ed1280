import Verif.Block.Deque.ArraysProps
import Verif.Block.Deque.PopMemory

/-
C147, C148: which removals of StableBlockDeque, and which of its calls declared noexcept, request memory.  Arrays of block pointers
(`new X*[n]`) and blocks (`a.allocate`) get consecutive numbers in the models of Arrays.lean and Heap.lean, so that the number of requests
made so far can be read off the state.
-/
namespace Verif.Block.Deque
open Verif.Block
variable {X : Type} {P : Pol} {N : Nat}

/-! ### Specification -/

/-- How many times memory has been requested so far. -/
def TWorld.requests (w : TWorld X) : Nat := w.arrays.next + w.heap.next

/-- What happens to a call declared noexcept when there is no memory. -/
inductive Fate (X : Type) where
  | returns (w : TWorld X) (o : Obs X)
  | terminates

/-- A call that is declared noexcept (for elements whose destructor does not throw) when no memory can be had: its first request throws
std::bad_alloc, which cannot leave the call and ends the program.  (StableBlockDeque.hpp:48, 133, 154, 319, and the destructor, which is
noexcept by default.)  `none` is undefined behaviour. -/
def execNoMemory (P : Pol) (N : Nat) (w : TWorld X) (op : Op X) : Option (Fate X) :=
  (execT P N w op).map fun r => if r.1.requests = w.requests then .returns r.1 r.2 else .terminates

/-- The calls that can put elements into a deque or take elements out of it (destruction and moving whole deques apart). -/
def Op.mayAsk : Op X → Bool
  | .pop _ | .popFront _ | .clear _ | .push .. | .pushFront .. | .newSize .. | .copyNew .. | .copyAssign .. | .assign ..
  | .assignRange .. | .moveRange .. => true
  | _ => false

/-! ### Counting -/

theorem destroyAt_next {p : SlotPtr} {i j : Int} {h h' : Heap X} (e : destroyAt P N p i j h = some h') : h'.next = h.next := by
  simp only [destroyAt, Option.bind_eq_some_iff] at e
  obtain ⟨b, -, j', -, e⟩ := e
  split at e
  · cases e; rfl
  · unfold Heap.destroy at e; split at e <;> cases e; rfl

theorem destroyDown_next {p : SlotPtr} {i : Int} (n : Nat) : ∀ {j : Int} {h h' : Heap X},
    Deq.destroyDown P N p i j n h = some h' → h'.next = h.next := by
  induction n with
  | zero => intro j h h' e; cases e; rfl
  | succ n ih =>
    intro j h h' e
    simp only [Deq.destroyDown, Option.bind_eq_some_iff] at e
    obtain ⟨h1, e1, e2⟩ := e
    rw [ih e2, destroyAt_next e1]

theorem deallocSlot_next {p : SlotPtr} {i : Int} {h h' : Heap X} (e : Deq.deallocSlot N p i h = some h') : h'.next = h.next := by
  simp only [Deq.deallocSlot, Option.bind_eq_some_iff] at e
  obtain ⟨b, -, e⟩ := e
  unfold Heap.dealloc at e; split at e <;> cases e; rfl

theorem freeMid_next {p : SlotPtr} (n : Nat) : ∀ {ii : Int} {h h' : Heap X}, Deq.freeMid P N p ii n h = some h' → h'.next = h.next := by
  induction n with
  | zero => intro ii h h' e; cases e; rfl
  | succ n ih =>
    intro ii h h' e
    simp only [Deq.freeMid, Option.bind_eq_some_iff] at e
    obtain ⟨h1, e1, h2, e2, e3⟩ := e
    rw [ih e3, deallocSlot_next e2, destroyDown_next _ e1]

theorem freeFrom_next {p : SlotPtr} (n : Nat) : ∀ {ii : Nat} {h h' : Heap X}, FreeL.freeFrom N p n ii h = some h' → h'.next = h.next := by
  induction n with
  | zero => intro ii h h' e; cases e; rfl
  | succ n ih =>
    intro ii h h' e
    simp only [FreeL.freeFrom, Option.bind_eq_some_iff] at e
    obtain ⟨b', hb', h1, e1, e2⟩ := e
    rw [ih e2]
    unfold Heap.dealloc at e1; split at e1 <;> cases e1; rfl

theorem freeAll_next {v : Deq} {h h' : Heap X} (e : v.freeAll P N h = some h') : h'.next = h.next := by
  unfold Deq.freeAll at e
  split at e
  · cases e; rfl
  · simp only [Option.bind_eq_some_iff] at e
    obtain ⟨h1, e1, e2⟩ := e
    rw [freeFrom_next _ e2]
    split at e1
    · simp only [Option.bind_eq_some_iff] at e1
      obtain ⟨h3, e3, e4⟩ := e1
      rw [deallocSlot_next e4, destroyDown_next _ e3]
    · simp only [Option.bind_eq_some_iff] at e1
      obtain ⟨h3, e3, h4, e4, h5, e5, h6, e6, e7⟩ := e1
      rw [deallocSlot_next e7, destroyDown_next _ e6, freeMid_next _ e5, deallocSlot_next e4, destroyDown_next _ e3]

theorem delete_next {L L' : Ledger} {p : Option Nat} (e : L.delete p = some L') : L'.next = L.next := by
  cases p with
  | none => cases e; rfl
  | some a => simp only [Ledger.delete] at e; split at e <;> cases e; rfl

/-- StableBlockDeque.hpp:553-565 requests memory. -/
def FreeL.full (f : FreeL) : Bool := f.avail ≤ f.idx

theorem AFree.put_next {q q' : AFree} {L L' : Ledger} {b : Nat} (e : q.put L b = some (q', L')) :
    L'.next = L.next + (if q.l.full then 1 else 0) ∧ q'.l.idx = q.l.idx + 1 ∧ (q.l.full = false → q'.l.avail = q.l.avail) := by
  simp only [AFree.put, Option.bind_eq_some_iff, Option.map_eq_some_iff] at e
  obtain ⟨⟨g, L1⟩, e1, arr, -, e2⟩ := e
  cases e2
  unfold AFree.grow at e1
  by_cases h0 : q.l.idx ≥ q.l.avail
  · have hf : q.l.full = true := by simpa [FreeL.full] using h0
    rw [if_pos h0] at e1
    by_cases h1 : q.l.avail = 0
    · rw [if_pos h1] at e1
      cases e1
      simp [hf, Ledger.alloc, FreeL.grow, h0, h1]
    · rw [if_neg h1] at e1
      simp only [Option.map_eq_some_iff] at e1
      obtain ⟨L2, e2, e3⟩ := e1
      cases e3
      have := delete_next e2
      simp [hf, this, Ledger.alloc, FreeL.grow, h0, h1]
  · have hf : q.l.full = false := by simpa [FreeL.full] using h0
    rw [if_neg h0] at e1
    cases e1
    simp [hf]

namespace ADeq

theorem freeAll_next {a : ADeq} {h h' : Heap X} {L L' : Ledger} (e : a.freeAll P N h L = some (h', L')) :
    h'.next = h.next ∧ L'.next = L.next := by
  unfold freeAll at e
  split at e
  · cases e; exact ⟨rfl, rfl⟩
  · simp only [Option.bind_eq_some_iff, Option.map_eq_some_iff] at e
    obtain ⟨h1, e1, L1, e2, L2, e3, e4⟩ := e
    cases e4
    exact ⟨Deque.freeAll_next e1, (delete_next e3).trans (delete_next e2)⟩

theorem popBack_next {a a' : ADeq} {h h' : Heap X} {L L' : Ledger} (e : a.popBack P N h L = some (a', h', L')) :
    h'.next = h.next ∧ L'.next = L.next + (if a.v.popNeeds N false then 1 else 0) := by
  unfold popBack at e
  split at e
  · rename_i h0; cases e; simp [Deq.popNeeds, h0]
  · rename_i h0
    simp only [Option.bind_eq_some_iff, Option.map_eq_some_iff] at e
    obtain ⟨⟨a1, L1⟩, e1, h2, e2, e3⟩ := e
    cases e3
    refine ⟨destroyAt_next e2, ?_⟩
    unfold popBackStep at e1
    simp only at e1
    split at e1
    · rename_i hb
      cases e1
      rw [if_neg]
      · rfl
      · rintro ⟨-, h2, -⟩; simp at h2; omega
    · rename_i hb
      simp only [Option.bind_eq_some_iff, Option.map_eq_some_iff] at e1
      obtain ⟨c, -, ⟨a2, L2⟩, e1, e3⟩ := e1
      cases e3
      rw [(AFree.put_next e1).1]
      have : a.v.popNeeds N false ↔ FreeL.full a.v.free = true := by
        simp only [Deq.popNeeds, FreeL.full, decide_eq_true_eq, Bool.false_eq_true, if_false]
        constructor
        · exact fun h => h.2.2
        · exact fun h => ⟨h0, by omega, h⟩
      simp only [this]

theorem popFront_next {a a' : ADeq} {h h' : Heap X} {L L' : Ledger} (e : a.popFront P N h L = some (a', h', L')) :
    h'.next = h.next ∧ L'.next = L.next + (if a.v.popNeeds N true then 1 else 0) := by
  unfold popFront at e
  split at e
  · rename_i h0; cases e; simp [Deq.popNeeds, h0]
  · rename_i h0
    simp only [Option.bind_eq_some_iff, Option.map_eq_some_iff] at e
    obtain ⟨⟨a1, L1⟩, e1, h2, e2, e3⟩ := e
    cases e3
    refine ⟨destroyAt_next e2, ?_⟩
    unfold popFrontStep at e1
    simp only at e1
    split at e1
    · rename_i hb
      cases e1
      rw [if_neg]
      · rfl
      · rintro ⟨-, h2, -⟩; simp at h2; omega
    · rename_i hb
      simp only [Option.bind_eq_some_iff, Option.map_eq_some_iff] at e1
      obtain ⟨c, -, ⟨a2, L2⟩, e1, e3⟩ := e1
      cases e3
      rw [(AFree.put_next e1).1]
      have : a.v.popNeeds N true ↔ FreeL.full a.v.free = true := by
        simp only [Deq.popNeeds, FreeL.full, decide_eq_true_eq, if_true]
        constructor
        · exact fun h => h.2.2
        · exact fun h => ⟨h0, by simpa using hb, h⟩
      simp only [this]

theorem clearMid_next {p : SlotPtr} (n : Nat) : ∀ {ii : Int} {q q' : AFree} {h h' : Heap X} {L L' : Ledger},
    clearMid P N p ii n q h L = some (q', h', L') →
    h'.next = h.next ∧ L.next ≤ L'.next ∧ q'.l.idx = q.l.idx + n ∧
      (L'.next = L.next → q'.l.avail = q.l.avail) ∧ (L'.next = L.next ↔ n = 0 ∨ q.l.idx + n ≤ q.l.avail) := by
  induction n with
  | zero => intro ii q q' h h' L L' e; cases e; simp
  | succ n ih =>
    intro ii q q' h h' L L' e
    simp only [clearMid, Option.bind_eq_some_iff] at e
    obtain ⟨h1, e1, b, -, ⟨q2, L2⟩, e2, e3⟩ := e
    obtain ⟨i1, i2, i3, i4, i5⟩ := ih e3
    obtain ⟨m1, m2, m3⟩ := AFree.put_next e2
    simp only at i2 i3 i4 i5
    refine ⟨i1.trans (destroyDown_next _ e1), by omega, by omega, ?_, ?_⟩
    · intro h9
      have hf : q.l.full = false := by
        cases hf : q.l.full with
        | false => rfl
        | true => rw [hf, if_pos rfl] at m1; omega
      rw [hf, if_neg (by decide)] at m1
      rw [i4 (by omega), m3 hf]
    · by_cases hf : q.l.full = true
      · have h0 : q.l.avail ≤ q.l.idx := by simpa [FreeL.full] using hf
        rw [hf, if_pos rfl] at m1
        constructor
        · intro h; omega
        · intro h; omega
      · have hf : q.l.full = false := by simpa using hf
        have h0 : ¬ q.l.avail ≤ q.l.idx := by simpa [FreeL.full] using hf
        rw [hf, if_neg (by decide)] at m1
        have m3 := m3 hf
        rw [m2, m3] at i5
        constructor
        · intro h
          have := i5.1 (by omega)
          omega
        · intro h
          have := i5.2 (by omega)
          omega

/-- `clear` gives up blocks for which the array of spare blocks has no room -/
def clearNeeds (v : Deq) : Prop :=
  v.avail ≠ 0 ∧ v.csize ≠ 0 ∧ v.front < v.back ∧ (v.free.avail : Int) < v.free.idx + (v.back - v.front)

instance (v : Deq) : Decidable (clearNeeds v) := by unfold clearNeeds; infer_instance

theorem clear_next {a a' : ADeq} {h h' : Heap X} {L L' : Ledger} (e : a.clear P N h L = some (a', h', L')) :
    h'.next = h.next ∧ (L'.next = L.next ↔ ¬ clearNeeds a.v) := by
  unfold clear at e
  split at e
  · rename_i h0; cases e
    refine ⟨rfl, ?_⟩
    simp only [clearNeeds, true_iff]
    rintro ⟨h1, h2, -⟩
    rcases h0 with h0 | h0
    · exact h1 h0
    · exact h2 h0
  · rename_i h0
    simp only [Option.bind_eq_some_iff, Option.map_eq_some_iff] at e
    obtain ⟨h1, e1, ⟨q1, h2, L2⟩, e2, ⟨q2, h3, L3⟩, e3, b, -, p, -, e4⟩ := e
    cases e4
    obtain ⟨i1, i2, i3, i4, i5⟩ := clearMid_next _ e2
    have n1 := destroyDown_next _ e1
    simp only at i1 i2 i3 i4 i5 e3
    rw [not_or] at h0
    unfold clearFront at e3
    split at e3
    · rename_i hfb
      simp only [Option.bind_eq_some_iff, Option.map_eq_some_iff] at e3
      obtain ⟨b', -, ⟨q3, L4⟩, e5, h4, e6, e7⟩ := e3
      cases e7
      obtain ⟨m1, m2, m3⟩ := AFree.put_next e5
      refine ⟨(destroyDown_next _ e6).trans (i1.trans n1), ?_⟩
      simp only [clearNeeds]

      by_cases hf : q1.l.full = true
      · have h9 : q1.l.avail ≤ q1.l.idx := by simpa [FreeL.full] using hf
        rw [hf, if_pos rfl] at m1
        constructor
        · intro h; omega
        · intro h
          exfalso
          refine h ⟨h0.1, h0.2, hfb, ?_⟩
          by_cases h10 : L2.next = L.next
          · have := i4 h10; omega
          · have := mt i5.2 h10; omega
      · have hf : q1.l.full = false := by simpa using hf
        have h9 : ¬ q1.l.avail ≤ q1.l.idx := by simpa [FreeL.full] using hf
        rw [hf, if_neg (by decide)] at m1
        constructor
        · intro h
          have h10 : L2.next = L.next := by omega
          have := i4 h10
          rintro ⟨-, -, -, h11⟩
          omega
        · intro h
          have : ¬ ((a.v.free.avail : Int) < a.v.free.idx + (a.v.back - a.v.front)) := fun h11 => h ⟨h0.1, h0.2, hfb, h11⟩
          have := i5.2 (by omega)
          omega
    · rename_i hfb
      cases e3
      have h11 := i5.2 (.inl (by omega))
      exact ⟨i1.trans n1, ⟨fun _ h => hfb h.2.2.1, fun _ => h11⟩⟩

end ADeq

/-! ## C147, C148 -/

/-- C147: `pop_back` and `pop_front` request memory at most once, and exactly when `Deq.popNeeds` says so. -/
theorem pop_requests (P : Pol) (N : Nat) (w : TWorld X) (front : Bool) (i : Nat) (a : ADeq) (ha : w.objs i = some a)
    (r : TWorld X × Obs X) (h : execT P N w (popOp front i) = some r) :
    r.1.requests = w.requests + if a.v.popNeeds N front then 1 else 0 := by
  cases front with
  | false =>
    simp only [popOp, Bool.false_eq_true, if_false, execT, TWorld.on, ha, Option.bind_some, Option.map_eq_some_iff] at h
    obtain ⟨⟨a', h', L'⟩, e1, rfl⟩ := h
    obtain ⟨n1, n2⟩ := ADeq.popBack_next e1
    simp only [TWorld.requests, n1, n2]; omega
  | true =>
    simp only [popOp, if_true, execT, TWorld.on, ha, Option.bind_some, Option.map_eq_some_iff] at h
    obtain ⟨⟨a', h', L'⟩, e1, rfl⟩ := h
    obtain ⟨n1, n2⟩ := ADeq.popFront_next e1
    simp only [TWorld.requests, n1, n2]; omega

/-- C148: declaring a deque, moving deques, destroying them, `shrink_to_fit` and all calls that only read or change elements request no
memory, so that a lack of memory cannot end the program in them. -/
theorem noexcept_no_memory_partial (P : Pol) (N : Nat) (w : TWorld X) (op : Op X) (hop : op.mayAsk = false) :
    execNoMemory P N w op = (execT P N w op).map fun r => .returns r.1 r.2 := by
  unfold execNoMemory
  cases he : execT P N w op with
  | none => rfl
  | some r =>
    obtain ⟨w', o⟩ := r
    have key : w'.requests = w.requests := by
      unfold TWorld.requests
      cases op with
      | new i => simp only [execT] at he; split at he <;> cases he; rfl
      | moveNew i j =>
        simp only [execT] at he; split at he
        · simp only [Option.map_eq_some_iff] at he
          obtain ⟨b, -, he⟩ := he; cases he; rfl
        · cases he
      | moveAssign i j =>
        simp only [execT, ADeq.moveAssign, Option.bind_eq_some_iff, Option.map_eq_some_iff] at he
        obtain ⟨a, -, b, -, q, ⟨⟨h1, L1⟩, e1, e2⟩, e3⟩ := he
        cases e2; cases e3
        obtain ⟨n1, n2⟩ := ADeq.freeAll_next e1
        simp only [n1, n2]
      | destroy i =>
        simp only [execT, Option.bind_eq_some_iff, Option.map_eq_some_iff] at he
        obtain ⟨a, -, ⟨h1, L1⟩, e1, e2⟩ := he
        cases e2
        obtain ⟨n1, n2⟩ := ADeq.freeAll_next e1
        simp only [n1, n2]
      | shrink i =>
        simp only [execT, TWorld.on, ADeq.shrinkToFit, Option.bind_eq_some_iff, Option.map_eq_some_iff] at he
        obtain ⟨a, -, q, ⟨h1, e1, e2⟩, e3⟩ := he
        cases e2; cases e3
        simp only [freeFrom_next _ e1]
      | set i k x =>
        simp only [execT, exec, Option.map_eq_some_iff, Option.bind_eq_some_iff, Deq.set] at he
        obtain ⟨q, ⟨v, -, h1, ⟨c, -, e1⟩, e2⟩, e3⟩ := he
        cases e2; cases e3
        unfold Heap.assign at e1
        split at e1 <;> cases e1
        rfl
      | size | empty | get | «at» | front | back | iterate =>
        simp only [execT, Option.map_eq_some_iff] at he
        obtain ⟨q, -, e⟩ := he
        cases e; rfl
      | pop | popFront | clear | push | pushFront | newSize | copyNew | copyAssign | assign | assignRange | moveRange =>
        exact absurd hop (by simp [Op.mayAsk])
    simp [key]

/-- C148: `clear` without memory ends the program exactly if the deque has elements, has more than one block, and the blocks it gives up do
not all fit in the array of spare blocks. -/
theorem clear_exact (P : Pol) (N : Nat) (w : TWorld X) (i : Nat) (a : ADeq) (ha : w.objs i = some a) (r : TWorld X × Obs X)
    (h : execT P N w (.clear i) = some r) :
    execNoMemory P N w (.clear i) =
      some (if a.v.avail ≠ 0 ∧ a.v.csize ≠ 0 ∧ a.v.front < a.v.back ∧ (a.v.free.avail : Int) < a.v.free.idx + (a.v.back - a.v.front) then
        .terminates else .returns r.1 r.2) := by
  have he := h
  simp only [execT, TWorld.on, ha, Option.bind_some, Option.map_eq_some_iff] at he
  obtain ⟨⟨a', h', L'⟩, e1, rfl⟩ := he
  obtain ⟨n1, n2⟩ := ADeq.clear_next e1
  have hq : (⟨upd w.objs i (some a'), h', L'⟩ : TWorld X).requests = w.requests ↔ ¬ ADeq.clearNeeds a.v := by
    rw [← n2]; simp only [TWorld.requests, n1]; omega
  simp only [execNoMemory, h, Option.map_some]
  by_cases hc : ADeq.clearNeeds a.v
  · rw [if_pos (show _ ∧ _ from hc), if_neg (fun h => hq.1 h hc)]
  · rw [if_neg (show ¬ (_ ∧ _) from hc), if_pos (hq.2 hc)]

/-- A program that runs when there is memory, and one more call of a function declared noexcept. -/
def runNoMemory (P : Pol) (N : Nat) (ops : List (Op X)) (op : Op X) : Option (Fate X) :=
  (runT P N TWorld.empty ops).bind fun r => execNoMemory P N r.1 op

/-- C148 violation: a deque of two-element blocks with two elements, in two blocks, is cleared when there is no memory: the program ends. -/
theorem clear_terminates_violation :
    runNoMemory ⟨false, false⟩ 1 [.new 0, .push 0 'a', .push 0 'b'] (.clear 0) = some .terminates := by
  have h1 : (((runT ⟨false, false⟩ 1 TWorld.empty [.new 0, .push 0 'a', .push 0 'b']).bind fun r =>
      execT ⟨false, false⟩ 1 r.1 (.clear 0)).isSome) = true := by decide
  have h2 : ((runT ⟨false, false⟩ 1 TWorld.empty [.new 0, .push 0 'a', .push 0 'b']).bind fun r =>
      (r.1.objs 0).map fun a => decide (a.v.avail ≠ 0 ∧ a.v.csize ≠ 0 ∧ a.v.front < a.v.back ∧
        (a.v.free.avail : Int) < a.v.free.idx + (a.v.back - a.v.front))) = some true := by decide
  unfold runNoMemory
  cases hw : runT ⟨false, false⟩ 1 TWorld.empty [.new 0, .push 0 'a', .push 0 'b'] with
  | none => rw [hw] at h1; cases h1
  | some w =>
    rw [hw, Option.bind_some] at h1 h2
    obtain ⟨r, hr⟩ := Option.isSome_iff_exists.1 h1
    rw [Option.map_eq_some_iff] at h2
    obtain ⟨a, ha, h3⟩ := h2
    rw [Option.bind_some, clear_exact _ _ _ _ a ha r hr, if_pos (of_decide_eq_true h3)]

/-- Non-vacuity: `clear` runs, and requests no memory, with one element, or if there is an array of spare blocks from before. -/
example : ((runT ⟨false, true⟩ 1 TWorld.empty [.new 0, .push 0 'a']).bind fun w =>
      (execT ⟨false, true⟩ 1 w.1 (.clear 0)).map fun r => decide (r.1.requests = w.1.requests)) = some true ∧
    ((runT ⟨false, true⟩ 1 TWorld.empty [.new 0, .push 0 'a', .push 0 'b', .clear 0, .push 0 'c', .push 0 'd']).bind fun w =>
      (execT ⟨false, true⟩ 1 w.1 (.clear 0)).map fun r => decide (r.1.requests = w.1.requests)) = some true := by decide

end Verif.Block.Deque
