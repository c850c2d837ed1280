import Verif.Block.Deque.ThrowProps

/-
C147: `pop_back` and `pop_front` of a StableBlockDeque when there is no memory.  A block that becomes unused is put into the array of spare
blocks, which is allocated on first use and doubled when it is full.
-/
namespace Verif.Block.Deque
open Verif.Block
variable {X : Type}

namespace Deq

/-- StableBlockDeque.hpp:201-214 with 551-567 when there is no memory.  The flag says whether std::bad_alloc was thrown (from 555 or 558);
`csize` (206) and, as arguments are evaluated before the call, `dataSlotBack` (210) have been decreased then. -/
def popBackNoMem (P : Pol) (N : Nat) (v : Deq) (h : Heap X) : Option (Bool × Deq × Heap X) :=
  if v.csize ≠ 0 ∧ ¬ v.bsize > 0 ∧ v.free.idx ≥ v.free.avail then
    (slotGet v.dataptr v.back).map fun _ => (true, { v with csize := v.csize - 1, back := v.back - 1 }, h)
  else (popBack P N v h).map fun r => (false, r)

/-- StableBlockDeque.hpp:238-251 with 551-567, likewise; `csize` (243) has been decreased and `dataSlotFront` (247) increased. -/
def popFrontNoMem (P : Pol) (N : Nat) (v : Deq) (h : Heap X) : Option (Bool × Deq × Heap X) :=
  if v.csize ≠ 0 ∧ ¬ v.fsize ≠ (blockSize N : Int) - 1 ∧ v.free.idx ≥ v.free.avail then
    (slotGet v.dataptr v.front).map fun _ => (true, { v with csize := v.csize - 1, front := v.front + 1 }, h)
  else (popFront P N v h).map fun r => (false, r)

end Deq

/-- `pop_front()` (if `front`) or `pop_back()` on object `i` when there is no memory. -/
def execPopNoMem (P : Pol) (N : Nat) (w : World X) (front : Bool) (i : Nat) : Option (World X × Obs X) :=
  (w.objs i).bind fun v =>
    (if front then v.popFrontNoMem P N w.heap else v.popBackNoMem P N w.heap).map fun r =>
      (⟨upd w.objs i (some r.2.1), r.2.2⟩, if r.1 then .threw else .done)

/-- `pop_front()` or `pop_back()` -/
def popOp (front : Bool) (i : Nat) : Op X := if front then .popFront i else .pop i

/-- the call gives up a block and the array of spare blocks has no room for it -/
def Deq.popNeeds (N : Nat) (front : Bool) (v : Deq) : Prop :=
  v.csize ≠ 0 ∧ (if front then v.fsize = (blockSize N : Int) - 1 else v.bsize ≤ 0) ∧ v.free.avail ≤ v.free.idx

instance (N : Nat) (front : Bool) (v : Deq) : Decidable (v.popNeeds N front) := by unfold Deq.popNeeds; infer_instance

/-! ## C147 -/

/-- C147: when there is no memory, a removal at either end is an ordinary one, or throws: the latter exactly if it gives up a block and the
array of spare blocks is full (or has never been made). -/
theorem pop_no_memory_partial (P : Pol) (N : Nat) (w : World X) (aw : AWorld X) (h : Reached P N w aw) (front : Bool) (i : Nat)
    (v : Deq) (hv : w.objs i = some v) :
    (¬ v.popNeeds N front → execPopNoMem P N w front i = exec P N w (popOp front i)) ∧
    (v.popNeeds N front → ∃ w', execPopNoMem P N w front i = some (w', .threw)) := by
  obtain ⟨us, fs, W⟩ := h.inv
  obtain ⟨a, ha⟩ : ∃ a, aw i = some a := by
    cases ha : aw i with
    | some a => exact ⟨a, rfl⟩
    | none => rw [(W.getNone ha).1] at hv; cases hv
  obtain ⟨v0, hv0, r⟩ := W.getSome ha
  rw [hv] at hv0; cases hv0
  constructor
  · intro hn
    cases front with
    | false =>
      have : ¬ (v.csize ≠ 0 ∧ ¬ v.bsize > 0 ∧ v.free.idx ≥ v.free.avail) := by
        rintro ⟨h1, h2, h3⟩
        exact hn ⟨h1, by simpa using h2, h3⟩
      simp only [execPopNoMem, hv, Option.bind_some, Deq.popBackNoMem, if_neg this, popOp, exec, Bool.false_eq_true, if_false]
      cases v.popBack P N w.heap <;> rfl
    | true =>
      have : ¬ (v.csize ≠ 0 ∧ ¬ v.fsize ≠ (blockSize N : Int) - 1 ∧ v.free.idx ≥ v.free.avail) := by
        rintro ⟨h1, h2, h3⟩
        exact hn ⟨h1, by simpa using h2, h3⟩
      simp only [execPopNoMem, hv, Option.bind_some, Deq.popFrontNoMem, if_neg this, popOp, exec, if_true]
      cases v.popFront P N w.heap <;> rfl
  · rintro ⟨h1, h2, h3⟩
    obtain ⟨F, f1, bz, c⟩ : ∃ F f1 bz, Core N w.heap v a (us i) (fs i) F f1 bz := by
      rcases r with h | ⟨nl, _⟩
      · exact h
      · exact absurd nl.cs h1
    have hne := c.ne
    cases front with
    | false =>
      have h9 : v.csize ≠ 0 ∧ ¬ v.bsize > 0 ∧ v.free.idx ≥ v.free.avail := ⟨h1, by simpa using h2, h3⟩
      have hsg := c.arr.slotGet' (i := v.back) (List.getElem?_eq_getElem (show (us i).length - 1 < (us i).length by omega))
        (by rw [c.back]; omega)
      exact ⟨_, by simp only [execPopNoMem, hv, Option.bind_some, Deq.popBackNoMem, if_pos h9, hsg,
        Bool.false_eq_true, if_false, Option.map_some, if_true]; rfl⟩
    | true =>
      have h9 : v.csize ≠ 0 ∧ ¬ v.fsize ≠ (blockSize N : Int) - 1 ∧ v.free.idx ≥ v.free.avail := ⟨h1, by simpa using h2, h3⟩
      have hsg := c.arr.slotGet' (i := v.front) (List.getElem?_eq_getElem hne) (by rw [c.front]; simp)
      exact ⟨_, by simp only [execPopNoMem, hv, Option.bind_some, Deq.popFrontNoMem, if_pos h9, hsg,
        if_true, Option.map_some]; rfl⟩

theorem construct_keeps {bs b j b' j' : Nat} {h h' : Heap X} {x y : X} (e : h.construct bs b j x = some h')
    (hr : h.read bs b' j' = some y) : h'.read bs b' j' = some y := by
  simp only [Heap.construct] at e
  split at e
  · rename_i hc
    cases e
    unfold Heap.read at hr ⊢
    split at hr
    · rename_i h1
      have : (h.setCell b j (some x)).live b' = true ∧ j' < bs := h1
      rw [if_pos this]
      simp only [Heap.setCell]
      split
      · rename_i h2
        obtain ⟨rfl, rfl⟩ := h2
        have := hc.2.2
        rw [hr] at this; cases this
      · exact hr
    · cases hr
  · cases e

/-- C147 violation, in every state: a `pop_back` that throws for lack of memory leaves a deque whose size is one less, although its last
element is still alive; if an element can be appended to it at all, the size grows but the last element is still the old one, not the one
appended. -/
theorem pop_back_threw_violation (P : Pol) (N : Nat) (w w1 : World X) (aw : AWorld X) (h : Reached P N w aw) (i : Nat) (a : List X)
    (ha : aw i = some a) (e : execPopNoMem P N w false i = some (w1, .threw)) :
    ∃ h0 : 0 < a.length,
      exec P N w1 (.size i) = some (w1, .num (a.length - 1)) ∧
      (∀ k (hk : k < a.length), exec P N w1 (.get i k) = some (w1, .val a[k])) ∧
      ∀ x w2 o, exec P N w1 (.push i x) = some (w2, o) →
        exec P N w2 (.size i) = some (w2, .num a.length) ∧
        exec P N w2 (.get i (a.length - 1)) = some (w2, .val a[a.length - 1]) := by
  obtain ⟨us, fs, W⟩ := h.inv
  obtain ⟨v, hv, r⟩ := W.getSome ha
  simp only [execPopNoMem, hv, Option.bind_some, Bool.false_eq_true, if_false, Deq.popBackNoMem] at e
  split at e
  · rename_i hc
    obtain ⟨h1, h2, h3⟩ := hc
    obtain ⟨F, f1, bz, c⟩ : ∃ F f1 bz, Core N w.heap v a (us i) (fs i) F f1 bz := by
      rcases r with h | ⟨nl, _⟩
      · exact h
      · exact absurd nl.cs h1
    simp only [Option.map_map, Option.map_eq_some_iff, Function.comp, if_true] at e
    obtain ⟨b, -, e⟩ := e
    cases e
    have hn : 0 < a.length := by rw [c.len]; omega
    have hget : ∀ k (hk : k < a.length), (Deq.get N { v with csize := v.csize - 1, back := v.back - 1 } w.heap k) = some a[k] :=
      fun k hk => c.get_eq hk
    refine ⟨hn, ?_, ?_, ?_⟩
    · simp [exec, upd, c.len, Deq.size]
    · intro k hk
      simp [exec, upd, hget k hk]
    · intro x w2 o e2
      simp only [exec, upd, if_true, Option.bind_some, Deq.pushBack, Deq.blockCheck, Option.map_eq_some_iff] at e2
      rw [if_neg (by have := c.bsz; have := blockSize_pos N; omega)] at e2
      simp only [Option.bind_some, Option.map_eq_some_iff] at e2
      obtain ⟨q, ⟨h', e3, rfl⟩, e4⟩ := e2
      cases e4
      simp only [constructAt, Option.bind_eq_some_iff] at e3
      obtain ⟨b', -, j', -, e3⟩ := e3
      have := c.get_eq (n := a.length - 1) (by omega)
      simp only [Deq.get, Option.bind_eq_some_iff] at this
      obtain ⟨cl, hcl, hrd⟩ := this
      have hrd' := construct_keeps e3 hrd
      refine ⟨?_, ?_⟩
      · simp [exec, upd, Deq.size]; have := c.len; omega
      · have : Deq.get N { v with csize := v.csize - 1 + 1, back := v.back - 1, bsize := v.bsize + 1 } h' (a.length - 1) =
            some a[a.length - 1] := by
          rw [Deq.get, show Deq.cell N { v with csize := v.csize - 1 + 1, back := v.back - 1, bsize := v.bsize + 1 } (a.length - 1) =
            v.cell N (a.length - 1) from rfl, hcl]
          exact hrd'
        simp [exec, upd, this]
  · simp only [Option.map_map, Option.map_eq_some_iff, Function.comp] at e
    obtain ⟨b, -, e⟩ := e
    simp at e

/-- C147 violation, in every state: a `pop_front` that throws for lack of memory leaves a deque whose size is one less, but whose elements
seem to begin a whole block later. -/
theorem pop_front_threw_violation (P : Pol) (N : Nat) (w w1 : World X) (aw : AWorld X) (h : Reached P N w aw) (i : Nat) (a : List X)
    (ha : aw i = some a) (e : execPopNoMem P N w true i = some (w1, .threw)) :
    0 < a.length ∧ exec P N w1 (.size i) = some (w1, .num (a.length - 1)) ∧
      (∀ k (hk : k + 2 ^ N < a.length), exec P N w1 (.get i k) = some (w1, .val a[k + 2 ^ N])) ∧
      ∀ hk : 2 ^ N < a.length, exec P N w1 (.front i) = some (w1, .val a[2 ^ N]) := by
  obtain ⟨us, fs, W⟩ := h.inv
  obtain ⟨v, hv, r⟩ := W.getSome ha
  simp only [execPopNoMem, hv, Option.bind_some, if_true, Deq.popFrontNoMem] at e
  split at e
  · rename_i hc
    obtain ⟨h1, h2, h3⟩ := hc
    have h2 : v.fsize = (blockSize N : Int) - 1 := by simpa using h2
    obtain ⟨F, f1, bz, c⟩ : ∃ F f1 bz, Core N w.heap v a (us i) (fs i) F f1 bz := by
      rcases r with h | ⟨nl, _⟩
      · exact h
      · exact absurd nl.cs h1
    simp only [Option.map_map, Option.map_eq_some_iff, Function.comp, if_true] at e
    obtain ⟨b, -, e⟩ := e
    cases e
    have hn : 0 < a.length := by rw [c.len]; omega
    have hp := blockSize_pos N
    have hf1 : f1 = blockSize N := by have := c.fsz; omega
    have hcell : ∀ k, Deq.cell N { v with csize := v.csize - 1, front := v.front + 1 } k = v.cell N (k + blockSize N) := by
      intro k
      have e1 : (v.fsize + (k : Int) + 1).toNat = k + blockSize N := by omega
      have e2 : (v.fsize + ((k + blockSize N : Nat) : Int) + 1).toNat = k + blockSize N + blockSize N := by omega
      simp only [Deq.cell, e1, e2, shr_eq, mask_eq, Nat.add_div_right _ hp, Nat.add_mod_right]
      rw [show v.front + 1 + ((k / blockSize N).succ : Nat) = v.front + ((k / blockSize N).succ.succ : Nat) by push_cast; omega]
    refine ⟨hn, ?_, ?_, ?_⟩
    · simp [exec, upd, c.len, Deq.size]
    · intro k hk
      have : Deq.get N { v with csize := v.csize - 1, front := v.front + 1 } w.heap k = some a[k + 2 ^ N] := by
        rw [Deq.get, hcell]
        have hk' : k + blockSize N < a.length := by rw [blockSize_eq]; exact hk
        have := c.get_eq hk'
        simp only [← blockSize_eq]
        exact this
      simp [exec, upd, this]
    · intro hk
      have hk' : blockSize N < a.length := by rw [blockSize_eq]; exact hk
      have hL : 2 < (us i).length := by
        have := c.fit
        refine Nat.lt_of_not_le fun h => ?_
        have := Nat.mul_le_mul_right (blockSize N) h
        omega
      have : readAt N v.dataptr (v.front + 1 + 1) 0 w.heap = a[blockSize N]? :=
        c.read_pos (k := 2) (j := 0) hL hp (by rw [c.front]; omega) (by omega)
      rw [List.getElem?_eq_getElem hk'] at this
      have : Deq.frontVal N { v with csize := v.csize - 1, front := v.front + 1 } w.heap = some a[2 ^ N] := by
        rw [Deq.frontVal, if_pos h2, this]
        simp only [blockSize_eq]
      simp [exec, upd, this]
  · simp only [Option.map_map, Option.map_eq_some_iff, Function.comp] at e
    obtain ⟨b, -, e⟩ := e
    simp at e

/-! ### The leak -/

theorem destroyAt_live {P : Pol} {N : Nat} {p : SlotPtr} {i j : Int} {h h' : Heap X} (e : destroyAt P N p i j h = some h') :
    h'.live = h.live := by
  simp only [destroyAt, Option.bind_eq_some_iff] at e
  obtain ⟨b, -, j', -, e⟩ := e
  split at e
  · cases e; rfl
  · unfold Heap.destroy at e; split at e <;> cases e; rfl

theorem destroyDown_live {P : Pol} {N : Nat} {p : SlotPtr} {i : Int} (n : Nat) : ∀ {j : Int} {h h' : Heap X},
    Deq.destroyDown P N p i j n h = some h' → h'.live = h.live := by
  induction n with
  | zero => intro j h h' e; cases e; rfl
  | succ n ih =>
    intro j h h' e
    simp only [Deq.destroyDown, Option.bind_eq_some_iff] at e
    obtain ⟨h1, e1, e2⟩ := e
    rw [ih e2, destroyAt_live e1]

theorem deallocSlot_live {N : Nat} {p : SlotPtr} {i : Int} {b : Nat} {h h' : Heap X} (hb : slotGet p i ≠ some b)
    (e : Deq.deallocSlot N p i h = some h') : h'.live b = h.live b := by
  simp only [Deq.deallocSlot, Option.bind_eq_some_iff] at e
  obtain ⟨b', hb', e⟩ := e
  unfold Heap.dealloc at e
  split at e <;> cases e
  have : b ≠ b' := by rintro rfl; exact hb hb'
  simp [this]

theorem freeMid_live {P : Pol} {N : Nat} {p : SlotPtr} {b : Nat} (n : Nat) : ∀ {ii : Int} {h h' : Heap X},
    (∀ k : Int, ii - n < k → k ≤ ii → slotGet p k ≠ some b) → Deq.freeMid P N p ii n h = some h' → h'.live b = h.live b := by
  induction n with
  | zero => intro ii h h' hk e; cases e; rfl
  | succ n ih =>
    intro ii h h' hk e
    simp only [Deq.freeMid, Option.bind_eq_some_iff] at e
    obtain ⟨h1, e1, h2, e2, e3⟩ := e
    rw [ih (fun k h1 h2 => hk k (by omega) (by omega)) e3, deallocSlot_live (hk ii (by omega) (by omega)) e2, destroyDown_live _ e1]

theorem freeFrom_live {N : Nat} {p : SlotPtr} {b : Nat} (n : Nat) : ∀ {ii : Nat} {h h' : Heap X},
    (∀ k : Nat, ii ≤ k → k < ii + n → slotGet p k ≠ some b) → FreeL.freeFrom N p n ii h = some h' → h'.live b = h.live b := by
  induction n with
  | zero => intro ii h h' hk e; cases e; rfl
  | succ n ih =>
    intro ii h h' hk e
    simp only [FreeL.freeFrom, Option.bind_eq_some_iff] at e
    obtain ⟨b', hb', h1, e1, e2⟩ := e
    rw [ih (fun k h1 h2 => hk k (by omega) (by omega)) e2]
    unfold Heap.dealloc at e1
    split at e1 <;> cases e1
    have : b ≠ b' := by rintro rfl; exact hk ii (by omega) (by omega) hb'
    simp [this]

/-- The destructor gives back no other blocks than those in the slots from front to back and the spare ones. -/
theorem freeAll_live {P : Pol} {N : Nat} {v : Deq} {b : Nat} {h h' : Heap X} (hfb : v.front ≤ v.back)
    (hs : ∀ k : Int, v.front ≤ k → k ≤ v.back → slotGet v.dataptr k ≠ some b)
    (hf : ∀ k : Nat, k < v.free.idx → slotGet v.free.blocks k ≠ some b) (e : v.freeAll P N h = some h') : h'.live b = h.live b := by
  unfold Deq.freeAll at e
  split at e
  · cases e; rfl
  · simp only [Option.bind_eq_some_iff] at e
    obtain ⟨h1, e1, e2⟩ := e
    rw [freeFrom_live _ (fun k _ hk => hf k (by omega)) e2]
    split at e1
    · simp only [Option.bind_eq_some_iff] at e1
      obtain ⟨h3, e3, e4⟩ := e1
      rw [deallocSlot_live (hs _ (by omega) (by omega)) e4, destroyDown_live _ e3]
    · simp only [Option.bind_eq_some_iff] at e1
      obtain ⟨h3, e3, h4, e4, h5, e5, h6, e6, e7⟩ := e1
      rw [deallocSlot_live (hs _ (by omega) (by omega)) e7, destroyDown_live _ e6,
        freeMid_live _ (fun k h1 h2 => hs k (by omega) (by omega)) e5,
        deallocSlot_live (hs _ (by omega) (by omega)) e4, destroyDown_live _ e3]

/-- C147 violation, in every state: the block that a throwing removal was about to give up is lost.  If the deque is the only one, and can
be destroyed at all afterwards, memory remains allocated that nothing points to any more. -/
theorem pop_threw_leaks_violation (P : Pol) (N : Nat) (w w1 w2 : World X) (aw : AWorld X) (h : Reached P N w aw) (front : Bool) (i : Nat)
    (honly : ∀ j, j ≠ i → aw j = none) (e : execPopNoMem P N w front i = some (w1, .threw)) (o : Obs X)
    (e2 : exec P N w1 (.destroy i) = some (w2, o)) : (∀ j, w2.objs j = none) ∧ ∃ b, w2.heap.live b = true := by
  obtain ⟨us, fs, W⟩ := h.inv
  obtain ⟨v, hv⟩ : ∃ v, w.objs i = some v := by
    cases hv : w.objs i with
    | some v => exact ⟨v, rfl⟩
    | none => simp [execPopNoMem, hv] at e
  obtain ⟨a, ha⟩ : ∃ a, aw i = some a := by
    cases ha : aw i with
    | some a => exact ⟨a, rfl⟩
    | none => rw [(W.getNone ha).1] at hv; cases hv
  obtain ⟨v0, hv0, r⟩ := W.getSome ha
  rw [hv] at hv0; cases hv0
  have hgone : ∀ j, j ≠ i → w.objs j = none := fun j hj => (W.getNone (honly j hj)).1
  have inj : ∀ {F f1 bz}, Core N w.heap v a (us i) (fs i) F f1 bz → ∀ (m : Nat) (b : Nat), (us i)[m]? = some b →
      (∀ k : Int, v.front ≤ k → k ≤ v.back → k ≠ F + m → slotGet v.dataptr k ≠ some b) ∧
      (∀ k : Nat, k < v.free.idx → slotGet v.free.blocks k ≠ some b) ∧ w.heap.live b = true := by
    intro F f1 bz c m b hb
    refine ⟨?_, ?_, c.grid.live b (Grid.mem hb)⟩
    · intro k h1 h2 h3 hk
      have h4 := c.front
      have h5 := c.back
      have hlt : (k - F).toNat < (us i).length := by omega
      have := c.arr.slotGet' (i := k) (List.getElem?_eq_getElem hlt) (by omega)
      rw [hk] at this
      have := us_inj c.grid.nodup (k := (k - F).toNat) (k' := m) (b := b) (by rw [List.getElem?_eq_getElem hlt]; exact this.symm) hb
      omega
    · intro k hk hkb
      have h6 := c.free.idx
      have hlt : k < (fs i).length := by omega
      have := c.free.arr.slotGet (List.getElem?_eq_getElem hlt)
      rw [hkb] at this
      exact us_fs c.grid.nodup hb (by cases this; exact List.getElem_mem hlt)
  have final : ∀ v' : Deq, w1 = ⟨upd w.objs i (some v'), w.heap⟩ → v'.front ≤ v'.back → ∀ b, w.heap.live b = true →
      (∀ k : Int, v'.front ≤ k → k ≤ v'.back → slotGet v'.dataptr k ≠ some b) →
      (∀ k : Nat, k < v'.free.idx → slotGet v'.free.blocks k ≠ some b) → (∀ j, w2.objs j = none) ∧ ∃ b, w2.heap.live b = true := by
    rintro v' rfl hle b hl h1 h2
    simp only [exec, upd, if_true, Option.bind_some, Option.map_eq_some_iff] at e2
    obtain ⟨h', e3, e4⟩ := e2
    cases e4
    refine ⟨fun j => ?_, b, ?_⟩
    · by_cases hj : j = i
      · simp [upd, hj]
      · simp [upd, hj, hgone j hj]
    · simp only
      rw [freeAll_live hle h1 h2 e3, hl]
  have hcore : v.csize ≠ 0 → ∃ F f1 bz, Core N w.heap v a (us i) (fs i) F f1 bz := by
    intro h1
    rcases r with h | ⟨nl, _⟩
    · exact h
    · exact absurd nl.cs h1
  have hp := blockSize_pos N
  cases front with
  | false =>
    simp only [execPopNoMem, hv, Option.bind_some, Bool.false_eq_true, if_false, Deq.popBackNoMem] at e
    split at e
    · rename_i hc
      obtain ⟨h1, h2, h3⟩ := hc
      obtain ⟨F, f1, bz, c⟩ := hcore h1
      simp only [Option.map_map, Option.map_eq_some_iff, Function.comp, if_true] at e
      obtain ⟨b', -, e⟩ := e
      cases e
      have hL : 1 < (us i).length := by
        have hs := c.size'
        have := c.bsz
        have := c.len
        rcases Nat.lt_or_ge 1 (us i).length with h1 | h1
        · exact h1
        · rw [show (us i).length - 1 = 0 by omega, Nat.zero_mul] at hs; omega
      obtain ⟨b, hb⟩ := c.last
      obtain ⟨i1, i2, i3⟩ := inj c _ b hb
      have h4 := c.front
      have h5 := c.back
      exact final _ rfl (by simp only; omega) b i3 (fun k h6 h7 => i1 k h6 (by simp only at h7; omega) (by simp only at h7; omega)) i2
    · simp only [Option.map_map, Option.map_eq_some_iff, Function.comp] at e
      obtain ⟨b, -, e⟩ := e
      simp at e
  | true =>
    simp only [execPopNoMem, hv, Option.bind_some, if_true, Deq.popFrontNoMem] at e
    split at e
    · rename_i hc
      obtain ⟨h1, h2, h3⟩ := hc
      have h2 : v.fsize = (blockSize N : Int) - 1 := by simpa using h2
      obtain ⟨F, f1, bz, c⟩ := hcore h1
      simp only [Option.map_map, Option.map_eq_some_iff, Function.comp, if_true] at e
      obtain ⟨b', -, e⟩ := e
      cases e
      have hL : 1 < (us i).length := by
        have := c.fit
        have := c.fsz
        have := c.len
        refine Nat.lt_of_not_le fun h => ?_
        have := Nat.mul_le_mul_right (blockSize N) h
        omega
      have hb := List.getElem?_eq_getElem (show 0 < (us i).length by omega)
      obtain ⟨i1, i2, i3⟩ := inj c _ _ hb
      have h4 := c.front
      have h5 := c.back
      exact final _ rfl (by simp only; omega) _ i3 (fun k h6 h7 => i1 k (by simp only at h6; omega) h7 (by simp only at h6; omega)) i2
    · simp only [Option.map_map, Option.map_eq_some_iff, Function.comp] at e
      obtain ⟨b, -, e⟩ := e
      simp at e

/-- Non-vacuity: blocks of two elements; two elements are appended, one is removed, and removing the other one throws. -/
example : ∃ w aw, Reached ⟨false, false⟩ 1 w aw ∧ aw 0 = some ['a'] ∧ ∃ w', execPopNoMem ⟨false, false⟩ 1 w false 0 = some (w', .threw) := by
  obtain ⟨w, e, R⟩ := Reached.ofRun ⟨false, false⟩ 1 [.new 0, .push 0 'a', .push 0 'b', .pop 0] _ _ rfl rfl
  cases e
  exact ⟨_, _, R, rfl, _, rfl⟩

/-- Non-vacuity: the same at the front, with a block of elements behind. -/
example : ∃ w aw, Reached ⟨false, false⟩ 1 w aw ∧ aw 0 = some ['b', 'c', 'd', 'e'] ∧ ∃ w', execPopNoMem ⟨false, false⟩ 1 w true 0 = some (w', .threw) ∧
    exec ⟨false, false⟩ 1 w' (.front 0) = some (w', .val 'd') := by
  obtain ⟨w, e, R⟩ := Reached.ofRun ⟨false, false⟩ 1 [.new 0, .push 0 'a', .push 0 'b', .push 0 'c', .push 0 'd', .push 0 'e', .popFront 0] _ _ rfl rfl
  cases e
  exact ⟨_, _, R, rfl, _, rfl, rfl⟩

end Verif.Block.Deque
