import Verif.Block.Iterator.Lemmas

/-
Property theorems for BlockIterator (C24, C25).

`Denotes bs arr it n`: `it` is what the constructor builds for element `n` of the sequence of
blocks `arr` (block `n / bs`, offset `n % bs`).
-/
namespace Verif.Block.Iter

/-- `++` applied `k` times -/
def incrN (bs : Int) (arr : SlotPtr) : Nat → Iter → Option Iter
  | 0, it => some it
  | k + 1, it => (it.incr bs arr).bind (incrN bs arr k)

/-- `--` applied `k` times -/
def decrN (bs : Int) (arr : SlotPtr) : Nat → Iter → Option Iter
  | 0, it => some it
  | k + 1, it => (it.decr bs arr).bind (decrN bs arr k)

/-- C24: from element `n`, `it + m`, `it += m` and `m` times `++` all arrive at element `n + m`,
whenever that position lies in the block sequence. -/
theorem add_is_index_add (bs : Nat) (hb : 0 < bs) (arr : SlotPtr) (it it' : Iter) (n m : Nat)
    (d : Denotes bs arr it n) (d' : Denotes bs arr it' (n + m)) :
    it.addAssign bs arr m = some it' ∧ it.add bs arr m = some it' ∧ incrN bs arr m it = some it' := by
  refine ⟨d.add hb d', d.add hb d', ?_⟩
  induction m generalizing it n with
  | zero => exact congrArg some (d.unique d')
  | succ m ih =>
    obtain ⟨it1, d1⟩ := d'.mono (m := n + 1) (by omega)
    have h1 : it.incr bs arr = some it1 := by rw [incr_eq]; exact d.add hb d1
    rw [incrN, h1]
    exact ih it1 (n + 1) d1 (by rwa [Nat.add_assoc, Nat.add_comm 1])

/-- C24: from element `n`, `it - m`, `it -= m` and `m` times `--` all arrive at element `n - m`. -/
theorem sub_is_index_sub (bs : Nat) (hb : 0 < bs) (arr : SlotPtr) (it it' : Iter) (n m : Nat)
    (hm : m ≤ n) (d : Denotes bs arr it n) (d' : Denotes bs arr it' (n - m)) :
    it.subAssign bs arr m = some it' ∧ it.sub bs arr m = some it' ∧ decrN bs arr m it = some it' := by
  refine ⟨d.sub hb hm d', d.sub hb hm d', ?_⟩
  induction m generalizing it n with
  | zero => exact congrArg some (d.unique d')
  | succ m ih =>
    obtain ⟨it1, d1⟩ := d.mono (m := n - 1) (by omega)
    have h1 : it.decr bs arr = some it1 := by rw [decr_eq]; exact d.sub (m := 1) hb (by omega) d1
    rw [decrN, h1]
    refine ih it1 (n - 1) (by omega) d1 ?_
    rwa [show n - 1 - m = n - (m + 1) by omega]

/-- C24: going forward and back again returns to the same iterator. -/
theorem add_sub_cancel (bs : Nat) (hb : 0 < bs) (arr : SlotPtr) (it it' : Iter) (n m : Nat)
    (d : Denotes bs arr it n) (d' : Denotes bs arr it' (n + m)) :
    (it.add bs arr m).bind (fun i => i.sub bs arr m) = some it := by
  rw [show it.add bs arr m = some it' from d.add hb d']
  exact d'.sub hb (by omega) (by rwa [Nat.add_sub_cancel])

/-- C24: two iterators into one sequence compare equal iff they denote the same position, and `!=`
is the negation of `==`. -/
theorem eq_iff_same_position (bs : Nat) (arr : SlotPtr) (it it' : Iter) (n n' : Nat)
    (d : Denotes bs arr it n) (d' : Denotes bs arr it' n') :
    (it.eq it' = true ↔ n = n') ∧ (it.ne it' = true ↔ n ≠ n') := by
  refine ⟨d.eq_iff d', ?_⟩
  rw [ne_eq_not_eq]
  have := d.eq_iff d'
  constructor
  · intro h e; rw [this.2 e] at h; cases h
  · intro h
    have : it.eq it' ≠ true := fun e => h (this.1 e)
    simpa using this

/-- C24: dereferencing yields the object in cell `n % bs` of block number `n / bs`. -/
theorem deref_is_element {X : Type} (bs : Nat) (arr : SlotPtr) (h : Heap X) (it : Iter)
    (n b : Nat) (d : Denotes bs arr it n) (hs : slotGet arr ((n / bs : Nat) : Int) = some b) :
    it.deref bs h = h.read bs b (n % bs) := d.deref_eq h hs

/-- C24: `it++` yields the old position and moves to the next element, `it--` to the previous one. -/
theorem post_movement (bs : Nat) (hb : 0 < bs) (arr : SlotPtr) (it it' : Iter) (n : Nat)
    (d : Denotes bs arr it n) (d' : Denotes bs arr it' (n + 1)) :
    it.postIncr bs arr = some (it, it') ∧ it'.postDecr bs arr = some (it', it) := by
  have h1 := (add_is_index_add bs hb arr it it' n 1 d d').2.2
  have h2 := (sub_is_index_sub bs hb arr it' it (n + 1) 1 (by omega) d' (by simpa using d)).2.2
  simp only [incrN, decrN, Option.bind_eq_some_iff, Option.some.injEq, exists_eq_right] at h1 h2
  exact ⟨by rw [postIncr, h1]; rfl, by rw [postDecr, h2]; rfl⟩

/-- C24: comparing a constant with a non-constant iterator is defined and tells whether they denote the same position, if
one of them denotes a position in an existing block; the order of the operands does not matter. -/
theorem mixed_eq_iff_same_position (bs : Nat) (arr : SlotPtr) (junk : Bool) (it it' : Iter) (n n' b : Nat)
    (d : Denotes bs arr it n) (d' : Denotes bs arr it' n') (hs : slotGet arr ((n / bs : Nat) : Int) = some b) :
    it.eqMixed arr junk it' = some (decide (n = n')) ∧ it'.eqMixed arr junk it = some (decide (n = n')) ∧
    it.neMixed arr junk it' = some (decide (n ≠ n')) ∧ it'.neMixed arr junk it = some (decide (n ≠ n')) := by
  obtain ⟨v1, o1, p1, r1⟩ := d.eqs
  obtain ⟨v2, o2, p2, r2⟩ := d'.eqs
  have hn : nullAt arr junk it.vec = some false := by
    rw [v1, nullAt]
    cases arr with
    | none => simp [slotGet] at hs
    | some l =>
      simp only [slotGet, derefVec] at hs ⊢
      rw [if_pos (Int.natCast_nonneg _)] at hs ⊢
      cases e : l[((n / bs : Nat) : Int).toNat]? with
      | none => rw [e] at hs; simp at hs
      | some o => rw [e] at hs; simp at hs; subst hs; rfl
  have hn' : ∃ z, nullAt arr junk it'.vec = some z := by
    rw [v2] at r2 ⊢
    simp only [nullAt, r2, Option.map_some]
    exact ⟨_, rfl⟩
  obtain ⟨z, hz⟩ := hn'
  have heq : it.vec = it'.vec ∧ it.offset = it'.offset ↔ n = n' := by
    have := d.eq_iff d'
    simpa [eq] using this
  have h1 : it.eqMixed arr junk it' = some (decide (n = n')) := by
    rw [eqMixed, checkEquivalence]
    by_cases hv : it.vec = it'.vec
    · rw [if_pos hv]
      simp only [Option.map_some, Bool.true_and, Option.some.injEq, decide_eq_decide]
      rw [← heq]; exact ⟨fun h => ⟨hv, h⟩, And.right⟩
    · rw [if_neg hv, hn]
      have : ¬ n = n' := fun h => hv (heq.2 h).1
      simp [this]
  have h2 : it'.eqMixed arr junk it = some (decide (n = n')) := by
    rw [eqMixed, checkEquivalence]
    by_cases hv : it'.vec = it.vec
    · rw [if_pos hv]
      simp only [Option.map_some, Bool.true_and, Option.some.injEq, decide_eq_decide]
      rw [← heq]; exact ⟨fun h => ⟨hv.symm, h.symm⟩, fun h => h.2.symm⟩
    · rw [if_neg hv, hz]
      have : ¬ n = n' := fun h => hv (heq.2 h).1.symm
      cases z <;> simp [this, hn]
  refine ⟨h1, h2, ?_, ?_⟩
  · rw [neMixed, h1]; simp
  · rw [neMixed, h2]; simp

/-- C24: an iterator to an element converts to true. -/
theorem element_true (bs : Nat) (arr : SlotPtr) (junk : Bool) (it : Iter) (n b : Nat) (d : Denotes bs arr it n)
    (hs : slotGet arr ((n / bs : Nat) : Int) = some b) : it.toBool junk = true := by
  obtain ⟨v1, o1, p1, r1⟩ := d.eqs
  rw [v1] at r1
  cases arr with
  | none => simp [slotGet] at hs
  | some l =>
    simp only [slotGet, derefVec] at hs r1
    rw [if_pos (Int.natCast_nonneg _)] at hs r1
    rw [r1] at hs
    rw [toBool, show it.blk = some b by simpa using hs]

/-- Two blocks of four elements, with room for a third. -/
def twoBlocks : SlotPtr := some [some 7, some 9, none]

/-- the iterator at element 2 and the one four further on exist -/
example : Denotes 4 twoBlocks ⟨.slot 0, some 7, 2, 2⟩ 2 ∧ Denotes 4 twoBlocks ⟨.slot 1, some 9, 2, 2⟩ (2 + 4) ∧
    Denotes 4 twoBlocks ⟨.slot 2, none, 0, 0⟩ 8 := ⟨rfl, rfl, rfl⟩

/-- the hypothesis on the block is met by elements compared with `end()` of two full blocks -/
example : slotGet twoBlocks ((6 / 4 : Nat) : Int) = some 9 ∧
    (Iter.mk (.slot 1) (some 9) 2 2).eqMixed twoBlocks true ⟨.slot 2, none, 0, 0⟩ = some false := by decide

/-- C25, full statement: moving by a negative amount with `+=` is `-=` of the opposite, and
conversely. -/
def NegativeMovement : Prop := ∀ (bs : Nat) (arr : SlotPtr) (it it' : Iter) (n m : Nat), 0 < bs → m ≤ n →
  Denotes bs arr it n → Denotes bs arr it' (n - m) →
  it.addAssign bs arr (-(m : Int)) = some it' ∧ it'.subAssign bs arr (-(m : Int)) = some it

/-- C25, what holds: a negative movement is right exactly when it stays inside the block. -/
theorem negative_movement_partial (bs : Nat) (hb : 0 < bs) (arr : SlotPtr) (it it' : Iter) (n m : Nat)
    (hm : m ≤ n) (d : Denotes bs arr it n) (d' : Denotes bs arr it' (n - m)) :
    (it.addAssign bs arr (-(m : Int)) = some it' ↔ m ≤ n % bs) ∧
    (it'.subAssign bs arr (-(m : Int)) = some it ↔ (n - m) % bs + m < bs) := by
  have hmod := Nat.mod_lt n hb
  have hmod' := Nat.mod_lt (n - m) hb
  obtain ⟨v1, o1, p1, r1⟩ := d.eqs
  obtain ⟨v2, o2, p2, r2⟩ := d'.eqs
  constructor
  · rw [addAssign, check]
    simp only [p1, o1]
    rw [if_neg (by omega)]
    constructor
    · intro h
      have := congrArg Iter.offset (Option.some.inj h)
      rw [o2] at this
      simp only at this
      omega
    · intro h
      refine congrArg some (Denotes.unique (Denotes.of ?_ ?_ rfl ?_) d')
      · have h1 : n - m = bs * (n / bs) + (n % bs - m) := by
          have := Nat.div_add_mod n bs; omega
        have e1 : (n - m) / bs = n / bs := by
          rw [h1, Nat.mul_add_div hb, Nat.div_eq_of_lt (show n % bs - m < bs by omega)]; rfl
        simp only [e1, v1]
      · have h1 : n - m = bs * (n / bs) + (n % bs - m) := by
          have := Nat.div_add_mod n bs; omega
        have e2 : (n - m) % bs = n % bs - m := by
          rw [h1, Nat.mul_add_mod, Nat.mod_eq_of_lt (by omega)]
        simp only [e2]; omega
      · simpa using r1
  · rw [subAssign, checkNeg]
    simp only [p2, o2]
    rw [if_neg (by omega)]
    constructor
    · intro h
      have := congrArg Iter.offset (Option.some.inj h)
      rw [o1] at this
      simp only at this
      omega
    · intro h
      have h1 : n = bs * ((n - m) / bs) + ((n - m) % bs + m) := by
        have := Nat.div_add_mod (n - m) bs; omega
      have e1 : n / bs = (n - m) / bs := by
        conv => lhs; rw [h1]
        rw [Nat.mul_add_div hb, Nat.div_eq_of_lt h]; rfl
      have e2 : n % bs = (n - m) % bs + m := by
        conv => lhs; rw [h1]
        rw [Nat.mul_add_mod, Nat.mod_eq_of_lt h]
      refine congrArg some (Denotes.unique (Denotes.of ?_ ?_ rfl ?_) d)
      · simp only [e1, v2]
      · simp only [e2]; omega
      · simpa using r2

/-- C25 does not hold: with blocks of four, stepping back by one from element 4 with `+= -1`. -/
theorem negative_movement_violation : ¬ NegativeMovement := by
  intro h
  have := (h 4 twoBlocks ⟨.slot 1, some 9, 0, 0⟩ ⟨.slot 0, some 7, 3, 3⟩ 4 1 (by decide) (by decide) rfl rfl).1
  revert this
  decide

/-- ... and the resulting iterator cannot be dereferenced. -/
theorem negative_movement_dangles {X : Type} (h : Heap X) :
    ∃ it, (Iter.mk (.slot 1) (some 9) 0 0).addAssign 4 twoBlocks (-1) = some it ∧ it.deref 4 h = none :=
  ⟨⟨.slot 1, some 9, -1, -1⟩, by decide, rfl⟩

example : Denotes 4 twoBlocks ⟨.slot 1, some 9, 3, 3⟩ 7 ∧ Denotes 4 twoBlocks ⟨.slot 1, some 9, 1, 1⟩ (7 - 2) ∧
    2 ≤ 7 % 4 := ⟨rfl, rfl, by decide⟩

end Verif.Block.Iter
