import Verif.Block.Iterator.Props
import Verif.Block.Vector.Lemmas

/-
C136 and C137: movements of BlockIterator with the types of the code, `int` for the offset and `ptrdiff_t` for the movement.
`Iter.addAssign` and `Iter.subAssign` (Verif.Block.Iter) compute with unbounded integers; here the offset has 32 bits.
-/
namespace Verif.Block.Iter

/-- the values of the type `int` -/
def IsInt (x : Int) : Prop := -2147483648 ≤ x ∧ x ≤ 2147483647

instance (x : Int) : Decidable (IsInt x) := inferInstanceAs (Decidable (_ ∧ _))

/-- `static_cast<int>` of a value of 64 bits: the `int` that is equal modulo 2^32 (implementation-defined before C++20, but so
on all usual compilers). -/
def toInt (x : Int) : Int := (x + 2147483648) % 4294967296 - 2147483648

/-- BlockIterator.hpp:74-80 with `offset` of type `int`; overflow of it is undefined.  The subtraction in `check` cannot
overflow. -/
def addAssign32 (bs : Int) (arr : SlotPtr) (it : Iter) (movement : Int) : Option Iter :=
  if IsInt (it.offset + toInt movement) then
    check bs arr { it with pos := it.pos + movement, offset := it.offset + toInt movement }
  else none

/-- BlockIterator.hpp:100-106 in the same way.  `-offset` in `checkNeg` overflows for the smallest `int`. -/
def subAssign32 (bs : Int) (arr : SlotPtr) (it : Iter) (movement : Int) : Option Iter :=
  if IsInt (it.offset - toInt movement) ∧ IsInt (-(it.offset - toInt movement)) then
    checkNeg bs arr { it with pos := it.pos - movement, offset := it.offset - toInt movement }
  else none

/-! ## Lemmas -/

theorem toInt_isInt (x : Int) : IsInt (toInt x) := by unfold IsInt toInt; omega

theorem toInt_of_isInt {x : Int} (h : IsInt x) : toInt x = x := by unfold IsInt at h; unfold toInt; omega

/-- the position that `vec` and `offset` stand for -/
def linear (bs : Int) (it : Iter) : Option Int := match it.vec with | .static => none | .slot i => some (bs * i + it.offset)

theorem Denotes.linear_eq {bs arr it n} (d : Denotes bs arr it n) : it.linear bs = some (n : Int) := by
  obtain ⟨v, o, -, -⟩ := d.eqs
  rw [linear, v, o]
  simp only [Option.some.injEq]
  have := Nat.div_add_mod n bs
  exact_mod_cast this

theorem check_linear {bs : Int} {arr : SlotPtr} {it it' : Iter} (e : it.check bs arr = some it') : it'.linear bs = it.linear bs := by
  unfold check at e
  split at e
  · simp only [Option.map_eq_some_iff] at e
    obtain ⟨b, -, rfl⟩ := e
    unfold linear moveVec
    cases it.vec with
    | static => rfl
    | slot i =>
      simp only [Option.some.injEq]
      have := Int.mul_ediv_add_emod (it.offset - bs) bs
      rw [Int.mul_add, Int.mul_add]; omega
  · cases e; rfl

theorem checkNeg_linear {bs : Int} {arr : SlotPtr} {it it' : Iter} (e : it.checkNeg bs arr = some it') :
    it'.linear bs = it.linear bs := by
  unfold checkNeg at e
  split at e
  · simp only [Option.map_eq_some_iff] at e
    obtain ⟨b, -, rfl⟩ := e
    unfold linear moveVec
    cases it.vec with
    | static => rfl
    | slot i =>
      simp only [Option.some.injEq]
      have := Int.mul_ediv_add_emod (-it.offset - 1) bs
      rw [Int.mul_add, Int.mul_neg, Int.mul_add]; omega
  · cases e; rfl

theorem linear_add {bs : Int} {it : Iter} {p o t : Int} {n : Int} (h : it.linear bs = some n) (ho : o = it.offset + t) :
    ({ it with pos := p, offset := o } : Iter).linear bs = some (n + t) := by
  subst ho
  unfold linear at h ⊢
  cases hv : it.vec with
  | static => rw [hv] at h; cases h
  | slot i => rw [hv] at h; simp only [Option.some.injEq] at h ⊢; omega

/-! ## C136 -/

/-- C136, full statement: `it += m` arrives at element `n + m` and `it -= m` at element `n - m`, for every `m` of type
`ptrdiff_t`, in every sequence of blocks that has these positions. -/
def WideMovement : Prop := ∀ (bs : Nat) (arr : SlotPtr) (it it' : Iter) (n m : Nat), 0 < bs → bs < 2 ^ 31 → m < 2 ^ 63 →
  Denotes bs arr it n → (Denotes bs arr it' (n + m) → it.addAssign32 bs arr m = some it') ∧
    (m ≤ n → Denotes bs arr it' (n - m) → it.subAssign32 bs arr m = some it')

/-- C136, what holds of `+=`: it arrives at element `n + m` exactly if the distance from the start of the present block fits in
an `int`. -/
theorem wide_add_partial (bs : Nat) (hb : 0 < bs) (arr : SlotPtr) (it it' : Iter) (n m : Nat)
    (d : Denotes bs arr it n) (d' : Denotes bs arr it' (n + m)) :
    it.addAssign32 bs arr m = some it' ↔ n % bs + m < 2 ^ 31 := by
  obtain ⟨v, o, p, r⟩ := d.eqs
  constructor
  · intro e
    unfold addAssign32 at e
    split at e
    · rename_i hi
      have h1 := check_linear e
      rw [linear_add d.linear_eq rfl, d'.linear_eq] at h1
      simp only [Option.some.injEq, Int.natCast_add] at h1
      have h2 : toInt m = m := by omega
      rw [h2, o] at hi
      have := hi.2
      omega
    · cases e
  · intro h
    have hm : toInt m = m := toInt_of_isInt ⟨by omega, by omega⟩
    have hi : IsInt (it.offset + toInt m) := by rw [hm, o]; exact ⟨by omega, by omega⟩
    rw [addAssign32, if_pos hi, hm]
    exact d.add hb d'

/-- C136, what holds of `-=`: it arrives at element `n - m` exactly if `m` fits in an `int`. -/
theorem wide_sub_partial (bs : Nat) (hb : 0 < bs) (hs : bs < 2 ^ 31) (arr : SlotPtr) (it it' : Iter) (n m : Nat) (hm : m ≤ n)
    (d : Denotes bs arr it n) (d' : Denotes bs arr it' (n - m)) :
    it.subAssign32 bs arr m = some it' ↔ m < 2 ^ 31 := by
  obtain ⟨v, o, p, r⟩ := d.eqs
  have hl := Nat.mod_lt n hb
  constructor
  · intro e
    unfold subAssign32 at e
    split at e
    · have h1 := checkNeg_linear e
      rw [linear_add (t := -toInt m) d.linear_eq (Int.sub_eq_add_neg), d'.linear_eq] at h1
      simp only [Option.some.injEq, Int.natCast_sub hm] at h1
      have h2 : toInt m = m := by omega
      have := (toInt_isInt m).2
      omega
    · cases e
  · intro h
    have hm' : toInt m = m := toInt_of_isInt ⟨by omega, by omega⟩
    have hi : IsInt (it.offset - toInt m) ∧ IsInt (-(it.offset - toInt m)) := by
      rw [hm', o]; exact ⟨⟨by omega, by omega⟩, by omega, by omega⟩
    rw [subAssign32, if_pos hi, hm']
    exact d.sub hb hm d'

/-- C136: in a sequence of less than 2^31 positions all movements are right. -/
theorem wide_movement_small_partial (bs : Nat) (hb : 0 < bs) (hs : bs < 2 ^ 31) (arr : SlotPtr) (it it' : Iter) (n m : Nat)
    (d : Denotes bs arr it n) :
    (n + m < 2 ^ 31 → Denotes bs arr it' (n + m) → it.addAssign32 bs arr m = some it') ∧
    (n < 2 ^ 31 → m ≤ n → Denotes bs arr it' (n - m) → it.subAssign32 bs arr m = some it') := by
  constructor
  · intro h d'
    have := Nat.mod_le n bs
    exact (wide_add_partial bs hb arr it it' n m d d').2 (by omega)
  · intro h hm d'
    exact (wide_sub_partial bs hb hs arr it it' n m hm d d').2 (by omega)

/-- C136 does not hold: a movement by 2^32 is lost.  The iterator compares equal to the old one, but it refers to memory
behind the block. -/
theorem wide_movement_lost {X : Type} (bs : Nat) (hs : bs < 2 ^ 31) (hb : 0 < bs) (arr : SlotPtr) (h : Heap X) (it : Iter) (n : Nat)
    (d : Denotes bs arr it n) : ∃ it', it.addAssign32 bs arr (2 ^ 32) = some it' ∧ it'.eq it = true ∧ it'.deref bs h = none := by
  obtain ⟨v, o, p, r⟩ := d.eqs
  have hl := Nat.mod_lt n hb
  have h0 : toInt (2 ^ 32) = 0 := by decide
  refine ⟨{ it with pos := it.pos + 2 ^ 32 }, ?_, by simp [eq], ?_⟩
  · rw [addAssign32, h0, Int.add_zero, if_pos (by rw [o]; exact ⟨by omega, by omega⟩), check, if_neg (by simp only; rw [o]; omega)]
  · unfold deref
    cases it.blk with
    | none => rfl
    | some b =>
      simp only
      rw [if_pos (by rw [p, o]; omega)]
      unfold Heap.read
      have : ¬ (it.pos + 2 ^ 32).toNat < bs := by rw [p, o]; omega
      rw [if_neg fun c => this c.2]

/-- an object made with `k` elements -/
theorem sized_iters {X : Type} (N k : Nat) (x : X) : ∃ (v : Vector.Vec) (h : Heap X) (b e : Iter),
    Vector.Vec.ofSize N Heap.empty k x = some (v, h) ∧ v.csize = k ∧ v.begin? N = some b ∧ v.end? N = some e ∧
    Denotes (Vector.Vec.blockSize N) v.dataptr b 0 ∧ Denotes (Vector.Vec.blockSize N) v.dataptr e k := by
  obtain ⟨v, h, us, e1, c, -, hu, ha⟩ := Vector.Vec.ofSize_core (N := N) (X := X) (h := Heap.empty) Heap.Wf.empty k x
  have hsz : v.csize = k := by rw [← c.len]; simp
  have hB := Vector.Vec.blockSize_pos N
  have h1 : k / Vector.Vec.blockSize N + 1 ≤ v.avail := by rw [ha]; exact Nat.le_max_left _ _
  have hlt : k < v.avail * Vector.Vec.blockSize N := by
    rw [← Nat.div_lt_iff_lt_mul hB]; omega
  have hn : us = [] → v.avail = 0 := fun hz => by rw [hz] at hu; cases hu
  have hp : v.avail ≠ 0 := Nat.ne_of_gt (Nat.lt_of_lt_of_le (Nat.succ_pos _) h1)
  obtain ⟨b, hb, db⟩ := c.begin_denotes hn hp
  obtain ⟨e, he, de⟩ := c.end_denotes hn hp (by rw [List.length_replicate]; exact hlt)
  rw [hsz] at de
  exact ⟨v, h, b, e, e1, hsz, hb, he, db, de⟩

/-- C136 does not hold for the vector: of the 2^32 elements of an object made with this size and blocks of less than 2^31,
`begin() + size()` compares equal to `begin()` and not to `end()`. -/
theorem wide_movement_violation {X : Type} (N : Nat) (hN : N < 31) (x : X) : ∃ (v : Vector.Vec) (h : Heap X) (b e it : Iter),
    Vector.Vec.ofSize N Heap.empty (2 ^ 32) x = some (v, h) ∧ v.size = 2 ^ 32 ∧ v.begin? N = some b ∧ v.end? N = some e ∧
    b.addAssign32 (Vector.Vec.blockSize N) v.dataptr (v.size : Int) = some it ∧ it.eq b = true ∧ it.eq e = false ∧
    it.deref (Vector.Vec.blockSize N) h = none := by
  obtain ⟨k, hk⟩ : ∃ k, k = 2 ^ 32 := ⟨_, rfl⟩
  rw [← hk]
  obtain ⟨v, h, b, e, e1, hsz, hb, he, db, de⟩ := sized_iters N k x
  have hbs : Vector.Vec.blockSize N < 2 ^ 31 := by
    rw [Vector.Vec.blockSize, Nat.one_shiftLeft]
    exact Nat.pow_lt_pow_right (by decide) hN
  obtain ⟨it, h1, h2, h3⟩ := wide_movement_lost _ hbs (Vector.Vec.blockSize_pos N) v.dataptr h b 0 db
  have hne : b.eq e = false := by
    have := db.eq_iff de
    cases hq : b.eq e with
    | false => rfl
    | true => have := this.1 hq; omega
  refine ⟨v, h, b, e, it, e1, hsz, hb, he, ?_, h2, ?_, h3⟩
  · rw [Vector.Vec.size, hsz, hk]; exact h1
  · simp only [eq, Bool.and_eq_true, decide_eq_true_eq] at h2
    rw [eq, h2.1, h2.2]; exact hne

/-- ... so the full statement does not hold. -/
theorem wide_movement_full_violation : ¬ WideMovement := by
  intro hw
  obtain ⟨v, h, b, e, -, hsz, -, -, db, de⟩ := sized_iters 20 (0 + 2 ^ 32) ()
  have hbs : Vector.Vec.blockSize 20 = 1048576 := rfl
  rw [hbs] at db de
  have := (hw _ _ b e 0 (2 ^ 32) (by decide) (by decide) (by decide) db).1 de
  rw [wide_add_partial _ (by decide) _ _ _ _ _ db de] at this
  revert this; decide

/-- the hypotheses are met by moving from the element 2 to the element 6 of two blocks of four -/
example : (Iter.mk (.slot 0) (some 7) 2 2).addAssign32 4 twoBlocks 4 = some ⟨.slot 1, some 9, 2, 2⟩ ∧
    (Iter.mk (.slot 1) (some 9) 2 2).subAssign32 4 twoBlocks 4 = some ⟨.slot 0, some 7, 2, 2⟩ := by decide


/-! ## C137 -/

/-- The index in its block of the address that `ptr` holds after BlockIterator.hpp:76 (`+=`), before `check` may replace it. -/
def addAddress (it : Iter) (movement : Int) : Int := it.pos + movement

/-- BlockIterator.hpp:83 (`++`). -/
def incrAddress (it : Iter) : Int := it.pos + 1

/-- BlockIterator.hpp:102 (`-=`). -/
def subAddress (it : Iter) (movement : Int) : Int := it.pos - movement

/-- BlockIterator.hpp:109 (`--`). -/
def decrAddress (it : Iter) : Int := it.pos - 1

/-- An address that may be computed from a pointer into a block: of a cell of the block, or one behind the last cell
(anything else is undefined, even if nothing is read from there). -/
def MayPoint (bs : Nat) (a : Int) : Prop := 0 ≤ a ∧ a ≤ bs

/-- These are the addresses that the operators of the model compute. -/
theorem addresses_computed (bs : Int) (arr : SlotPtr) (it : Iter) (m : Int) :
    it.incr bs arr = check bs arr { it with pos := it.incrAddress, offset := it.offset + 1 } ∧
    it.decr bs arr = checkNeg bs arr { it with pos := it.decrAddress, offset := it.offset - 1 } ∧
    it.addAssign bs arr m = check bs arr { it with pos := it.addAddress m, offset := it.offset + m } ∧
    it.subAssign bs arr m = checkNeg bs arr { it with pos := it.subAddress m, offset := it.offset - m } := ⟨rfl, rfl, rfl, rfl⟩

/-- C137, full statement: moving an iterator inside a sequence computes no address outside of a block. -/
def AddressesInBlocks : Prop := ∀ (bs : Nat) (arr : SlotPtr) (it : Iter) (n m : Nat), 0 < bs → Denotes bs arr it n →
  MayPoint bs it.incrAddress ∧ (0 < n → MayPoint bs it.decrAddress) ∧
  ((∃ it', Denotes bs arr it' (n + m)) → MayPoint bs (it.addAddress m)) ∧ (m ≤ n → MayPoint bs (it.subAddress m))

/-- C137, what holds: `++` is right everywhere, `--` except at the first element of a block, and movements by `m` exactly if they
stay in the block or reach its end. -/
theorem addresses_in_blocks_partial (bs : Nat) (hb : 0 < bs) (arr : SlotPtr) (it : Iter) (n m : Nat) (d : Denotes bs arr it n) :
    MayPoint bs it.incrAddress ∧ (MayPoint bs it.decrAddress ↔ n % bs ≠ 0) ∧
    (MayPoint bs (it.addAddress m) ↔ n % bs + m ≤ bs) ∧ (MayPoint bs (it.subAddress m) ↔ m ≤ n % bs) := by
  obtain ⟨v, o, p, r⟩ := d.eqs
  have hl := Nat.mod_lt n hb
  simp only [MayPoint, incrAddress, decrAddress, addAddress, subAddress, p, o]
  omega

/-- C137 does not hold: `--` from the element 4 of two blocks of four computes an address before the block. -/
theorem addresses_in_blocks_violation : ¬ AddressesInBlocks := by
  intro h
  have := (h 4 twoBlocks ⟨.slot 1, some 9, 0, 0⟩ 4 0 (by decide) rfl).2.1 (by decide)
  revert this
  simp [MayPoint, decrAddress]

example : Denotes 4 twoBlocks ⟨.slot 0, some 7, 3, 3⟩ 3 ∧ MayPoint 4 (Iter.mk (.slot 0) (some 7) 3 3).incrAddress :=
  ⟨rfl, by unfold MayPoint incrAddress; decide⟩

end Verif.Block.Iter
