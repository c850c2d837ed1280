import Verif.Block.Vector.ThrowProps

/-
C141: the members of the vector that are of type `int` (StableBlockVector.hpp:428-432: `dataSlotsAvailable`, `dataSlotIndex`, `bsize`,
`freeSlotsAvailable`, `freeIndex`).  The model has them as unbounded numbers; here is how large they get.
-/
namespace Verif.Block.Vector
open Verif.Block Vec
variable {X : Type} {N B : Nat}

/-! ## Specification -/

/-- a value of type `int`, with 32 bits -/
def isInt (z : Int) : Prop := -2 ^ 31 ≤ z ∧ z < 2 ^ 31

instance (z : Int) : Decidable (isInt z) := inferInstanceAs (Decidable (_ ∧ _))

/-- the five members that are of type `int` have values of that type (StableBlockVector.hpp:428-432) -/
def Vec.intMembers (v : Vec) : Prop :=
  isInt v.avail ∧ isInt v.slotIdx ∧ isInt v.bsize ∧ isInt v.freeAvail ∧ isInt v.freeIdx

/-- In no state that the program goes through does an object have more than `n` elements. -/
def within (N n : Nat) : AWorld X → List (Op X) → Prop
  | aw, [] => ∀ i a, aw i = some a → a.elems.length ≤ n
  | aw, op :: ops => (∀ i a, aw i = some a → a.elems.length ≤ n) ∧
      ∀ r, ideal N aw op = some r → within N n r.1 ops

/-! ## Invariant -/

/-- `B` full blocks are enough for all elements there ever were: the vector has at most `B + 1` blocks, and its arrays have at most
`2 * (B - 1)` entries -/
structure Fits (N B : Nat) (v : Vec) : Prop where
  null : v.avail = 0 → v.csize = 0 ∧ v.freeIdx = 0 ∧ v.freeAvail = 0 ∧ v.slotIdx = 0
  size : v.avail ≠ 0 → (v.csize : Int) = v.slotIdx * (blockSize N : Nat) + v.bsize
  part : v.bsize ≤ blockSize N
  low : v.avail ≠ 0 → -1 ≤ v.slotIdx
  blocks : v.avail ≠ 0 → v.slotIdx + 1 + v.freeIdx ≤ B + 1
  arr : v.avail + 2 ≤ 2 * B
  free : v.freeAvail + 2 ≤ 2 * B

theorem Fits.growFree {v : Vec} (f : v.freeAvail + 2 ≤ 2 * B) (hB : 33 ≤ B) (h : v.freeIdx + 1 ≤ B) :
    v.growFree.freeAvail + 2 ≤ 2 * B ∧ v.growFree.freeIdx = v.freeIdx ∧ v.growFree.avail = v.avail ∧
      v.growFree.slotIdx = v.slotIdx ∧ v.growFree.bsize = v.bsize ∧ v.growFree.csize = v.csize := by
  rw [Vec.growFree]
  split
  · split
    · exact ⟨by show 64 + 2 ≤ _; omega, rfl, rfl, rfl, rfl, rfl⟩
    · exact ⟨by show v.freeAvail * 2 + 2 ≤ _; omega, rfl, rfl, rfl, rfl, rfl⟩
  · exact ⟨f, rfl, rfl, rfl, rfl, rfl⟩

theorem Fits.mba {v v' : Vec} {b : Nat} (f : v.freeAvail + 2 ≤ 2 * B) (hB : 33 ≤ B) (h : v.freeIdx + 1 ≤ B)
    (e : v.moveBlocktoAvailable b = some v') :
    v'.freeAvail + 2 ≤ 2 * B ∧ v'.freeIdx = v.freeIdx + 1 ∧ v'.avail = v.avail ∧
      v'.slotIdx = v.slotIdx ∧ v'.bsize = v.bsize ∧ v'.csize = v.csize := by
  obtain ⟨g1, g2, g3, g4, g5, g6⟩ := Fits.growFree f hB h
  simp only [Vec.moveBlocktoAvailable, Option.map_eq_some_iff] at e
  obtain ⟨arr, -, rfl⟩ := e
  exact ⟨g1, by rw [← g2], g3, g4, g5, g6⟩

theorem Fits.pushBack {v v' : Vec} {h h' : Heap X} {x : X} (f : Fits N B v) (hB : 33 ≤ B) (hs : v'.csize ≤ B * blockSize N)
    (h0 : v.avail = 0 → v.bsize = blockSize N) (e : v.pushBack N h x = some (v', h')) :
    Fits N B v' ∧ v'.csize = v.csize + 1 ∧ v'.avail ≠ 0 := by
  have hp := blockSize_pos N
  simp only [Vec.pushBack, Option.bind_eq_some_iff, Option.map_eq_some_iff] at e
  obtain ⟨r, hr, b, -, h1, -, e⟩ := e
  cases e
  simp only [Vec.blockCheck] at hr
  split at hr
  · rename_i hb
    have hb' : v.bsize = blockSize N := Nat.le_antisymm f.part hb
    simp only [Option.bind_eq_some_iff, Option.map_eq_some_iff] at hr
    obtain ⟨q, hq, arr, -, hr⟩ := hr
    cases hr
    -- what growing the array does
    have hg : v.growSlots.avail ≠ 0 ∧ v.growSlots.csize = v.csize ∧ v.growSlots.freeIdx = v.freeIdx ∧
        v.growSlots.freeAvail = v.freeAvail ∧ (v.growSlots.csize : Int) = (v.growSlots.slotIdx + 1) * (blockSize N : Nat) ∧
        -1 ≤ v.growSlots.slotIdx ∧ v.growSlots.slotIdx + 1 + v.freeIdx ≤ B + 1 ∧ v.growSlots.slotIdx + 2 ≤ B ∧
        v.growSlots.avail + 2 ≤ 2 * B := by
      by_cases ha : v.avail = 0
      · obtain ⟨n1, n2, -, -⟩ := f.null ha
        rw [Vec.growSlots, if_pos ha]
        exact ⟨by show (64:Nat) ≠ 0; decide, rfl, rfl, rfl, by simp [n1], by simp, by simp [n2]; omega, by simp; omega, by show 64 + 2 ≤ _; omega⟩
      · have h1 := f.size ha
        have h2 := f.low ha
        have h3 := f.blocks ha
        have h4 : (v.csize : Int) = (v.slotIdx + 1) * (blockSize N : Nat) := by rw [h1, hb', Int.add_mul, Int.one_mul]
        -- `csize + 1 ≤ B * blockSize`
        have hs' : v.csize + 1 ≤ B * blockSize N := by
          have : q.2.1.csize = v.csize := by
            simp only [Vec.getNewBlock] at hq
            have hgs : v.growSlots.csize = v.csize := by
              rw [Vec.growSlots]; split
              · rfl
              · split <;> rfl
            split at hq
            · cases hq; exact hgs
            · simp only [Option.map_eq_some_iff] at hq
              obtain ⟨b, -, rfl⟩ := hq
              exact hgs
          have hs2 : q.2.1.csize + 1 ≤ B * blockSize N := hs
          omega
        have h5 : v.slotIdx + 2 ≤ B := by
          by_contra hc
          have hc' : (B : Int) ≤ v.slotIdx + 1 := by omega
          have := Int.mul_le_mul_of_nonneg_right hc' (Int.natCast_nonneg (blockSize N))
          rw [← h4] at this
          have hs3 : ((v.csize + 1 : Nat) : Int) ≤ ((B * blockSize N : Nat) : Int) := by exact_mod_cast hs'
          push_cast at hs3
          omega
        rw [Vec.growSlots, if_neg ha]
        split
        · exact ⟨by show v.avail * 2 ≠ 0; omega, rfl, rfl, rfl, h4, h2, h3, h5, by
            rename_i h6
            show v.avail * 2 + 2 ≤ _
            omega⟩
        · exact ⟨ha, rfl, rfl, rfl, h4, h2, h3, h5, f.arr⟩
    obtain ⟨g1, g2, g3, g4, g5, g6, g7, g8, g9⟩ := hg
    simp only [Vec.getNewBlock] at hq
    split at hq
    · rename_i h0'
      cases hq
      refine ⟨⟨fun h => absurd h g1, fun _ => ?_, by show 0 + 1 ≤ _; omega, fun _ => ?_, fun _ => ?_, g9, ?_⟩, ?_, g1⟩
      · show ((v.growSlots.csize + 1 : Nat) : Int) = (v.growSlots.slotIdx + 1) * _ + ((0 + 1 : Nat) : Int)
        rw [← g5]; push_cast; omega
      · show -1 ≤ v.growSlots.slotIdx + 1; omega
      · show v.growSlots.slotIdx + 1 + 1 + (v.growSlots.freeIdx : Int) ≤ _
        rw [h0']; omega
      · show v.growSlots.freeAvail + 2 ≤ _; rw [g4]; exact f.free
      · show v.growSlots.csize + 1 = _; rw [g2]
    · rename_i h0'
      simp only [Option.map_eq_some_iff] at hq
      obtain ⟨b', -, rfl⟩ := hq
      refine ⟨⟨fun h => absurd h g1, fun _ => ?_, by show 0 + 1 ≤ _; omega, fun _ => ?_, fun _ => ?_, g9, ?_⟩, ?_, g1⟩
      · show ((v.growSlots.csize + 1 : Nat) : Int) = (v.growSlots.slotIdx + 1) * _ + ((0 + 1 : Nat) : Int)
        rw [← g5]; push_cast; omega
      · show -1 ≤ v.growSlots.slotIdx + 1; omega
      · show v.growSlots.slotIdx + 1 + 1 + ((v.growSlots.freeIdx - 1 : Nat) : Int) ≤ _
        rw [g3] at h0' ⊢
        omega
      · show v.growSlots.freeAvail + 2 ≤ _; rw [g4]; exact f.free
      · show v.growSlots.csize + 1 = _; rw [g2]
  · rename_i hb
    cases hr
    have ha : v.avail ≠ 0 := fun h => hb (Nat.le_of_eq (h0 h).symm)
    refine ⟨⟨fun h => absurd h ha, fun _ => ?_, by show v.bsize + 1 ≤ _; omega, fun _ => f.low ha, fun _ => f.blocks ha, f.arr, f.free⟩,
      rfl, ha⟩
    have := f.size ha
    show ((v.csize + 1 : Nat) : Int) = v.slotIdx * _ + ((v.bsize + 1 : Nat) : Int)
    push_cast
    omega

theorem Fits.popBack {v v' : Vec} {h h' : Heap X} (f : Fits N B v) (hB : 33 ≤ B) (e : v.popBack N h = some (v', h')) :
    Fits N B v' := by
  have hp := blockSize_pos N
  rw [Vec.popBack] at e
  split at e
  · cases e; exact f
  · rename_i hc
    simp only [Option.bind_eq_some_iff, Option.map_eq_some_iff] at e
    obtain ⟨u, hu, b, -, h1, -, e⟩ := e
    cases e
    have ha : v.avail ≠ 0 := fun h => hc (f.null h).1
    have hsz := f.size ha
    simp only [Vec.popStep] at hu
    split at hu
    · rename_i hb
      cases hu
      refine ⟨fun h => absurd h ha, fun _ => ?_, Nat.le_trans (Nat.sub_le _ _) f.part, fun _ => f.low ha, fun _ => f.blocks ha, f.arr, f.free⟩
      show ((v.csize - 1 : Nat) : Int) = v.slotIdx * _ + ((v.bsize - 1 : Nat) : Int)
      have hb' : 0 < v.bsize := hb
      omega
    · rename_i hb
      have hb' : v.bsize = 0 := Nat.le_zero.1 (Nat.not_lt.1 hb)
      simp only [Option.bind_eq_some_iff, Option.map_eq_some_iff] at hu
      obtain ⟨b', -, u', hu', rfl⟩ := hu
      have h1 : 0 < v.slotIdx := by
        by_contra hn
        have := Int.mul_le_mul_of_nonneg_right (Int.not_lt.1 hn) (Int.natCast_nonneg (blockSize N))
        omega
      have hbl := f.blocks ha
      obtain ⟨g1, g2, g3, g4, g5, g6⟩ := Fits.mba (v := { v with csize := v.csize - 1, slotIdx := v.slotIdx - 1 }) f.free hB
        (by show v.freeIdx + 1 ≤ B; omega) hu'
      simp only at g2 g3 g4 g5 g6
      refine ⟨fun h => absurd (g3.symm.trans h) ha, fun _ => ?_, by show blockSize N - 1 ≤ _; omega, fun _ => ?_, fun _ => ?_, ?_, g1⟩
      · show (u'.csize : Int) = u'.slotIdx * _ + ((blockSize N - 1 : Nat) : Int)
        rw [g6, g4, Int.sub_mul]
        omega
      · show -1 ≤ u'.slotIdx; rw [g4]; omega
      · show u'.slotIdx + 1 + (u'.freeIdx : Int) ≤ _
        rw [g4, g2]; push_cast; omega
      · show u'.avail + 2 ≤ _; rw [g3]; exact f.arr

theorem Fits.popN (hB : 33 ≤ B) (n : Nat) : ∀ {v v' : Vec} {h h' : Heap X}, Fits N B v → Vec.popN N n v h = some (v', h') → Fits N B v' := by
  induction n with
  | zero => intro v v' h h' f e; cases e; exact f
  | succ n ih =>
    intro v v' h h' f e
    simp only [Vec.popN, Option.bind_eq_some_iff] at e
    obtain ⟨r, h1, e⟩ := e
    exact ih (f.popBack (v' := r.1) (h' := r.2) hB h1) e

theorem pushBack_csize {v v' : Vec} {h h' : Heap X} {x : X} (e : v.pushBack N h x = some (v', h')) : v'.csize = v.csize + 1 := by
  simp only [Vec.pushBack, Option.bind_eq_some_iff, Option.map_eq_some_iff] at e
  obtain ⟨r, hr, b, -, h1, -, e⟩ := e
  cases e
  show r.1.csize + 1 = _
  simp only [Vec.blockCheck] at hr
  split at hr
  · simp only [Option.bind_eq_some_iff, Option.map_eq_some_iff] at hr
    obtain ⟨q, hq, arr, -, hr⟩ := hr
    cases hr
    have hgs : v.growSlots.csize = v.csize := by
      rw [Vec.growSlots]; split
      · rfl
      · split <;> rfl
    show q.2.1.csize + 1 = _
    simp only [Vec.getNewBlock] at hq
    split at hq
    · cases hq; rw [hgs]
    · simp only [Option.map_eq_some_iff] at hq
      obtain ⟨b, -, rfl⟩ := hq
      show v.growSlots.csize + 1 = _
      rw [hgs]
  · cases hr; rfl

theorem pushFrom_csize (R : InRange X) (n : Nat) : ∀ {s : R.S} {v v' : Vec} {h h' : Heap X},
    Vec.pushFrom N R n s v h = some (v', h') → v.csize ≤ v'.csize := by
  induction n with
  | zero =>
    intro s v v' h h' e
    simp only [Vec.pushFrom] at e
    split at e <;> cases e
    exact Nat.le_refl _
  | succ n ih =>
    intro s v v' h h' e
    simp only [Vec.pushFrom] at e
    split at e
    · simp only [Option.bind_eq_some_iff] at e
      obtain ⟨r, -, q, h1, s', -, e⟩ := e
      have h2 := pushBack_csize (v' := q.1) (h' := q.2) h1
      have h3 := ih e
      omega
    · cases e; exact Nat.le_refl _

theorem Fits.pushFrom (R : InRange X) (hB : 33 ≤ B) (n : Nat) : ∀ {s : R.S} {v v' : Vec} {h h' : Heap X}, Fits N B v →
    (v.avail = 0 → v.bsize = blockSize N) → v'.csize ≤ B * blockSize N →
    Vec.pushFrom N R n s v h = some (v', h') → Fits N B v' := by
  induction n with
  | zero =>
    intro s v v' h h' f _ _ e
    simp only [Vec.pushFrom] at e
    split at e <;> cases e
    exact f
  | succ n ih =>
    intro s v v' h h' f h0 hs e
    simp only [Vec.pushFrom] at e
    split at e
    · simp only [Option.bind_eq_some_iff] at e
      obtain ⟨r, -, q, h1, s', -, e⟩ := e
      obtain ⟨f1, -, h2⟩ := f.pushBack (v' := q.1) (h' := q.2) hB (Nat.le_trans (pushFrom_csize R n e) hs) h0 h1
      exact ih f1 (fun h => absurd h h2) hs e
    · cases e; exact f

theorem Fits.assignFrom (R : InRange X) (hB : 33 ≤ B) {n : Nat} {s : R.S} {v v' : Vec} {h h' : Heap X} (f : Fits N B v)
    (h0 : v.avail = 0 → v.bsize = blockSize N) (hs : v'.csize ≤ B * blockSize N) (e : Vec.assignFrom N R n v h s = some (v', h')) :
    Fits N B v' := by
  simp only [Vec.assignFrom, Option.bind_eq_some_iff] at e
  obtain ⟨r, -, e⟩ := e
  split at e
  · exact f.popN hB _ e
  · exact f.pushFrom R hB n h0 hs e

theorem Fits.clearMid (hB : 33 ≤ B) (n : Nat) : ∀ {v v' : Vec} {h h' : Heap X}, v.freeAvail + 2 ≤ 2 * B → v.freeIdx + n ≤ B →
    Vec.clearMid N n v h = some (v', h') → v'.freeAvail + 2 ≤ 2 * B ∧ v'.freeIdx = v.freeIdx + n ∧ v'.avail = v.avail := by
  induction n with
  | zero => intro v v' h h' f _ e; cases e; exact ⟨f, rfl, rfl⟩
  | succ n ih =>
    intro v v' h h' f hn e
    simp only [Vec.clearMid, Option.bind_eq_some_iff] at e
    obtain ⟨h1, -, b, -, u, hu, e⟩ := e
    obtain ⟨g1, g2, g3, -, -, -⟩ := Fits.mba f hB (by omega) hu
    obtain ⟨k1, k2, k3⟩ := ih g1 (by omega) e
    exact ⟨k1, by omega, k3.trans g3⟩

theorem Fits.clear {v v' : Vec} {h h' : Heap X} (f : Fits N B v) (hB : 33 ≤ B) (hs : v.avail ≠ 0 → 0 ≤ v.slotIdx)
    (e : v.clear N h = some (v', h')) : Fits N B v' := by
  rw [Vec.clear] at e
  split at e
  · cases e; exact f
  · rename_i ha
    have hbl := f.blocks ha
    have h0 := hs ha
    simp only [Option.bind_eq_some_iff] at e
    obtain ⟨h1, -, e⟩ := e
    split at e
    · rename_i hpos
      simp only [Option.bind_eq_some_iff, Option.map_eq_some_iff] at e
      obtain ⟨b, -, u, hu, r, hr, h2, -, e⟩ := e
      cases e
      obtain ⟨g1, g2, g3, g4, -, -⟩ := Fits.mba f.free hB (by omega) hu
      obtain ⟨k1, k2, k3⟩ := Fits.clearMid (v' := r.1) (h' := r.2) hB _ g1 (by rw [g2, g4]; omega) hr
      have ha' : r.1.avail = v.avail := k3.trans g3
      refine ⟨fun h => absurd (ha'.symm.trans h) ha, fun _ => by simp, Nat.zero_le _, fun _ => by simp, fun _ => ?_, ?_, k1⟩
      · show (0 : Int) + 1 + (r.1.freeIdx : Int) ≤ _
        rw [k2, g2, g4]; omega
      · show r.1.avail + 2 ≤ _; rw [ha']; exact f.arr
    · rename_i hpos
      cases e
      have hz : v.slotIdx = 0 := by omega
      exact ⟨fun h => absurd h ha, fun _ => by simp [hz], Nat.zero_le _, fun _ => f.low ha, fun _ => hbl, f.arr, f.free⟩

theorem Fits.shrink {v v' : Vec} {h h' : Heap X} (f : Fits N B v) (e : v.shrinkToFit N h = some (v', h')) : Fits N B v' := by
  simp only [Vec.shrinkToFit, Option.map_eq_some_iff] at e
  obtain ⟨h1, -, e⟩ := e
  cases e
  exact ⟨fun h => ⟨(f.null h).1, rfl, (f.null h).2.2⟩, f.size, f.part, f.low, fun h => by
    have := f.blocks h
    show v.slotIdx + 1 + ((0 : Nat) : Int) ≤ _
    omega, f.arr, f.free⟩

theorem Fits.default (hB : 33 ≤ B) : Fits N B (Vec.default N) :=
  ⟨fun _ => ⟨rfl, rfl, rfl, rfl⟩, fun h => absurd rfl h, Nat.le_refl _, fun h => absurd rfl h, fun h => absurd rfl h,
    by show 0 + 2 ≤ _; omega, by show 0 + 2 ≤ _; omega⟩

theorem Fits.ofSize (hB : 33 ≤ B) {n : Nat} {x : X} {v' : Vec} {h h' : Heap X} (hn : n ≤ B * blockSize N)
    (e : Vec.ofSize N h n x = some (v', h')) : Fits N B v' := by
  have hp := blockSize_pos N
  have key : ∀ arr : SlotPtr, Fits N B ⟨n, arr, Nat.max ((n >>> N) + 1) 64, (n >>> N : Nat), n &&& cntmask N, 0, 0, none⟩ := by
    intro arr
    have hd : n / blockSize N ≤ B := by
      rw [← Nat.mul_div_cancel B hp]; exact Nat.div_le_div_right hn
    have hm : Nat.max ((n >>> N) + 1) 64 + 2 ≤ 2 * B := by
      rw [shr_eq]
      have : Nat.max (n / blockSize N + 1) 64 ≤ max (B + 1) 64 := by
        show max _ _ ≤ max _ _
        omega
      omega
    have h64 : 64 ≤ Nat.max ((n >>> N) + 1) 64 := Nat.le_max_right _ _
    refine ⟨fun h => ?_, fun _ => ?_, ?_, fun _ => Int.le_trans (by decide) (Int.natCast_nonneg (n >>> N)), fun _ => ?_, hm, by show 0 + 2 ≤ _; omega⟩
    · have h' : Nat.max ((n >>> N) + 1) 64 = 0 := h
      omega
    · show (n : Int) = ((n >>> N : Nat) : Int) * _ + ((n &&& cntmask N : Nat) : Int)
      rw [shr_eq, mask_eq]
      have := Nat.div_add_mod' n (blockSize N)
      exact_mod_cast this.symm
    · show n &&& cntmask N ≤ _
      rw [mask_eq]; exact Nat.le_of_lt (Nat.mod_lt _ hp)
    · show ((n >>> N : Nat) : Int) + 1 + ((0 : Nat) : Int) ≤ _
      rw [shr_eq]; omega
  simp only [Vec.ofSize] at e
  split at e
  · simp only [Option.map_eq_some_iff] at e
    obtain ⟨p, -, e⟩ := e
    cases e
    exact key p
  · simp only [Option.map_eq_some_iff] at e
    obtain ⟨r, -, e⟩ := e
    cases e
    exact key r.1

theorem Fits.copyCtor (hB : 33 ≤ B) {v v' : Vec} {h h' : Heap X} (f : Fits N B v) (ha : v.dataptr ≠ none → v.avail ≠ 0)
    (hs : v'.csize ≤ B * blockSize N) (e : Vec.copyCtor N v h = some (v', h')) : Fits N B v' := by
  rw [Vec.copyCtor] at e
  split at e
  · cases e; exact Fits.default hB
  · rename_i l hl
    have ha' := ha (by rw [hl]; simp)
    simp only [Vec.assignAll, Option.bind_eq_some_iff] at e
    obtain ⟨b, -, l, -, e⟩ := e
    have f0 : Fits N B { Vec.default N with dataptr := some (List.replicate v.avail none), avail := v.avail, slotIdx := -1 } := by
      refine ⟨fun h => absurd h ha', fun _ => ?_, Nat.le_refl _, fun _ => by simp, fun _ => ?_, f.arr, by show 0 + 2 ≤ _; omega⟩
      · show ((0 : Nat) : Int) = -1 * (blockSize N : Nat) + (blockSize N : Nat)
        omega
      · show (-1 : Int) + 1 + ((0 : Nat) : Int) ≤ _
        omega
    exact f0.assignFrom _ hB (fun h => absurd h ha') hs e

/-! ## Programs -/

def FitsW (N B : Nat) (w : World X) (aw : AWorld X) : Prop :=
  ∀ i v a, w.objs i = some v → aw i = some a → a.moved = false → Fits N B v

theorem FitsW.set {w : World X} {aw : AWorld X} (F : FitsW N B w aw) {i : Nat} {v : Vec} {a : AObj X} {h : Heap X}
    (hv : a.moved = false → Fits N B v) : FitsW N B (⟨upd w.objs i (some v), h⟩ : World X) (upd aw i (some a)) := by
  intro k u b hu hb hm
  by_cases hk : k = i
  · subst hk
    simp only [upd_same] at hu hb
    cases hu; cases hb
    exact hv hm
  · simp only [upd_ne _ _ hk] at hu hb
    exact F k u b hu hb hm

/-- what is known about an object that has not been moved from -/
theorem WInvR.facts {w : World X} {aw us fs} (W : WInv N w aw us fs) {i : Nat} {v : Vec} {a : AObj X} (hv : w.objs i = some v)
    (ha : aw i = some a) (hm : a.moved = false) :
    v.csize = a.elems.length ∧ (v.avail = 0 → v.bsize = blockSize N) ∧ (v.avail ≠ 0 → 0 ≤ v.slotIdx) ∧ (v.dataptr ≠ none → v.avail ≠ 0) := by
  obtain ⟨v0, hv0, c, hr, hu⟩ := W.getLive ha hm
  rw [hv] at hv0; cases hv0
  refine ⟨c.len.symm, fun h => ?_, fun h => ?_, fun h h' => ?_⟩
  · have h1 : (us i).length = 0 := Nat.le_zero.1 (h ▸ c.arr.le)
    have h2 := c.size
    have h3 := c.bsz
    rw [h1] at h2
    omega
  · have h1 : (us i).length ≠ 0 := fun h1 => h (hu (List.length_eq_zero_iff.1 h1))
    have h2 := c.idx.resolve_right h
    omega
  · have h1 := c.arr.len
    have h2 := c.ne
    cases hd : v.dataptr with
    | none => exact h hd
    | some l =>
      rw [hd, h', Option.getD_some] at h1
      exact h2 (by rw [hd, List.length_eq_zero_iff.1 h1])

theorem FitsW.exec (hB : 33 ≤ B) {w w' : World X} {aw aw' : AWorld X} {us fs us' fs'} (W : WInv N w aw us fs) (W' : WInv N w' aw' us' fs')
    (F : FitsW N B w aw) (hs : ∀ i a, aw' i = some a → a.elems.length ≤ B * blockSize N) {op : Op X} {o : Obs X}
    (hc : careful N aw op = true) (hi : ideal N aw op = some (aw', o)) (e : exec N w op = some (w', o)) : FitsW N B w' aw' := by
  have sz : ∀ {i : Nat} {v : Vec} {a : AObj X}, w'.objs i = some v → aw' i = some a → a.moved = false → v.csize ≤ B * blockSize N := by
    intro i v a hv ha hm
    rw [(W'.facts hv ha hm).1]
    exact hs i a ha
  cases op <;> simp only [Vector.exec, Option.bind_eq_some_iff, Option.map_eq_some_iff, Option.some.injEq] at e
  case new i =>
    cases e
    simp only [ideal] at hi
    split at hi <;> cases hi
    exact F.set fun _ => Fits.default hB
  case newSize i n x =>
    obtain ⟨r, h1, e⟩ := e; cases e
    simp only [ideal] at hi
    split at hi <;> cases hi
    exact F.set fun _ => Fits.ofSize (h' := r.2) hB (by simpa using hs i _ (upd_same _ _ _)) h1
  case copyNew i j =>
    obtain ⟨v, hv, r, h1, e⟩ := e; cases e
    simp only [ideal] at hi
    split at hi
    · simp only [Option.map_eq_some_iff] at hi
      obtain ⟨a, ha, hi⟩ := hi
      cases hi
      simp only [careful, ha, Option.any_some, Bool.and_eq_true, Bool.not_eq_true'] at hc
      exact F.set fun hm => Fits.copyCtor (h' := r.2) hB (F j v a hv ha hc.1.1) (W.facts hv ha hc.1.1).2.2.2
        (sz (by simp [upd]) (upd_same _ _ _) hm) h1
    · cases hi
  case moveNew i j =>
    obtain ⟨v, hv, e⟩ := e; cases e
    simp only [ideal] at hi
    split at hi
    · simp only [Option.map_eq_some_iff] at hi
      obtain ⟨a, ha, hi⟩ := hi
      cases hi
      exact FitsW.set (w := ⟨upd w.objs i (some v), w.heap⟩) (F.set (h := w.heap) fun hm => F j v a hv ha hm) fun hm => by cases hm
    · cases hi
  case moveAssign i j =>
    obtain ⟨u, hu, v, hv, r, h1, e⟩ := e; cases e
    simp only [Vec.moveAssign, Option.map_eq_some_iff] at h1
    obtain ⟨h2, -, rfl⟩ := h1
    simp only [ideal] at hi
    split at hi
    · cases hi
    · simp only [Option.bind_eq_some_iff, Option.map_eq_some_iff] at hi
      obtain ⟨a, ha, b, hb, hi⟩ := hi
      cases hi
      exact FitsW.set (w := ⟨upd w.objs i (some v), w.heap⟩) (F.set (h := w.heap) fun hm => F j v b hv hb hm) fun hm => by cases hm
  case copyAssign i j =>
    obtain ⟨u, hu, v, hv, r, h1, e⟩ := e; cases e
    simp only [Vec.copyAssign, Vec.assignAll, Option.bind_eq_some_iff] at h1
    obtain ⟨b, -, l, -, h1⟩ := h1
    simp only [ideal, Option.bind_eq_some_iff, Option.map_eq_some_iff] at hi
    obtain ⟨a, ha, b, hb, hi⟩ := hi
    cases hi
    exact F.set fun hm => (F i u a hu ha hm).assignFrom (h' := r.2) _ hB (W.facts hu ha hm).2.1 (sz (by simp [upd]) (upd_same _ _ _) hm) h1
  case assignRange i j lo hi' =>
    obtain ⟨u, hu, v, hv, r, h1, e⟩ := e; cases e
    simp only [Vec.assignSub, Option.bind_eq_some_iff] at h1
    obtain ⟨b, -, l, -, l', -, h1⟩ := h1
    simp only [ideal, Option.bind_eq_some_iff] at hi
    obtain ⟨a, ha, b, hb, hi⟩ := hi
    split at hi
    · cases hi
      exact F.set fun hm => (F i u a hu ha hm).assignFrom (h' := r.2) _ hB (W.facts hu ha hm).2.1 (sz (by simp [upd]) (upd_same _ _ _) hm) h1
    · cases hi
  case moveRange i j lo hi' left =>
    obtain ⟨u, hu, v, hv, r, h1, e⟩ := e; cases e
    simp only [Vec.assignSub, Option.bind_eq_some_iff] at h1
    obtain ⟨b, -, l, -, l', -, h1⟩ := h1
    simp only [ideal, Option.bind_eq_some_iff] at hi
    obtain ⟨a, ha, b, hb, hi⟩ := hi
    split at hi
    · split at hi
      · split at hi
        · cases hi
          exact F.set fun hm => (F i u a hu ha hm).assignFrom (h' := r.2) _ hB (W.facts hu ha hm).2.1 (sz (by simp [upd]) (upd_same _ _ _) hm) h1
        · cases hi
      · rename_i hij
        cases hi
        have F1 : FitsW N B (⟨upd w.objs i (some r.1), r.2⟩ : World X) (upd aw i (some ⟨(b.elems.take hi').drop lo,
            reservePushes N a.reserved a.elems.length (hi' - lo - a.elems.length), a.moved⟩)) :=
          F.set fun hm => (F i u a hu ha hm).assignFrom (h' := r.2) _ hB (W.facts hu ha hm).2.1
            (sz (i := i) (by simp [upd]) (by rw [upd_ne _ _ hij, upd_same]) hm) h1
        intro k z c hz hc' hm
        by_cases hk : k = j
        · subst hk
          simp only [upd_same] at hc'
          cases hc'
          simp only [upd_ne _ _ (Ne.symm hij)] at hz
          exact F k z b hz hb hm
        · rw [upd_ne _ _ hk] at hc'
          exact F1 k z c hz hc' hm
    · cases hi
  case destroy i =>
    obtain ⟨v, hv, h', h1, e⟩ := e; cases e
    simp only [ideal, Option.map_eq_some_iff] at hi
    obtain ⟨a, ha, hi⟩ := hi
    cases hi
    intro k u b hu hb hm
    by_cases hk : k = i
    · subst hk; simp only [upd_same] at hu; cases hu
    · simp only [upd_ne _ _ hk] at hu hb; exact F k u b hu hb hm
  case push i x =>
    obtain ⟨v, hv, r, h1, e⟩ := e; cases e
    simp only [ideal, Option.map_eq_some_iff] at hi
    obtain ⟨a, ha, hi⟩ := hi
    cases hi
    exact F.set fun hm => ((F i v a hv ha hm).pushBack (h' := r.2) hB (sz (by simp [upd]) (upd_same _ _ _) hm) (W.facts hv ha hm).2.1 h1).1
  case pop i =>
    obtain ⟨v, hv, r, h1, e⟩ := e; cases e
    simp only [ideal, Option.map_eq_some_iff] at hi
    obtain ⟨a, ha, hi⟩ := hi
    cases hi
    exact F.set fun hm => (F i v a hv ha hm).popBack (h' := r.2) hB h1
  case assign i xs =>
    obtain ⟨v, hv, r, h1, e⟩ := e; cases e
    simp only [ideal, Option.map_eq_some_iff] at hi
    obtain ⟨a, ha, hi⟩ := hi
    cases hi
    exact F.set fun hm => (F i v a hv ha hm).assignFrom (h' := r.2) _ hB (W.facts hv ha hm).2.1 (sz (by simp [upd]) (upd_same _ _ _) hm) h1
  case clear i =>
    obtain ⟨v, hv, r, h1, e⟩ := e; cases e
    simp only [ideal, Option.map_eq_some_iff] at hi
    obtain ⟨a, ha, hi⟩ := hi
    cases hi
    exact F.set fun hm => (F i v a hv ha hm).clear (h' := r.2) hB (W.facts hv ha hm).2.2.1 h1
  case shrink i =>
    obtain ⟨v, hv, r, h1, e⟩ := e; cases e
    simp only [ideal, Option.map_eq_some_iff] at hi
    obtain ⟨a, ha, hi⟩ := hi
    cases hi
    intro k u b hu hb hm
    by_cases hk : k = i
    · subst hk
      simp only [upd_same] at hu; cases hu
      exact (F k v b hv hb hm).shrink (h' := r.2) h1
    · simp only [upd_ne _ _ hk] at hu; exact F k u b hu hb hm
  case set i k x =>
    obtain ⟨v, hv, h', h1, e⟩ := e; cases e
    simp only [ideal, Option.bind_eq_some_iff] at hi
    obtain ⟨a, ha, hi⟩ := hi
    split at hi
    · cases hi
      intro k u b hu hb hm
      by_cases hk : k = i
      · subst hk
        simp only [upd_same] at hb; cases hb
        exact F k u a hu ha hm
      · simp only [upd_ne _ _ hk] at hb; exact F k u b hu hb hm
    · cases hi
  case size i =>
    simp only [ideal, Option.map_eq_some_iff] at hi
    obtain ⟨a, ha, hi⟩ := hi
    have : aw' = aw := by cases hi; rfl
    subst this
    obtain ⟨v, hv, e⟩ := e
    simp only [Prod.mk.injEq] at e; rw [← e.1]; exact F
  case empty i =>
    simp only [ideal, Option.map_eq_some_iff] at hi
    obtain ⟨a, ha, hi⟩ := hi
    have : aw' = aw := by cases hi; rfl
    subst this
    obtain ⟨v, hv, e⟩ := e
    simp only [Prod.mk.injEq] at e; rw [← e.1]; exact F
  case get i k =>
    obtain ⟨v, hv, x, h1, e⟩ := e; cases e
    simp only [ideal, Option.bind_eq_some_iff, Option.map_eq_some_iff] at hi
    obtain ⟨a, ha, y, hy, hi⟩ := hi
    cases hi; exact F
  case «at» i k =>
    simp only [ideal, Option.map_eq_some_iff] at hi
    obtain ⟨a, ha, hi⟩ := hi
    have : aw' = aw := by cases hi; rfl
    subst this
    obtain ⟨v, hv, x, h1, e⟩ := e
    cases x <;> (simp only [Prod.mk.injEq] at e; rw [← e.1]; exact F)
  case front i =>
    obtain ⟨v, hv, x, h1, e⟩ := e; cases e
    simp only [ideal, Option.bind_eq_some_iff, Option.map_eq_some_iff] at hi
    obtain ⟨a, ha, y, hy, hi⟩ := hi
    cases hi; exact F
  case back i =>
    obtain ⟨v, hv, x, h1, e⟩ := e; cases e
    simp only [ideal, Option.bind_eq_some_iff, Option.map_eq_some_iff] at hi
    obtain ⟨a, ha, y, hy, hi⟩ := hi
    cases hi; exact F
  case iterate i =>
    obtain ⟨v, hv, x, h1, e⟩ := e; cases e
    simp only [ideal, Option.map_eq_some_iff] at hi
    obtain ⟨a, ha, hi⟩ := hi
    cases hi; exact F

theorem within.now {n : Nat} {aw : AWorld X} {ops : List (Op X)} (h : within N n aw ops) : ∀ i a, aw i = some a → a.elems.length ≤ n := by
  cases ops with
  | nil => exact h
  | cons op ops => exact h.1

theorem run_fits (hB : 33 ≤ B) (ops : List (Op X)) : ∀ (w : World X) (aw aw' : AWorld X) (us fs : Nat → List Nat) (obs : List (Obs X)),
    WInv N w aw us fs → FitsW N B w aw → within N (B * 2 ^ N) aw ops → carefulRun N aw ops = true →
    idealRun N aw ops = some (aw', obs) →
    ∃ w' us' fs', run N w ops = some (w', obs) ∧ WInv N w' aw' us' fs' ∧ FitsW N B w' aw' := by
  induction ops with
  | nil => intro w aw aw' us fs obs W F _ _ hi; cases hi; exact ⟨w, us, fs, rfl, W, F⟩
  | cons op ops ih =>
    intro w aw aw' us fs obs W F hw hc hi
    simp only [idealRun, Option.bind_eq_some_iff, Option.map_eq_some_iff] at hi
    obtain ⟨⟨aw1, o⟩, h1, ⟨aw2, obs2⟩, h2, hi⟩ := hi
    cases hi
    simp only [carefulRun, h1, Bool.and_eq_true] at hc
    obtain ⟨w1, us1, fs1, e1, W1, -⟩ := step w aw us fs W op aw1 o h1 hc.1
    have hw1 := hw.2 _ h1
    have F1 := F.exec hB W W1 (by rw [blockSize_eq]; exact hw1.now) hc.1 h1 e1
    obtain ⟨w', us', fs', e2, W', F'⟩ := ih w1 aw1 aw2 us1 fs1 obs2 W1 F1 hw1 hc.2 h2
    refine ⟨w', us', fs', ?_, W', F'⟩
    rw [run, e1]
    simp only [Option.bind_some, e2, Option.map_some]

/-- Every careful program on any number of vectors: if no vector ever has more elements than fill `B` blocks, for any `B ≥ 33`, then no
vector has ever more than `B + 1` blocks, kept ones included, and its arrays of block pointers have at most `2 * (B - 1)` entries.
(Vectors that have been moved from are excluded; they can only be destroyed or assigned to.) -/
theorem memory_bounded (N B : Nat) (hB : 33 ≤ B) (ops : List (Op X)) (aw : AWorld X) (obs : List (Obs X))
    (hi : idealRun N noObjs ops = some (aw, obs)) (hc : carefulRun N noObjs ops = true) (hw : within N (B * 2 ^ N) noObjs ops) :
    ∃ w, run N World.empty ops = some (w, obs) ∧ ∀ i v a, w.objs i = some v → aw i = some a → a.moved = false →
      v.avail ≤ 2 * (B - 1) ∧ v.freeAvail ≤ 2 * (B - 1) ∧ (v.avail ≠ 0 → v.slotIdx + 1 + v.freeIdx ≤ B + 1) := by
  obtain ⟨w, us, fs, e, W, F⟩ := run_fits hB ops World.empty noObjs aw _ _ obs WInv.empty (fun i v a hv => by cases hv) hw hc hi
  refine ⟨w, e, fun i v a hv ha hm => ?_⟩
  have f := F i v a hv ha hm
  have h1 := f.arr
  have h2 := f.free
  exact ⟨by omega, by omega, f.blocks⟩

theorem Fits.ints {v : Vec} (hN : N ≤ 30) (f : Fits N (2 ^ 30) v) : v.intMembers := by
  have h1 := f.arr
  have h2 := f.free
  have h3 := f.part
  have h4 : blockSize N ≤ 2 ^ 30 := by rw [blockSize_eq]; exact Nat.pow_le_pow_right (by decide) hN
  have h5 : (-1 ≤ v.slotIdx ∧ v.slotIdx ≤ 2 ^ 30 + 1) ∧ v.freeIdx ≤ 2 ^ 30 + 1 := by
    by_cases ha : v.avail = 0
    · obtain ⟨-, n1, -, n2⟩ := f.null ha
      rw [n1, n2]; decide
    · have := f.blocks ha
      have := f.low ha
      omega
  simp only [Vec.intMembers, isInt]
  omega

/-- Every careful program, with blocks of at most `2^30` elements: as long as no vector has more elements than fill `2^30` blocks, the
members of type `int` of all vectors have values of that type.  (Every beginning of such a program is such a program.) -/
theorem int_members_partial (N : Nat) (hN : N ≤ 30) (ops : List (Op X)) (aw : AWorld X) (obs : List (Obs X))
    (hi : idealRun N noObjs ops = some (aw, obs)) (hc : carefulRun N noObjs ops = true)
    (hw : within N (2 ^ 30 * 2 ^ N) noObjs ops) :
    ∃ w, run N World.empty ops = some (w, obs) ∧ ∀ i v a, w.objs i = some v → aw i = some a → a.moved = false → v.intMembers := by
  obtain ⟨w, us, fs, e, W, F⟩ := run_fits (B := 2 ^ 30) (by decide) ops World.empty noObjs aw _ _ obs WInv.empty
    (fun i v a hv => by cases hv) hw hc hi
  exact ⟨w, e, fun i v a hv ha hm => (F i v a hv ha hm).ints hN⟩

/-- a program with two vectors that satisfies the hypotheses -/
example : let ops : List (Op Nat) := [.new 0, .push 0 7, .copyNew 1 0, .clear 0]
    (idealRun 5 noObjs ops).isSome = true ∧ carefulRun 5 noObjs ops = true ∧ within 5 (2 ^ 30 * 2 ^ 5) noObjs ops := by
  refine ⟨rfl, rfl, ?_⟩
  have h1 : ∀ i a, (upd noObjs 0 (some ⟨[], 0, false⟩) : AWorld Nat) i = some a → a.elems.length ≤ 1 := by
    intro i a h; simp only [upd, noObjs] at h; split at h <;> cases h; decide
  have h2 : ∀ i a, (upd (upd noObjs 0 (some ⟨[], 0, false⟩)) 0 (some ⟨[7], 64, false⟩) : AWorld Nat) i = some a → a.elems.length ≤ 1 := by
    intro i a h; simp only [upd, noObjs] at h; split at h <;> cases h; decide
  refine ⟨fun i a h => (by cases h), fun r hr => ?_⟩
  cases hr
  refine ⟨fun i a h => Nat.le_trans (h1 i a h) (by decide), fun r hr => ?_⟩
  cases hr
  refine ⟨fun i a h => Nat.le_trans (h2 i a h) (by decide), fun r hr => ?_⟩
  cases hr
  refine ⟨fun i a h => ?_, fun r hr => ?_⟩
  · simp only [upd, noObjs] at h
    repeat' split at h
    all_goals (cases h <;> decide)
  · cases hr
    intro i a h
    simp only [upd, noObjs] at h
    repeat' split at h
    all_goals (cases h <;> decide)

/-! ## Where it breaks -/

theorem reservePush_pow {r n : Nat} (h : r = 0 ∨ ∃ k, r = 64 * 2 ^ k) : ∃ k, reservePush N r n = 64 * 2 ^ k ∨ n ≠ r * 2 ^ N ∧ r = 0 := by
  rw [reservePush]
  rcases h with rfl | ⟨k, rfl⟩
  · by_cases hn : n = 0 * 2 ^ N
    · exact ⟨0, .inl (by rw [if_pos hn, if_pos rfl])⟩
    · exact ⟨0, .inr ⟨hn, rfl⟩⟩
  · split
    · refine ⟨k + 1, .inl ?_⟩
      rw [if_neg (by have := Nat.two_pow_pos k; omega), Nat.pow_succ, Nat.mul_assoc]
    · exact ⟨k, .inl rfl⟩

/-- the reserved memory of a vector with `n` elements that was only filled with `push_back` -/
def Doubled (r n : Nat) : Prop := r = 0 ∧ n = 0 ∨ ∃ k, r = 64 * 2 ^ k

theorem Doubled.push {r n : Nat} (d : Doubled r n) : Doubled (reservePush N r n) (n + 1) := by
  rcases d with ⟨rfl, rfl⟩ | ⟨k, rfl⟩
  · exact .inr ⟨0, by rw [reservePush, if_pos (Nat.zero_mul _).symm, if_pos rfl]⟩
  · obtain ⟨j, h | ⟨-, h⟩⟩ := reservePush_pow (N := N) (n := n) (.inr ⟨k, rfl⟩)
    · exact .inr ⟨j, h⟩
    · have := Nat.two_pow_pos k; omega

theorem push_sizes (hB : 33 ≤ B) (xs : List X) : ∀ (w : World X) (aw : AWorld X) (a : AObj X) (v : Vec), Reached N w aw → aw 0 = some a →
    a.moved = false → w.objs 0 = some v → Doubled a.reserved a.elems.length →
    ∃ w' os aw' a' v', run N w (xs.map (.push 0)) = some (w', os) ∧ Reached N w' aw' ∧ aw' 0 = some a' ∧
      a'.moved = false ∧ a'.elems = a.elems ++ xs ∧ w'.objs 0 = some v' ∧ Doubled a'.reserved a'.elems.length ∧
      (Fits N B v → (a.elems ++ xs).length ≤ B * 2 ^ N → Fits N B v') := by
  induction xs with
  | nil => intro w aw a v h ha hm hv d; exact ⟨w, [], aw, a, v, rfl, h, ha, hm, by simp, hv, d, fun f _ => f⟩
  | cons x xs ih =>
    intro w aw a v h ha hm hv d
    obtain ⟨us, fs, W⟩ := h.inv
    have hi : ideal N aw (.push 0 x) = some (upd aw 0 (some ⟨a.elems ++ [x], reservePush N a.reserved a.elems.length, a.moved⟩), .done) := by
      simp only [ideal, ha, Option.map_some]
    have hc : careful N aw (.push 0 x) = true := by simp [careful, ha, hm]
    obtain ⟨w1, us1, fs1, e1, W1, _⟩ := step w aw us fs W _ _ _ hi hc
    have h1 := Reached.call h hc hi e1
    have e1' := e1
    simp only [exec, hv, Option.bind_some, Option.map_eq_some_iff] at e1'
    obtain ⟨r, hr1, hr2⟩ := e1'
    cases hr2
    obtain ⟨w', os, aw', a', v', g1, g2, g3, g4, g5, g6, g7, g8⟩ := ih _ _ ⟨a.elems ++ [x], reservePush N a.reserved a.elems.length, a.moved⟩
      r.1 h1 (upd_same _ _ _) hm (by simp [upd]) (by rw [List.length_append]; exact d.push)
    refine ⟨w', .done :: os, aw', a', v', ?_, g2, g3, g4, by rw [g5]; simp, g6, g7, fun f hl => ?_⟩
    · rw [List.map_cons, run, e1]
      simp only [Option.bind_some, g1, Option.map_some]
    · have hl' : ((a.elems ++ [x]) ++ xs).length ≤ B * 2 ^ N := by simpa using hl
      refine g8 (f.pushBack (h' := r.2) hB ?_ (W.facts hv ha hm).2.1 hr1).1 hl'
      rw [pushBack_csize (h' := r.2) hr1, (W.facts hv ha hm).1, blockSize_eq]
      simp only [List.length_append, List.length_cons, List.length_nil] at hl'
      omega

/-- A vector filled by `push_back` alone, for every block size up to `2^30` and every sequence of values: its members of type `int` have
values of that type exactly if the values fill no more than `2^30` blocks.  One value more, and the length of the array of block
pointers becomes `2^31`, which is no `int`. -/
theorem push_only_int_members (N : Nat) (hN : N ≤ 30) (xs : List X) :
    ∃ w os v, run N World.empty (.new 0 :: xs.map (.push 0)) = some (w, os) ∧ w.objs 0 = some v ∧
      (v.intMembers ↔ xs.length ≤ 2 ^ 30 * 2 ^ N) := by
  have h0 : Reached N (⟨upd (World.empty : World X).objs 0 (some (Vec.default N)), Heap.empty⟩ : World X)
      (upd noObjs 0 (some ⟨[], 0, false⟩)) := .call .start (op := .new 0) (o := .done) rfl rfl rfl
  obtain ⟨w, os, aw, a, v, g1, g2, g3, g4, g5, g6, g7, g8⟩ := push_sizes (B := 2 ^ 30) (by decide) xs _ _ ⟨[], 0, false⟩ (Vec.default N) h0
    (upd_same _ _ _) rfl (by simp [upd]) (.inl ⟨rfl, rfl⟩)
  simp only [List.nil_append] at g5 g8
  refine ⟨w, .done :: os, v, ?_, g6, fun h => ?_, fun h => (g8 (Fits.default (by decide)) h).ints hN⟩
  · rw [run]
    simp only [exec, Option.bind_some]
    rw [show (World.empty : World X).heap = Heap.empty from rfl, g1]
    rfl
  · obtain ⟨us, fs, W⟩ := g2.inv
    obtain ⟨v1, hv1, c, hr, hu⟩ := W.getLive g3 g4
    rw [g6] at hv1; cases hv1
    by_contra hn
    have h1 : xs.length ≤ v.avail * 2 ^ N := by
      have h2 := c.csize_le
      rw [← c.len, g5, blockSize_eq] at h2
      exact Nat.le_trans h2 (Nat.mul_le_mul_right _ c.arr.le)
    have h2 : 2 ^ 30 < v.avail := by
      by_contra h2
      exact hn (Nat.le_trans h1 (Nat.mul_le_mul_right _ (Nat.not_lt.1 h2)))
    rw [hr] at h2
    rcases g7 with ⟨h3, -⟩ | ⟨k, hk⟩
    · omega
    · have h4 : 25 ≤ k := by
        by_contra h4
        have : 2 ^ k ≤ 2 ^ 24 := Nat.pow_le_pow_right (by decide) (by omega)
        omega
      have h5 : 2 ^ 25 ≤ 2 ^ k := Nat.pow_le_pow_right (by decide) h4
      have h6 := h.1.2
      rw [hr, hk] at h6
      have h7 : (2 : Int) ^ 31 ≤ ((64 * 2 ^ k : Nat) : Int) := by
        have : (2 : Nat) ^ 31 ≤ 64 * 2 ^ k := by omega
        exact_mod_cast this
      omega

/-- The sized constructor (StableBlockVector.hpp:56-60), for every number of elements: the members of type `int` get values of that type
exactly if the elements fill fewer than `2^31 - 1` blocks. -/
theorem newSize_int_members (N : Nat) (hN : N ≤ 30) (n : Nat) (x : X) :
    ∃ w v, exec N World.empty (.newSize 0 n x) = some (w, .done) ∧ w.objs 0 = some v ∧ (v.intMembers ↔ n < (2 ^ 31 - 1) * 2 ^ N) := by
  obtain ⟨w, us, fs, e, -⟩ := step (World.empty : World X) noObjs _ _ (WInv.empty (N := N)) (.newSize 0 n x) _ _ rfl rfl
  have he := e
  simp only [exec, Option.map_eq_some_iff] at he
  obtain ⟨r, h1, e'⟩ := he
  cases e'
  refine ⟨_, r.1, e, by simp [upd], ?_⟩
  have hs : r.1.slotIdx = ((n >>> N : Nat) : Int) ∧ r.1.avail = Nat.max ((n >>> N) + 1) 64 ∧ r.1.bsize = n &&& cntmask N ∧
      r.1.freeAvail = 0 ∧ r.1.freeIdx = 0 := by
    simp only [Vec.ofSize] at h1
    split at h1 <;> (simp only [Option.map_eq_some_iff] at h1; obtain ⟨q, -, h1⟩ := h1; rw [← h1]; exact ⟨rfl, rfl, rfl, rfl, rfl⟩)
  obtain ⟨s1, s2, s3, s4, s5⟩ := hs
  have hb : n &&& cntmask N < 2 ^ 30 := by
    rw [mask_eq]
    refine Nat.lt_of_lt_of_le (Nat.mod_lt _ (blockSize_pos N)) ?_
    rw [blockSize_eq]; exact Nat.pow_le_pow_right (by decide) hN
  have hd : n >>> N < 2 ^ 31 - 1 ↔ n < (2 ^ 31 - 1) * 2 ^ N := by
    rw [Nat.shiftRight_eq_div_pow]; exact Nat.div_lt_iff_lt_mul (Nat.two_pow_pos N)
  have s2' : r.1.avail = max ((n >>> N) + 1) 64 := s2
  rw [← hd, Vec.intMembers, s1, s2', s3, s4, s5]
  generalize n >>> N = m
  generalize n &&& cntmask N = k at hb
  simp only [isInt]
  omega

/-- the number of values is not limited -/
example (N : Nat) : ∃ xs : List Nat, 2 ^ 30 * 2 ^ N < xs.length := ⟨List.replicate (2 ^ 30 * 2 ^ N + 1) 0, by rw [List.length_replicate]; omega⟩

end Verif.Block.Vector
