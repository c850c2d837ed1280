import Verif.Block.Deque.Careless
import Verif.Block.Deque.Unwritten

/-
C142: the members of the deque that are of type `int` (StableBlockDeque.hpp:620-626: `dataSlotsAvailable`, `dataSlotBack`,
`dataSlotFront`, `bsize`, `fsize`, `freeSlotsAvailable`, `freeIndex`).  The model has them as unbounded numbers; here is how large they
get.
-/
namespace Verif.Block.Deque
open Verif.Block
variable {X : Type} {P : Pol} {N B : Nat}

/-! ## Specification -/

/-- a value of type `int`, with 32 bits -/
def isInt (z : Int) : Prop := -2 ^ 31 ≤ z ∧ z < 2 ^ 31

instance (z : Int) : Decidable (isInt z) := inferInstanceAs (Decidable (_ ∧ _))

/-- the seven members that are of type `int` have values of that type (StableBlockDeque.hpp:620-626) -/
def Deq.intMembers (v : Deq) : Prop :=
  isInt v.avail ∧ isInt v.back ∧ isInt v.front ∧ isInt v.bsize ∧ isInt v.fsize ∧ isInt v.free.avail ∧ isInt v.free.idx

/-- In no state that the program goes through does an object have more than `n` elements. -/
def within (n : Nat) : AWorld X → List (Op X) → Prop
  | aw, [] => ∀ i xs, aw i = some xs → xs.length ≤ n
  | aw, op :: ops => (∀ i xs, aw i = some xs → xs.length ≤ n) ∧ ∀ r, ideal aw op = some r → within n r.1 ops

/-! ## Invariant -/

/-- `B` full blocks are enough for all elements there ever were: the deque has at most `B + 2` blocks, and its arrays have at most
`2 * B + 10` entries -/
structure Fits (N B : Nat) (v : Deq) : Prop where
  null : v.avail = 0 → v.dataptr = none ∧ v.csize = 0 ∧ v.free.blocks = none ∧ v.free.avail = 0
  size : v.avail ≠ 0 → (v.csize : Int) = (v.back - v.front) * (blockSize N : Nat) + v.bsize - v.fsize - 1
  ord : v.avail ≠ 0 → v.front ≤ v.back ∧ v.back < v.avail
  fr : 0 ≤ v.front ∧ v.front ≤ 2 * B + 10
  bk : 0 ≤ v.back ∧ v.back ≤ 2 * B + 10
  bs : 0 ≤ v.bsize ∧ v.bsize ≤ (blockSize N : Nat)
  fs : -1 ≤ v.fsize ∧ v.fsize + 1 ≤ (blockSize N : Nat)
  blocks : v.avail ≠ 0 → v.back - v.front + 1 + v.free.idx ≤ B + 2
  idx : v.free.idx ≤ B + 2
  arr : v.avail ≤ 2 * B + 10
  free : v.free.avail ≤ 2 * B + 10

theorem FreeL.put_fits {f f' : FreeL} {b : Nat} (h : f.avail ≤ 2 * B + 10) (hB : 27 ≤ B) (hi : f.idx ≤ B) (e : f.put b = some f') :
    f'.avail ≤ 2 * B + 10 ∧ f'.idx = f.idx + 1 := by
  simp only [FreeL.put, Option.map_eq_some_iff] at e
  obtain ⟨p, -, rfl⟩ := e
  simp only [FreeL.grow]
  split
  · split
    · exact ⟨by show 64 ≤ _; omega, rfl⟩
    · exact ⟨by show f.avail * 2 ≤ _; omega, rfl⟩
  · exact ⟨h, rfl⟩

theorem FreeL.get_fits {f : FreeL} {h : Heap X} {r : Nat × FreeL × Heap X} (e : f.get h = some r) :
    r.2.1.avail = f.avail ∧ r.2.1.blocks = f.blocks ∧ (f.idx = 0 ∧ r.2.1.idx = 0 ∨ f.idx = r.2.1.idx + 1) ∧ (f.blocks = none → f.idx = 0) := by
  simp only [FreeL.get] at e
  split at e
  · rename_i h0
    cases e
    exact ⟨rfl, rfl, .inl ⟨h0, h0⟩, fun _ => h0⟩
  · simp only [Option.map_eq_some_iff] at e
    obtain ⟨b, hb, rfl⟩ := e
    exact ⟨rfl, rfl, .inr (by show f.idx = f.idx - 1 + 1; omega), fun h => by rw [h] at hb; cases hb⟩

/-- the first memory -/
theorem Fits.firstBlock {v : Deq} {h : Heap X} {r : Deq × Heap X} (f : Fits N B v) (hB : 27 ≤ B) (ha : v.avail = 0)
    (e : v.firstBlock N h = some r) : Fits N B r.1 ∧ r.1.csize = v.csize ∧ r.1.avail ≠ 0 := by
  obtain ⟨n1, n2, n3, n4⟩ := f.null ha
  have hp := blockSize_pos N
  simp only [Deq.firstBlock, Option.bind_eq_some_iff, Option.map_eq_some_iff] at e
  obtain ⟨q, hq, p, -, rfl⟩ := e
  obtain ⟨g1, g2, g3, g4⟩ := FreeL.get_fits hq
  have h0 := g4 n3
  have hi : q.2.1.idx = 0 := by omega
  refine ⟨⟨fun h => absurd h (by show ¬ (64 : Nat) = 0; decide), fun _ => ?_, fun _ => ⟨Int.le_refl _, by show (30 : Int) < ((64 : Nat) : Int); decide⟩,
    ⟨by show (0 : Int) ≤ 30; decide, by show (30 : Int) ≤ _; omega⟩, ⟨by show (0 : Int) ≤ 30; decide, by show (30 : Int) ≤ _; omega⟩,
    ?_, ?_, fun _ => ?_, ?_, by show 64 ≤ _; omega, ?_⟩, rfl, by show (64 : Nat) ≠ 0; decide⟩
  · show (v.csize : Int) = ((30 : Int) - 30) * _ + _ - _ - 1
    rw [n2]; simp only [Int.sub_self, Int.zero_mul]; omega
  · show 0 ≤ ((blockSize N / 2 : Nat) : Int) - 1 + 1 ∧ ((blockSize N / 2 : Nat) : Int) - 1 + 1 ≤ _
    omega
  · show -1 ≤ ((blockSize N / 2 : Nat) : Int) - 1 ∧ ((blockSize N / 2 : Nat) : Int) - 1 + 1 ≤ _
    omega
  · show (30 : Int) - 30 + 1 + (q.2.1.idx : Int) ≤ _
    rw [hi]; omega
  · show q.2.1.idx ≤ _; omega
  · show q.2.1.avail ≤ _; rw [g1, n4]; omega

theorem blocks_le {c k B : Nat} {d : Int} (h : d * (k : Int) ≤ c) (hc : c + 1 ≤ B * k) : d + 1 ≤ B := by
  by_contra hn
  have h1 : (B : Int) ≤ d := by omega
  have h2 := Int.mul_le_mul_of_nonneg_right h1 (Int.natCast_nonneg k)
  have h3 : ((c + 1 : Nat) : Int) ≤ ((B * k : Nat) : Int) := by exact_mod_cast hc
  push_cast at h3
  omega

theorem Fits.blockCheck {v : Deq} {h : Heap X} {r : Deq × Heap X} (f : Fits N B v) (hB : 27 ≤ B) (hs : v.csize + 1 ≤ B * blockSize N)
    (e : v.blockCheck P N h = some r) : Fits N B r.1 ∧ r.1.csize = v.csize ∧ (r.1.dataptr ≠ none → r.1.avail ≠ 0 ∧ r.1.bsize < (blockSize N : Nat)) := by
  have hp := blockSize_pos N
  rw [Deq.blockCheck] at e
  split at e
  · rename_i hb
    split at e
    · rename_i ha
      obtain ⟨g1, g2, g3⟩ := f.firstBlock hB ha e
      refine ⟨g1, g2, fun _ => ⟨g3, ?_⟩⟩
      simp only [Deq.firstBlock, Option.bind_eq_some_iff, Option.map_eq_some_iff] at e
      obtain ⟨q, hq, p, -, rfl⟩ := e
      show ((blockSize N / 2 : Nat) : Int) - 1 + 1 < _
      omega
    · rename_i ha
      have hsz := f.size ha
      have hord := f.ord ha
      have hbl := f.blocks ha
      have hfs := f.fs
      have hbs := f.bs
      have hfr := f.fr
      have hbk := f.bk
      have hB' : v.back - v.front + 1 ≤ B := blocks_le (k := blockSize N) (by omega) hs
      simp only [Option.bind_eq_some_iff, Option.map_eq_some_iff] at e
      obtain ⟨u, hu, q, hq, p, -, rfl⟩ := e
      obtain ⟨g1, g2, g3, -⟩ := FreeL.get_fits hq
      have hroom : u.csize = v.csize ∧ u.bsize = v.bsize ∧ u.fsize = v.fsize ∧ u.free = v.free ∧ u.back - u.front = v.back - v.front ∧
          0 ≤ u.front ∧ u.back + 1 < u.avail ∧ u.avail ≠ 0 ∧ u.avail ≤ 2 * B + 10 := by
        rw [Deq.roomBack] at hu
        split at hu
        · rename_i h1
          split at hu
          · rename_i h2
            simp only [Option.bind_eq_some_iff, Option.map_eq_some_iff] at hu
            obtain ⟨l, -, l', -, rfl⟩ := hu
            refine ⟨rfl, rfl, rfl, rfl, ?_, ?_, ?_, ha, f.arr⟩
            · show v.front / 2 + (v.back - v.front) - v.front / 2 = _; omega
            · show 0 ≤ v.front / 2; omega
            · show v.front / 2 + (v.back - v.front) + 1 < (v.avail : Int); omega
          · rename_i h2
            simp only [Option.bind_eq_some_iff, Option.map_eq_some_iff] at hu
            obtain ⟨l, -, l', -, rfl⟩ := hu
            refine ⟨rfl, rfl, rfl, rfl, rfl, hfr.1, ?_, ?_, ?_⟩
            · show v.back + 1 < ((v.avail * 2 : Nat) : Int); omega
            · show v.avail * 2 ≠ 0; omega
            · show v.avail * 2 ≤ _; omega
        · rename_i h1
          cases hu
          exact ⟨rfl, rfl, rfl, rfl, rfl, hfr.1, by omega, ha, f.arr⟩
      obtain ⟨r1, r2, r3, r4, r5, r6, r7, r8, r9⟩ := hroom
      rw [r4] at g1 g3
      refine ⟨⟨fun h => absurd h r8, fun _ => ?_, fun _ => ?_, ?_, ?_, ?_, ?_, fun _ => ?_, ?_, r9, ?_⟩, r1, fun _ => ⟨r8, ?_⟩⟩
      · show (u.csize : Int) = (u.back + 1 - u.front) * _ + 0 - u.fsize - 1
        rw [r1, hsz, r3, show u.back + 1 - u.front = (v.back - v.front) + 1 from by omega, Int.add_mul, Int.one_mul]
        omega
      · show u.front ≤ u.back + 1 ∧ u.back + 1 < (u.avail : Int)
        omega
      · show 0 ≤ u.front ∧ u.front ≤ _; omega
      · show 0 ≤ u.back + 1 ∧ u.back + 1 ≤ _; omega
      · show (0 : Int) ≤ 0 ∧ (0 : Int) ≤ _; omega
      · show -1 ≤ u.fsize ∧ u.fsize + 1 ≤ _; rw [r3]; exact f.fs
      · show u.back + 1 - u.front + 1 + (q.2.1.idx : Int) ≤ _
        omega
      · show q.2.1.idx ≤ _
        have := f.idx
        omega
      · show q.2.1.avail ≤ _; rw [g1]; exact f.free
      · show (0 : Int) < _; omega
  · rename_i hb
    cases e
    exact ⟨f, rfl, fun hd => ⟨fun ha => hd (f.null ha).1, by show v.bsize < _; omega⟩⟩

theorem Fits.pushBack {v v' : Deq} {h h' : Heap X} {x : X} (f : Fits N B v) (hB : 27 ≤ B) (hs : v.csize + 1 ≤ B * blockSize N)
    (e : v.pushBack P N h x = some (v', h')) : Fits N B v' := by
  simp only [Deq.pushBack, Option.bind_eq_some_iff, Option.map_eq_some_iff] at e
  obtain ⟨r, hr, h1, hc, e⟩ := e
  cases e
  obtain ⟨g, -, g3⟩ := f.blockCheck hB hs hr
  obtain ⟨ha, hb⟩ := g3 (constructAt_ne hc)
  have h0 := g.bs
  refine ⟨fun h => absurd h ha, fun _ => ?_, g.ord, g.fr, g.bk, ?_, g.fs, g.blocks, g.idx, g.arr, g.free⟩
  · have := g.size ha
    show ((r.1.csize + 1 : Nat) : Int) = (r.1.back - r.1.front) * _ + (r.1.bsize + 1) - r.1.fsize - 1
    push_cast
    omega
  · show 0 ≤ r.1.bsize + 1 ∧ r.1.bsize + 1 ≤ _
    omega

theorem Fits.blockCheckFront {v : Deq} {h : Heap X} {r : Deq × Heap X} (f : Fits N B v) (hB : 27 ≤ B) (hs : v.csize + 1 ≤ B * blockSize N)
    (e : v.blockCheckFront P N h = some r) : Fits N B r.1 ∧ r.1.csize = v.csize ∧ (r.1.dataptr ≠ none → r.1.avail ≠ 0) := by
  have hp := blockSize_pos N
  rw [Deq.blockCheckFront] at e
  split at e
  · rename_i hb
    split at e
    · rename_i ha
      obtain ⟨g1, g2, g3⟩ := f.firstBlock hB ha e
      exact ⟨g1, g2, fun _ => g3⟩
    · rename_i ha
      have hsz := f.size ha
      have hord := f.ord ha
      have hbl := f.blocks ha
      have hfs := f.fs
      have hbs := f.bs
      have hfr := f.fr
      have hbk := f.bk
      have hB' : v.back - v.front + 1 ≤ B := blocks_le (k := blockSize N) (by omega) hs
      simp only [Option.bind_eq_some_iff, Option.map_eq_some_iff] at e
      obtain ⟨u, hu, q, hq, p, -, rfl⟩ := e
      obtain ⟨g1, g2, g3, -⟩ := FreeL.get_fits hq
      have hroom : u.csize = v.csize ∧ u.bsize = v.bsize ∧ u.fsize = v.fsize ∧ u.free = v.free ∧ u.back - u.front = v.back - v.front ∧
          1 ≤ u.front ∧ u.back < u.avail ∧ u.avail ≠ 0 ∧ u.avail ≤ 2 * B + 10 := by
        rw [Deq.roomFront] at hu
        split at hu
        · rename_i h1
          simp only at hu
          split at hu
          · rename_i h2
            simp only [Option.bind_eq_some_iff, Option.map_eq_some_iff] at hu
            obtain ⟨l, -, l', -, rfl⟩ := hu
            refine ⟨rfl, rfl, rfl, rfl, ?_, ?_, ?_, ha, f.arr⟩
            · show ((v.avail : Int) - v.back) / 2 + (v.back - v.front) - ((v.avail : Int) - v.back) / 2 = _; omega
            · show 1 ≤ ((v.avail : Int) - v.back) / 2; omega
            · show ((v.avail : Int) - v.back) / 2 + (v.back - v.front) < (v.avail : Int); omega
          · rename_i h2
            simp only [Option.bind_eq_some_iff, Option.map_eq_some_iff] at hu
            obtain ⟨l, -, l', -, rfl⟩ := hu
            refine ⟨rfl, rfl, rfl, rfl, ?_, ?_, ?_, ?_, ?_⟩
            · show (v.avail : Int) + (v.back - v.front) - (v.avail : Int) = _; omega
            · show 1 ≤ (v.avail : Int); omega
            · show (v.avail : Int) + (v.back - v.front) < ((v.avail * 2 : Nat) : Int); omega
            · show v.avail * 2 ≠ 0; omega
            · show v.avail * 2 ≤ _; omega
        · rename_i h1
          cases hu
          exact ⟨rfl, rfl, rfl, rfl, rfl, by omega, hord.2, ha, f.arr⟩
      obtain ⟨r1, r2, r3, r4, r5, r6, r7, r8, r9⟩ := hroom
      rw [r4] at g1 g3
      refine ⟨⟨fun h => absurd h r8, fun _ => ?_, fun _ => ?_, ?_, ?_, ?_, ?_, fun _ => ?_, ?_, r9, ?_⟩, r1, fun _ => r8⟩
      · show (u.csize : Int) = (u.back - (u.front - 1)) * _ + u.bsize - (((blockSize N : Nat) : Int) - 1) - 1
        rw [r1, hsz, r2, show u.back - (u.front - 1) = (v.back - v.front) + 1 from by omega, Int.add_mul, Int.one_mul]
        omega
      · show u.front - 1 ≤ u.back ∧ u.back < (u.avail : Int)
        omega
      · show 0 ≤ u.front - 1 ∧ u.front - 1 ≤ _; omega
      · show 0 ≤ u.back ∧ u.back ≤ _; omega
      · show 0 ≤ u.bsize ∧ u.bsize ≤ _; rw [r2]; exact f.bs
      · show -1 ≤ ((blockSize N : Nat) : Int) - 1 ∧ ((blockSize N : Nat) : Int) - 1 + 1 ≤ _; omega
      · show u.back - (u.front - 1) + 1 + (q.2.1.idx : Int) ≤ _
        omega
      · show q.2.1.idx ≤ _
        have := f.idx
        omega
      · show q.2.1.avail ≤ _; rw [g1]; exact f.free
  · rename_i hb
    cases e
    exact ⟨f, rfl, fun hd ha => hd (f.null ha).1⟩

theorem Fits.pushFront {v v' : Deq} {h h' : Heap X} {x : X} (f : Fits N B v) (hB : 27 ≤ B) (hs : v.csize + 1 ≤ B * blockSize N)
    (e : v.pushFront P N h x = some (v', h')) : Fits N B v' := by
  simp only [Deq.pushFront, Option.bind_eq_some_iff, Option.map_eq_some_iff] at e
  obtain ⟨r, hr, h1, hc, e⟩ := e
  cases e
  obtain ⟨g, -, g3⟩ := f.blockCheckFront hB hs hr
  have ha := g3 (constructAt_ne hc)
  have h0 := g.fs
  have h2 : 0 ≤ r.1.fsize := by
    simp only [constructAt, Option.bind_eq_some_iff, natIdx] at hc
    obtain ⟨b, -, j, hj, -⟩ := hc
    split at hj
    · assumption
    · cases hj
  refine ⟨fun h => absurd h ha, fun _ => ?_, g.ord, g.fr, g.bk, g.bs, ?_, g.blocks, g.idx, g.arr, g.free⟩
  · have := g.size ha
    show ((r.1.csize + 1 : Nat) : Int) = (r.1.back - r.1.front) * _ + r.1.bsize - (r.1.fsize - 1) - 1
    push_cast
    omega
  · show -1 ≤ r.1.fsize - 1 ∧ r.1.fsize - 1 + 1 ≤ _
    omega

theorem lt_of_pos_mul {d : Int} {k : Nat} (h : 0 < d * (k : Int)) : 0 < d := by
  by_contra hn
  have := Int.mul_le_mul_of_nonneg_right (Int.not_lt.1 hn) (Int.natCast_nonneg k)
  omega

theorem Fits.popBack {v v' : Deq} {h h' : Heap X} (f : Fits N B v) (hB : 27 ≤ B) (e : v.popBack P N h = some (v', h')) : Fits N B v' := by
  have hp := blockSize_pos N
  rw [Deq.popBack] at e
  split at e
  · cases e; exact f
  · rename_i hc
    simp only [Option.bind_eq_some_iff, Option.map_eq_some_iff] at e
    obtain ⟨u, hu, h1, -, e⟩ := e
    cases e
    have ha : v.avail ≠ 0 := fun h => hc (f.null h).2.1
    have hsz := f.size ha
    have hord := f.ord ha
    have hbl := f.blocks ha
    have hfs := f.fs
    have hbs := f.bs
    have hbk := f.bk
    have hfr := f.fr
    simp only [Deq.popBackStep] at hu
    split at hu
    · rename_i hb
      cases hu
      refine ⟨fun h => absurd h ha, fun _ => ?_, fun _ => hord, hfr, hbk, ?_, hfs, fun _ => hbl, f.idx, f.arr, f.free⟩
      · show ((v.csize - 1 : Nat) : Int) = (v.back - v.front) * _ + (v.bsize - 1) - v.fsize - 1
        omega
      · show 0 ≤ v.bsize - 1 ∧ v.bsize - 1 ≤ _
        have hb' : 0 < v.bsize := hb
        omega
    · rename_i hb
      have hb' : v.bsize = 0 := by
        have : ¬ (v.bsize > 0) := hb
        omega
      simp only [Option.bind_eq_some_iff, Option.map_eq_some_iff] at hu
      obtain ⟨b, -, q, hq, rfl⟩ := hu
      have hd : 0 < v.back - v.front := lt_of_pos_mul (k := blockSize N) (by omega)
      obtain ⟨g1, g2⟩ := FreeL.put_fits f.free hB (by omega) hq
      refine ⟨fun h => absurd h ha, fun _ => ?_, fun _ => ?_, hfr, ?_, ?_, hfs, fun _ => ?_, ?_, f.arr, g1⟩
      · show ((v.csize - 1 : Nat) : Int) = (v.back - 1 - v.front) * _ + (((blockSize N : Nat) : Int) - 1) - v.fsize - 1
        rw [show v.back - 1 - v.front = (v.back - v.front) - 1 from by omega, Int.sub_mul, Int.one_mul]
        omega
      · show v.front ≤ v.back - 1 ∧ v.back - 1 < (v.avail : Int); omega
      · show 0 ≤ v.back - 1 ∧ v.back - 1 ≤ _; omega
      · show 0 ≤ ((blockSize N : Nat) : Int) - 1 ∧ ((blockSize N : Nat) : Int) - 1 ≤ _; omega
      · show v.back - 1 - v.front + 1 + (q.idx : Int) ≤ _; omega
      · show q.idx ≤ _; omega

theorem Fits.popFront {v v' : Deq} {h h' : Heap X} (f : Fits N B v) (hB : 27 ≤ B) (e : v.popFront P N h = some (v', h')) : Fits N B v' := by
  have hp := blockSize_pos N
  rw [Deq.popFront] at e
  split at e
  · cases e; exact f
  · rename_i hc
    simp only [Option.bind_eq_some_iff, Option.map_eq_some_iff] at e
    obtain ⟨u, hu, h1, -, e⟩ := e
    cases e
    have ha : v.avail ≠ 0 := fun h => hc (f.null h).2.1
    have hsz := f.size ha
    have hord := f.ord ha
    have hbl := f.blocks ha
    have hfs := f.fs
    have hbs := f.bs
    have hbk := f.bk
    have hfr := f.fr
    simp only [Deq.popFrontStep] at hu
    split at hu
    · rename_i hb
      cases hu
      have hb' : v.fsize ≠ ((blockSize N : Nat) : Int) - 1 := hb
      refine ⟨fun h => absurd h ha, fun _ => ?_, fun _ => hord, hfr, hbk, hbs, ?_, fun _ => hbl, f.idx, f.arr, f.free⟩
      · show ((v.csize - 1 : Nat) : Int) = (v.back - v.front) * _ + v.bsize - (v.fsize + 1) - 1
        omega
      · show -1 ≤ v.fsize + 1 ∧ v.fsize + 1 + 1 ≤ _
        omega
    · rename_i hb
      have hb' : v.fsize = ((blockSize N : Nat) : Int) - 1 := Classical.not_not.1 hb
      simp only [Option.bind_eq_some_iff, Option.map_eq_some_iff] at hu
      obtain ⟨b, -, q, hq, rfl⟩ := hu
      have hd : 0 < v.back - v.front := lt_of_pos_mul (k := blockSize N) (by omega)
      obtain ⟨g1, g2⟩ := FreeL.put_fits f.free hB (by omega) hq
      refine ⟨fun h => absurd h ha, fun _ => ?_, fun _ => ?_, ?_, hbk, hbs, ?_, fun _ => ?_, ?_, f.arr, g1⟩
      · show ((v.csize - 1 : Nat) : Int) = (v.back - (v.front + 1)) * _ + v.bsize - 0 - 1
        rw [show v.back - (v.front + 1) = (v.back - v.front) - 1 from by omega, Int.sub_mul, Int.one_mul]
        omega
      · show v.front + 1 ≤ v.back ∧ v.back < (v.avail : Int); omega
      · show 0 ≤ v.front + 1 ∧ v.front + 1 ≤ _; omega
      · show (-1 : Int) ≤ 0 ∧ (0 : Int) + 1 ≤ _; omega
      · show v.back - (v.front + 1) + 1 + (q.idx : Int) ≤ _; omega
      · show q.idx ≤ _; omega


theorem Fits.popN (hB : 27 ≤ B) (n : Nat) : ∀ {v v' : Deq} {h h' : Heap X}, Fits N B v → Deq.popN P N n v h = some (v', h') → Fits N B v' := by
  induction n with
  | zero => intro v v' h h' f e; cases e; exact f
  | succ n ih =>
    intro v v' h h' f e
    simp only [Deq.popN, Option.bind_eq_some_iff] at e
    obtain ⟨r, h1, e⟩ := e
    exact ih (f.popBack (v' := r.1) (h' := r.2) hB h1) e

theorem roomBack_csize {v u : Deq} (e : v.roomBack P = some u) : u.csize = v.csize := by
  rw [Deq.roomBack] at e
  split at e
  · split at e <;>
    · simp only [Option.bind_eq_some_iff, Option.map_eq_some_iff] at e
      obtain ⟨l, -, l', -, rfl⟩ := e
      rfl
  · cases e; rfl

theorem roomFront_csize {v u : Deq} (e : v.roomFront P = some u) : u.csize = v.csize := by
  rw [Deq.roomFront] at e
  split at e
  · simp only at e
    split at e <;>
    · simp only [Option.bind_eq_some_iff, Option.map_eq_some_iff] at e
      obtain ⟨l, -, l', -, rfl⟩ := e
      rfl
  · cases e; rfl

theorem firstBlock_csize {v : Deq} {h : Heap X} {r : Deq × Heap X} (e : v.firstBlock N h = some r) : r.1.csize = v.csize := by
  simp only [Deq.firstBlock, Option.bind_eq_some_iff, Option.map_eq_some_iff] at e
  obtain ⟨q, -, p, -, rfl⟩ := e
  rfl

theorem pushBack_csize {v v' : Deq} {h h' : Heap X} {x : X} (e : v.pushBack P N h x = some (v', h')) : v'.csize = v.csize + 1 := by
  simp only [Deq.pushBack, Option.bind_eq_some_iff, Option.map_eq_some_iff] at e
  obtain ⟨r, hr, h1, hc, e⟩ := e
  cases e
  show r.1.csize + 1 = _
  rw [Deq.blockCheck] at hr
  split at hr
  · split at hr
    · rw [firstBlock_csize hr]
    · simp only [Option.bind_eq_some_iff, Option.map_eq_some_iff] at hr
      obtain ⟨u, hu, q, -, p, -, rfl⟩ := hr
      show u.csize + 1 = _
      rw [roomBack_csize hu]
  · cases hr; rfl

theorem pushFront_csize {v v' : Deq} {h h' : Heap X} {x : X} (e : v.pushFront P N h x = some (v', h')) : v'.csize = v.csize + 1 := by
  simp only [Deq.pushFront, Option.bind_eq_some_iff, Option.map_eq_some_iff] at e
  obtain ⟨r, hr, h1, hc, e⟩ := e
  cases e
  show r.1.csize + 1 = _
  rw [Deq.blockCheckFront] at hr
  split at hr
  · split at hr
    · rw [firstBlock_csize hr]
    · simp only [Option.bind_eq_some_iff, Option.map_eq_some_iff] at hr
      obtain ⟨u, hu, q, -, p, -, rfl⟩ := hr
      show u.csize + 1 = _
      rw [roomFront_csize hu]
  · cases hr; rfl

theorem pushFrom_csize (R : InRange X) (n : Nat) : ∀ {s : R.S} {v v' : Deq} {h h' : Heap X},
    Deq.pushFrom P N R n s v h = some (v', h') → v.csize ≤ v'.csize := by
  induction n with
  | zero =>
    intro s v v' h h' e
    simp only [Deq.pushFrom] at e
    split at e <;> cases e
    exact Nat.le_refl _
  | succ n ih =>
    intro s v v' h h' e
    simp only [Deq.pushFrom] at e
    split at e
    · simp only [Option.bind_eq_some_iff] at e
      obtain ⟨r, -, q, h1, s', -, e⟩ := e
      have h2 := pushBack_csize (v' := q.1) (h' := q.2) h1
      have h3 := ih e
      omega
    · cases e; exact Nat.le_refl _

theorem Fits.pushFrom (R : InRange X) (hB : 27 ≤ B) (n : Nat) : ∀ {s : R.S} {v v' : Deq} {h h' : Heap X}, Fits N B v →
    v'.csize ≤ B * blockSize N → Deq.pushFrom P N R n s v h = some (v', h') → Fits N B v' := by
  induction n with
  | zero =>
    intro s v v' h h' f _ e
    simp only [Deq.pushFrom] at e
    split at e <;> cases e
    exact f
  | succ n ih =>
    intro s v v' h h' f hs e
    simp only [Deq.pushFrom] at e
    split at e
    · simp only [Option.bind_eq_some_iff] at e
      obtain ⟨r, -, q, h1, s', -, e⟩ := e
      have h2 := pushFrom_csize R n e
      have h3 := pushBack_csize (v' := q.1) (h' := q.2) h1
      exact ih (f.pushBack (v' := q.1) (h' := q.2) hB (by omega) h1) hs e
    · cases e; exact f

theorem Fits.assignFrom (R : InRange X) (hB : 27 ≤ B) {n : Nat} {s : R.S} {v v' : Deq} {h h' : Heap X} (f : Fits N B v)
    (hs : v'.csize ≤ B * blockSize N) (e : Deq.assignFrom P N R n v h s = some (v', h')) : Fits N B v' := by
  simp only [Deq.assignFrom, Option.bind_eq_some_iff] at e
  obtain ⟨⟨v1, h1, s1⟩, e1, e2⟩ := e
  refine Fits.pushFrom R hB n ?_ hs e2
  simp only [Deq.assignOver] at e1
  split at e1
  · simp only [Option.bind_eq_some_iff] at e1
    obtain ⟨b, -, l, -, r, -, e1⟩ := e1
    split at e1
    · simp only [Option.bind_eq_some_iff, Option.map_eq_some_iff] at e1
      obtain ⟨k, -, q, hq, e1⟩ := e1
      cases e1
      exact f.popN hB k hq
    · cases e1; exact f
  · cases e1; exact f

theorem Fits.clearMid (hB : 27 ≤ B) {p : SlotPtr} (n : Nat) : ∀ {ii : Int} {f f' : FreeL} {h h' : Heap X}, f.avail ≤ 2 * B + 10 →
    f.idx + n ≤ B + 1 → Deq.clearMid P N p ii n f h = some (f', h') → f'.avail ≤ 2 * B + 10 ∧ f'.idx = f.idx + n := by
  induction n with
  | zero => intro ii f f' h h' hf _ e; cases e; exact ⟨hf, rfl⟩
  | succ n ih =>
    intro ii f f' h h' hf hn e
    simp only [Deq.clearMid, Option.bind_eq_some_iff] at e
    obtain ⟨h1, -, b, -, q, hq, e⟩ := e
    obtain ⟨g1, g2⟩ := FreeL.put_fits hf hB (by omega) hq
    obtain ⟨k1, k2⟩ := ih g1 (by omega) e
    exact ⟨k1, by omega⟩

theorem Fits.clear {v v' : Deq} {h h' : Heap X} (f : Fits N B v) (hB : 27 ≤ B) (e : v.clear P N h = some (v', h')) : Fits N B v' := by
  have hp := blockSize_pos N
  rw [Deq.clear] at e
  split at e
  · cases e; exact f
  · rename_i h0
    have ha : v.avail ≠ 0 := fun h => h0 (.inl h)
    have hord := f.ord ha
    have hbl := f.blocks ha
    simp only [Option.bind_eq_some_iff, Option.map_eq_some_iff] at e
    obtain ⟨h1, -, r, hr, q, hq, b, -, p, -, e⟩ := e
    cases e
    obtain ⟨k1, k2⟩ := Fits.clearMid (f' := r.1) (h' := r.2) hB _ f.free (by omega) hr
    have hq' : q.1.avail ≤ 2 * B + 10 ∧ q.1.idx ≤ B + 1 := by
      simp only [Deq.clearFront] at hq
      split at hq
      · simp only [Option.bind_eq_some_iff, Option.map_eq_some_iff] at hq
        obtain ⟨b', -, f2, hf2, h2, -, e2⟩ := hq
        cases e2
        obtain ⟨g1, g2⟩ := FreeL.put_fits k1 hB (by omega) hf2
        exact ⟨g1, by show f2.idx ≤ _; omega⟩
      · cases hq
        exact ⟨k1, by show r.1.idx ≤ _; omega⟩
    have harr := f.arr
    refine ⟨fun h => absurd h ha, fun _ => ?_, fun _ => ?_, ?_, ?_, ?_, ?_, fun _ => ?_, ?_, harr, hq'.1⟩
    · show ((0 : Nat) : Int) = (((v.avail / 2 : Nat) : Int) - ((v.avail / 2 : Nat) : Int)) * _ + (((blockSize N / 2 : Nat) : Int) + 1) -
        ((blockSize N / 2 : Nat) : Int) - 1
      rw [Int.sub_self, Int.zero_mul]; omega
    · show ((v.avail / 2 : Nat) : Int) ≤ ((v.avail / 2 : Nat) : Int) ∧ ((v.avail / 2 : Nat) : Int) < (v.avail : Int); omega
    · show 0 ≤ ((v.avail / 2 : Nat) : Int) ∧ ((v.avail / 2 : Nat) : Int) ≤ _; omega
    · show 0 ≤ ((v.avail / 2 : Nat) : Int) ∧ ((v.avail / 2 : Nat) : Int) ≤ _; omega
    · show 0 ≤ ((blockSize N / 2 : Nat) : Int) + 1 ∧ ((blockSize N / 2 : Nat) : Int) + 1 ≤ _; omega
    · show -1 ≤ ((blockSize N / 2 : Nat) : Int) ∧ ((blockSize N / 2 : Nat) : Int) + 1 ≤ _; omega
    · show ((v.avail / 2 : Nat) : Int) - ((v.avail / 2 : Nat) : Int) + 1 + (q.1.idx : Int) ≤ _; omega
    · show q.1.idx ≤ _; omega

theorem Fits.shrink {v v' : Deq} {h h' : Heap X} (f : Fits N B v) (e : v.shrinkToFit N h = some (v', h')) : Fits N B v' := by
  simp only [Deq.shrinkToFit, Option.map_eq_some_iff] at e
  obtain ⟨h1, -, e⟩ := e
  cases e
  refine ⟨f.null, f.size, f.ord, f.fr, f.bk, f.bs, f.fs, fun h => ?_, Nat.zero_le _, f.arr, f.free⟩
  have := f.blocks h
  show v.back - v.front + 1 + ((0 : Nat) : Int) ≤ _
  omega

theorem Fits.default : Fits N B (Deq.default N) :=
  ⟨fun _ => ⟨rfl, rfl, rfl, rfl⟩, fun h => absurd rfl h, fun h => absurd rfl h, ⟨by show (0 : Int) ≤ 0; decide, by show (0 : Int) ≤ _; omega⟩,
    ⟨by show (0 : Int) ≤ 0; decide, by show (0 : Int) ≤ _; omega⟩, ⟨by show (0 : Int) ≤ (blockSize N : Nat); omega, Int.le_refl _⟩,
    ⟨by show (-1 : Int) ≤ -1; decide, by show (-1 : Int) + 1 ≤ (blockSize N : Nat); omega⟩, fun h => absurd rfl h, Nat.zero_le _, Nat.zero_le _, Nat.zero_le _⟩

theorem Fits.husk {v : Deq} (f : Fits N B v) : Fits N B v.husk :=
  ⟨fun _ => ⟨rfl, rfl, rfl, rfl⟩, fun h => absurd rfl h, fun h => absurd rfl h, f.fr, f.bk, f.bs,
    ⟨by show (-1 : Int) ≤ -1; decide, by show (-1 : Int) + 1 ≤ (blockSize N : Nat); omega⟩, fun h => absurd rfl h, f.idx, Nat.zero_le _, Nat.zero_le _⟩

theorem Fits.copyCtor (hB : 27 ≤ B) {v v' : Deq} {h h' : Heap X} (f : Fits N B v) (hd : v.dataptr ≠ none)
    (hs : v'.csize ≤ B * blockSize N) (e : Deq.copyCtor P N v h = some (v', h')) : Fits N B v' := by
  have ha : v.avail ≠ 0 := fun h => hd (f.null h).1
  simp only [Deq.copyCtor] at e
  split at e
  · simp only [Option.bind_eq_some_iff, Deq.assignAll] at e
    obtain ⟨p, hp, b, -, l, -, e⟩ := e
    have hm : Nat.max v.avail 64 = max v.avail 64 := rfl
    rw [hm] at e
    have hord := f.ord ha
    have harr := f.arr
    have hfs := f.fs
    have f0 : Fits N B ⟨0, p, max v.avail 64, v.front, v.front, v.fsize + 1, v.fsize, ⟨0, 0, none⟩⟩ := by
      refine ⟨fun h => ?_, fun _ => ?_, fun _ => ?_, f.fr, f.fr, ?_, hfs, fun _ => ?_, Nat.zero_le _, ?_, Nat.zero_le _⟩
      · have h : max v.avail 64 = 0 := h
        omega
      · show ((0 : Nat) : Int) = (v.front - v.front) * _ + (v.fsize + 1) - v.fsize - 1
        rw [Int.sub_self, Int.zero_mul]; omega
      · show v.front ≤ v.front ∧ v.front < ((max v.avail 64 : Nat) : Int); omega
      · show 0 ≤ v.fsize + 1 ∧ v.fsize + 1 ≤ _; omega
      · show v.front - v.front + 1 + ((0 : Nat) : Int) ≤ _; omega
      · show max v.avail 64 ≤ _; omega
    exact f0.assignFrom _ hB hs e
  · rename_i hn
    exact absurd hn hd

theorem ofSize_members {n : Nat} (hn : n ≠ 0) {x : X} {v' : Deq} {h h' : Heap X} (e : Deq.ofSize N h n x = some (v', h')) :
    v'.csize = n ∧ v'.avail = max ((n >>> N) + 2) 64 ∧ v'.front = (Deq.layout N n (max ((n >>> N) + 2) 64)).1 ∧
      v'.back = (Deq.layout N n (max ((n >>> N) + 2) 64)).2.1 ∧ v'.fsize = (Deq.layout N n (max ((n >>> N) + 2) 64)).2.2.1 ∧
      v'.bsize = (Deq.layout N n (max ((n >>> N) + 2) 64)).2.2.2 ∧ v'.free = ⟨0, 0, none⟩ := by
  simp only [Deq.ofSize, if_neg hn] at e
  simp only [Option.bind_eq_some_iff] at e
  obtain ⟨p, -, h1, -, r, -, e⟩ := e
  split at e
  · simp only [Option.bind_eq_some_iff, Option.map_eq_some_iff] at e
    obtain ⟨q, -, h2, -, e⟩ := e
    cases e
    exact ⟨rfl, rfl, rfl, rfl, rfl, rfl, rfl⟩
  · cases e
    exact ⟨rfl, rfl, rfl, rfl, rfl, rfl, rfl⟩

theorem Fits.ofSize (hB : 27 ≤ B) {n : Nat} (hn : n ≠ 0) {x : X} {v' : Deq} {h h' : Heap X} (hs : n ≤ B * blockSize N)
    (e : Deq.ofSize N h n x = some (v', h')) : Fits N B v' := by
  have hp := blockSize_pos N
  obtain ⟨m1, m2, m3, m4, m5, m6, m7⟩ := ofSize_members hn e
  have hq : n >>> N = n / blockSize N := by rw [blockSize_eq, Nat.shiftRight_eq_div_pow]
  have hd : n / blockSize N ≤ B := by
    rw [← Nat.mul_div_cancel B hp]; exact Nat.div_le_div_right hs
  have hmod : n / blockSize N * blockSize N + n % blockSize N = n := Nat.div_add_mod' n (blockSize N)
  have hlt : n % blockSize N < blockSize N := Nat.mod_lt _ hp
  rw [hq] at m2 m3 m4 m5 m6
  simp only [Deq.layout, hq] at m3 m4 m5 m6
  generalize n / blockSize N = q at *
  generalize n % blockSize N = m at *
  generalize hbs : blockSize N = k at *
  have hav : v'.avail ≠ 0 := by omega
  have key : 0 ≤ v'.front ∧ v'.front ≤ v'.back ∧ v'.back < v'.avail ∧ v'.back - v'.front + 1 ≤ B + 2 ∧ 0 ≤ v'.bsize ∧ v'.bsize ≤ k ∧
      -1 ≤ v'.fsize ∧ v'.fsize + 1 ≤ k ∧ (n : Int) = (v'.back - v'.front) * (k : Int) + v'.bsize - v'.fsize - 1 := by
    by_cases h0 : q = 0
    · subst h0
      rw [Nat.zero_mul, Nat.zero_add] at hmod
      subst hmod
      simp only [Nat.lt_irrefl, if_false, gt_iff_lt] at m3 m4 m5 m6
      by_cases hc : 2 ≤ k / 2 ∧ k / 2 - 2 < m
      · simp only [if_pos hc] at m3 m4 m5 m6
        simp only [Nat.one_ne_zero, if_false, if_true] at m3 m4 m5 m6
        rw [m3, m4, m5, m6, m2, show (31 : Int) - 30 = 1 from rfl, Int.one_mul]
        omega
      · simp only [if_neg hc, if_true] at m3 m4 m5 m6
        rw [m3, m4, m5, m6, m2, Int.sub_self, Int.zero_mul]
        omega
    · have h1 : q > 0 := Nat.pos_of_ne_zero h0
      simp only [if_pos h1] at m3 m4 m5 m6
      rw [if_neg (by omega), if_neg (by omega)] at m3 m4 m5 m6
      simp only at m3 m4 m5 m6
      rw [show n - q * k = m from by omega] at m5 m6
      have hdiff : v'.back - v'.front = (q : Int) + 1 := by rw [m3, m4]; push_cast; omega
      have hmod' : (n : Int) = (q : Int) * (k : Int) + m := by exact_mod_cast hmod.symm
      refine ⟨?_, ?_, ?_, ?_, ?_, ?_, ?_, ?_, ?_⟩
      · rw [m3]; omega
      · omega
      · rw [m4, m2]; omega
      · omega
      · rw [m6]; omega
      · rw [m6]; omega
      · rw [m5]; omega
      · rw [m5]; omega
      · rw [hdiff, m5, m6, Int.add_mul, Int.one_mul, hmod']; omega
  obtain ⟨k1, k2, k3, k4, k5, k6, k7, k8, k9⟩ := key
  have harr : v'.avail ≤ 2 * B + 10 := by omega
  refine ⟨fun h => absurd h hav, fun _ => ?_, fun _ => ⟨k2, k3⟩, ⟨k1, by omega⟩, ⟨by omega, by omega⟩, ⟨k5, by rw [hbs]; exact k6⟩,
    ⟨k7, by rw [hbs]; exact k8⟩, fun _ => ?_, ?_, harr, ?_⟩
  · rw [hbs, m1]; exact k9
  · rw [m7]; show _ + ((0 : Nat) : Int) ≤ _; omega
  · rw [m7]; exact Nat.zero_le _
  · rw [m7]; exact Nat.zero_le _

/-! ## Programs -/

def FitsW (N B : Nat) (w : World X) : Prop := ∀ i v, w.objs i = some v → Fits N B v

theorem FitsW.set {w : World X} (F : FitsW N B w) {i : Nat} {v : Deq} {h : Heap X} (hv : Fits N B v) :
    FitsW N B (⟨upd w.objs i (some v), h⟩ : World X) := by
  intro k u hu
  by_cases hk : k = i
  · subst hk
    simp only [upd_same] at hu
    cases hu
    exact hv
  · simp only [upd_ne _ _ hk] at hu
    exact F k u hu

theorem WInvR.csize {w : World X} {aw us fs} (W : WInv N w aw us fs) {i : Nat} {v : Deq} (hv : w.objs i = some v) :
    ∃ xs, aw i = some xs ∧ v.csize = xs.length := by
  have hr := W.rep i
  rw [hv] at hr
  cases ha : aw i with
  | none => rw [ha] at hr; exact hr.elim
  | some a =>
    rw [ha] at hr
    rcases hr with ⟨F, f1, bz, c⟩ | ⟨nl, _, _, h0⟩
    · exact ⟨a, rfl, c.len.symm⟩
    · exact ⟨a, rfl, by rw [nl.cs, h0]; rfl⟩

theorem FitsW.exec (hB : 27 ≤ B) {w w' : World X} {aw' : AWorld X} {us' fs'} (W' : WInv N w' aw' us' fs')
    (F : FitsW N B w) (hs : ∀ i a, aw' i = some a → a.length ≤ B * blockSize N) {op : Op X} {o : Obs X}
    (hc : careful P N w op = true) (e : exec P N w op = some (w', o)) : FitsW N B w' := by
  have sz : ∀ {i : Nat} {v : Deq}, w'.objs i = some v → v.csize ≤ B * blockSize N := by
    intro i v hv
    obtain ⟨a, ha, h⟩ := W'.csize hv
    rw [h]; exact hs i a ha
  cases op <;> simp only [Deque.exec, Option.bind_eq_some_iff, Option.map_eq_some_iff, Option.some.injEq] at e
  case new i => cases e; exact F.set Fits.default
  case newSize i n x =>
    obtain ⟨r, h1, e⟩ := e; cases e
    have hn : n ≠ 0 := by simpa [careful] using hc
    have := sz (i := i) (v := r.1) (by simp [upd])
    rw [(ofSize_members (h' := r.2) hn h1).1] at this
    exact F.set (Fits.ofSize (h' := r.2) hB hn this h1)
  case copyNew i j =>
    obtain ⟨v, hv, r, h1, e⟩ := e; cases e
    simp only [careful, hv, Option.all_some, Bool.and_eq_true, Option.isSome_iff_ne_none] at hc
    exact F.set ((F j v hv).copyCtor (h' := r.2) hB hc.1 (sz (i := i) (by simp [upd])) h1)
  case moveNew i j =>
    obtain ⟨v, hv, e⟩ := e; cases e
    exact FitsW.set (w := ⟨upd w.objs i (some v), w.heap⟩) (F.set (F j v hv)) (F j v hv).husk
  case moveAssign i j =>
    obtain ⟨u, hu, v, hv, r, h1, e⟩ := e; cases e
    simp only [Deq.moveAssign, Option.map_eq_some_iff] at h1
    obtain ⟨h2, -, rfl⟩ := h1
    exact FitsW.set (w := ⟨upd w.objs i (some v), w.heap⟩) (F.set (F j v hv)) (F j v hv).husk
  case copyAssign i j =>
    obtain ⟨u, hu, v, hv, r, h1, e⟩ := e; cases e
    simp only [Deq.copyAssign, Deq.assignAll, Option.bind_eq_some_iff] at h1
    obtain ⟨b, -, l, -, h1⟩ := h1
    exact F.set ((F i u hu).assignFrom (h' := r.2) _ hB (sz (i := i) (by simp [upd])) h1)
  case assignRange i j lo hi =>
    obtain ⟨u, hu, v, hv, r, h1, e⟩ := e; cases e
    simp only [Deq.assignSub, Option.bind_eq_some_iff] at h1
    obtain ⟨b, -, l, -, l', -, h1⟩ := h1
    exact F.set ((F i u hu).assignFrom (h' := r.2) _ hB (sz (i := i) (by simp [upd])) h1)
  case moveRange i j lo hi left =>
    obtain ⟨u, hu, v, hv, r, h1, e⟩ := e; cases e
    simp only [Deq.assignSub, Option.bind_eq_some_iff] at h1
    obtain ⟨b, -, l, -, l', -, h1⟩ := h1
    exact F.set ((F i u hu).assignFrom (h' := r.2) _ hB (sz (i := i) (by simp [upd])) h1)
  case destroy i =>
    obtain ⟨v, hv, h', h1, e⟩ := e; cases e
    intro k u hu
    by_cases hk : k = i
    · subst hk; simp only [upd_same] at hu; cases hu
    · simp only [upd_ne _ _ hk] at hu; exact F k u hu
  case push i x =>
    obtain ⟨v, hv, r, h1, e⟩ := e; cases e
    have := sz (i := i) (v := r.1) (by simp [upd])
    rw [pushBack_csize (h' := r.2) h1] at this
    exact F.set ((F i v hv).pushBack (h' := r.2) hB this h1)
  case pushFront i x =>
    obtain ⟨v, hv, r, h1, e⟩ := e; cases e
    have := sz (i := i) (v := r.1) (by simp [upd])
    rw [pushFront_csize (h' := r.2) h1] at this
    exact F.set ((F i v hv).pushFront (h' := r.2) hB this h1)
  case pop i => obtain ⟨v, hv, r, h1, e⟩ := e; cases e; exact F.set ((F i v hv).popBack (h' := r.2) hB h1)
  case popFront i => obtain ⟨v, hv, r, h1, e⟩ := e; cases e; exact F.set ((F i v hv).popFront (h' := r.2) hB h1)
  case assign i xs =>
    obtain ⟨v, hv, r, h1, e⟩ := e; cases e
    exact F.set ((F i v hv).assignFrom (h' := r.2) _ hB (sz (i := i) (by simp [upd])) h1)
  case clear i => obtain ⟨v, hv, r, h1, e⟩ := e; cases e; exact F.set ((F i v hv).clear (h' := r.2) hB h1)
  case shrink i => obtain ⟨v, hv, r, h1, e⟩ := e; cases e; exact F.set ((F i v hv).shrink (h' := r.2) h1)
  case set i k x => obtain ⟨v, hv, h', h1, e⟩ := e; cases e; exact F
  case size i => obtain ⟨v, hv, e⟩ := e; cases e; exact F
  case empty i => obtain ⟨v, hv, e⟩ := e; cases e; exact F
  case get i k => obtain ⟨v, hv, x, h1, e⟩ := e; cases e; exact F
  case «at» i k =>
    obtain ⟨v, hv, x, h1, e⟩ := e
    cases x <;> (cases e; exact F)
  case front i => obtain ⟨v, hv, x, h1, e⟩ := e; cases e; exact F
  case back i => obtain ⟨v, hv, x, h1, e⟩ := e; cases e; exact F
  case iterate i => obtain ⟨v, hv, x, h1, e⟩ := e; cases e; exact F

theorem within.now {n : Nat} {aw : AWorld X} {ops : List (Op X)} (h : within n aw ops) : ∀ i a, aw i = some a → a.length ≤ n := by
  cases ops with
  | nil => exact h
  | cons op ops => exact h.1

theorem run_fits (hB : 27 ≤ B) (ops : List (Op X)) : ∀ (w : World X) (aw aw' : AWorld X) (us fs : Nat → List Nat) (obs : List (Obs X)),
    WInv N w aw us fs → FitsW N B w → within (B * 2 ^ N) aw ops → carefulRun P N w ops = true → idealRun aw ops = some (aw', obs) →
    ∃ w', run P N w ops = some (w', obs) ∧ FitsW N B w' := by
  induction ops with
  | nil => intro w aw aw' us fs obs W F _ _ hi; cases hi; exact ⟨w, rfl, F⟩
  | cons op ops ih =>
    intro w aw aw' us fs obs W F hw hc hi
    simp only [idealRun, Option.bind_eq_some_iff, Option.map_eq_some_iff] at hi
    obtain ⟨⟨aw1, o⟩, h1, ⟨aw2, obs2⟩, h2, hi⟩ := hi
    cases hi
    simp only [carefulRun, Bool.and_eq_true] at hc
    obtain ⟨w1, us1, fs1, e1, W1, -⟩ := step P w aw us fs W op aw1 o h1 hc.1
    simp only [e1] at hc
    have hw1 := hw.2 _ h1
    have F1 := F.exec hB W1 (by rw [blockSize_eq]; exact hw1.now) hc.1 e1
    obtain ⟨w', e2, F'⟩ := ih w1 aw1 aw2 us1 fs1 obs2 W1 F1 hw1 hc.2 h2
    refine ⟨w', ?_, F'⟩
    rw [run, e1]
    simp only [Option.bind_some, e2, Option.map_some]

/-- Every careful program on any number of deques: if no deque ever has more elements than fill `B` blocks, for any `B ≥ 27`, then no
deque has ever more than `B + 2` blocks, kept ones included, and its arrays of block pointers have at most `2 * B + 10` entries. -/
theorem memory_bounded (P : Pol) (N B : Nat) (hB : 27 ≤ B) (ops : List (Op X)) (aw : AWorld X) (obs : List (Obs X))
    (hi : idealRun noObjs ops = some (aw, obs)) (hc : carefulRun P N World.empty ops = true) (hw : within (B * 2 ^ N) noObjs ops) :
    ∃ w, run P N World.empty ops = some (w, obs) ∧ ∀ i v, w.objs i = some v →
      v.avail ≤ 2 * B + 10 ∧ v.free.avail ≤ 2 * B + 10 ∧ (v.avail ≠ 0 → v.back - v.front + 1 + v.free.idx ≤ B + 2) := by
  obtain ⟨w, e, F⟩ := run_fits hB ops World.empty noObjs aw _ _ obs WInv.empty (fun i v hv => by cases hv) hw hc hi
  exact ⟨w, e, fun i v hv => ⟨(F i v hv).arr, (F i v hv).free, (F i v hv).blocks⟩⟩

theorem Fits.ints {v : Deq} (hN : N ≤ 30) (f : Fits N (2 ^ 30 - 6) v) : v.intMembers := by
  have h1 := f.arr
  have h2 := f.free
  have h3 := f.fr
  have h4 := f.bk
  have h5 := f.bs
  have h6 := f.fs
  have h7 := f.idx
  have h8 : blockSize N ≤ 2 ^ 30 := by rw [blockSize_eq]; exact Nat.pow_le_pow_right (by decide) hN
  simp only [Deq.intMembers, isInt]
  omega

/-- Every careful program, with blocks of at most `2^30` elements: as long as no deque has more elements than fill `2^30 - 6` blocks, the
members of type `int` of all deques have values of that type.  (Every beginning of such a program is such a program.) -/
theorem int_members_partial (P : Pol) (N : Nat) (hN : N ≤ 30) (ops : List (Op X)) (aw : AWorld X) (obs : List (Obs X))
    (hi : idealRun noObjs ops = some (aw, obs)) (hc : carefulRun P N World.empty ops = true)
    (hw : within ((2 ^ 30 - 6) * 2 ^ N) noObjs ops) :
    ∃ w, run P N World.empty ops = some (w, obs) ∧ ∀ i v, w.objs i = some v → v.intMembers := by
  obtain ⟨w, e, F⟩ := run_fits (B := 2 ^ 30 - 6) (by decide) ops World.empty noObjs aw _ _ obs WInv.empty
    (fun i v hv => by cases hv) hw hc hi
  exact ⟨w, e, fun i v hv => (F i v hv).ints hN⟩

/-- a program with two deques that satisfies the hypotheses -/
example : let ops : List (Op Nat) := [.new 0, .push 0 7, .copyNew 1 0, .pushFront 0 3]
    (idealRun noObjs ops).isSome = true ∧ carefulRun ⟨false, false⟩ 5 World.empty ops = true ∧
      within ((2 ^ 30 - 6) * 2 ^ 5) noObjs ops := by
  refine ⟨rfl, by decide, ?_⟩
  refine ⟨fun i a h => (by cases h), fun r hr => ?_⟩
  cases hr
  refine ⟨fun i a h => ?_, fun r hr => ?_⟩
  · simp only [upd, noObjs] at h
    repeat' split at h
    all_goals (cases h <;> decide)
  cases hr
  refine ⟨fun i a h => ?_, fun r hr => ?_⟩
  · simp only [upd, noObjs] at h
    repeat' split at h
    all_goals (cases h <;> decide)
  cases hr
  refine ⟨fun i a h => ?_, fun r hr => ?_⟩
  · simp only [upd, noObjs] at h
    repeat' split at h
    all_goals (cases h <;> decide)
  cases hr
  intro i a h
  simp only [upd, noObjs] at h
  repeat' split at h
  all_goals (cases h <;> decide)

/-! ## Where it breaks -/

theorem pushBack_free {v v' : Deq} {h h' : Heap X} {x : X} (e : v.pushBack P N h x = some (v', h')) : v'.free.avail = v.free.avail := by
  simp only [Deq.pushBack, Option.bind_eq_some_iff, Option.map_eq_some_iff] at e
  obtain ⟨r, hr, h1, hc, e⟩ := e
  cases e
  show r.1.free.avail = _
  rw [Deq.blockCheck] at hr
  split at hr
  · split at hr
    · simp only [Deq.firstBlock, Option.bind_eq_some_iff, Option.map_eq_some_iff] at hr
      obtain ⟨q, hq, p, -, rfl⟩ := hr
      exact (FreeL.get_fits hq).1
    · simp only [Option.bind_eq_some_iff, Option.map_eq_some_iff] at hr
      obtain ⟨u, hu, q, hq, p, -, rfl⟩ := hr
      show q.2.1.avail = _
      rw [(FreeL.get_fits hq).1]
      rw [Deq.roomBack] at hu
      split at hu
      · split at hu <;>
        · simp only [Option.bind_eq_some_iff, Option.map_eq_some_iff] at hu
          obtain ⟨l, -, l', -, rfl⟩ := hu
          rfl
      · cases hu; rfl
  · cases hr; rfl

theorem pushes_free (xs : List X) : ∀ {w w' : World X} {v v' : Deq} {os}, w.objs 0 = some v → w'.objs 0 = some v' →
    run P N w (xs.map (.push 0)) = some (w', os) → v'.free.avail = v.free.avail := by
  induction xs with
  | nil => intro w w' v v' os h1 h2 e; cases e; rw [h1] at h2; cases h2; rfl
  | cons x xs ih =>
    intro w w' v v' os h1 h2 e
    simp only [List.map_cons, run, exec, h1, Option.bind_some, Option.bind_eq_some_iff, Option.map_eq_some_iff] at e
    obtain ⟨_, ⟨r, hr, rfl⟩, q, hq, e⟩ := e
    cases e
    rw [ih (v := r.1) (by simp [upd]) h2 hq, pushBack_free (h' := r.2) hr]

/-- A deque filled by `push_back` alone, for every block size up to `2^30` and every sequence of values: its members of type `int` have
values of that type exactly if the values, placed from the middle of a block on, fill no more than `2^30 - 3` blocks.  One value more,
and the length of the array of block pointers becomes `2^31`, which is no `int`. -/
theorem push_only_int_members (P : Pol) (N : Nat) (hN : N ≤ 30) (xs : List X) :
    ∃ w os v, run P N World.empty (.new 0 :: xs.map (.push 0)) = some (w, os) ∧ w.objs 0 = some v ∧
      (v.intMembers ↔ 2 ^ N / 2 + xs.length ≤ (2 ^ 30 - 3) * 2 ^ N) := by
  have hp := blockSize_pos N
  have hN' : blockSize N ≤ 2 ^ 30 := by rw [blockSize_eq]; exact Nat.pow_le_pow_right (by decide) hN
  have h0 : Reached P N (⟨upd (World.empty : World X).objs 0 (some (Deq.default N)), Heap.empty⟩ : World X)
      (upd noObjs 0 (some [])) := .call .start (op := .new 0) (o := .done) rfl rfl rfl
  have hu : (Deq.default N).usable N = true := by simp [Deq.usable, Deq.default]
  cases xs with
  | nil =>
    refine ⟨⟨upd (World.empty : World X).objs 0 (some (Deq.default N)), Heap.empty⟩, [.done], Deq.default N, rfl, by simp [upd], ?_⟩
    refine iff_of_true (Fits.default.ints hN) ?_
    have := Nat.two_pow_pos N
    show 2 ^ N / 2 + 0 ≤ _
    omega
  | cons y ys =>
    obtain ⟨r, hr, h1, e1⟩ := h0.usable_push (a := []) (v := Deq.default N) (by simp [upd]) (by simp [upd]) hu y
    have g := Grown.first hr
    have hp' : r.1.dataptr ≠ none := by
      simp only [Deq.pushBack, Option.bind_eq_some_iff, Option.map_eq_some_iff] at hr
      obtain ⟨q, -, h1, hc, rfl⟩ := hr
      exact constructAt_ne hc
    obtain ⟨w, os, aw, v, g1, g2, g3, g4, g5, g6⟩ := push_all ys _ _ ([] ++ [y]) r.1 h1 (by simp [upd]) (by simp [upd]) hp' g
    refine ⟨w, .done :: .done :: os, v, ?_, g4, ?_⟩
    · rw [run]
      simp only [exec, Option.bind_some, List.map_cons]
      rw [show (World.empty : World X).heap = Heap.empty from rfl, run, e1]
      simp only [Option.bind_some, g1, Option.map_some]
    · have hfr : v.free.avail = 0 := by
        rw [pushes_free ys (v := r.1) (by simp [upd]) g4 g1, pushBack_free (h' := r.2) hr]; rfl
      obtain ⟨us, fs, W⟩ := g2.inv
      obtain ⟨v', hv', rep⟩ := W.getSome g3
      rw [g4] at hv'; cases hv'
      rcases rep with ⟨F, f1, bz, c⟩ | ⟨nl, _⟩
      · have hfi : v.free.idx = 0 := by
          have := c.free.arr.le
          rw [c.free.idx]; omega
        obtain ⟨j, hj, hpl⟩ := g6.place
        have hle := c.arr.le
        have hne := c.ne
        have hf := c.front
        have hb := c.back
        have hs := c.size
        have hfs := c.fsz
        have hfs' := g6.fsz
        have hbz := c.bsz
        have hbz' := c.bzle
        have hf1 := c.f1le
        have hus := g6.used
        have hlen : ([] ++ [y] ++ ys).length = (y :: ys).length := by simp
        rw [hlen] at hs
        generalize (y :: ys).length = n at hs ⊢
        have hf1' : f1 = 2 ^ N / 2 := by rw [← blockSize_eq N]; omega
        -- number of blocks
        have hnb : 2 ^ N / 2 + n ≤ (2 ^ 30 - 3) * 2 ^ N ↔ (us 0).length ≤ 2 ^ 30 - 3 := by
          rw [← hf1', ← blockSize_eq N]
          constructor
          · intro h
            by_contra hn
            have h2 : (2 ^ 30 - 3 + 1) * blockSize N ≤ (us 0).length * blockSize N := Nat.mul_le_mul_right _ (by omega)
            rw [Nat.add_mul, Nat.one_mul] at h2
            omega
          · intro h
            have h2 := Nat.mul_le_mul_right (blockSize N) h
            omega
        rw [hnb]
        have hav : isInt v.avail ↔ (us 0).length ≤ 2 ^ 30 - 3 := by
          have hcast : ((2 : Int) ^ j) = ((2 ^ j : Nat) : Int) := by push_cast; rfl
          have h1j : j = 0 → 2 ^ j = 1 := by rintro rfl; rfl
          have hsmall : j ≤ 24 → 2 ^ j ≤ 2 ^ 24 := fun h => Nat.pow_le_pow_right (by decide) h
          have hbig : 25 ≤ j → 2 ^ 25 ≤ 2 ^ j := fun h => Nat.pow_le_pow_right (by decide) h
          rw [hcast] at hpl
          generalize 2 ^ j = m at *
          clear hs hnb hcast
          simp only [isInt]
          by_cases hj' : j ≤ 24
          · have h2 := hsmall hj'
            refine iff_of_true ⟨by omega, by omega⟩ ?_
            rcases hpl with ⟨h0, h3⟩ | ⟨h3, h4⟩
            · omega
            · omega
          · have h2 := hbig (by omega)
            refine iff_of_false (by omega) ?_
            rcases hpl with ⟨h0, h3⟩ | ⟨h3, h4⟩
            · omega
            · have h5 := h4 (by omega)
              omega
        refine ⟨fun h => hav.1 h.1, fun h => ?_⟩
        have h7 := hav.2 h
        refine ⟨h7, ?_⟩
        rw [hfr, hfi]
        simp only [isInt] at h7 ⊢
        omega
      · exact absurd nl.ptr g5

/-- The sized constructor (StableBlockDeque.hpp:51-111), for every number of elements but 0: the members of type `int` get values of that
type exactly if the elements fill fewer than `2^31 - 2` blocks. -/
theorem newSize_int_members (P : Pol) (N : Nat) (hN : N ≤ 30) (n : Nat) (hn : n ≠ 0) (x : X) :
    ∃ w v, exec P N World.empty (.newSize 0 n x) = some (w, .done) ∧ w.objs 0 = some v ∧ (v.intMembers ↔ n < (2 ^ 31 - 2) * 2 ^ N) := by
  obtain ⟨w, us, fs, e, -⟩ := step P (World.empty : World X) noObjs _ _ (WInv.empty (N := N)) (.newSize 0 n x) _ _ rfl (by simp [careful, hn])
  have he := e
  simp only [exec, Option.map_eq_some_iff] at he
  obtain ⟨r, h1, e'⟩ := he
  cases e'
  refine ⟨_, r.1, e, by simp [upd], ?_⟩
  have hp := blockSize_pos N
  have hb : blockSize N ≤ 2 ^ 30 := by rw [blockSize_eq]; exact Nat.pow_le_pow_right (by decide) hN
  have hd : n >>> N < 2 ^ 31 - 2 ↔ n < (2 ^ 31 - 2) * 2 ^ N := by
    rw [Nat.shiftRight_eq_div_pow]; exact Nat.div_lt_iff_lt_mul (Nat.two_pow_pos N)
  have hq : n >>> N = n / blockSize N := by rw [blockSize_eq, Nat.shiftRight_eq_div_pow]
  have hs : n ≤ max 27 (n / blockSize N + 1) * blockSize N := by
    refine Nat.le_trans ?_ (Nat.mul_le_mul_right _ (Nat.le_max_right _ _))
    have := Nat.div_add_mod' n (blockSize N)
    have := Nat.mod_lt n hp
    rw [Nat.add_mul]; omega
  have f : Fits N (max 27 (n / blockSize N + 1)) r.1 := Fits.ofSize (h' := r.2) (by omega) hn hs h1
  obtain ⟨-, m2, -, -, -, -, m7⟩ := ofSize_members (h' := r.2) hn h1
  rw [← hd]
  rw [hq] at m2 ⊢
  have hav : r.1.avail ≠ 0 := by omega
  have h2 := f.ord hav
  have h3 := f.fr
  have h5 := f.bs
  have h6 := f.fs
  rw [Deq.intMembers, m7, m2]
  rw [m2] at h2
  simp only [isInt]
  generalize n / blockSize N = m at *
  omega

end Verif.Block.Deque
