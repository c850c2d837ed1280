import Verif.Block.Vector.ThrowProps

/-
C21, C22: exactly what the calls do that `careful` excludes, in every reachable state: calls on a vector that has been moved from, and
on a copy of a vector that is empty but has reserved memory.
-/
namespace Verif.Block.Vector
open Verif.Block Vec
variable {X : Type} {N : Nat}

theorem World.upd_same {w : World X} {i : Nat} {v : Vec} (hv : w.objs i = some v) : (⟨upd w.objs i (some v), w.heap⟩ : World X) = w := by
  have : upd w.objs i (some v) = w.objs := by
    funext k; simp only [upd]; split
    · rename_i e; rw [e, hv]
    · rfl
  rw [this]

theorem pushBack_null {v : Vec} (h : Heap X) (x : X) (hp : v.dataptr = none) (hb : v.bsize < blockSize N) :
    v.pushBack N h x = none := by
  rw [pushBack, blockCheck, if_neg (by omega)]
  simp [hp, slotGet]

theorem assign_null {v : Vec} (h : Heap X) (xs : List X) (hp : v.dataptr = none) (hb : v.bsize < blockSize N) (h0 : v.csize = 0) :
    v.assign N h xs = if xs = [] then some (v, h) else none := by
  cases xs with
  | nil => simp [assign, assignFrom, assignOver, h0, popN]
  | cons x xs =>
    simp [assign, assignFrom, assignOver, h0, pushFrom, pushBack_null h x hp hb]

theorem popBack_null {v : Vec} (h : Heap X) (hp : v.dataptr = none) (h0 : v.csize ≠ 0) : v.popBack N h = none := by
  rw [popBack, if_neg h0, popStep]
  simp only
  split
  · simp [hp, slotGet]
  · simp [hp, slotGet]

theorem freeList_null (h : Heap X) (n : Nat) : freeList N none n 0 h = if n = 0 then some h else none := by
  cases n <;> simp [freeList, slotGet]

/-! ## C22: after a move construction -/

/-- After `StableBlockVector vi(std::move(vj))`, in every reachable state: `size`, `empty`, `at`, `pop_back`, `clear` and assigning
nothing treat `vj` as an empty vector; insertions, iteration (even `begin()` and `end()`), assigning elements to it and copy assignment
from it are undefined, and so is `shrink_to_fit` if it had spare blocks. -/
theorem moved_ctor_calls (N : Nat) (w : World X) (aw : AWorld X) (h : Reached N w aw) (i j : Nat) (a : AObj X) (ha : aw j = some a)
    (hm : a.moved = false) (hi : aw i = none) :
    ∃ w1 v, w.objs j = some v ∧ exec N w (.moveNew i j) = some (w1, .done) ∧
      (exec N w1 (.size j) = some (w1, .num 0) ∧ exec N w1 (.empty j) = some (w1, .bool true) ∧
        (∀ k, exec N w1 (.at j k) = some (w1, .threw)) ∧ exec N w1 (.pop j) = some (w1, .done) ∧
        exec N w1 (.clear j) = some (w1, .done) ∧ exec N w1 (.assign j []) = some (w1, .done)) ∧
      exec N w1 (.shrink j) = (if v.freeIdx = 0 then some (w1, .done) else none) ∧
      ((∀ x, exec N w1 (.push j x) = none) ∧ exec N w1 (.iterate j) = none ∧
        (∀ x xs, exec N w1 (.assign j (x :: xs)) = none) ∧ ∀ k, exec N w1 (.copyAssign k j) = none) := by
  have hB := blockSize_pos N
  obtain ⟨us, fs, W⟩ := h.inv
  obtain ⟨v, hv, c, hr, hu⟩ := W.getLive ha hm
  refine ⟨⟨upd (upd w.objs i (some v.moveCtor.1)) j (some v.moveCtor.2), w.heap⟩, v, hv, by simp only [exec, hv, Option.map_some], ?_⟩
  generalize hw : (⟨upd (upd w.objs i (some v.moveCtor.1)) j (some v.moveCtor.2), w.heap⟩ : World X) = w1
  have hj : w1.objs j = some ⟨0, none, 0, -1, 0, 0, v.freeIdx, none⟩ := by rw [← hw]; exact upd_same _ _ _
  have hs := World.upd_same hj
  have hpn := fun x => pushBack_null (v := ⟨0, none, 0, -1, 0, 0, v.freeIdx, none⟩) w1.heap x rfl hB
  have han := fun xs => assign_null (v := ⟨0, none, 0, -1, 0, 0, v.freeIdx, none⟩) w1.heap xs rfl hB rfl
  have hit : begin? N ⟨0, none, 0, -1, 0, 0, v.freeIdx, none⟩ = none := by
    rw [begin?, if_pos rfl, end?, if_neg (by simp only; omega)]; rfl
  refine ⟨⟨?_, ?_, ?_, ?_, ?_, ?_⟩, ?_, ?_, ?_, ?_, ?_⟩
  · simp only [exec, hj, Option.map_some]; rfl
  · simp only [exec, hj, Option.map_some]; rfl
  · intro k; simp only [exec, hj, Option.bind_some, at?]; simp
  · simp only [exec, hj, Option.bind_some, popBack]; simp [hs]
  · simp only [exec, hj, Option.bind_some, clear]; simp [hs]
  · simp only [exec, hj, Option.bind_some, han]; simp [hs]
  · simp only [exec, hj, Option.bind_some, shrinkToFit, freeList_null]
    split
    · rename_i h0
      rw [h0] at hs
      simp [hs]
    · rfl
  · intro x; simp only [exec, hj, Option.bind_some, hpn]; rfl
  · simp only [exec, hj, Option.bind_some, iterate, hit]; rfl
  · intro x xs
    simp only [exec, hj, Option.bind_some, han]; simp
  · intro k
    simp only [exec, hj, Option.bind_some, copyAssign, assignAll, hit]
    cases w1.objs k <;> rfl

/-- C22 fails for every vector, in every reachable state: pushing on the source of a move construction is undefined. -/
theorem moved_from_push_undefined (N : Nat) (w : World X) (aw : AWorld X) (h : Reached N w aw) (i j : Nat) (a : AObj X)
    (ha : aw j = some a) (hm : a.moved = false) (hi : aw i = none) (x : X) :
    ∃ w1, exec N w (.moveNew i j) = some (w1, .done) ∧ exec N w1 (.push j x) = none := by
  obtain ⟨w1, v, _, e, _, _, hp, _⟩ := moved_ctor_calls N w aw h i j a ha hm hi
  exact ⟨w1, e, hp x⟩

/-! ## C22: after a move assignment -/

/-- After `vi = std::move(vj)` of different vectors, in every reachable state, `n` being the number of elements that were moved: `vj`
still reports size `n`; `clear` does not change that; if `n > 0`, then `pop_back`, `at` with an index below `n`, iteration and assigning
nothing are undefined; if `n` is not a multiple of the block size, insertions are undefined. -/
theorem moved_assign_calls (N : Nat) (w : World X) (aw : AWorld X) (h : Reached N w aw) (i j : Nat) (a b : AObj X) (hij : i ≠ j)
    (ha : aw j = some a) (hm : a.moved = false) (hb : aw i = some b) :
    ∃ w1 v, w.objs j = some v ∧ exec N w (.moveAssign i j) = some (w1, .done) ∧
      exec N w1 (.size j) = some (w1, .num a.elems.length) ∧ exec N w1 (.empty j) = some (w1, .bool (a.elems.length == 0)) ∧
      (∀ k, exec N w1 (.at j k) = if k < a.elems.length then none else some (w1, .threw)) ∧
      exec N w1 (.pop j) = (if a.elems = [] then some (w1, .done) else none) ∧
      exec N w1 (.clear j) = some (w1, .done) ∧
      exec N w1 (.assign j []) = (if a.elems = [] then some (w1, .done) else none) ∧
      exec N w1 (.shrink j) = (if v.freeIdx = 0 then some (w1, .done) else none) ∧
      exec N w1 (.iterate j) = (if a.elems = [] ∧ v.bsize = 2 ^ N then some (w1, .vals []) else none) ∧
      (a.elems.length % 2 ^ N ≠ 0 → ∀ x, exec N w1 (.push j x) = none) := by
  have hB := blockSize_pos N
  obtain ⟨us, fs, W⟩ := h.inv
  obtain ⟨v, hv, c, hr, hu⟩ := W.getLive ha hm
  have hlen := c.len
  obtain ⟨w1, us1, fs1, e, W1, _⟩ := step w aw us fs W (.moveAssign i j)
    (upd (upd aw i (some a)) j (some ⟨[], 0, true⟩)) .done (by simp [ideal, hij, ha, hb]) (by simp [careful, ha, hm])
  refine ⟨w1, v, hv, e, ?_⟩
  have hj : w1.objs j = some { v with freeblocks := none, freeAvail := 0, avail := 0, dataptr := none } := by
    obtain ⟨vi, hvi, _⟩ := W.getSome hb
    simp only [exec, hv, hvi, Option.bind_some, Option.map_eq_some_iff, moveAssign] at e
    obtain ⟨⟨v1, v2, h'⟩, ⟨h2, _, e2⟩, e1⟩ := e
    cases e2
    cases e1
    exact upd_same _ _ _
  generalize hu' : ({ v with freeblocks := none, freeAvail := 0, avail := 0, dataptr := none } : Vec) = u at *
  have hc : u.csize = v.csize := by rw [← hu']
  have hp : u.dataptr = none := by rw [← hu']
  have hbz : u.bsize = v.bsize := by rw [← hu']
  have hf : u.freeblocks = none := by rw [← hu']
  have hfi : u.freeIdx = v.freeIdx := by rw [← hu']
  have hav : u.avail = 0 := by rw [← hu']
  have hnil : (a.elems = []) ↔ u.csize = 0 := by rw [hc, ← hlen]; exact List.length_eq_zero_iff.symm
  have hs := World.upd_same hj
  refine ⟨?_, ?_, ?_, ?_, ?_, ?_, ?_, ?_, ?_⟩
  · simp only [exec, hj, Option.map_some, Vec.size, hc, hlen]
  · simp only [exec, hj, Option.map_some, Vec.empty, hc, hlen]
  · intro k
    simp only [exec, hj, Option.bind_some, at?, hc, hlen]
    by_cases hk : k < v.csize
    · rw [if_neg (by omega), if_pos hk, Vec.get, cell, hp]; rfl
    · rw [if_pos (by omega), if_neg hk]; rfl
  · simp only [exec, hj, Option.bind_some]
    by_cases h0 : u.csize = 0
    · rw [if_pos (hnil.2 h0), popBack, if_pos h0]; simp [hs]
    · rw [if_neg (fun h => h0 (hnil.1 h)), popBack_null _ hp h0]; rfl
  · simp only [exec, hj, Option.bind_some, clear, if_pos hav]; simp [hs]
  · simp only [exec, hj, Option.bind_some]
    by_cases h0 : u.csize = 0
    · rw [if_pos (hnil.2 h0)]
      simp [assign, assignFrom, assignOver, h0, popN, hs]
    · rw [if_neg (fun h => h0 (hnil.1 h))]
      obtain ⟨m, hm'⟩ : ∃ m, u.csize = m + 1 := ⟨u.csize - 1, by omega⟩
      have := popBack_null (N := N) w1.heap hp h0
      simp only [assign, assignFrom, assignOver, List.isEmpty_nil, List.length_nil, Bool.true_eq_false, and_false, if_false,
        Option.bind_some, if_true, Nat.sub_zero]
      rw [show u.csize = m + 1 from hm', popN, this]; rfl
  · have hsh : u.shrinkToFit N w1.heap = if v.freeIdx = 0 then some (u, w1.heap) else none := by
      rw [shrinkToFit, hf, hfi, freeList_null]
      by_cases h0 : v.freeIdx = 0
      · have : ({ u with freeIdx := 0, freeblocks := none } : Vec) = u := by rw [← hfi] at h0; cases u; cases h0; cases hf; rfl
        rw [if_pos h0, if_pos h0, Option.map_some, this]
      · rw [if_neg h0, if_neg h0]; rfl
    simp only [exec, hj, Option.bind_some, hsh]
    split
    · simp only [Option.map_some, hs]
    · rfl
  · simp only [exec, hj, Option.bind_some, iterate]
    by_cases h0 : u.csize = 0
    · have hb0 : begin? N u = end? N u := by rw [begin?, if_pos h0]
      rw [hb0]
      by_cases h1 : v.bsize = 2 ^ N
      · rw [if_pos ⟨hnil.2 h0, h1⟩, end?, if_pos (by rw [hbz, h1, blockSize_eq]), hp]
        simp [Iter.make, derefVec, Iter.collect, Iter.ne]
      · rw [if_neg (fun h => h1 h.2), end?, if_neg (by rw [hbz, blockSize_eq]; exact h1), hp]; rfl
    · rw [if_neg (fun h => h0 (hnil.1 h.1)), begin?, if_neg h0, hp]; rfl
  · intro hn x
    have hlt : u.bsize < blockSize N := by
      rw [hbz]
      rcases Nat.lt_or_ge v.bsize (blockSize N) with h1 | h1
      · exact h1
      · have h2 := c.bsz
        have h3 := c.size
        have h4 : v.bsize = blockSize N := by omega
        rw [h4] at h3
        rw [hlen, show v.csize = (us j).length * blockSize N by omega, blockSize_eq, Nat.mul_mod_left] at hn
        exact absurd rfl hn
    simp only [exec, hj, Option.bind_some, pushBack_null w1.heap x hp hlt]; rfl

/-- C22 fails for every vector with elements, in every reachable state: it keeps its size although its elements are gone. -/
theorem moved_from_size_wrong (N : Nat) (w : World X) (aw : AWorld X) (h : Reached N w aw) (i j : Nat) (a b : AObj X) (hij : i ≠ j)
    (ha : aw j = some a) (hm : a.moved = false) (hb : aw i = some b) (hne : a.elems ≠ []) :
    ∃ w1 aw1, exec N w (.moveAssign i j) = some (w1, .done) ∧ ideal N aw (.moveAssign i j) = some (aw1, .done) ∧
      ideal N aw1 (.size j) = some (aw1, .num 0) ∧ exec N w1 (.size j) = some (w1, .num a.elems.length) ∧ a.elems.length ≠ 0 := by
  obtain ⟨w1, v, _, e, hs, _⟩ := moved_assign_calls N w aw h i j a b hij ha hm hb
  refine ⟨w1, upd (upd aw i (some a)) j (some ⟨[], 0, true⟩), e, by simp [ideal, hij, ha, hb], ?_, hs, by simpa using hne⟩
  simp [ideal, Verif.Block.Vector.upd_same]

/-- If the last block of the source was full and it had no spare blocks, a push on it after the move assignment even succeeds, and
leaves a vector that reports the old elements and the new one, of which the one at index 0 is the new one. -/
theorem moved_assign_push (N : Nat) (w : World X) (aw : AWorld X) (h : Reached N w aw) (i j : Nat) (a b : AObj X) (hij : i ≠ j)
    (ha : aw j = some a) (hm : a.moved = false) (hb : aw i = some b) (v : Vec) (hv : w.objs j = some v) (hfull : v.bsize = 2 ^ N)
    (hsp : v.freeIdx = 0) (x : X) :
    ∃ w1 w2, exec N w (.moveAssign i j) = some (w1, .done) ∧ exec N w1 (.push j x) = some (w2, .done) ∧
      exec N w2 (.size j) = some (w2, .num (a.elems.length + 1)) ∧ exec N w2 (.get j 0) = some (w2, .val x) := by
  have hB := blockSize_pos N
  obtain ⟨us, fs, W⟩ := h.inv
  obtain ⟨v', hv', c, hr, hu⟩ := W.getLive ha hm
  rw [hv] at hv'; cases hv'
  obtain ⟨w1, us1, fs1, e, W1, _⟩ := step w aw us fs W (.moveAssign i j)
    (upd (upd aw i (some a)) j (some ⟨[], 0, true⟩)) .done (by simp [ideal, hij, ha, hb]) (by simp [careful, ha, hm])
  have hj : w1.objs j = some { v with freeblocks := none, freeAvail := 0, avail := 0, dataptr := none } := by
    obtain ⟨vi, hvi, _⟩ := W.getSome hb
    simp only [exec, hv, hvi, Option.bind_some, Option.map_eq_some_iff, moveAssign] at e
    obtain ⟨⟨v1, v2, h'⟩, ⟨h2, _, e2⟩, e1⟩ := e
    cases e2
    cases e1
    exact upd_same _ _ _
  rw [← blockSize_eq] at hfull
  have hcons : w1.heap.alloc.2.construct (blockSize N) w1.heap.next 0 x =
      some (w1.heap.alloc.2.setCell w1.heap.next 0 (some x)) := by
    simp [Heap.construct, Heap.alloc, hB, W1.wf.cells _ (Nat.le_refl w1.heap.next)]
  refine ⟨w1, ⟨upd w1.objs j (some ⟨v.csize + 1, some (some w1.heap.next :: List.replicate 63 none), 64, 0, 1, 0, v.freeIdx, none⟩),
    w1.heap.alloc.2.setCell w1.heap.next 0 (some x)⟩, e, ?_, ?_, ?_⟩
  · simp only [exec, hj, Option.bind_some, pushBack, blockCheck, hfull, ge_iff_le, Nat.le_refl, if_true, growSlots, getNewBlock, hsp]
    simp only [slotSet, slotGet, List.replicate_succ, Heap.alloc_fst]
    simp [hcons]
  · simp only [exec, Verif.Block.Vector.upd_same, Option.map_some, Vec.size, c.len]
  · simp only [exec, Verif.Block.Vector.upd_same, Option.bind_some, Vec.get, cell]
    simp [slotGet, Heap.read, Heap.setCell, Heap.alloc, hB]

/-! ## C21: copies of vectors that are empty but have reserved memory -/

/-- A copy of a vector that is empty but has reserved memory, in every reachable state: the copy is made and reports no elements, but
its destruction, `clear` and move assignment to it are undefined; after one `push_back` it is a vector like any other. -/
theorem copy_emptied_calls (N : Nat) (w : World X) (aw : AWorld X) (h : Reached N w aw) (i j : Nat) (a : AObj X) (ha : aw j = some a)
    (hm : a.moved = false) (hi : aw i = none) (hx : a.elems = []) (hr0 : a.reserved ≠ 0) :
    ∃ w1, exec N w (.copyNew i j) = some (w1, .done) ∧ w1.heap = w.heap ∧
      exec N w1 (.size i) = some (w1, .num 0) ∧ exec N w1 (.empty i) = some (w1, .bool true) ∧
      (∀ k, exec N w1 (.at i k) = some (w1, .threw)) ∧ exec N w1 (.pop i) = some (w1, .done) ∧
      exec N w1 (.iterate i) = some (w1, .vals []) ∧
      exec N w1 (.destroy i) = none ∧ exec N w1 (.clear i) = none ∧ (∀ k, k ≠ i → exec N w1 (.moveAssign i k) = none) ∧
      ∀ x ops aw2 obs, idealRun N (upd aw i (some ⟨[x], a.reserved, false⟩)) ops = some (aw2, obs) →
        carefulRun N (upd aw i (some ⟨[x], a.reserved, false⟩)) ops = true →
        ∃ w2 w3, exec N w1 (.push i x) = some (w2, .done) ∧ run N w2 ops = some (w3, obs) := by
  have hB := blockSize_pos N
  obtain ⟨us, fs, W⟩ := h.inv
  obtain ⟨v, hv, c, hr, hu⟩ := W.getLive ha hm
  have hav : v.avail ≠ 0 := by rw [hr]; exact hr0
  obtain ⟨l, hd⟩ : ∃ l, v.dataptr = some l := by
    cases hd : v.dataptr with
    | none => exact absurd (by have := c.arr.len; rw [hd] at this; simpa using this.symm) hav
    | some l => exact ⟨l, rfl⟩
  have hcs : v.csize = 0 := by rw [← c.len, hx]; rfl
  obtain ⟨ib, ie, hib, hie, -⟩ := c.all_iters hu (.inr (by
    rw [hx]; exact Nat.mul_pos (Nat.pos_of_ne_zero hav) hB))
  have hbe : ib = ie := by rw [begin?, if_pos hcs, hie] at hib; exact (Option.some.inj hib).symm
  subst hbe
  have hrefl : ib.eq ib = true := by simp [Iter.eq]
  have c0 : Core N w.heap { Vec.default N with
      dataptr := some (List.replicate v.avail none), avail := v.avail, slotIdx := -1 } [] [] [] := by
    refine ⟨ArrOK.nil v.avail, ?_, ⟨rfl, rfl⟩, rfl, .inl rfl, Nat.le_refl _, by simp [Vec.default],
      rfl, by simp, by simp, by simp, by simp, fun _ => rfl⟩
    simp [hav]
  generalize hv0 : ({ Vec.default N with
      dataptr := some (List.replicate v.avail none), avail := v.avail, slotIdx := -1 } : Vec) = v0 at c0
  have hz : v0.csize = 0 := by rw [← hv0]; rfl
  have hb0 : v0.bsize = blockSize N := by rw [← hv0]; rfl
  have hsl : v0.slotIdx = -1 := by rw [← hv0]
  have hp0 : v0.dataptr = some (List.replicate v.avail none) := by rw [← hv0]
  have ha0 : v0.avail = v.avail := by rw [← hv0]
  obtain ⟨m, hm'⟩ : ∃ m, blockSize N = m + 1 := ⟨blockSize N - 1, by omega⟩
  have hdd : destroyDown N v0.dataptr v0.slotIdx v0.bsize w.heap = none := by
    rw [hb0, hm', destroyDown, hsl, hp0]; rfl
  have hfree : v0.freeAll N w.heap = none := by
    rw [freeAll, hp0]; simp only; rw [← hp0, hdd]; rfl
  have hcl : v0.clear N w.heap = none := by
    rw [clear, if_neg (by rw [ha0]; exact hav), hdd]; rfl
  have hend : end? N v0 = some ⟨.slot 0, none, 0, 0⟩ := by
    obtain ⟨k, hk⟩ : ∃ k, v.avail = k + 1 := ⟨v.avail - 1, by omega⟩
    rw [end?, if_pos hb0, hp0, hsl, hk]
    rfl
  have hcopy : copyCtor N v w.heap = some (v0, w.heap) := by
    simp only [copyCtor, hd, assignAll, hib, hie, hv0, Option.bind_some]
    simp [assignFrom, assignOver, hz, hcs, InRange.iter, hrefl, popN]
  refine ⟨⟨upd w.objs i (some v0), w.heap⟩, ?_, rfl, ?_⟩
  · simp only [exec, hv, Option.bind_some, hcopy]; rfl
  generalize hw : (⟨upd w.objs i (some v0), w.heap⟩ : World X) = w1
  have hj : w1.objs i = some v0 := by rw [← hw]; exact upd_same _ _ _
  have hh : w1.heap = w.heap := by rw [← hw]
  have hs := World.upd_same hj
  refine ⟨?_, ?_, ?_, ?_, ?_, ?_, ?_, ?_, ?_⟩
  · simp only [exec, hj, Option.map_some, Vec.size, hz]
  · simp only [exec, hj, Option.map_some, Vec.empty, hz]; rfl
  · intro k; simp [exec, hj, at?, hz]
  · simp only [exec, hj, Option.bind_some, popBack, if_pos hz]; simp [hs]
  · simp only [exec, hj, Option.bind_some, iterate, begin?, if_pos hz, hend]
    simp [Iter.collect, Iter.ne]
  · simp only [exec, hj, Option.bind_some, hh, hfree]; rfl
  · simp only [exec, hj, Option.bind_some, hh, hcl]; rfl
  · intro k hk
    simp only [exec, hj, Option.bind_some, moveAssign, hh, hfree]
    cases w1.objs k <;> simp
  · intro x ops aw2 obs e2 hc2
    obtain ⟨v', h', us', fs', e, c', f, _, hu', ha'⟩ := c0.pushBack W.wf x
    obtain ⟨hno, hu0, hf0⟩ := W.getNone hi
    have W2 := W.update i (h' := h') (o := some v') (oa := some ⟨[x], a.reserved, false⟩) (us' := us') (fs' := fs')
      (by rw [hu0, hf0]; exact f)
      (.ofCore rfl c' (by
        rw [ha', hz, ha0, capPush, if_neg (by
          intro h0; have := Nat.mul_pos (Nat.pos_of_ne_zero hav) hB; omega)]
        exact hr) (fun h0 => by rw [h0] at hu'; simp at hu'))
    obtain ⟨w3, _, _, e3, _⟩ := runs ops _ _ _ _ W2 aw2 obs e2 hc2
    refine ⟨_, w3, ?_, e3⟩
    simp only [exec, hj, Option.bind_some, hh, e, Option.map_some]
    rw [← hw]
    simp only [upd_upd]

/-! ## The hypotheses are met -/

/-- two vectors of blocks of two, vector 0 with three elements and vector 1 with two, which fill its block -/
example : ∃ (w : World Nat) (aw : AWorld Nat), Reached 1 w aw ∧ aw 0 = some ⟨[1, 2, 3], 64, false⟩ ∧
    aw 1 = some ⟨[4, 5], 64, false⟩ ∧ aw 2 = none := by
  obtain ⟨w, -, r⟩ := after_failures_partial 1 _ _ .start [Op.new 0, .push 0 1, .push 0 2, .push 0 3, .new 1, .push 1 4, .push 1 5] _ _ rfl (by decide)
  exact ⟨w, _, r, rfl, rfl, rfl⟩

/-- vector 1 of this program has a full last block and no spare blocks -/
example : ((run 1 World.empty [Op.new 0, .new 1, .push 1 4, .push 1 5]).bind fun r => (r.1.objs 1).map fun v => (v.bsize, v.freeIdx)) =
    some (2 ^ 1, 0) := by decide

/-- a vector that is empty with reserved memory -/
example : ∃ (w : World Nat) (aw : AWorld Nat), Reached 1 w aw ∧ aw 0 = some ⟨[], 64, false⟩ ∧ aw 1 = none := by
  obtain ⟨w, -, r⟩ := after_failures_partial 1 _ _ .start [Op.new 0, .push 0 1, .pop 0] _ _ rfl (by decide)
  exact ⟨w, _, r, rfl, rfl⟩

end Verif.Block.Vector
