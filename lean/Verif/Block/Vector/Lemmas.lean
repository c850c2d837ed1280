import Verif.Block.Vector.Model
import Verif.Block.RangeLemmas
import Mathlib.Data.List.Nodup

namespace Verif.Block.Vector
open Verif.Block
namespace Vec
variable {X : Type}

theorem blockSize_eq (N : Nat) : blockSize N = 2 ^ N := by
  simp [blockSize, Nat.shiftLeft_eq]

theorem blockSize_pos (N : Nat) : 0 < blockSize N := by
  rw [blockSize_eq]; exact Nat.two_pow_pos N

theorem shr_eq (N n : Nat) : n >>> N = n / blockSize N := by
  rw [blockSize_eq, Nat.shiftRight_eq_div_pow]

theorem mask_eq (N n : Nat) : n &&& cntmask N = n % blockSize N := by
  rw [cntmask, blockSize_eq, Nat.and_two_pow_sub_one_eq_mod]

/-- Representation invariant: `us` are the blocks in use, `fs` the blocks kept for reuse, `xs` the
elements. -/
structure Core (N : Nat) (h : Heap X) (v : Vec) (xs : List X) (us fs : List Nat) : Prop where
  arr : ArrOK v.dataptr v.avail us
  ne : v.dataptr ≠ some []
  farr : ArrOK v.freeblocks v.freeAvail fs
  fidx : v.freeIdx = fs.length
  idx : v.slotIdx = (us.length : Int) - 1 ∨ v.avail = 0
  bsz : v.bsize ≤ blockSize N
  size : v.csize + blockSize N = us.length * blockSize N + v.bsize
  len : xs.length = v.csize
  nodup : (us ++ fs).Nodup
  live : ∀ b, b ∈ us ++ fs → h.live b = true
  cells : ∀ k b : Nat, us[k]? = some b → ∀ j : Nat, j < blockSize N →
    h.cells b j = xs[k * blockSize N + j]?
  fcells : ∀ b, b ∈ fs → ∀ j, j < blockSize N → h.cells b j = none
  fav : v.avail = 0 → fs = []

variable {N : Nat} {h : Heap X} {v : Vec} {xs : List X} {us fs : List Nat}

theorem Core.csize_lt (c : Core N h v xs us fs) (hp : 0 < v.csize) : 0 < us.length := by
  have e := c.size; have := c.bsz
  rcases Nat.eq_zero_or_pos us.length with h0 | h0
  · rw [h0, Nat.zero_mul] at e; omega
  · exact h0

theorem Core.avail_pos (c : Core N h v xs us fs) (hp : 0 < us.length) : 0 < v.avail :=
  Nat.lt_of_lt_of_le hp c.arr.le

theorem Core.csize_le (c : Core N h v xs us fs) : v.csize ≤ us.length * blockSize N := by
  have := c.size; have := c.bsz; omega

theorem Core.div_lt (c : Core N h v xs us fs) {n : Nat} (hn : n < v.csize) :
    n / blockSize N < us.length :=
  Nat.div_lt_of_lt_mul (by have := c.csize_le; rw [Nat.mul_comm] at this; omega)

/-- where element `n` lives -/
theorem Core.cell_eq (c : Core N h v xs us fs) {n : Nat} (hn : n < v.csize) :
    ∃ b, us[n / blockSize N]? = some b ∧ cell N v n = some (b, n % blockSize N) := by
  have hk := c.div_lt hn
  refine ⟨us[n / blockSize N], List.getElem?_eq_getElem hk, ?_⟩
  rw [cell, shr_eq, mask_eq, c.arr.slotGet (List.getElem?_eq_getElem hk)]; rfl

theorem Core.cell_val (c : Core N h v xs us fs) {n b : Nat} (hb : us[n / blockSize N]? = some b) :
    h.cells b (n % blockSize N) = xs[n]? := by
  rw [c.cells _ b hb _ (Nat.mod_lt _ (blockSize_pos N)), Nat.mul_comm, Nat.div_add_mod]

theorem Core.live_us (c : Core N h v xs us fs) {k b : Nat} (hb : us[k]? = some b) : h.live b = true :=
  c.live b (List.mem_append_left _ (List.mem_of_getElem? hb))

theorem Core.get_eq (c : Core N h v xs us fs) {n : Nat} (hn : n < xs.length) :
    get N v h n = some xs[n] := by
  rw [c.len] at hn
  obtain ⟨b, hb, hc⟩ := c.cell_eq hn
  rw [get, hc]
  simp only [Option.bind_some]
  rw [Heap.read_eq (c.live_us hb) (Nat.mod_lt _ (blockSize_pos N)), c.cell_val hb,
    List.getElem?_eq_getElem]

/-- uniqueness of block numbers -/
theorem us_inj (nd : (us ++ fs).Nodup) {k k' b : Nat} (h1 : us[k]? = some b) (h2 : us[k']? = some b) :
    k = k' := by
  have nd' := (List.nodup_append.1 nd).1
  obtain ⟨hk, e⟩ := List.getElem?_eq_some_iff.1 h1
  obtain ⟨hk', e'⟩ := List.getElem?_eq_some_iff.1 h2
  exact (List.Nodup.getElem_inj_iff nd').1 (e.trans e'.symm)

theorem us_fs (nd : (us ++ fs).Nodup) {k b : Nat} (h1 : us[k]? = some b) : b ∉ fs :=
  fun h2 => (List.nodup_append.1 nd).2.2 b (List.mem_of_getElem? h1) b h2 rfl

/-- Changing the heap cell of element `n`. -/
theorem Core.setCell (c : Core N h v xs us fs) {n b : Nat} (hn : n < xs.length)
    (hb : us[n / blockSize N]? = some b) (x : X) :
    Core N (h.setCell b (n % blockSize N) (some x)) v (xs.set n x) us fs := by
  refine ⟨c.arr, c.ne, c.farr, c.fidx, c.idx, c.bsz, c.size, ?_, c.nodup, c.live, ?_, ?_, c.fav⟩
  · rw [List.length_set]; exact c.len
  · intro k b' hb' j hj
    rw [Heap.setCell_cells, List.getElem?_set]
    have hm : n % blockSize N < blockSize N := Nat.mod_lt _ (blockSize_pos N)
    have hd : n / blockSize N * blockSize N + n % blockSize N = n := by
      rw [Nat.mul_comm, Nat.div_add_mod]
    split
    · rename_i hc
      obtain ⟨rfl, rfl⟩ := hc
      have := us_inj c.nodup hb hb'
      subst this
      simp [hd]
    · rename_i hc
      rw [if_neg, c.cells k b' hb' j hj]
      intro e
      have := pair_inj hm hj (hd.trans e)
      obtain ⟨rfl, rfl⟩ := this
      rw [hb] at hb'; cases hb'
      exact hc ⟨rfl, rfl⟩
  · intro b' hb' j hj
    rw [Heap.setCell_cells, if_neg]
    · exact c.fcells b' hb' j hj
    · rintro ⟨rfl, _⟩
      exact us_fs c.nodup hb hb'

theorem Core.set_eq (c : Core N h v xs us fs) (w : h.Wf) {n : Nat} (hn : n < xs.length) (x : X) :
    ∃ h', set N v h n x = some h' ∧ Core N h' v (xs.set n x) us fs ∧
      Heap.Frame h h' (us ++ fs) (us ++ fs) := by
  obtain ⟨b, hb, hc⟩ := c.cell_eq (c.len ▸ hn)
  refine ⟨_, ?_, c.setCell hn hb x, Heap.Frame.setCell w
    (List.mem_append_left _ (List.mem_of_getElem? hb)) (c.live_us hb) _ _⟩
  rw [set, hc]
  simp only [Option.bind_some]
  exact Heap.assign_eq x (c.live_us hb) (Nat.mod_lt _ (blockSize_pos N))
    ((c.cell_val hb).trans (List.getElem?_eq_getElem hn))

/-! ### push_back -/

/-- number of slots after a push -/
def capPush (N cap len : Nat) : Nat :=
  if len = cap * blockSize N then (if cap = 0 then 64 else cap * 2) else cap

theorem Core.growSlots (c : Core N h v xs us fs) (hb : v.bsize = blockSize N) :
    Core N h v.growSlots xs us fs ∧ v.growSlots.avail = capPush N v.avail v.csize ∧
      us.length < v.growSlots.avail ∧ v.growSlots.bsize = v.bsize ∧ v.growSlots.csize = v.csize ∧
      v.growSlots.slotIdx = (us.length : Int) - 1 := by
  have hle := c.arr.le
  have hsz := c.size
  have hB := blockSize_pos N
  have hcs : v.csize = us.length * blockSize N := by omega
  rw [Vec.growSlots]
  split
  · rename_i h0
    have hu : us = [] := List.length_eq_zero_iff.1 (by omega)
    subst hu
    refine ⟨⟨ArrOK.nil 64, by simp, c.farr, c.fidx, .inl (by simp), c.bsz, c.size, c.len, c.nodup,
      c.live, c.cells, c.fcells, by simp⟩, ?_, ?_, rfl, rfl, ?_⟩
    · simp [capPush, h0]; simpa using hcs
    · simp
    · simp
  · rename_i h0
    have hi := c.idx.resolve_right h0
    split
    · rename_i h1
      have hua : us.length = v.avail := by omega
      have hne : v.dataptr.isNone = false := by
        obtain ⟨l, hl, _⟩ := c.arr.getD (by omega); simp [hl]
      have hd := c.arr.double
      rw [hne] at hd
      refine ⟨⟨hd, ?_, c.farr, c.fidx, .inl hi, c.bsz, c.size, c.len, c.nodup, c.live, c.cells,
        c.fcells, by simp only; omega⟩, ?_, ?_, rfl, rfl, hi⟩
      · intro he
        have := hd.len
        simp only at he
        rw [he] at this
        simp at this; omega
      · simp [capPush, h0]
        intro hx; exact absurd (by rw [hcs, hua]) hx
      · simp only; omega
    · refine ⟨c, ?_, by omega, rfl, rfl, hi⟩
      rw [capPush, if_neg]
      rw [hcs]
      intro e
      have := Nat.eq_of_mul_eq_mul_right hB e
      omega

theorem nodup_snoc_swap {us fs : List Nat} {b : Nat} (h : (us ++ (fs ++ [b])).Nodup) :
    ((us ++ [b]) ++ fs).Nodup := by
  refine (List.Perm.nodup_iff ?_).2 h
  rw [List.append_assoc]
  exact List.Perm.append_left us List.perm_append_comm

/-- Appending an empty block `b` when the last one is full. -/
theorem Core.addBlock (c : Core N h v xs us fs) (hb : v.bsize = blockSize N) (lt : us.length < v.avail)
    (h' : Heap X) (b : Nat) (fs' : List Nat) (fi : Nat)
    (hfa : ArrOK v.freeblocks v.freeAvail fs') (hfi : fi = fs'.length)
    (hnd : ((us ++ [b]) ++ fs').Nodup) (hlv : ∀ b', b' ∈ (us ++ [b]) ++ fs' → h'.live b' = true)
    (hcl : ∀ b', b' ∈ us ++ (b :: fs') → ∀ j, j < blockSize N → h'.cells b' j = h.cells b' j)
    (hb0 : ∀ j, j < blockSize N → h.cells b j = none)
    (hf0 : ∀ b', b' ∈ fs' → ∀ j, j < blockSize N → h.cells b' j = none) :
    ∃ p', slotSet v.dataptr (us.length : Int) b = some p' ∧
      Core N h' { v with freeIdx := fi, dataptr := p', slotIdx := us.length, bsize := 0 } xs
        (us ++ [b]) fs' := by
  have hsz := c.size
  obtain ⟨p', hp', ha', hne'⟩ := c.arr.snoc lt b
  refine ⟨p', hp', ha', hne', hfa, hfi, .inl (by simp), by simp, ?_, c.len, hnd, hlv, ?_, ?_,
    by simp only; omega⟩
  · simp only [List.length_append, List.length_singleton, Nat.add_mul]; omega
  · intro k b' hk j hj
    rw [List.getElem?_append] at hk
    split at hk
    · rw [hcl b' (List.mem_append_left _ (List.mem_of_getElem? hk)) j hj]
      exact c.cells k b' hk j hj
    · rename_i hk'
      have hkl : k = us.length := by
        have := (List.getElem?_eq_some_iff.1 hk).1
        simp at this; omega
      subst hkl
      simp at hk
      subst hk
      rw [hcl b (by simp) j hj, hb0 j hj, List.getElem?_eq_none]
      rw [c.len]; omega
  · intro b' hb' j hj
    rw [hcl b' (by simp [hb']) j hj]
    exact hf0 b' hb' j hj

/-- ... where `b` is freshly allocated -/
theorem Core.addFresh (c : Core N h v xs us []) (w : h.Wf) (hb : v.bsize = blockSize N)
    (lt : us.length < v.avail) :
    ∃ p', slotSet v.dataptr (us.length : Int) h.next = some p' ∧
      Core N h.alloc.2 { v with dataptr := p', slotIdx := us.length, bsize := 0 } xs
        (us ++ [h.next]) [] ∧
      Heap.Frame h h.alloc.2 (us ++ []) ((us ++ [h.next]) ++ []) := by
  have hnew : ∀ b, b ∈ us → b ≠ h.next := fun b hb e => by
    have := w.live b (c.live b (by simp [hb])); omega
  obtain ⟨p', e, c'⟩ := c.addBlock hb lt h.alloc.2 h.next [] v.freeIdx c.farr c.fidx
    (by
      simp only [List.append_nil]
      refine List.nodup_append.2 ⟨by simpa using c.nodup, by simp, ?_⟩
      intro a ha b hb
      simp at hb; subst hb; exact hnew a ha)
    (by
      intro b hb
      rw [Heap.alloc_live]
      split
      · rfl
      · rename_i hne
        simp [hne] at hb
        exact c.live b (by simp [hb]))
    (fun _ _ _ _ => rfl)
    (fun j _ => w.cells _ (Nat.le_refl _) j)
    (by simp)
  exact ⟨p', e, c', (Heap.Frame.alloc w (us ++ [])).congr (fun _ => Iff.rfl) (by simp [or_comm])⟩

/-- Taking a new (empty) block when the last one is full. -/
theorem Core.blockCheck (c : Core N h v xs us fs) (w : h.Wf) :
    ∃ v' h' us' b fs', Vec.blockCheck N v h = some (v', h') ∧ Core N h' v' xs (us' ++ [b]) fs' ∧
      Heap.Frame h h' (us ++ fs) ((us' ++ [b]) ++ fs') ∧ us <+: us' ++ [b] ∧ v'.bsize < blockSize N ∧
      v'.avail = capPush N v.avail v.csize := by
  have hB := blockSize_pos N
  rw [Vec.blockCheck]
  split
  · rename_i hge
    have hb : v.bsize = blockSize N := Nat.le_antisymm c.bsz hge
    obtain ⟨g, gcap, glt, gb, gc, gi⟩ := c.growSlots hb
    have hidx : v.growSlots.slotIdx + 1 = (us.length : Int) := by omega
    rw [getNewBlock]
    split
    · rename_i h0
      have hfs : fs = [] := List.length_eq_zero_iff.1 (by rw [← g.fidx]; exact h0)
      subst hfs
      simp only [Option.bind_some, Heap.alloc_fst]
      obtain ⟨p', e, c', f'⟩ := g.addFresh w (gb.trans hb) glt
      rw [hidx, e]
      exact ⟨_, _, us, h.next, [], rfl, c', f', List.prefix_append _ _, hB, gcap⟩
    · rename_i h0
      have hfl : 0 < fs.length := by rw [← g.fidx]; omega
      obtain ⟨fs', b, rfl⟩ : ∃ fs' b, fs = fs' ++ [b] :=
        ⟨fs.dropLast, fs.getLast (List.length_pos_iff.1 hfl), (List.dropLast_concat_getLast _).symm⟩
      have hfi : v.growSlots.freeIdx = fs'.length + 1 := by rw [g.fidx]; simp
      have hsg : slotGet v.growSlots.freeblocks ((v.growSlots.freeIdx : Int) - 1) = some b := by
        have : (v.growSlots.freeIdx : Int) - 1 = (fs'.length : Int) := by omega
        rw [this]
        exact g.farr.slotGet (by simp)
      simp only [hsg, Option.map_some, Option.bind_some]
      obtain ⟨p', e, c'⟩ := g.addBlock (gb.trans hb) glt h b fs' (v.growSlots.freeIdx - 1) g.farr.init
        (by omega) (nodup_snoc_swap c.nodup)
        (fun b' hb' => c.live b' (by simp at hb' ⊢; grind))
        (fun _ _ _ _ => rfl)
        (fun j hj => c.fcells b (by simp) j hj)
        (fun b' hb' j hj => c.fcells b' (by simp [hb']) j hj)
      rw [hidx, e]
      exact ⟨_, _, us, b, fs', rfl, c', (Heap.Frame.refl w (l := us ++ (fs' ++ [b]))).congr
        (fun _ => Iff.rfl) (by intro b'; simp; grind), List.prefix_append _ _, hB, gcap⟩
  · rename_i hlt
    have hbl : v.bsize < blockSize N := by omega
    have hlt' : 0 < us.length := by
      rcases Nat.eq_zero_or_pos us.length with h0 | h0
      · have := c.size; rw [h0] at this; omega
      · exact h0
    obtain ⟨us', b, rfl⟩ : ∃ us' b, us = us' ++ [b] :=
      ⟨us.dropLast, us.getLast (List.length_pos_iff.1 hlt'), (List.dropLast_concat_getLast _).symm⟩
    refine ⟨v, h, us', b, fs, rfl, c, Heap.Frame.refl w, List.prefix_refl _, hbl, ?_⟩
    rw [capPush, if_neg]
    intro e
    have h1 := c.size
    have h2 := Nat.mul_le_mul_right (blockSize N) c.arr.le
    omega

theorem Core.last_size {b} (c : Core N h v xs (us ++ [b]) fs) :
    v.csize = us.length * blockSize N + v.bsize := by
  have := c.size
  simp only [List.length_append, List.length_singleton, Nat.add_mul] at this
  omega

theorem Core.last_idx {b} (c : Core N h v xs (us ++ [b]) fs) : v.slotIdx = (us.length : Int) := by
  have h1 := c.arr.le
  simp only [List.length_append, List.length_singleton] at h1
  have := c.idx.resolve_right (by omega)
  simp at this; omega

theorem Core.last_get {b} (c : Core N h v xs (us ++ [b]) fs) :
    slotGet v.dataptr (us.length : Int) = some b := c.arr.slotGet (by simp)

theorem Core.last_live {b} (c : Core N h v xs (us ++ [b]) fs) : h.live b = true := c.live b (by simp)

/-- Constructing an element in the next cell of the last block. -/
theorem Core.pushCell {b} (c : Core N h v xs (us ++ [b]) fs) (w : h.Wf) (b1 : v.bsize < blockSize N)
    (x : X) :
    ∃ h', h.construct (blockSize N) b v.bsize x = some h' ∧
      Core N h' { v with bsize := v.bsize + 1, csize := v.csize + 1 } (xs ++ [x]) (us ++ [b]) fs ∧
      Heap.Frame h h' ((us ++ [b]) ++ fs) ((us ++ [b]) ++ fs) := by
  have hcs := c.last_size
  have hg : (us ++ [b])[us.length]? = some b := by simp
  have hcell : h.cells b v.bsize = none := by
    rw [c.cells _ b hg _ b1, List.getElem?_eq_none]
    rw [c.len]; omega
  refine ⟨_, Heap.construct_eq x c.last_live b1 hcell, ?_,
    Heap.Frame.setCell w (by simp) c.last_live _ _⟩
  refine ⟨c.arr, c.ne, c.farr, c.fidx, c.idx, b1, ?_, ?_, c.nodup, c.live, ?_, ?_, c.fav⟩
  · have := c.size; simp only; omega
  · simp [c.len]
  · intro k b' hk' j hj
    rw [Heap.setCell_cells]
    split
    · rename_i hc
      obtain ⟨rfl, rfl⟩ := hc
      have := us_inj c.nodup hg hk'
      subst this
      rw [← hcs, ← c.len]; simp
    · rename_i hc
      rw [c.cells k b' hk' j hj]
      have hne : k * blockSize N + j ≠ v.csize := by
        intro e
        obtain ⟨rfl, rfl⟩ := pair_inj hj b1 (e.trans hcs)
        rw [hg] at hk'; cases hk'
        exact hc ⟨rfl, rfl⟩
      rw [List.getElem?_append]
      split
      · rfl
      · rw [List.getElem?_eq_none (by omega), List.getElem?_eq_none]
        simp only [List.length_singleton]
        rw [c.len] at *; omega
  · intro b' hb' j hj
    rw [Heap.setCell_cells, if_neg]
    · exact c.fcells b' hb' j hj
    · rintro ⟨rfl, _⟩
      exact us_fs c.nodup hg hb'

theorem Core.pushBack (c : Core N h v xs us fs) (w : h.Wf) (x : X) :
    ∃ v' h' us' fs', Vec.pushBack N v h x = some (v', h') ∧ Core N h' v' (xs ++ [x]) us' fs' ∧
      Heap.Frame h h' (us ++ fs) (us' ++ fs') ∧ us <+: us' ∧ 0 < us'.length ∧
      v'.avail = capPush N v.avail v.csize := by
  obtain ⟨v1, h1, us1, b, fs1, e1, c1, f1, p1, b1, a1⟩ := c.blockCheck w
  obtain ⟨h', e2, c2, f2⟩ := c1.pushCell f1.wf b1 x
  refine ⟨_, h', us1 ++ [b], fs1, ?_, c2, f1.trans f2, p1, by simp, a1⟩
  rw [Vec.pushBack, e1]
  simp only [Option.bind_some]
  rw [c1.last_idx, c1.last_get]
  simp only [Option.bind_some]
  rw [e2]; simp

/-! ### pop_back -/

/-- Destroying the last element, in a non-empty last block. -/
theorem Core.popCell {b} (c : Core N h v xs (us ++ [b]) fs) (w : h.Wf) (hb : 0 < v.bsize) :
    ∃ h', h.destroy (blockSize N) b (v.bsize - 1) = some h' ∧
      Core N h' { v with bsize := v.bsize - 1, csize := v.csize - 1 } xs.dropLast (us ++ [b]) fs ∧
      Heap.Frame h h' ((us ++ [b]) ++ fs) ((us ++ [b]) ++ fs) := by
  have hcs := c.last_size
  have hbz := c.bsz
  have hlen := c.len
  have hg : (us ++ [b])[us.length]? = some b := by simp
  have hlt : v.csize - 1 < xs.length := by rw [c.len]; omega
  have hcell : h.cells b (v.bsize - 1) = some xs[v.csize - 1] := by
    rw [c.cells _ b hg _ (by omega), ← List.getElem?_eq_getElem hlt]
    congr 1; omega
  refine ⟨_, Heap.destroy_eq c.last_live (by omega) hcell, ?_,
    Heap.Frame.setCell w (by simp) c.last_live _ _⟩
  refine ⟨c.arr, c.ne, c.farr, c.fidx, c.idx, by simp only; omega, ?_, ?_, c.nodup, c.live, ?_, ?_,
    c.fav⟩
  · have := c.size; simp only; omega
  · simp [c.len]
  · intro k b' hk' j hj
    rw [Heap.setCell_cells, List.dropLast_eq_take, List.getElem?_take]
    split
    · rename_i hc
      obtain ⟨rfl, rfl⟩ := hc
      have := us_inj c.nodup hg hk'
      subst this
      rw [if_neg]
      rw [c.len]; omega
    · rename_i hc
      rw [c.cells k b' hk' j hj]
      have hne : k * blockSize N + j ≠ v.csize - 1 := by
        intro e
        obtain ⟨rfl, rfl⟩ := pair_inj hj (show v.bsize - 1 < blockSize N by omega)
          (e.trans (show v.csize - 1 = us.length * blockSize N + (v.bsize - 1) by omega))
        rw [hg] at hk'; cases hk'
        exact hc ⟨rfl, rfl⟩
      split
      · rfl
      · rw [List.getElem?_eq_none (by omega)]
  · intro b' hb' j hj
    rw [Heap.setCell_cells, if_neg]
    · exact c.fcells b' hb' j hj
    · rintro ⟨rfl, _⟩
      exact us_fs c.nodup hg hb'

/-- effect of `moveBlocktoAvailable` -/
theorem mba_eq (ha : ArrOK v.freeblocks v.freeAvail fs) (hi : v.freeIdx = fs.length) (b : Nat) :
    ∃ p a, ArrOK p a (fs ++ [b]) ∧ ∀ v' : Vec, v'.freeblocks = v.freeblocks →
      v'.freeAvail = v.freeAvail → v'.freeIdx = v.freeIdx →
      moveBlocktoAvailable v' b =
        some { v' with freeblocks := p, freeAvail := a, freeIdx := fs.length + 1 } := by
  have hle := ha.le
  by_cases h1 : v.freeIdx ≥ v.freeAvail
  · by_cases h2 : v.freeAvail = 0
    · have hfs : fs = [] := List.length_eq_zero_iff.1 (by omega)
      subst hfs
      obtain ⟨p, e, a, _⟩ := (ArrOK.nil 64).snoc (by simp) b
      refine ⟨p, 64, a, ?_⟩
      intro v' e1 e2 e3
      have : v'.growFree = { v' with freeblocks := some (List.replicate 64 none), freeAvail := 64 } := by
        rw [growFree, if_pos (by omega), if_pos (by omega)]
      rw [moveBlocktoAvailable, this]
      simp only [e3, hi]
      rw [e]; rfl
    · have hne : v.freeblocks.isNone = false := by
        obtain ⟨l, hl, _⟩ := ha.getD (by omega); simp [hl]
      have hd := ha.double
      rw [hne] at hd
      obtain ⟨p, e, a, _⟩ := hd.snoc (by simp; omega) b
      refine ⟨p, _, a, ?_⟩
      intro v' e1 e2 e3
      have : v'.growFree = { v' with
          freeblocks := v.freeblocks.map (fun l => l.take v.freeAvail ++ List.replicate v.freeAvail none)
          freeAvail := v.freeAvail * 2 } := by
        rw [growFree, if_pos (by omega), if_neg (by omega), e1, e2]
      rw [moveBlocktoAvailable, this]
      simp only [e3, hi]
      rw [e]; rfl
  · obtain ⟨p, e, a, _⟩ := ha.snoc (by omega) b
    refine ⟨p, _, a, ?_⟩
    intro v' e1 e2 e3
    have : v'.growFree = v' := by rw [growFree, if_neg (by omega)]
    rw [moveBlocktoAvailable, this]
    simp only [e3, hi, e1, e2]
    rw [e]; rfl

/-- Moving an empty last block to the free list. -/
theorem Core.retire {b} (c : Core N h v xs (us ++ [b]) fs) (hb : v.bsize = 0) :
    ∃ p a, (∀ v' : Vec, v'.freeblocks = v.freeblocks → v'.freeAvail = v.freeAvail →
        v'.freeIdx = v.freeIdx → moveBlocktoAvailable v' b =
          some { v' with freeblocks := p, freeAvail := a, freeIdx := fs.length + 1 }) ∧
      Core N h { v with
        slotIdx := (us.length : Int) - 1, bsize := blockSize N, freeblocks := p, freeAvail := a,
        freeIdx := fs.length + 1 } xs us (fs ++ [b]) := by
  obtain ⟨p, a, ha, hm⟩ := mba_eq c.farr c.fidx b
  have hcs := c.last_size
  refine ⟨p, a, hm, c.arr.init, c.ne, ha, by simp, .inl rfl, Nat.le_refl _, ?_, c.len, ?_, ?_, ?_, ?_, ?_⟩
  rotate_right
  · have := c.arr.le; simp at this ⊢; omega
  · simp only; omega
  · refine (List.Perm.nodup_iff ?_).2 c.nodup
    rw [List.append_assoc]
    exact List.Perm.append_left us List.perm_append_comm
  · intro b' hb'
    exact c.live b' (by simp at hb' ⊢; grind)
  · intro k b' hk j hj
    have hk' : k < us.length := (List.getElem?_eq_some_iff.1 hk).1
    exact c.cells k b' (by rw [List.getElem?_append, if_pos hk']; exact hk) j hj
  · intro b' hb' j hj
    rcases List.mem_append.1 hb' with h1 | h1
    · exact c.fcells b' h1 j hj
    · simp at h1; subst h1
      rw [c.cells us.length b' (by simp) j hj, List.getElem?_eq_none]
      rw [c.len]; omega

theorem Core.popBack (c : Core N h v xs us fs) (w : h.Wf) :
    ∃ v' h' us' fs', Vec.popBack N v h = some (v', h') ∧ Core N h' v' xs.dropLast us' fs' ∧
      Heap.Frame h h' (us ++ fs) (us' ++ fs') ∧ us' <+: us ∧ (0 < us.length → 0 < us'.length) ∧
      v'.avail = v.avail := by
  rw [Vec.popBack]
  split
  · rename_i h0
    have hx : xs = [] := List.length_eq_zero_iff.1 (by rw [c.len]; exact h0)
    subst hx
    exact ⟨v, h, us, fs, rfl, by simpa using c, Heap.Frame.refl w, List.prefix_refl _, id, rfl⟩
  · rename_i h0
    have hB := blockSize_pos N
    have hlt := c.csize_lt (by omega)
    obtain ⟨us, b, rfl⟩ : ∃ us' b, us = us' ++ [b] :=
      ⟨us.dropLast, us.getLast (List.length_pos_iff.1 hlt), (List.dropLast_concat_getLast _).symm⟩
    by_cases hb : 0 < v.bsize
    · obtain ⟨h', e, c', f'⟩ := c.popCell w hb
      refine ⟨_, h', us ++ [b], fs, ?_, c', f', List.prefix_refl _, id, rfl⟩
      rw [popStep, if_pos hb]
      simp only [Option.bind_some]
      rw [c.last_idx, c.last_get]
      simp only [Option.bind_some]
      rw [e]; simp
    · have hb0 : v.bsize = 0 := by omega
      obtain ⟨p, a, hm, c1⟩ := c.retire hb0
      have hu : 0 < us.length := by
        rcases Nat.eq_zero_or_pos us.length with h1 | h1
        · have := c.last_size; rw [h1] at this; omega
        · exact h1
      obtain ⟨us, b1, rfl⟩ : ∃ us' b, us = us' ++ [b] :=
        ⟨us.dropLast, us.getLast (List.length_pos_iff.1 hu), (List.dropLast_concat_getLast _).symm⟩
      obtain ⟨h', e, c', f'⟩ := c1.popCell w hB
      refine ⟨_, h', us ++ [b1], fs ++ [b], ?_, c', f'.congr ?_ (fun _ => Iff.rfl),
        List.prefix_append _ _, by simp, rfl⟩
      · rw [popStep, if_neg hb]
        simp only
        rw [c.last_idx, c.last_get]
        simp only [Option.bind_some]
        rw [hm { v with csize := v.csize - 1, slotIdx := ((us ++ [b1]).length : Int) - 1 } rfl rfl rfl]
        simp only [Option.map_some, Option.bind_some]
        have hl := c1.last_idx
        have hg := c1.last_get
        simp only at hl hg
        rw [hl, hg]
        simp only [Option.bind_some]
        rw [e]
        rfl
      · intro b'; simp; grind

theorem Core.frame {h' : Heap X} (c : Core N h v xs us fs)
    (hk : ∀ b, b ∈ us ++ fs → h'.live b = h.live b ∧ ∀ j, h'.cells b j = h.cells b j) :
    Core N h' v xs us fs := by
  refine ⟨c.arr, c.ne, c.farr, c.fidx, c.idx, c.bsz, c.size, c.len, c.nodup, ?_, ?_, ?_, c.fav⟩
  · intro b hb; rw [(hk b hb).1]; exact c.live b hb
  · intro k b hb j hj
    rw [(hk b (List.mem_append_left _ (List.mem_of_getElem? hb))).2 j]; exact c.cells k b hb j hj
  · intro b hb j hj
    rw [(hk b (List.mem_append_right _ hb)).2 j]; exact c.fcells b hb j hj

/-! ### assign -/

/-- number of slots after `n` pushes -/
def capPushes (N cap len : Nat) : Nat → Nat
  | 0 => cap
  | n + 1 => capPushes N (capPush N cap len) (len + 1) n

theorem prefix_comparable {a b c : List Nat} (h1 : a <+: b) (h2 : b <+: c) : a <+: c := h1.trans h2

/-- The range `R` and the vector share no blocks. -/
theorem Core.fetch {R : InRange X} {B : List Nat} {Q : Heap X → Prop} {s : R.S} {z : X} {zs : List X}
    (c : Core N h v xs us fs) (w : h.Wf) (hd : ∀ b, b ∈ us ++ fs → b ∉ B) (F : Feeds R B Q (z :: zs) s h) :
    R.atEnd s = false ∧ ∃ s' h', R.next s = some s' ∧ R.fetch s h = some (z, h') ∧ Core N h' v xs us fs ∧
      Heap.Frame h h' B B ∧ Feeds R B Q zs s' h' := by
  obtain ⟨h0, s', hs, hh⟩ := F
  obtain ⟨h2, e2, f2, F2⟩ := hh h w (Agree.refl _ _)
  refine ⟨h0, s', h2, hs, e2, c.frame fun b hb => f2.keep b (w.live b (c.live b hb)) (hd b hb), f2, F2⟩

theorem Core.pushFrom {R : InRange X} {B : List Nat} {Q : Heap X → Prop} (ys : List X) :
    ∀ {h : Heap X} {v : Vec} {xs : List X} {us fs : List Nat} {fuel : Nat} {s : R.S},
    Core N h v xs us fs → h.Wf → (∀ b, b ∈ B → b < h.next) → (∀ b, b ∈ us ++ fs → b ∉ B) → Feeds R B Q ys s h →
    ys.length ≤ fuel →
    ∃ v' h' us' fs', Vec.pushFrom N R fuel s v h = some (v', h') ∧ Core N h' v' (xs ++ ys) us' fs' ∧
      Heap.Frame h h' (us ++ fs ++ B) (us' ++ fs' ++ B) ∧ (∀ b, b ∈ us' ++ fs' → b ∉ B) ∧ Q h' ∧ us <+: us' ∧
      (0 < us.length ∨ ys ≠ [] → 0 < us'.length) ∧
      v'.avail = capPushes N v.avail xs.length ys.length := by
  induction ys with
  | nil =>
    intro h v xs us fs fuel s c w _ hd F _
    have : Vec.pushFrom N R fuel s v h = some (v, h) := by cases fuel <;> simp [Vec.pushFrom, F.1]
    exact ⟨v, h, us, fs, this, by simpa using c, Heap.Frame.refl w, hd, F.2 h w (Agree.refl _ _), List.prefix_refl _,
      by simp, rfl⟩
  | cons y ys ih =>
    intro h v xs us fs fuel s c w hB hd F hf
    obtain ⟨fuel, rfl⟩ : ∃ f, fuel = f + 1 := ⟨fuel - 1, by simp at hf; omega⟩
    obtain ⟨h0, s', h1, hn, e1, c1, f1, F1⟩ := c.fetch w hd F
    have hB1 : ∀ b, b ∈ B → b < h1.next := fun b hb => Nat.lt_of_lt_of_le (hB b hb) f1.next_le
    obtain ⟨v2, h2, us2, fs2, e2, c2, f2, p2, l2, a2⟩ := c1.pushBack f1.wf y
    have hd2 := f2.disjoint hB1 hd
    have F2 := F1.agree (f2.agree hB1 fun b hb hb' => hd b hb' hb)
    obtain ⟨v3, h3, us3, fs3, e3, c3, f3, d3, q3, p3, l3, a3⟩ := ih c2 f2.wf
      (fun b hb => Nat.lt_of_lt_of_le (hB1 b hb) f2.next_le) hd2 F2 (Nat.le_of_succ_le_succ hf)
    refine ⟨v3, h3, us3, fs3, ?_, by simpa using c3, ((f1.extend _).trans (frame_left f2 B)).trans f3, d3, q3, p2.trans p3,
      fun _ => l3 (.inl l2), ?_⟩
    · rw [Vec.pushFrom, if_pos h0, e1]
      simp only [Option.bind_some]
      rw [e2]
      simp only [Option.bind_some]
      rw [hn]
      exact e3
    · rw [a3, a2]
      simp [capPushes, c.len]

theorem Core.popN (n : Nat) : ∀ {h : Heap X} {v : Vec} {xs : List X} {us fs : List Nat},
    Core N h v xs us fs → h.Wf →
    ∃ v' h' us' fs', Vec.popN N n v h = some (v', h') ∧ Core N h' v' (xs.take (xs.length - n)) us' fs' ∧
      Heap.Frame h h' (us ++ fs) (us' ++ fs') ∧ us' <+: us ∧ (0 < us.length → 0 < us'.length) ∧
      v'.avail = v.avail := by
  induction n with
  | zero =>
    intro h v xs us fs c w
    exact ⟨v, h, us, fs, rfl, by simpa using c, Heap.Frame.refl w, List.prefix_refl _, id, rfl⟩
  | succ n ih =>
    intro h v xs us fs c w
    obtain ⟨v1, h1, us1, fs1, e1, c1, f1, p1, l1, a1⟩ := c.popBack w
    obtain ⟨v2, h2, us2, fs2, e2, c2, f2, p2, l2, a2⟩ := ih c1 f1.wf
    refine ⟨v2, h2, us2, fs2, ?_, ?_, f1.trans f2, p2.trans p1, fun hh => l2 (l1 hh), a2.trans a1⟩
    · rw [Vec.popN, e1]; exact e2
    · have : xs.dropLast.take (xs.dropLast.length - n) = xs.take (xs.length - (n + 1)) := by
        rw [List.dropLast_eq_take, List.take_take, List.length_take]
        congr 1; omega
      rw [← this]; exact c2

theorem Core.assignOver {R : InRange X} {B : List Nat} {Q : Heap X → Prop} (ys : List X) :
    ∀ {h : Heap X} {xs : List X} (ii : Nat) {fuel : Nat} {s : R.S},
    Core N h v xs us fs → h.Wf → (∀ b, b ∈ B → b < h.next) → (∀ b, b ∈ us ++ fs → b ∉ B) → Feeds R B Q ys s h →
    ys.length ≤ fuel → ii ≤ xs.length →
    ∃ h' s', Vec.assignOver N R v fuel ii s h = some (h', ii + min ys.length (xs.length - ii), s') ∧
      Feeds R B Q (ys.drop (xs.length - ii)) s' h' ∧
      Core N h' v (xs.take ii ++ ys.take (xs.length - ii) ++ xs.drop (ii + ys.length)) us fs ∧
      Heap.Frame h h' (us ++ fs ++ B) (us ++ fs ++ B) := by
  induction ys with
  | nil =>
    intro h xs ii fuel s c w _ _ F _ hi
    refine ⟨h, s, ?_, by simpa using F, by simpa using c, Heap.Frame.refl w⟩
    cases fuel <;> simp [Vec.assignOver, F.1]
  | cons y ys ih =>
    intro h xs ii fuel s c w hB hd F hf hi
    obtain ⟨fuel, rfl⟩ : ∃ f, fuel = f + 1 := ⟨fuel - 1, by simp at hf; omega⟩
    rw [Vec.assignOver]
    by_cases hlt : ii < v.csize
    · have hlt' : ii < xs.length := by rw [c.len]; exact hlt
      obtain ⟨h0, s', h1, hn, e1, c1, f1, F1⟩ := c.fetch w hd F
      rw [if_pos ⟨hlt, h0⟩, e1]
      have hB1 : ∀ b, b ∈ B → b < h1.next := fun b hb => Nat.lt_of_lt_of_le (hB b hb) f1.next_le
      obtain ⟨h2, e2, c2, f2⟩ := c1.set_eq f1.wf hlt' y
      have F2 := F1.agree (f2.agree hB1 fun b hb hb' => hd b hb' hb)
      obtain ⟨h3, s3, e3, F3, c3, f3⟩ := ih (ii + 1) c2 f2.wf (fun b hb => Nat.lt_of_lt_of_le (hB1 b hb) f2.next_le) hd F2
        (Nat.le_of_succ_le_succ hf) (by simp; omega)
      have hsub : xs.length - ii = (xs.length - (ii + 1)) + 1 := by omega
      refine ⟨h3, s3, ?_, ?_, ?_, ((f1.extend _).trans (frame_left f2 B)).trans f3⟩
      · simp only [Option.bind_some]
        rw [e2, hn]
        simp only [Option.bind_some]
        rw [e3]
        simp only [List.length_set, List.length_cons, hsub]
        simp only [Option.some.injEq, Prod.mk.injEq, true_and, and_true]; omega
      · rw [hsub, List.drop_succ_cons]
        simpa using F3
      · have : (xs.set ii y).take (ii + 1) ++ ys.take ((xs.set ii y).length - (ii + 1)) ++
            (xs.set ii y).drop (ii + 1 + ys.length) =
            xs.take ii ++ (y :: ys).take (xs.length - ii) ++ xs.drop (ii + (y :: ys).length) := by
          rw [List.length_set, hsub, List.take_succ_cons, List.take_add_one, List.take_set_of_le (Nat.le_refl _),
            List.getElem?_set_self hlt', List.drop_set_of_lt (by omega)]
          simp [Nat.add_assoc, Nat.add_comm 1]
        rw [← this]; exact c3
    · rw [if_neg (fun e => hlt e.1)]
      have : xs.length - ii = 0 := by rw [c.len]; omega
      refine ⟨h, s, by simp [this], by simpa [this] using F, ?_, Heap.Frame.refl w⟩
      have hi' : ii = xs.length := by omega
      subst hi'
      have h1 : xs.drop (xs.length + (y :: ys).length) = [] := List.drop_eq_nil_of_le (by omega)
      rw [h1]
      simpa using c

theorem Core.assignFrom {R : InRange X} {B : List Nat} {Q : Heap X → Prop} {s : R.S} {fuel : Nat}
    (c : Core N h v xs us fs) (w : h.Wf) (hB : ∀ b, b ∈ B → b < h.next) (hd : ∀ b, b ∈ us ++ fs → b ∉ B)
    {ys : List X} (F : Feeds R B Q ys s h) (hf : ys.length ≤ fuel) :
    ∃ v' h' us' fs', Vec.assignFrom N R fuel v h s = some (v', h') ∧ Core N h' v' ys us' fs' ∧
      Heap.Frame h h' (us ++ fs ++ B) (us' ++ fs' ++ B) ∧ (∀ b, b ∈ us' ++ fs' → b ∉ B) ∧ Q h' ∧
      (us <+: us' ∨ us' <+: us) ∧
      (0 < us.length ∨ ys ≠ [] → 0 < us'.length) ∧
      v'.avail = capPushes N v.avail xs.length (ys.length - xs.length) := by
  obtain ⟨h1, s1, e1, F1, c1, f1⟩ := c.assignOver ys 0 w hB hd F hf (Nat.zero_le _)
  have hB1 : ∀ b, b ∈ B → b < h1.next := fun b hb => Nat.lt_of_lt_of_le (hB b hb) f1.next_le
  rw [Vec.assignFrom, e1]
  simp only [Nat.zero_add, Nat.sub_zero, List.take_zero, List.nil_append] at c1 F1 ⊢
  simp only [Option.bind_some]
  rw [F1.atEnd]
  rcases Nat.lt_or_ge xs.length ys.length with hlt | hle
  · have hne : (ys.drop xs.length).isEmpty = false := by
      rw [List.isEmpty_eq_false_iff]
      intro hd'
      have := congrArg List.length hd'; simp at this; omega
    rw [hne, if_neg (by simp)]
    have hx : ys.take xs.length ++ xs.drop ys.length = ys.take xs.length := by
      rw [List.drop_eq_nil_of_le (by omega), List.append_nil]
    rw [hx] at c1
    obtain ⟨v2, h2, us2, fs2, e2, c2, f2, d2, q2, p2, l2, a2⟩ := Core.pushFrom (fuel := fuel) (ys.drop xs.length) c1 f1.wf hB1 hd F1
      (by simp; omega)
    refine ⟨v2, h2, us2, fs2, e2, ?_, f1.trans f2, d2, q2, .inl p2, fun _ => l2 (.inr ?_), ?_⟩
    · rw [List.take_append_drop] at c2; exact c2
    · rw [List.isEmpty_eq_false_iff] at hne; exact hne
    · rw [a2]
      simp [Nat.min_eq_left (Nat.le_of_lt hlt)]
  · have hem : ys.drop xs.length = [] := List.drop_eq_nil_of_le hle
    rw [hem] at F1 ⊢
    have hmin : min ys.length xs.length = ys.length := Nat.min_eq_left hle
    rw [List.isEmpty_nil, if_pos rfl, hmin]
    obtain ⟨v2, h2, us2, fs2, e2, c2, f2, p2, l2, a2⟩ := c1.popN (v.csize - ys.length) f1.wf
    refine ⟨v2, h2, us2, fs2, e2, ?_, f1.trans (frame_left f2 B), f2.disjoint hB1 hd, ?_, .inr p2, ?_, ?_⟩
    · have : (ys.take xs.length ++ xs.drop ys.length).take
          ((ys.take xs.length ++ xs.drop ys.length).length - (v.csize - ys.length)) = ys := by
        rw [List.take_of_length_le hle, ← c.len]
        rw [List.take_append_of_le_length (by simp), List.take_of_length_le (by simp)]
      rw [← this]; exact c2
    · exact F1.2 h2 f2.wf (f2.agree hB1 fun b hb hb' => hd b hb' hb)
    · rintro (h0 | h0)
      · exact l2 h0
      · apply l2
        apply c.csize_lt
        have := List.length_pos_iff.2 h0
        rw [c.len] at hle; omega
    · rw [a2, show ys.length - xs.length = 0 by omega]; rfl

theorem Core.assign (c : Core N h v xs us fs) (w : h.Wf) (ys : List X) :
    ∃ v' h' us' fs', Vec.assign N v h ys = some (v', h') ∧ Core N h' v' ys us' fs' ∧
      Heap.Frame h h' (us ++ fs) (us' ++ fs') ∧ (us <+: us' ∨ us' <+: us) ∧
      (0 < us.length ∨ ys ≠ [] → 0 < us'.length) ∧
      v'.avail = capPushes N v.avail xs.length (ys.length - xs.length) := by
  obtain ⟨v', h', us', fs', e, c', f, _, _, p, l, a⟩ := c.assignFrom (B := []) w (by simp) (by simp)
    (Feeds.list (fun _ => True) (fun _ => trivial) ys h) (Nat.le_refl _)
  simp only [List.append_nil] at f
  exact ⟨v', h', us', fs', e, c', f, p, l, a⟩

/-! ### ranges of a vector as input -/

/-- writing element `n` through an iterator -/
theorem Core.put_eq (c : Core N h v xs us fs) {it : Iter} {n : Nat} (hn : n < xs.length)
    (d : Iter.Denotes (blockSize N) v.dataptr it n) (x : X) :
    InRange.put (blockSize N) h it x = Vec.set N v h n x := by
  obtain ⟨b, hb, hc⟩ := c.cell_eq (n := n) (by rw [← c.len]; exact hn)
  rw [put_denotes h d (c.arr.slotGet hb), Vec.set, hc]; rfl

theorem Core.deref_eq (c : Core N h v xs us fs) {it : Iter} {n : Nat} (hn : n < xs.length)
    (d : Iter.Denotes (blockSize N) v.dataptr it n) : it.deref (blockSize N) h = some xs[n] := by
  obtain ⟨b, hb, hc⟩ := c.cell_eq (n := n) (by rw [← c.len]; exact hn)
  rw [d.deref_eq h (c.arr.slotGet hb), Heap.read_eq (c.live_us hb) (Nat.mod_lt _ (blockSize_pos N)), c.cell_val hb,
    List.getElem?_eq_getElem hn]

theorem Core.feeds {last : Iter} {q : Nat} (left : Nat → Option X) (n : Nat) :
    ∀ {h : Heap X} {xs : List X} {it : Iter} {p k : Nat},
    Core N h v xs us fs → Iter.Denotes (blockSize N) v.dataptr it p → Iter.Denotes (blockSize N) v.dataptr last q →
    p + n = q → q ≤ xs.length →
    Feeds (.iter (blockSize N) v.dataptr last left) (us ++ fs)
      (fun h' => Core N h' v (leave left k p n xs) us fs) ((xs.take q).drop p) (k, it) h := by
  induction n with
  | zero =>
    intro h xs it p k c d dl hq hle
    have : (xs.take q).drop p = [] := List.drop_eq_nil_of_le (by simp; omega)
    rw [this]
    refine ⟨?_, fun h1 w a => c.frame a⟩
    show it.eq last = true
    rw [eq_denotes d dl]; simpa using hq
  | succ n ih =>
    intro h xs it p k c d dl hq hle
    have hp : p < xs.length := by omega
    have : (xs.take q).drop p = xs[p] :: (xs.take q).drop (p + 1) := by
      rw [List.drop_eq_getElem_cons (by simp; omega), List.getElem_take]
    rw [this]
    obtain ⟨it', d'⟩ := dl.mono (m := p + 1) (by omega)
    have hi : it.incr (blockSize N) v.dataptr = some it' := by
      rw [Iter.incr_eq]; exact d.add (blockSize_pos N) d'
    refine ⟨?_, (k + 1, it'), ?_, ?_⟩
    · show it.eq last = false
      rw [eq_denotes d dl]; simp; omega
    · show (it.incr _ _).map _ = _
      rw [hi]; rfl
    · intro h1 w a
      have c1 := c.frame a
      cases hl : left k with
      | none =>
        refine ⟨h1, ?_, Heap.Frame.refl w, ?_⟩
        · show (it.deref _ _).bind _ = _
          rw [c1.deref_eq hp d]; simp [hl]
        · have := ih (k := k + 1) c1 d' dl (by omega) hle
          simp only [leave, hl]; exact this
      | some y =>
        obtain ⟨h2, e2, c2, f2⟩ := c1.set_eq w hp y
        refine ⟨h2, ?_, f2, ?_⟩
        · show (it.deref _ _).bind _ = _
          rw [c1.deref_eq hp d]; simp [hl, c1.put_eq hp d, e2]
        · have := ih (k := k + 1) c2 d' dl (by omega) (by simpa using hle)
          simp only [leave, hl]
          have e : ((xs.set p y).take q).drop (p + 1) = (xs.take q).drop (p + 1) := by
            rw [List.take_set, List.drop_set_of_lt (by omega)]
          rw [← e]; exact this

/-- A range of the vector itself, with first element not before the position assigned to. -/
theorem Core.assignOverSelf {last : Iter} {q : Nat} (left : Nat → Option X) (n : Nat) :
    ∀ {h : Heap X} {xs : List X} {it : Iter} {p k ii fuel : Nat},
    Core N h v xs us fs → h.Wf → Iter.Denotes (blockSize N) v.dataptr it p → Iter.Denotes (blockSize N) v.dataptr last q →
    p + n = q → q ≤ xs.length → n ≤ fuel → ii ≤ p → ((∀ k, left k = none) ∨ ii < p) →
    ∃ h' s' xs', Vec.assignOver N (.iter (blockSize N) v.dataptr last left) v fuel ii (k, it) h = some (h', ii + n, s') ∧
      InRange.atEnd (.iter (blockSize N) v.dataptr last left) s' = true ∧
      Core N h' v xs' us fs ∧ xs'.length = xs.length ∧ xs'.take (ii + n) = xs.take ii ++ (xs.take q).drop p ∧
      Heap.Frame h h' (us ++ fs) (us ++ fs) := by
  induction n with
  | zero =>
    intro h xs it p k ii fuel c w d dl hq hle _ hip _
    have : (xs.take q).drop p = [] := List.drop_eq_nil_of_le (by simp; omega)
    have he : it.eq last = true := by rw [eq_denotes d dl]; simpa using hq
    refine ⟨h, (k, it), xs, ?_, he, c, rfl, by simp [this], Heap.Frame.refl w⟩
    have he' : ¬ (ii < v.csize ∧ InRange.atEnd (.iter (blockSize N) v.dataptr last left) (k, it) = false) := by
      rintro ⟨_, h2⟩
      have h3 : it.eq last = false := h2
      rw [he] at h3; cases h3
    cases fuel <;> (rw [Vec.assignOver, if_neg he']; rfl)
  | succ n ih =>
    intro h xs it p k ii fuel c w d dl hq hle hf hip hl
    obtain ⟨fuel, rfl⟩ : ∃ f, fuel = f + 1 := ⟨fuel - 1, by omega⟩
    have hp : p < xs.length := by omega
    have hrest : (xs.take q).drop p = xs[p] :: (xs.take q).drop (p + 1) := by
      rw [List.drop_eq_getElem_cons (by simp; omega), List.getElem_take]
    obtain ⟨it', d'⟩ := dl.mono (m := p + 1) (by omega)
    have hi : it.incr (blockSize N) v.dataptr = some it' := by
      rw [Iter.incr_eq]; exact d.add (blockSize_pos N) d'
    have he : InRange.atEnd (.iter (blockSize N) v.dataptr last left) (k, it) = false := by
      show it.eq last = false
      rw [eq_denotes d dl]; simp; omega
    -- the element read, and what is left of it
    obtain ⟨h1, xs1, e1, c1, f1, hlen1, htk1, hdr1⟩ : ∃ h1 xs1,
        InRange.fetch (.iter (blockSize N) v.dataptr last left) (k, it) h = some (xs[p], h1) ∧
        Core N h1 v xs1 us fs ∧ Heap.Frame h h1 (us ++ fs) (us ++ fs) ∧ xs1.length = xs.length ∧
        xs1.take ii = xs.take ii ∧ xs1.drop (p + 1) = xs.drop (p + 1) := by
      cases hlk : left k with
      | none =>
        refine ⟨h, xs, ?_, c, Heap.Frame.refl w, rfl, rfl, rfl⟩
        show (it.deref _ _).bind _ = _
        rw [c.deref_eq hp d]; simp [hlk]
      | some y =>
        obtain ⟨h2, e2, c2, f2⟩ := c.set_eq w hp y
        refine ⟨h2, _, ?_, c2, f2, by simp, List.take_set_of_le (by omega), List.drop_set_of_lt (by omega)⟩
        show (it.deref _ _).bind _ = _
        rw [c.deref_eq hp d]; simp [hlk, c.put_eq hp d, e2]
    have hii : ii < xs1.length := by omega
    obtain ⟨h2, e2, c2, f2⟩ := c1.set_eq f1.wf hii xs[p]
    obtain ⟨h3, s3, xs3, e3, t3, c3, hl3, ht3, f3⟩ := ih (k := k + 1) (ii := ii + 1) (fuel := fuel) c2 f2.wf d' dl
      (by omega) (by simp; omega) (by omega) (by omega) (hl.imp id (by omega))
    refine ⟨h3, s3, xs3, ?_, t3, c3, by rw [hl3]; simpa using hlen1, ?_, (f1.trans f2).trans f3⟩
    · rw [Vec.assignOver, if_pos ⟨by rw [← c.len]; omega, he⟩, e1]
      simp only [Option.bind_some]
      rw [e2]
      simp only [Option.bind_some]
      rw [hi]
      simp only [Option.map_some, Option.bind_some]
      rw [e3]
      simp only [Option.some.injEq, Prod.mk.injEq, true_and, and_true]; omega
    · rw [show ii + (n + 1) = ii + 1 + n by omega, ht3, hrest, List.take_add_one, List.take_set_of_le (Nat.le_refl _),
        List.getElem?_set_self hii, htk1]
      have : ((xs1.set ii xs[p]).take q).drop (p + 1) = (xs.take q).drop (p + 1) := by
        rw [List.drop_take, List.drop_take, List.drop_set_of_lt (by omega), hdr1]
      rw [this]; simp

theorem Core.assignFromSelf {last it : Iter} {p q k fuel : Nat} (left : Nat → Option X) (c : Core N h v xs us fs) (w : h.Wf)
    (d : Iter.Denotes (blockSize N) v.dataptr it p) (dl : Iter.Denotes (blockSize N) v.dataptr last q) (hpq : p ≤ q)
    (hle : q ≤ xs.length) (hf : q - p ≤ fuel) (hl : (∀ k, left k = none) ∨ 0 < p) :
    ∃ v' h' us' fs', Vec.assignFrom N (.iter (blockSize N) v.dataptr last left) fuel v h (k, it) = some (v', h') ∧
      Core N h' v' ((xs.take q).drop p) us' fs' ∧
      Heap.Frame h h' (us ++ fs) (us' ++ fs') ∧ us' <+: us ∧ (0 < us.length → 0 < us'.length) ∧ v'.avail = v.avail := by
  obtain ⟨h1, s1, xs1, e1, t1, c1, l1, tk1, f1⟩ := c.assignOverSelf left (q - p) (k := k) (ii := 0) w d dl (by omega) hle hf
    (Nat.zero_le _) hl
  obtain ⟨v2, h2, us2, fs2, e2, c2, f2, p2, l2, a2⟩ := c1.popN (v.csize - (q - p)) f1.wf
  refine ⟨v2, h2, us2, fs2, ?_, ?_, f1.trans f2, p2, l2, a2⟩
  · rw [Vec.assignFrom, e1]
    simp only [Option.bind_some]
    rw [if_pos t1, Nat.zero_add]; exact e2
  · rw [Nat.zero_add] at tk1
    rw [show xs1.length - (v.csize - (q - p)) = q - p by have := c.len; omega, tk1] at c2
    simpa using c2

/-- assignment of an empty range -/
theorem Core.assignFromEmpty {last it : Iter} {k fuel : Nat} {arr : SlotPtr} (left : Nat → Option X)
    (c : Core N h v xs us fs) (w : h.Wf) (he : it.eq last = true) :
    ∃ v' h' us' fs', Vec.assignFrom N (.iter (blockSize N) arr last left) fuel v h (k, it) = some (v', h') ∧
      Core N h' v' [] us' fs' ∧
      Heap.Frame h h' (us ++ fs) (us' ++ fs') ∧ us' <+: us ∧ (0 < us.length → 0 < us'.length) ∧ v'.avail = v.avail := by
  have t : InRange.atEnd (.iter (blockSize N) arr last left) (k, it) = true := he
  have ho : Vec.assignOver N (.iter (blockSize N) arr last left) v fuel 0 (k, it) h = some (h, 0, (k, it)) := by
    cases fuel <;> (rw [Vec.assignOver, if_neg]; rintro ⟨_, h2⟩; rw [t] at h2; cases h2)
  obtain ⟨v2, h2, us2, fs2, e2, c2, f2, p2, l2, a2⟩ := c.popN v.csize w
  refine ⟨v2, h2, us2, fs2, ?_, ?_, f2, p2, l2, a2⟩
  · rw [Vec.assignFrom, ho]
    simp only [Option.bind_some]
    rw [if_pos t]; exact e2
  · rw [c.len, Nat.sub_self] at c2; simpa using c2

/-! ### clear, shrink_to_fit and the destructor -/

theorem destroyDown_spec {p : SlotPtr} {i : Int} {b : Nat} (hg : slotGet p i = some b) :
    ∀ (n : Nat) {h : Heap X}, h.live b = true → n ≤ blockSize N →
    (∀ j, j < n → (h.cells b j).isSome = true) →
    ∃ h', destroyDown N p i n h = some h' ∧ h'.live = h.live ∧ h'.next = h.next ∧
      ∀ b' j, h'.cells b' j = if b' = b ∧ j < n then none else h.cells b' j := by
  intro n
  induction n with
  | zero => intro h _ _ _; exact ⟨h, rfl, rfl, rfl, by simp⟩
  | succ n ih =>
    intro h hl hn hs
    obtain ⟨x, hx⟩ := Option.isSome_iff_exists.1 (hs n (by omega))
    obtain ⟨h', e, l', n', c'⟩ := ih (h := h.setCell b n none) hl (by omega) (by
      intro j hj
      rw [Heap.setCell_cells, if_neg (by omega)]
      exact hs j (by omega))
    refine ⟨h', ?_, l', n', ?_⟩
    · rw [destroyDown, hg]
      simp only [Option.bind_some]
      rw [Heap.destroy_eq hl (by omega) hx]; exact e
    · intro b' j
      rw [c', Heap.setCell_cells]
      by_cases hb : b' = b
      · subst hb
        by_cases h1 : j < n
        · simp [h1, show j < n + 1 by omega]
        · by_cases h2 : j = n
          · simp [h2]
          · simp [h1, h2, show ¬ j < n + 1 by omega]
      · simp [hb]

/-- Destroying all elements of the last block. -/
theorem Core.destroyTop {b} (c : Core N h v xs (us ++ [b]) fs) (w : h.Wf) :
    ∃ h', destroyDown N v.dataptr (us.length : Int) v.bsize h = some h' ∧
      Core N h' { v with bsize := 0, csize := us.length * blockSize N }
        (xs.take (us.length * blockSize N)) (us ++ [b]) fs ∧
      Heap.Frame h h' ((us ++ [b]) ++ fs) ((us ++ [b]) ++ fs) := by
  have hcs := c.last_size
  have hg : (us ++ [b])[us.length]? = some b := by simp
  obtain ⟨h', e, l', n', c'⟩ := destroyDown_spec (N := N) c.last_get v.bsize c.last_live c.bsz (by
    intro j hj
    rw [c.cells _ b hg j (by have := c.bsz; omega), List.getElem?_eq_getElem (by rw [c.len]; omega)]
    rfl)
  refine ⟨h', e, ?_, ?_⟩
  · refine ⟨c.arr, c.ne, c.farr, c.fidx, c.idx, Nat.zero_le _, ?_, ?_, c.nodup, ?_, ?_, ?_, c.fav⟩
    · simp only [List.length_append, List.length_singleton, Nat.add_mul]; omega
    · simp [c.len]; omega
    · intro b' hb'; rw [l']; exact c.live b' hb'
    · intro k b' hk j hj
      rw [c', List.getElem?_take]
      by_cases hkl : k = us.length
      · subst hkl
        rw [hg] at hk; cases hk
        rw [if_neg (show ¬ us.length * blockSize N + j < us.length * blockSize N by omega)]
        split
        · rfl
        · rename_i hnb
          rw [c.cells _ b hg j hj, List.getElem?_eq_none]
          rw [c.len]
          have : ¬ j < v.bsize := fun h => hnb ⟨rfl, h⟩
          omega
      · have hkl' : k < us.length := by
          have := (List.getElem?_eq_some_iff.1 hk).1
          simp at this; omega
        rw [if_neg, if_pos, c.cells k b' hk j hj]
        · have := mul_succ_le (B := blockSize N) hkl'; omega
        · rintro ⟨rfl, _⟩
          exact hkl (us_inj c.nodup hk hg)
    · intro b' hb' j hj
      rw [c', if_neg]
      · exact c.fcells b' hb' j hj
      · rintro ⟨rfl, _⟩
        exact us_fs c.nodup hg hb'
  · have hbn : b < h.next := w.live b c.last_live
    refine ⟨⟨?_, ?_⟩, Nat.le_of_eq n'.symm, ?_, fun _ hb => .inl hb, ?_⟩
    · intro b' hb'; rw [l'] at hb'; rw [n']; exact w.live b' hb'
    · intro b' hb' j
      rw [c', if_neg]
      · exact w.cells b' (by omega) j
      · rintro ⟨rfl, _⟩; omega
    · intro b' _ hn
      refine ⟨by rw [l'], fun j => ?_⟩
      rw [c', if_neg]
      rintro ⟨rfl, _⟩; exact hn (by simp)
    · intro b' hb'
      rw [l'] at hb'
      by_cases hm : b' ∈ us ++ [b] ++ fs
      · exact .inl hm
      · exact .inr ⟨w.live b' hb', hm⟩

/-- the middle part of `clear` -/
theorem Core.clearMid : ∀ (n : Nat) {h : Heap X} {v : Vec} {xs : List X} {us fs : List Nat},
    Core N h { v with slotIdx := (n : Int), bsize := blockSize N, csize := (n + 1) * blockSize N }
      xs us fs → h.Wf → us.length = n + 1 →
    ∃ v' h' us' fs', Vec.clearMid N n v h = some (v', h') ∧
      Core N h' { v' with slotIdx := 0, bsize := blockSize N, csize := blockSize N }
        (xs.take (blockSize N)) us' fs' ∧
      Heap.Frame h h' (us ++ fs) (us' ++ fs') ∧ us' <+: us ∧ us'.length = 1 ∧
      v'.avail = v.avail := by
  intro n
  induction n with
  | zero =>
    intro h v xs us fs c w hl
    refine ⟨v, h, us, fs, rfl, ?_, Heap.Frame.refl w, List.prefix_refl _, hl, rfl⟩
    have hx : xs.take (blockSize N) = xs := List.take_of_length_le (by have := c.len; simp at this; omega)
    rw [hx]
    simpa using c
  | succ n ih =>
    intro h v xs us fs c w hl
    obtain ⟨us, b, rfl⟩ : ∃ us' b, us = us' ++ [b] :=
      ⟨us.dropLast, us.getLast (List.ne_nil_of_length_pos (by omega)), (List.dropLast_concat_getLast _).symm⟩
    have hul : us.length = n + 1 := by simpa using hl
    obtain ⟨h1, e1, c1, f1⟩ := c.destroyTop w
    obtain ⟨p, a, hm, c2⟩ := c1.retire rfl
    have hg := c.last_get
    rw [hul] at e1 hg
    push_cast at e1 hg
    have h3 := ih (v := { v with freeblocks := p, freeAvail := a, freeIdx := fs.length + 1 })
      (xs := xs.take ((n + 1) * blockSize N)) (us := us) (fs := fs ++ [b]) (h := h1)
      (by
        have := c2
        simp only [hul] at this
        simpa using this)
      f1.wf hul
    obtain ⟨v', h', us', fs', e3, c3, f3, p3, l3, a3⟩ := h3
    refine ⟨v', h', us', fs', ?_, ?_, (f1.congr (fun _ => Iff.rfl) ?_).trans f3, p3.trans (List.prefix_append _ _),
      l3, a3⟩
    · rw [Vec.clearMid, e1]
      simp only [Option.bind_some]
      rw [hg]
      simp only [Option.bind_some]
      rw [hm v rfl rfl rfl]
      exact e3
    · have : (xs.take ((n + 1) * blockSize N)).take (blockSize N) = xs.take (blockSize N) := by
        rw [List.take_take, Nat.min_eq_left]
        exact Nat.le_mul_of_pos_left _ (by omega)
      rw [this] at c3; exact c3
    · intro b'; simp; grind

theorem Core.clear (c : Core N h v xs us fs) (w : h.Wf) (hu : us = [] → v.avail = 0) :
    ∃ v' h' us' fs', Vec.clear N v h = some (v', h') ∧ Core N h' v' [] us' fs' ∧
      Heap.Frame h h' (us ++ fs) (us' ++ fs') ∧ us' <+: us ∧ (us' = [] → us = []) ∧
      v'.avail = v.avail := by
  rw [Vec.clear]
  split
  · rename_i h0
    have hle := c.arr.le
    have hx : us = [] := List.length_eq_zero_iff.1 (by omega)
    subst hx
    have hx : xs = [] := List.length_eq_zero_iff.1 (by
      rw [c.len]; have := c.size; have := c.bsz; simp at *; omega)
    subst hx
    exact ⟨v, h, [], fs, rfl, c, Heap.Frame.refl w, List.prefix_refl _, id, rfl⟩
  · rename_i h0
    obtain ⟨us, b, rfl⟩ : ∃ us' b, us = us' ++ [b] :=
      ⟨us.dropLast, us.getLast (fun e => h0 (hu e)), (List.dropLast_concat_getLast _).symm⟩
    obtain ⟨h1, e1, c1, f1⟩ := c.destroyTop w
    rw [c.last_idx, e1]
    simp only [Option.bind_some]
    rcases us with _ | ⟨b0, us⟩
    · simp only [List.length_nil, Int.natCast_zero]
      rw [if_neg (by omega)]
      refine ⟨_, h1, [] ++ [b], fs, rfl, ?_, f1, List.prefix_refl _, by simp, rfl⟩
      have hidx := c.last_idx
      simp only [List.length_nil, Int.natCast_zero] at hidx
      simpa [hidx] using c1
    · rw [if_pos (by simp)]
      obtain ⟨p, a, hm, c2⟩ := c1.retire rfl
      rw [c.last_get]
      simp only [Option.bind_some]
      rw [hm v rfl rfl rfl]
      simp only [Option.bind_some]
      have hidx := c.last_idx
      have hn : (v.slotIdx - 1).toNat = us.length := by rw [hidx]; simp
      rw [hn]
      obtain ⟨v', h', us', fs', e3, c3, f3, p3, l3, a3⟩ := Core.clearMid (N := N) us.length
        (v := { v with freeblocks := p, freeAvail := a, freeIdx := fs.length + 1 })
        (h := h1) (us := b0 :: us) (fs := fs ++ [b])
        (by
          have := c2
          simp only [List.length_cons] at this
          simpa using this) f1.wf rfl
      rw [e3]
      simp only [Option.bind_some]
      obtain ⟨us', b1, rfl⟩ : ∃ us'' b, us' = us'' ++ [b] :=
        ⟨us'.dropLast, us'.getLast (List.ne_nil_of_length_pos (by omega)),
          (List.dropLast_concat_getLast _).symm⟩
      have hul : us' = [] := by simpa using l3
      subst hul
      obtain ⟨h4, e4, c4, f4⟩ := c3.destroyTop f3.wf
      simp only [List.length_nil, Int.natCast_zero] at e4
      rw [e4]
      refine ⟨_, h4, [] ++ [b1], fs', rfl, ?_, ?_, p3.trans (List.prefix_append _ _), by simp, a3⟩
      · simpa using c4
      · refine Heap.Frame.trans (f1.congr (fun _ => Iff.rfl) ?_) (f3.trans f4)
        intro b'; simp; grind

theorem freeList_spec {p : SlotPtr} {avail : Nat} : ∀ (fs2 fs1 : List Nat) {h : Heap X},
    ArrOK p avail (fs1 ++ fs2) → h.Wf → (fs1 ++ fs2).Nodup → (∀ b, b ∈ fs2 → h.live b = true) →
    (∀ b, b ∈ fs2 → ∀ j, j < blockSize N → h.cells b j = none) →
    ∃ h', freeList N p fs2.length fs1.length h = some h' ∧ Heap.Frame h h' fs2 [] := by
  intro fs2
  induction fs2 with
  | nil =>
    intro fs1 h _ w _ _ _
    exact ⟨h, rfl, Heap.Frame.refl w⟩
  | cons b fs2 ih =>
    intro fs1 h ha w nd hl hc
    have hg : slotGet p (fs1.length : Int) = some b := ha.slotGet (by simp)
    have hnd : b ∉ fs2 := by
      have := (List.nodup_append.1 nd).2.1
      exact (List.nodup_cons.1 this).1
    have fr := Heap.Frame.dealloc (h := h) w (l := b :: fs2) (l' := fs2) (b := b) (by simp) hnd
    obtain ⟨h', e, f⟩ := ih (fs1 ++ [b]) (h := { h with live := fun b' => if b' = b then false else h.live b' })
      (by simpa using ha) fr.wf (by simpa using nd)
      (by
        intro b' hb'
        simp only
        rw [if_neg (by rintro rfl; exact hnd hb')]
        exact hl b' (List.mem_cons_of_mem _ hb'))
      (fun b' hb' => hc b' (List.mem_cons_of_mem _ hb'))
    refine ⟨h', ?_, fr.trans f⟩
    rw [List.length_cons, freeList, hg]
    simp only [Option.bind_some]
    rw [Heap.dealloc_eq (hl b (by simp)) (hc b (by simp))]
    simpa using e

theorem Core.shrinkToFit (c : Core N h v xs us fs) (w : h.Wf) :
    ∃ h', Vec.shrinkToFit N v h = some ({ v with freeIdx := 0 }, h') ∧
      Core N h' { v with freeIdx := 0 } xs us [] ∧ Heap.Frame h h' (us ++ fs) (us ++ []) := by
  have nd := List.nodup_append.1 c.nodup
  obtain ⟨h', e, f⟩ := freeList_spec (N := N) fs [] (by simpa using c.farr) w (by simpa using nd.2.1)
    (fun b hb => c.live b (by simp [hb])) c.fcells
  refine ⟨h', ?_, ?_, f.extend us⟩
  · rw [Vec.shrinkToFit, c.fidx]
    simp only [List.length_nil] at e
    rw [e]; rfl
  · have := c.frame (h' := h') (N := N) (v := v) (xs := xs) (us := us) (fs := fs)
    refine ⟨c.arr, c.ne, ⟨c.farr.len, by simp⟩, rfl, c.idx, c.bsz, c.size, c.len, by simpa using nd.1,
      ?_, ?_, by simp, by simp⟩
    · intro b hb
      simp at hb
      have hl := c.live b (by simp [hb])
      rw [(f.keep b (w.live b hl) (fun hf => nd.2.2 b hb b hf rfl)).1, hl]
    · intro k b hk j hj
      have hb := List.mem_of_getElem? hk
      have hl := c.live b (by simp [hb])
      rw [(f.keep b (w.live b hl) (fun hf => nd.2.2 b hb b hf rfl)).2 j]
      exact c.cells k b hk j hj

/-- Deallocating an empty last block. -/
theorem Core.dropTop {b} (c : Core N h v xs (us ++ [b]) fs) (w : h.Wf) (hb : v.bsize = 0) :
    ∃ h', h.dealloc (blockSize N) b = some h' ∧
      Core N h' { v with slotIdx := (us.length : Int) - 1, bsize := blockSize N } xs us fs ∧
      Heap.Frame h h' ((us ++ [b]) ++ fs) (us ++ fs) := by
  have hcs := c.last_size
  have hg : (us ++ [b])[us.length]? = some b := by simp
  have hnd : b ∉ us ++ fs ∧ (us ++ fs).Nodup := by
    have := c.nodup
    rw [List.append_assoc] at this
    have := (List.Perm.nodup_iff (List.perm_middle (l₁ := us) (l₂ := fs) (a := b))).1 (by simpa using this)
    exact List.nodup_cons.1 this
  have hcell : ∀ j, j < blockSize N → h.cells b j = none := by
    intro j hj
    rw [c.cells _ b hg j hj, List.getElem?_eq_none]
    rw [c.len]; omega
  refine ⟨_, Heap.dealloc_eq c.last_live hcell, ?_, Heap.Frame.dealloc w (by intro b'; simp; grind) hnd.1⟩
  refine ⟨c.arr.init, c.ne, c.farr, c.fidx, .inl rfl, Nat.le_refl _, ?_, c.len, hnd.2, ?_, ?_, c.fcells, c.fav⟩
  · simp only; omega
  · intro b' hb'
    simp only
    rw [if_neg]
    · exact c.live b' (by simp at hb' ⊢; grind)
    · rintro rfl; exact hnd.1 hb'
  · intro k b' hk j hj
    have hk' : k < us.length := (List.getElem?_eq_some_iff.1 hk).1
    exact c.cells k b' (by rw [List.getElem?_append, if_pos hk']; exact hk) j hj

theorem Core.freeMid : ∀ (n : Nat) {h : Heap X} {xs : List X} {us : List Nat},
    Core N h { v with slotIdx := (n : Int) - 1, bsize := blockSize N, csize := n * blockSize N }
      xs us fs → h.Wf → us.length = n →
    ∃ h' csz, Vec.freeMid N v.dataptr n h = some h' ∧
      Core N h' { v with slotIdx := -1, bsize := blockSize N, csize := csz } [] [] fs ∧
      Heap.Frame h h' (us ++ fs) fs := by
  intro n
  induction n with
  | zero =>
    intro h xs us c w hl
    have hu : us = [] := List.length_eq_zero_iff.1 hl
    subst hu
    have hx : xs = [] := List.length_eq_zero_iff.1 (by have := c.len; simpa using this)
    subst hx
    exact ⟨h, _, rfl, by simpa using c, Heap.Frame.refl w⟩
  | succ n ih =>
    intro h xs us c w hl
    obtain ⟨us, b, rfl⟩ : ∃ us' b, us = us' ++ [b] :=
      ⟨us.dropLast, us.getLast (List.ne_nil_of_length_pos (by omega)), (List.dropLast_concat_getLast _).symm⟩
    have hul : us.length = n := by simpa using hl
    obtain ⟨h1, e1, c1, f1⟩ := c.destroyTop w
    obtain ⟨h2, e2, c2, f2⟩ := c1.dropTop f1.wf rfl
    have hg := c.last_get
    rw [hul] at e1 hg
    obtain ⟨h3, csz, e3, c3, f3⟩ := ih (h := h2) (xs := xs.take (n * blockSize N)) (us := us)
      (by
        have := c2
        simp only [hul] at this
        simpa using this) f2.wf hul
    refine ⟨h3, csz, ?_, c3, (f1.trans f2).trans f3⟩
    rw [Vec.freeMid, e1]
    simp only [Option.bind_some]
    rw [hg]
    simp only [Option.bind_some]
    rw [e2]
    exact e3

theorem Core.freeAll (c : Core N h v xs us fs) (w : h.Wf) (hu : us = [] → v.avail = 0) :
    ∃ h', Vec.freeAll N v h = some h' ∧ Heap.Frame h h' (us ++ fs) [] := by
  rw [Vec.freeAll]
  split
  · rename_i hp
    have hx : us = [] := by
      have h1 := c.arr.le
      have h2 := c.arr.len
      rw [hp] at h2; simp at h2
      exact List.length_eq_zero_iff.1 (by omega)
    subst hx
    have ha : v.avail = 0 := by
      have h2 := c.arr.len
      rw [hp] at h2; simpa using h2.symm
    rw [c.fav ha]
    exact ⟨h, rfl, Heap.Frame.refl w⟩
  · rename_i l hp
    have ha : v.avail ≠ 0 := by
      intro h0
      have h2 := c.arr.len
      rw [hp] at h2; simp at h2
      rw [h0] at h2
      exact c.ne (by rw [hp, List.length_eq_zero_iff.1 h2])
    obtain ⟨us, b, rfl⟩ : ∃ us' b, us = us' ++ [b] :=
      ⟨us.dropLast, us.getLast (fun e => ha (hu e)), (List.dropLast_concat_getLast _).symm⟩
    have fin : ∀ {h' : Heap X} {v' : Vec}, Core N h' v' [] [] fs → v'.freeblocks = v.freeblocks →
        v'.freeIdx = v.freeIdx → h'.Wf →
        ∃ h'', freeList N v.freeblocks v.freeIdx 0 h' = some h'' ∧ Heap.Frame h' h'' fs [] := by
      intro h' v' c' e1 e2 w'
      rw [← e1, ← e2, c'.fidx]
      have := freeList_spec (N := N) fs [] (h := h') (by simpa using c'.farr) w' (by simpa using c'.nodup)
        (fun b hb => c'.live b (by simp [hb])) c'.fcells
      simpa using this
    obtain ⟨h1, e1, c1, f1⟩ := c.destroyTop w
    obtain ⟨h2, e2, c2, f2⟩ := c1.dropTop f1.wf rfl
    rw [c.last_idx, e1]
    simp only [Option.bind_some]
    rcases us with _ | ⟨b0, us⟩
    · simp only [List.length_nil, Int.natCast_zero]
      have hg := c.last_get
      simp only [List.length_nil, Int.natCast_zero] at hg
      rw [if_neg (by omega)]
      simp only [Option.bind_some, Int.toNat_zero, Vec.freeMid, if_pos, deallocSlot]
      rw [hg]
      simp only [Option.bind_some]
      rw [e2]
      simp only [Option.bind_some]
      have hx : List.take (([] : List Nat).length * blockSize N) xs = [] := by simp
      rw [hx] at c2
      obtain ⟨h3, e3, f3⟩ := fin c2 rfl rfl f2.wf
      exact ⟨h3, e3, (f1.trans f2).trans f3⟩
    · rw [if_pos (by simp), deallocSlot, c.last_get]
      simp only [Option.bind_some]
      rw [e2]
      simp only [Option.bind_some, Int.toNat_natCast]
      obtain ⟨h3, csz, e3, c3, f3⟩ := Core.freeMid (N := N) (v := v) (b0 :: us).length (h := h2)
        (by simpa using c2) f2.wf rfl
      rw [e3]
      simp only [Option.bind_some]
      rw [if_neg (by simp; omega)]
      simp only [Option.bind_some]
      obtain ⟨h4, e4, f4⟩ := fin c3 rfl rfl f3.wf
      exact ⟨h4, e4, ((f1.trans f2).trans f3).trans f4⟩

/-! ### construction with a size -/

theorem Core.constructUp (init : X) {b : Nat} : ∀ (n : Nat) {h : Heap X} {v : Vec} {xs : List X},
    Core N h v xs (us ++ [b]) fs → h.Wf → v.bsize + n ≤ blockSize N →
    ∃ h', Vec.constructUp N h b init v.bsize n = some h' ∧
      Core N h' { v with bsize := v.bsize + n, csize := v.csize + n } (xs ++ List.replicate n init)
        (us ++ [b]) fs ∧
      Heap.Frame h h' ((us ++ [b]) ++ fs) ((us ++ [b]) ++ fs) := by
  intro n
  induction n with
  | zero =>
    intro h v xs c w _
    exact ⟨h, rfl, by simpa using c, Heap.Frame.refl w⟩
  | succ n ih =>
    intro h v xs c w hn
    obtain ⟨h1, e1, c1, f1⟩ := c.pushCell w (by omega) init
    obtain ⟨h2, e2, c2, f2⟩ := ih c1 f1.wf (by simp only; omega)
    refine ⟨h2, ?_, ?_, f1.trans f2⟩
    · rw [Vec.constructUp, e1]; exact e2
    · have : xs ++ List.replicate (n + 1) init = xs ++ [init] ++ List.replicate n init := by
        rw [List.append_assoc, List.replicate_succ]; rfl
      rw [this]
      simp only [Nat.add_assoc, Nat.add_comm 1] at c2
      exact c2

theorem Core.fillBlocks (init : X) (last bsize slots : Nat) (hb : bsize < blockSize N)
    (hls : last < slots) : ∀ (n ii : Nat) {h : Heap X} {arr : SlotPtr} {us : List Nat},
    ii + (n + 1) = last + 1 →
    Core N h ⟨ii * blockSize N, arr, slots, (ii : Int) - 1, blockSize N, 0, 0, none⟩
      (List.replicate (ii * blockSize N) init) us [] → us.length = ii → h.Wf →
    ∃ arr' h' us', Vec.fillBlocks N init last bsize (n + 1) ii arr h = some (arr', h') ∧
      Core N h' ⟨last * blockSize N + bsize, arr', slots, last, bsize, 0, 0, none⟩
        (List.replicate (last * blockSize N + bsize) init) us' [] ∧
      Heap.Frame h h' us us' ∧ 0 < us'.length := by
  intro n
  induction n with
  | zero =>
    intro ii h arr us hn c hu w
    have hil : ii = last := by omega
    subst hil
    obtain ⟨p', e1, c1, f1⟩ := c.addFresh w rfl (by simp only; omega)
    obtain ⟨h2, e2, c2, f2⟩ := c1.constructUp init bsize f1.wf (by simp only; omega)
    refine ⟨p', h2, us ++ [h.next], ?_, ?_, by simpa using f1.trans f2, by simp⟩
    · rw [Vec.fillBlocks]
      simp only [Heap.alloc_fst]
      rw [hu] at e1
      rw [e1]
      simp only [Option.bind_some]
      rw [if_neg (by omega)]
      simp only at e2
      rw [e2]
      rfl
    · simpa [hu, List.replicate_append_replicate] using c2
  | succ n ih =>
    intro ii h arr us hn c hu w
    obtain ⟨p', e1, c1, f1⟩ := c.addFresh w rfl (by simp only; omega)
    obtain ⟨h2, e2, c2, f2⟩ := c1.constructUp init (blockSize N) f1.wf (by simp)
    obtain ⟨arr', h3, us3, e3, c3, f3, l3⟩ := ih (ii + 1) (h := h2) (arr := p') (us := us ++ [h.next])
      (by omega)
      (by
        have : (ii + 1) * blockSize N = ii * blockSize N + blockSize N := by
          rw [Nat.add_mul, Nat.one_mul]
        rw [this]
        simpa [hu, List.replicate_append_replicate] using c2)
      (by simp [hu]) f2.wf
    refine ⟨arr', h3, us3, ?_, c3, ((by simpa using f1.trans f2 : Heap.Frame h h2 us (us ++ [h.next]))).trans f3, l3⟩
    rw [Vec.fillBlocks]
    simp only [Heap.alloc_fst]
    rw [hu] at e1
    rw [e1]
    simp only [Option.bind_some]
    rw [if_pos (by omega)]
    simp only at e2
    rw [e2]
    exact e3

theorem ofSize_core (w : h.Wf) (n : Nat) (init : X) :
    ∃ v' h' us', ofSize N h n init = some (v', h') ∧ Core N h' v' (List.replicate n init) us' [] ∧
      Heap.Frame h h' [] us' ∧ 0 < us'.length ∧ v'.avail = Nat.max (n / blockSize N + 1) 64 := by
  have hB := blockSize_pos N
  have base : ∀ slots, 0 < slots → Core N h ⟨0 * blockSize N, some (List.replicate slots none), slots,
      ((0 : Nat) : Int) - 1, blockSize N, 0, 0, none⟩ (List.replicate (0 * blockSize N) init) [] [] := by
    intro slots hs
    refine ⟨ArrOK.nil slots, ?_, ⟨rfl, rfl⟩, rfl, .inl rfl, Nat.le_refl _, by simp, by simp, by simp,
      by simp, by simp, by simp, by simp⟩
    intro e
    have := congrArg (fun p => (Option.getD p []).length) e
    simp at this; omega
  rw [ofSize]
  simp only [shr_eq, mask_eq]
  have hslots : n / blockSize N < Nat.max (n / blockSize N + 1) 64 := by
    have := Nat.le_max_left (n / blockSize N + 1) 64
    show _ < max _ _
    omega
  generalize Nat.max (n / blockSize N + 1) 64 = slots at hslots ⊢
  have hpos : 0 < slots := Nat.lt_of_le_of_lt (Nat.zero_le _) hslots
  split
  · rename_i h0
    subst h0
    obtain ⟨p', e1, c1, f1⟩ := (base slots hpos).addFresh w rfl (by simpa using hpos)
    simp only [Heap.alloc_fst]
    simp only [List.length_nil, Int.natCast_zero] at e1
    rw [e1]
    refine ⟨_, _, [] ++ [h.next], rfl, ?_, by simpa using f1, by simp, rfl⟩
    simpa using c1
  · obtain ⟨arr', h', us', e, c, f, l⟩ := Core.fillBlocks (N := N) init (n / blockSize N) (n % blockSize N)
      slots (Nat.mod_lt _ hB) hslots (n / blockSize N) 0 (by omega) (base slots hpos) rfl w
    rw [e]
    have hd : n / blockSize N * blockSize N + n % blockSize N = n := by
      rw [Nat.mul_comm, Nat.div_add_mod]
    rw [hd] at c
    exact ⟨_, h', us', rfl, c, f, l, rfl⟩

/-! ### iteration -/

/-- The iterator of a vector without memory. -/
def nullIter : Iter := ⟨.static, none, 0, 0⟩

theorem Core.null_iter (c : Core N h v xs us fs) (ha : v.avail = 0) :
    xs = [] ∧ begin? N v = some nullIter ∧ end? N v = some nullIter := by
  have hlen := c.len
  have hue : us = [] := List.length_eq_zero_iff.1 (by have := c.arr.le; omega)
  subst hue
  have hsz := c.size
  have hbz := c.bsz
  simp only [List.length_nil, Nat.zero_mul, Nat.zero_add] at hsz
  have hcs : v.csize = 0 := by omega
  have hbs : v.bsize = blockSize N := by omega
  have hx : xs = [] := List.length_eq_zero_iff.1 (by omega)
  subst hx
  have hp : v.dataptr = none := by
    have h1 := c.arr.len
    have h2 := c.ne
    cases hd : v.dataptr with
    | none => rfl
    | some l =>
      rw [hd] at h1 h2
      simp at h1 h2
      exact absurd (List.length_eq_zero_iff.1 (by omega)) h2
  refine ⟨rfl, ?_, ?_⟩ <;> simp [begin?, hcs, end?, hbs, hp, Iter.make, derefVec, nullIter]

theorem Core.end_denotes (c : Core N h v xs us fs) (hu : us = [] → v.avail = 0) (ha : v.avail ≠ 0)
    (hi : xs.length < v.avail * blockSize N) :
    ∃ e, end? N v = some e ∧ Iter.Denotes (blockSize N) v.dataptr e v.csize := by
  have hB := blockSize_pos N
  have hlen := c.len
  obtain ⟨us, b, rfl⟩ : ∃ us' b, us = us' ++ [b] :=
    ⟨us.dropLast, us.getLast (fun e => ha (hu e)), (List.dropLast_concat_getLast _).symm⟩
  have hcs := c.last_size
  have hbz := c.bsz
  obtain ⟨l, hl, hll, _⟩ := c.arr.getD (by omega)
  have hex : ∃ e, Iter.Denotes (blockSize N) v.dataptr e v.csize := by
    rw [Iter.denotes_iff, c.arr.len]
    exact Nat.div_lt_of_lt_mul (by rw [Nat.mul_comm, ← hlen]; exact hi)
  obtain ⟨e, he⟩ := hex
  refine ⟨e, ?_, he⟩
  rw [← he]
  by_cases hb : v.bsize = blockSize N
  · have e1 : v.csize / blockSize N = us.length + 1 := by
      rw [hcs, hb, Nat.add_div_right _ hB, Nat.mul_div_cancel _ hB]
    have e2 : v.csize % blockSize N = 0 := by
      rw [hcs, hb, Nat.add_mod_right, Nat.mul_mod_left]
    rw [e1, e2, end?, if_pos hb, c.last_idx, hl]
    rfl
  · have e1 : v.csize / blockSize N = us.length := by
      rw [hcs, Nat.mul_comm, Nat.mul_add_div hB, Nat.div_eq_of_lt (show v.bsize < _ by omega)]; rfl
    have e2 : v.csize % blockSize N = v.bsize := by
      rw [hcs, Nat.mul_comm, Nat.mul_add_mod, Nat.mod_eq_of_lt (by omega)]
    rw [e1, e2, end?, if_neg hb, c.last_idx]

theorem Core.begin_denotes (c : Core N h v xs us fs) (hu : us = [] → v.avail = 0) (ha : v.avail ≠ 0) :
    ∃ b, begin? N v = some b ∧ Iter.Denotes (blockSize N) v.dataptr b 0 := by
  have hB := blockSize_pos N
  have hlen := c.len
  rw [begin?]
  split
  · rename_i h0
    have hp : 0 < v.avail * blockSize N := Nat.mul_pos (Nat.pos_of_ne_zero ha) hB
    obtain ⟨e, he, d⟩ := c.end_denotes hu ha (by omega)
    rw [h0] at d
    exact ⟨e, he, d⟩
  · have hex : ∃ b, Iter.Denotes (blockSize N) v.dataptr b 0 := by
      rw [Iter.denotes_iff, c.arr.len, Nat.zero_div]; omega
    obtain ⟨b, hb⟩ := hex
    refine ⟨b, ?_, hb⟩
    rw [← hb]; simp

theorem Core.iterate (c : Core N h v xs us fs) (hu : us = [] → v.avail = 0)
    (hi : v.avail = 0 ∨ xs.length < v.avail * blockSize N) : Vec.iterate N v h = some xs := by
  have hB := blockSize_pos N
  have hlen := c.len
  by_cases ha : v.avail = 0
  · obtain ⟨rfl, hb, he⟩ := c.null_iter ha
    rw [Vec.iterate, hb, he]
    simp [Iter.collect, Iter.ne]
  · have hi := hi.resolve_left ha
    obtain ⟨e, he, hd⟩ := c.end_denotes hu ha hi
    obtain ⟨b0, hb0, hd0⟩ := c.begin_denotes hu ha
    rw [Vec.iterate, hb0, he]
    simp only [Option.bind_some]
    refine Iter.Denotes.collect hB h xs hd0 (by rw [Nat.zero_add, hlen]; exact hd) (by omega) ?_
    intro i hi'
    simp only [Nat.zero_add]
    obtain ⟨bi, hbi, _⟩ := c.cell_eq (n := i) (by omega)
    refine ⟨bi, c.arr.slotGet hbi, ?_⟩
    rw [Heap.read_eq (c.live_us hbi) (Nat.mod_lt _ hB), c.cell_val hbi, List.getElem?_eq_getElem hi']

/-- The iterators of the range `lo .. hi` of a vector; an empty range of a vector without memory is a pair of equal
iterators. -/
theorem Core.sub_iters (c : Core N h v xs us fs) (hu : us = [] → v.avail = 0) {lo hi : Nat} (hl : lo ≤ hi)
    (hle : hi ≤ xs.length) (hr : v.avail = 0 ∨ hi < v.avail * blockSize N) :
    ∃ b first last, begin? N v = some b ∧ b.add (blockSize N) v.dataptr lo = some first ∧
      b.add (blockSize N) v.dataptr hi = some last ∧
      ((lo = hi ∧ first.eq last = true) ∨
       (Iter.Denotes (blockSize N) v.dataptr first lo ∧ Iter.Denotes (blockSize N) v.dataptr last hi)) := by
  have hB := blockSize_pos N
  by_cases ha : v.avail = 0
  · obtain ⟨rfl, hb, _⟩ := c.null_iter ha
    simp only [List.length_nil] at hle
    have h1 : lo = 0 := by omega
    have h2 : hi = 0 := by omega
    subst h1 h2
    refine ⟨_, nullIter, nullIter, hb, ?_, ?_, .inl ⟨rfl, rfl⟩⟩ <;>
    · have h0 : blockSize N ≠ 0 := by omega
      simp [Iter.add, Iter.addAssign, Iter.check, nullIter, h0]
  · have hr := hr.resolve_left ha
    obtain ⟨b, hb, d⟩ := c.begin_denotes hu ha
    have hex : ∃ l, Iter.Denotes (blockSize N) v.dataptr l hi := by
      rw [Iter.denotes_iff, c.arr.len]
      exact Nat.div_lt_of_lt_mul (by rw [Nat.mul_comm]; exact hr)
    obtain ⟨last, dl⟩ := hex
    obtain ⟨first, df⟩ := dl.mono hl
    exact ⟨b, first, last, hb, d.add hB (by simpa using df), d.add hB (by simpa using dl), .inr ⟨df, dl⟩⟩

/-- The iterators of the whole range. -/
theorem Core.all_iters (c : Core N h v xs us fs) (hu : us = [] → v.avail = 0)
    (hr : v.avail = 0 ∨ xs.length < v.avail * blockSize N) :
    ∃ b e, begin? N v = some b ∧ end? N v = some e ∧
      ((xs = [] ∧ b.eq e = true) ∨
       (Iter.Denotes (blockSize N) v.dataptr b 0 ∧ Iter.Denotes (blockSize N) v.dataptr e xs.length)) := by
  by_cases ha : v.avail = 0
  · obtain ⟨hx, hb, he⟩ := c.null_iter ha
    exact ⟨_, _, hb, he, .inl ⟨hx, rfl⟩⟩
  · obtain ⟨b, hb, d⟩ := c.begin_denotes hu ha
    obtain ⟨e, he, d'⟩ := c.end_denotes hu ha (hr.resolve_left ha)
    rw [← c.len] at d'
    exact ⟨b, e, hb, he, .inr ⟨d, d'⟩⟩

/-- Assigning a range of another vector `s`. -/
theorem Core.assignIter {s : Vec} {ys : List X} {us2 fs2 : List Nat} {first last : Iter} {lo hi fuel : Nat}
    (left : Nat → Option X) (c : Core N h v xs us fs) (c2 : Core N h s ys us2 fs2) (w : h.Wf)
    (hd : ∀ b, b ∈ us ++ fs → b ∉ us2 ++ fs2) (hl : lo ≤ hi) (hle : hi ≤ ys.length) (hf : hi - lo ≤ fuel)
    (di : (lo = hi ∧ first.eq last = true) ∨
      (Iter.Denotes (blockSize N) s.dataptr first lo ∧ Iter.Denotes (blockSize N) s.dataptr last hi)) :
    ∃ v' h' us' fs', Vec.assignFrom N (.iter (blockSize N) s.dataptr last left) fuel v h (0, first) = some (v', h') ∧
      Core N h' v' ((ys.take hi).drop lo) us' fs' ∧ Core N h' s (leave left 0 lo (hi - lo) ys) us2 fs2 ∧
      Heap.Frame h h' (us ++ fs ++ (us2 ++ fs2)) (us' ++ fs' ++ (us2 ++ fs2)) ∧
      (∀ b, b ∈ us' ++ fs' → b ∉ us2 ++ fs2) ∧ (us <+: us' ∨ us' <+: us) ∧
      (0 < us.length ∨ (ys.take hi).drop lo ≠ [] → 0 < us'.length) ∧
      v'.avail = capPushes N v.avail xs.length (((ys.take hi).drop lo).length - xs.length) := by
  have hB : ∀ b, b ∈ us2 ++ fs2 → b < h.next := fun b hb => w.live b (c2.live b hb)
  rcases di with ⟨rfl, he⟩ | ⟨d1, d2⟩
  · have hem : (ys.take lo).drop lo = [] := List.drop_eq_nil_of_le (by simp; omega)
    obtain ⟨v', h', us', fs', e, c', f, p, l, a⟩ := c.assignFromEmpty (fuel := fuel) (k := 0) (arr := s.dataptr) left w he
    refine ⟨v', h', us', fs', e, by rw [hem]; exact c', ?_, frame_left f _, f.disjoint hB hd, .inr p, ?_, ?_⟩
    · rw [Nat.sub_self, leave]
      exact c2.frame fun b hb => f.keep b (hB b hb) fun hb' => hd b hb' hb
    · rw [hem]; rintro (h0 | h0)
      · exact l h0
      · exact absurd rfl h0
    · rw [a, hem]; simp [capPushes]
  · obtain ⟨v', h', us', fs', e, c', f, dj, q, p, l, a⟩ := c.assignFrom (fuel := fuel) w hB hd
      (c2.feeds left (hi - lo) (k := 0) d1 d2 (by omega) hle) (by simp; omega)
    exact ⟨v', h', us', fs', e, c', q, f, dj, p, l, a⟩

/-- Assigning a range of the vector itself. -/
theorem Core.assignIterSelf {first last : Iter} {lo hi fuel : Nat}
    (left : Nat → Option X) (c : Core N h v xs us fs) (w : h.Wf)
    (hl : lo ≤ hi) (hle : hi ≤ xs.length) (hf : hi - lo ≤ fuel) (hs : (∀ k, left k = none) ∨ 0 < lo)
    (di : (lo = hi ∧ first.eq last = true) ∨
      (Iter.Denotes (blockSize N) v.dataptr first lo ∧ Iter.Denotes (blockSize N) v.dataptr last hi)) :
    ∃ v' h' us' fs', Vec.assignFrom N (.iter (blockSize N) v.dataptr last left) fuel v h (0, first) = some (v', h') ∧
      Core N h' v' ((xs.take hi).drop lo) us' fs' ∧
      Heap.Frame h h' (us ++ fs) (us' ++ fs') ∧ us' <+: us ∧ (0 < us.length → 0 < us'.length) ∧ v'.avail = v.avail := by
  rcases di with ⟨rfl, he⟩ | ⟨d1, d2⟩
  · have hem : (xs.take lo).drop lo = [] := List.drop_eq_nil_of_le (by simp; omega)
    rw [hem]
    exact c.assignFromEmpty (fuel := fuel) (k := 0) (arr := v.dataptr) left w he
  · exact c.assignFromSelf left w d1 d2 hl hle hf hs

/-- `end()` reads past the slot array when all reserved slots are full. -/
theorem Core.iterate_full (c : Core N h v xs us fs) (ha : 0 < v.avail)
    (hi : xs.length = v.avail * blockSize N) : Vec.iterate N v h = none ∧ end? N v = none := by
  have hB := blockSize_pos N
  have hlen := c.len
  have hcl := c.csize_le
  have hle := c.arr.le
  have hul : us.length = v.avail := by
    rcases Nat.lt_or_ge us.length v.avail with h1 | h1
    · have := mul_succ_le (B := blockSize N) h1; omega
    · omega
  have hsz := c.size
  rw [hul] at hsz
  have hb : v.bsize = blockSize N := by omega
  have hend : end? N v = none := by
    obtain ⟨l, hl, hll, _⟩ := c.arr.getD ha
    rw [end?, if_pos hb, hl]
    simp only [Iter.make, derefVec]
    have hidx := c.idx.resolve_right (by omega)
    rw [hidx, if_pos (by omega), List.getElem?_eq_none]
    · rfl
    · omega
  refine ⟨?_, hend⟩
  rw [Vec.iterate, hend]
  cases begin? N v <;> rfl

/-! ### element access -/

theorem Core.front_eq (c : Core N h v xs us fs) (hx : 0 < xs.length) : front N v h = some xs[0] := by
  have := c.get_eq hx
  rw [get, cell] at this
  simp only [Nat.zero_shiftRight, Nat.zero_and, Int.natCast_zero, Option.bind_map] at this
  exact this

theorem Core.back_eq (c : Core N h v xs us fs) (hx : 0 < xs.length) :
    back N v h = some (xs[xs.length - 1]) := by
  have hB := blockSize_pos N
  have hlen := c.len
  have hlt : 0 < us.length := c.csize_lt (by omega)
  obtain ⟨us, b, rfl⟩ : ∃ us' b, us = us' ++ [b] :=
    ⟨us.dropLast, us.getLast (List.length_pos_iff.1 hlt), (List.dropLast_concat_getLast _).symm⟩
  have hcs := c.last_size
  have hxe : xs[xs.length - 1]? = some xs[xs.length - 1] := List.getElem?_eq_getElem (by omega)
  rw [← hxe, back]
  split
  · rename_i hb
    have hu : 0 < us.length := by
      rcases Nat.eq_zero_or_pos us.length with h1 | h1
      · rw [h1] at hcs; omega
      · exact h1
    have hdiv : v.csize >>> N = us.length := by
      rw [shr_eq, hcs, hb, Nat.add_zero, Nat.mul_div_cancel _ hB]
    rw [hdiv, show ((us.length : Int) - 1) = ((us.length - 1 : Nat) : Int) by omega]
    have hk : us.length - 1 < us.length := by omega
    have hg : (us ++ [b])[us.length - 1]? = some us[us.length - 1] := by
      rw [List.getElem?_append, if_pos hk, List.getElem?_eq_getElem hk]
    rw [c.arr.slotGet hg]
    simp only [Option.bind_some]
    rw [Heap.read_eq (c.live_us hg) (by omega), c.cells _ _ hg _ (by omega)]
    have := mul_succ_le (B := blockSize N) hk
    have h2 : us.length * blockSize N = (us.length - 1) * blockSize N + blockSize N := by
      conv => lhs; rw [show us.length = us.length - 1 + 1 by omega, Nat.add_mul, Nat.one_mul]
    congr 1; omega
  · rename_i hb
    have hbz := c.bsz
    rw [c.last_idx, c.last_get]
    simp only [Option.bind_some]
    rw [Heap.read_eq c.last_live (by omega), c.cells us.length b (by simp) _ (by omega)]
    congr 1; omega

end Vec
end Verif.Block.Vector
