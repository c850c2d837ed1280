import Verif.Block.Deque.Grid

namespace Verif.Block.Deque
open Verif.Block
variable {X : Type}

/-- elements `xs` from position `f1` on -/
def content (f1 : Nat) (xs : List X) (p : Nat) : Option X := if p < f1 then none else xs[p - f1]?

theorem content_nil (f1 p : Nat) : content f1 ([] : List X) p = none := by
  simp [content]

theorem content_ge {f1 p : Nat} {xs : List X} (hp : f1 + xs.length ≤ p) : content f1 xs p = none := by
  rw [content, if_neg (by omega), List.getElem?_eq_none (by omega)]

theorem content_lt {f1 p : Nat} {xs : List X} (hp : p < f1) : content f1 xs p = none := by
  rw [content, if_pos hp]

theorem content_add (f1 n : Nat) (xs : List X) : content f1 xs (f1 + n) = xs[n]? := by
  rw [content, if_neg (by omega)]; congr 1; omega

theorem content_in {f1 p : Nat} {xs : List X} (h1 : f1 ≤ p) (h2 : p < f1 + xs.length) :
    ∃ x, content f1 xs p = some x := by
  rw [content, if_neg (by omega), List.getElem?_eq_getElem (by omega)]
  exact ⟨_, rfl⟩

theorem content_snoc (f1 : Nat) (xs : List X) (x : X) (p : Nat) :
    content f1 (xs ++ [x]) p = if p = f1 + xs.length then some x else content f1 xs p := by
  split
  · rename_i e; subst e; rw [content_add]; simp
  · rw [content, content]
    split
    · rfl
    · rw [List.getElem?_append]
      split
      · rfl
      · rw [List.getElem?_eq_none (by simp; omega), List.getElem?_eq_none (by omega)]

theorem content_cons (f1 : Nat) (xs : List X) (x : X) (p : Nat) :
    content f1 (x :: xs) p = if p = f1 then some x else content (f1 + 1) xs p := by
  split
  · rename_i e; subst e; rw [content, if_neg (by omega)]; simp
  · rw [content, content]
    split
    · rw [if_pos (by omega)]
    · rw [if_neg (by omega)]
      have : p - f1 = p - (f1 + 1) + 1 := by omega
      rw [this]; simp

theorem content_set {f1 : Nat} {xs : List X} {n : Nat} (hn : n < xs.length) (x : X) (p : Nat) :
    content f1 (xs.set n x) p = if p = f1 + n then some x else content f1 xs p := by
  rw [content, content]
  split
  · rw [if_neg (by omega)]
  · rw [List.getElem?_set]
    split
    · rw [if_pos (by omega)]
    · rw [if_neg (by omega)]

theorem content_dropLast {f1 : Nat} {xs : List X} (hn : 0 < xs.length) (p : Nat) :
    content f1 xs.dropLast p = if p = f1 + xs.length - 1 then none else content f1 xs p := by
  rw [content, content, List.getElem?_dropLast]
  split
  · rw [if_neg (by omega)]
  · split
    · rw [if_neg (by omega)]
    · split
      · rfl
      · rw [List.getElem?_eq_none (by omega)]

theorem content_shift (f1 B : Nat) (xs : List X) (p : Nat) :
    content (f1 + B) xs p = if p < B then none else content f1 xs (p - B) := by
  rw [content, content]
  split
  · split
    · rfl
    · rw [if_pos (by omega)]
  · rw [if_neg (by omega), if_neg (by omega)]
    congr 1; omega

/-! ### arrays of block pointers used from `F` on -/

structure ArrAt (p : SlotPtr) (avail F : Nat) (us : List Nat) : Prop where
  ex : ∃ l, p = some l ∧ l.length = avail ∧ F + us.length ≤ avail ∧
    ∀ k b : Nat, us[k]? = some b → l[F + k]? = some (some b)

theorem ArrAt.le {p avail F us} (a : ArrAt p avail F us) : F + us.length ≤ avail := by
  obtain ⟨l, _, _, h, _⟩ := a.ex; exact h

theorem ArrAt.slotGet {p avail F us} (a : ArrAt p avail F us) {k b : Nat} (hb : us[k]? = some b) :
    slotGet p ((F + k : Nat) : Int) = some b := by
  obtain ⟨l, rfl, _, _, h⟩ := a.ex
  rw [slotGet_nat, Option.getD_some, h k b hb]; rfl

theorem ArrAt.slotGet' {p avail F us} (a : ArrAt p avail F us) {i : Int} {k b : Nat} (hb : us[k]? = some b)
    (hi : i = ((F + k : Nat) : Int)) : Verif.Block.slotGet p i = some b := hi ▸ a.slotGet hb

theorem ArrAt.snoc {p avail F us} (a : ArrAt p avail F us) (hl : F + us.length < avail) (b : Nat) :
    ∃ p', slotSet p ((F + us.length : Nat) : Int) b = some p' ∧ ArrAt p' avail F (us ++ [b]) := by
  obtain ⟨l, rfl, hlen, _, h⟩ := a.ex
  refine ⟨some (l.set (F + us.length) (some b)), ?_, ⟨_, rfl, by simpa using hlen, by simp; omega, ?_⟩⟩
  · rw [slotSet, if_pos ⟨by omega, by omega⟩, Int.toNat_natCast]
  · intro k b' hb'
    rw [List.getElem?_append] at hb'
    split at hb'
    · rw [List.getElem?_set_ne (by omega)]; exact h k b' hb'
    · have hk : k = us.length := by
        have := (List.getElem?_eq_some_iff.1 hb').1
        simp at this; omega
      subst hk
      simp at hb'; subst hb'
      rw [List.getElem?_set_self (by omega)]

theorem ArrAt.cons {p avail F us} (a : ArrAt p avail (F + 1) us) (b : Nat) :
    ∃ p', slotSet p (F : Int) b = some p' ∧ ArrAt p' avail F (b :: us) := by
  obtain ⟨l, rfl, hlen, hle, h⟩ := a.ex
  refine ⟨some (l.set F (some b)), ?_, ⟨_, rfl, by simpa using hlen, by simp; omega, ?_⟩⟩
  · rw [slotSet, if_pos ⟨by omega, by omega⟩]; simp
  · intro k b' hb'
    cases k with
    | zero => simp at hb'; subst hb'; rw [Nat.add_zero, List.getElem?_set_self (by omega)]
    | succ k =>
      rw [List.getElem?_set_ne (by omega)]
      rw [← h k b' (by simpa using hb')]
      congr 1; omega

theorem ArrAt.init {p avail F us b} (a : ArrAt p avail F (us ++ [b])) : ArrAt p avail F us := by
  obtain ⟨l, rfl, hlen, hle, h⟩ := a.ex
  refine ⟨l, rfl, hlen, by simp at hle; omega, fun k b' hb' => h k b' ?_⟩
  rw [List.getElem?_append_left (List.getElem?_eq_some_iff.1 hb').1]; exact hb'

theorem ArrAt.tail {p avail F us b} (a : ArrAt p avail F (b :: us)) : ArrAt p avail (F + 1) us := by
  obtain ⟨l, rfl, hlen, hle, h⟩ := a.ex
  refine ⟨l, rfl, hlen, by simp at hle; omega, fun k b' hb' => ?_⟩
  rw [← h (k + 1) b' (by simpa using hb')]
  congr 1; omega

/-- a single block in an array -/
theorem ArrAt.one {p : SlotPtr} {l : Slots} {i b : Nat} (hp : p = some l) (hi : i < l.length) :
    ∃ p', slotSet p (i : Int) b = some p' ∧ ArrAt p' l.length i [b] := by
  subst hp
  refine ⟨some (l.set i (some b)), ?_, ⟨_, rfl, by simp, by simp; omega, ?_⟩⟩
  · rw [slotSet, if_pos ⟨by omega, by omega⟩]; simp
  · intro k b' hb'
    have hk : k = 0 := by
      have := (List.getElem?_eq_some_iff.1 hb').1
      simp at this; omega
    subst hk
    simp at hb'; subst hb'
    rw [Nat.add_zero, List.getElem?_set_self hi]

theorem slotCopy_spec {src dst : Slots} {a b d : Nat} (h1 : a ≤ b) (h2 : b ≤ src.length)
    (h3 : d + (b - a) ≤ dst.length) :
    ∃ r, slotCopy src dst a b d = some r ∧ r.length = dst.length ∧
      ∀ k, a ≤ k → k < b → r[d + (k - a)]? = src[k]? := by
  refine ⟨dst.take d ++ (src.drop a).take (b - a) ++ dst.drop (d + (b - a)), ?_, ?_, ?_⟩
  · rw [slotCopy, if_pos (by omega)]
    have e1 : ((b : Int) - (a : Int)).toNat = b - a := by omega
    have e2 : ((d : Int) + ((b : Int) - (a : Int))).toNat = d + (b - a) := by omega
    simp only [Int.toNat_natCast, e1, e2]
  · simp only [List.length_append, List.length_take, List.length_drop]; omega
  · intro k hk1 hk2
    rw [List.append_assoc, List.getElem?_append_right (by rw [List.length_take]; omega),
      List.getElem?_append_left (by simp only [List.length_take, List.length_drop]; omega),
      List.getElem?_take, if_pos (by rw [List.length_take]; omega), List.getElem?_drop]
    congr 1
    rw [List.length_take]; omega

/-! ### representation -/

/-- `v` has memory: `us` are its blocks, from slot `F`; the elements `xs` start at cell `f1` of the first block and
end before cell `bz` of the last; `fs` are the blocks kept for reuse. -/
structure Core (N : Nat) (h : Heap X) (v : Deq) (xs : List X) (us fs : List Nat) (F f1 bz : Nat) : Prop where
  grid : Grid (blockSize N) h us fs (content f1 xs)
  free : FOK v.free fs
  len : xs.length = v.csize
  arr : ArrAt v.dataptr v.avail F us
  front : v.front = (F : Int)
  back : v.back = (F : Int) + us.length - 1
  ne : 0 < us.length
  fsz : v.fsize = (f1 : Int) - 1
  bsz : v.bsize = (bz : Int)
  f1le : f1 ≤ blockSize N
  bzle : bz ≤ blockSize N
  size : f1 + xs.length + blockSize N = us.length * blockSize N + bz

/-- `v` has no memory (never used, or moved from). -/
structure Null (v : Deq) : Prop where
  ptr : v.dataptr = none
  av : v.avail = 0
  cs : v.csize = 0
  fs : v.fsize = -1
  fb : v.free.blocks = none
  fa : v.free.avail = 0

/-- a deque without memory is as default constructed -/
def FA (N : Nat) (v : Deq) : Prop := v.dataptr = none → v.bsize = (blockSize N : Int) ∧ v.free.idx = 0

namespace Core
variable {N : Nat} {h : Heap X} {v : Deq} {xs : List X} {us fs : List Nat} {F f1 bz : Nat}

theorem ptr (c : Core N h v xs us fs F f1 bz) : ∃ l, v.dataptr = some l ∧ l.length = v.avail := by
  obtain ⟨l, h1, h2, _⟩ := c.arr.ex; exact ⟨l, h1, h2⟩

theorem fa (c : Core N h v xs us fs F f1 bz) : FA N v := by
  obtain ⟨l, h1, _⟩ := c.ptr
  intro h; rw [h] at h1; cases h1

theorem avail_pos (c : Core N h v xs us fs F f1 bz) : 0 < v.avail := by
  have := c.arr.le; have := c.ne; omega

theorem fit (c : Core N h v xs us fs F f1 bz) : f1 + xs.length ≤ us.length * blockSize N := by
  have := c.size; have := c.bzle; omega

theorem last (c : Core N h v xs us fs F f1 bz) : ∃ b, us[us.length - 1]? = some b :=
  ⟨_, List.getElem?_eq_getElem (by have := c.ne; omega)⟩

theorem size' (c : Core N h v xs us fs F f1 bz) : f1 + xs.length = (us.length - 1) * blockSize N + bz := by
  have h1 := c.size
  have h2 := c.ne
  obtain ⟨L, hL⟩ : ∃ L, us.length = L + 1 := ⟨us.length - 1, by omega⟩
  rw [hL, Nat.add_mul] at h1
  rw [hL, Nat.add_sub_cancel]; omega

/-- where element `n` lives -/
theorem cell_eq (c : Core N h v xs us fs F f1 bz) {n : Nat} (hn : n < xs.length) :
    ∃ b, us[(f1 + n) / blockSize N]? = some b ∧ v.cell N n = some (b, (f1 + n) % blockSize N) := by
  have hfit := c.fit
  have hk : (f1 + n) / blockSize N < us.length :=
    Nat.div_lt_of_lt_mul (by rw [Nat.mul_comm] at hfit; omega)
  refine ⟨us[(f1 + n) / blockSize N], List.getElem?_eq_getElem hk, ?_⟩
  have e : (v.fsize + (n : Int) + 1).toNat = f1 + n := by rw [c.fsz]; omega
  rw [Deq.cell, e, shr_eq, mask_eq,
    c.arr.slotGet' (List.getElem?_eq_getElem hk) (by rw [c.front]; simp)]
  rfl

theorem cell_val (c : Core N h v xs us fs F f1 bz) {n b : Nat} (hb : us[(f1 + n) / blockSize N]? = some b) :
    h.read (blockSize N) b ((f1 + n) % blockSize N) = xs[n]? := by
  have hm := Nat.mod_lt (f1 + n) (blockSize_pos N)
  rw [Heap.read_eq (c.grid.live b (Grid.mem hb)) hm, c.grid.cells _ b hb _ hm, Nat.mul_comm, Nat.div_add_mod,
    content_add]

theorem get_eq (c : Core N h v xs us fs F f1 bz) {n : Nat} (hn : n < xs.length) : v.get N h n = some xs[n] := by
  obtain ⟨b, hb, hc⟩ := c.cell_eq hn
  rw [Deq.get, hc]
  simp only [Option.bind_some]
  rw [c.cell_val hb, List.getElem?_eq_getElem hn]

theorem set_eq (c : Core N h v xs us fs F f1 bz) (w : h.Wf) {n : Nat} (hn : n < xs.length) (x : X) :
    ∃ h', v.set N h n x = some h' ∧ Core N h' v (xs.set n x) us fs F f1 bz ∧
      Heap.Frame h h' (us ++ fs) (us ++ fs) := by
  obtain ⟨b, hb, hc⟩ := c.cell_eq hn
  have hm := Nat.mod_lt (f1 + n) (blockSize_pos N)
  have hl := c.grid.live b (Grid.mem hb)
  have hv := c.grid.cells _ b hb _ hm
  rw [Nat.mul_comm, Nat.div_add_mod, content_add, List.getElem?_eq_getElem hn] at hv
  refine ⟨h.setCell b ((f1 + n) % blockSize N) (some x), ?_, ?_, Heap.Frame.setCell w (Grid.mem hb) hl _ _⟩
  · rw [Deq.set, hc]
    exact Heap.assign_eq x hl hm hv
  · refine ⟨(c.grid.setCell hb hm (some x)).congr ?_, c.free, by simpa using c.len, c.arr, c.front, c.back, c.ne,
      c.fsz, c.bsz, c.f1le, c.bzle, by simpa using c.size⟩
    intro p _
    rw [content_set hn, Nat.mul_comm, Nat.div_add_mod]

theorem read_pos (c : Core N h v xs us fs F f1 bz) {i : Int} {k j n : Nat} (hk : k < us.length) (hj : j < blockSize N)
    (hi : i = ((F + k : Nat) : Int)) (hn : k * blockSize N + j = f1 + n) :
    readAt N v.dataptr i (j : Int) h = xs[n]? := by
  have hb := List.getElem?_eq_getElem hk
  rw [readAt, c.arr.slotGet' hb hi]
  simp only [Option.bind_some, natIdx]
  rw [if_pos (show (0 : Int) ≤ j by omega)]
  simp only [Option.bind_some, Int.toNat_natCast]
  rw [Heap.read_eq (c.grid.live _ (Grid.mem hb)) hj, c.grid.cells _ _ hb _ hj, hn, content_add]

theorem back_eq (c : Core N h v xs us fs F f1 bz) (hn : 0 < xs.length) :
    v.backVal N h = some xs[xs.length - 1] := by
  have hs := c.size'
  have hB := blockSize_pos N
  have hne := c.ne
  rw [Deq.backVal, ← List.getElem?_eq_getElem (show xs.length - 1 < xs.length by omega)]
  split
  · rename_i h0
    have hbz : bz = 0 := by rw [c.bsz] at h0; omega
    have hL : us.length - 1 ≠ 0 := by
      intro h1; rw [h1, Nat.zero_mul] at hs; omega
    obtain ⟨L, hL'⟩ : ∃ L, us.length = L + 2 := ⟨us.length - 2, by omega⟩
    have e : ((blockSize N : Int) - 1) = ((blockSize N - 1 : Nat) : Int) := by omega
    rw [e]
    refine c.read_pos (k := L) (by omega) (by omega) ?_ ?_
    · rw [c.back, hL']; push_cast; omega
    · have : us.length - 1 = L + 1 := by omega
      rw [this, Nat.add_mul] at hs; omega
  · rename_i h0
    have hbz : 0 < bz := by rw [c.bsz] at h0; omega
    have e : v.bsize - 1 = ((bz - 1 : Nat) : Int) := by rw [c.bsz]; omega
    rw [e]
    refine c.read_pos (k := us.length - 1) (by omega) (by have := c.bzle; omega) ?_ (by omega)
    rw [c.back]; omega

theorem front_eq (c : Core N h v xs us fs F f1 bz) (hn : 0 < xs.length) :
    v.frontVal N h = some xs[0] := by
  have hs := c.size
  have hB := blockSize_pos N
  have hf := c.f1le
  rw [Deq.frontVal, ← List.getElem?_eq_getElem hn]
  split
  · rename_i h0
    have hf1 : f1 = blockSize N := by rw [c.fsz] at h0; omega
    have hL : 1 < us.length := by
      have := c.fit
      rcases Nat.lt_or_ge 1 us.length with h1 | h1
      · exact h1
      · have := Nat.mul_le_mul_right (blockSize N) h1
        omega
    refine c.read_pos (k := 1) (j := 0) hL hB ?_ (by omega)
    rw [c.front]; omega
  · rename_i h0
    have hf1 : f1 < blockSize N := by rw [c.fsz] at h0; omega
    have e : v.fsize + 1 = (f1 : Int) := by rw [c.fsz]; omega
    rw [e]
    refine c.read_pos (k := 0) (j := f1) c.ne hf1 ?_ (by omega)
    rw [c.front]; omega

/-! ### push_back -/

theorem firstBlock_eq (nl : Null v) (hi : v.free.idx = 0) (w : h.Wf) :
    ∃ v' h' b, Deq.firstBlock N v h = some (v', h') ∧
      Core N h' v' ([] : List X) [b] [] 30 (blockSize N / 2) (blockSize N / 2) ∧
      Heap.Frame h h' ([] ++ []) ([b] ++ []) := by
  have hF : FOK v.free [] := ⟨⟨by rw [nl.fb, nl.fa]; rfl, by rw [nl.fb]; rfl⟩, hi⟩
  have G0 : Grid (blockSize N) h [] [] (content (blockSize N / 2) ([] : List X)) :=
    ⟨by simp, by simp, by simp, by simp⟩
  obtain ⟨b, f', h', fs', e, F', G', hn, hl, hc, fr⟩ := hF.get G0 w
  have hfs : fs' = [] := by
    rw [FreeL.get, if_pos hi] at e
    cases e
    exact List.length_eq_zero_iff.1 (by rw [← F'.idx]; exact hi)
  subst hfs
  obtain ⟨p', e', a'⟩ := ArrAt.one (p := some (List.replicate 64 none)) (l := List.replicate 64 none) (i := 30) (b := b) rfl (by simp)
  have hp := blockSize_pos N
  refine ⟨⟨v.csize, p', 64, 30, 30, ((blockSize N / 2 : Nat) : Int) - 1 + 1, ((blockSize N / 2 : Nat) : Int) - 1, f'⟩, h', b,
    ?_, ⟨?_, F', ?_, ?_, rfl, by simp, by simp, ?_, ?_, by omega, by omega, by simp; omega⟩, ?_⟩
  · rw [Deq.firstBlock, e]
    simp only [Option.bind_some]
    rw [show (30 : Int) = ((30 : Nat) : Int) from rfl, e']
    rfl
  · have := G'.addBack hn hl hc (fun j _ => content_nil _ _)
    simpa using this
  · simp [nl.cs]
  · simpa using a'
  · simp
  · simp
  · refine fr.congr (fun _ => Iff.rfl) (by simp)

theorem roomBack_eq (P : Pol) (c : Core N h v xs us fs F f1 bz) :
    ∃ v' F', v.roomBack P = some v' ∧ Core N h v' xs us fs F' f1 bz ∧ F' + us.length < v'.avail := by
  have hle := c.arr.le
  have hne := c.ne
  rw [Deq.roomBack]
  obtain ⟨l, hl, hlen, _, hent⟩ := c.arr.ex
  split
  · rename_i hb
    have hbk := c.back
    have hfr := c.front
    split
    · rename_i h5
      have hF5 : 5 < F := by omega
      obtain ⟨r, er, rlen, rent⟩ := slotCopy_spec (src := l) (dst := l) (a := F) (b := F + us.length) (d := F / 2)
        (by omega) (by omega) (by omega)
      have e1 : v.back + 1 = ((F + us.length : Nat) : Int) := by omega
      have e2 : v.front / 2 = ((F / 2 : Nat) : Int) := by omega
      rw [hl]
      simp only [Option.bind_some]
      rw [slotCopyIn, if_neg (by rw [hfr]; omega), hfr, e1]
      rw [hfr] at e2
      rw [e2, er]
      refine ⟨_, F / 2, rfl, ⟨c.grid, c.free, c.len, ⟨r, rfl, by simpa [hlen] using rlen, by simp only; omega, ?_⟩, rfl,
        by simp only; omega, hne, c.fsz, c.bsz, c.f1le, c.bzle, c.size⟩, by simp only; omega⟩
      intro k b hk
      have hk' := (List.getElem?_eq_some_iff.1 hk).1
      have := rent (F + k) (by omega) (by omega)
      rw [show F / 2 + (F + k - F) = F / 2 + k by omega] at this
      rw [this]; exact hent k b hk
    · obtain ⟨r, er, rlen, rent⟩ := slotCopy_spec (src := l) (dst := List.replicate (v.avail * 2) none) (a := 0)
        (b := v.avail) (d := 0) (by omega) (by omega) (by simp; omega)
      rw [hl]
      simp only [Option.bind_some]
      simp only [Int.natCast_zero] at er
      rw [er]
      refine ⟨_, F, rfl, ⟨c.grid, c.free, c.len, ⟨r, rfl, by simpa using rlen, by simp only; omega, ?_⟩, c.front,
        c.back, hne, c.fsz, c.bsz, c.f1le, c.bzle, c.size⟩, by simp only; omega⟩
      intro k b hk
      have hk' := (List.getElem?_eq_some_iff.1 hk).1
      have := rent (F + k) (by omega) (by omega)
      rw [show 0 + (F + k - 0) = F + k by omega] at this
      rw [this]; exact hent k b hk
  · rename_i hb
    refine ⟨v, F, rfl, c, ?_⟩
    rw [c.back] at hb; omega

theorem blockCheck_eq (P : Pol) (c : Core N h v xs us fs F f1 bz) (w : h.Wf) :
    ∃ v' h' us' fs' F' bz', v.blockCheck P N h = some (v', h') ∧ Core N h' v' xs us' fs' F' f1 bz' ∧
      Heap.Frame h h' (us ++ fs) (us' ++ fs') ∧ us <+: us' ∧ bz' < blockSize N := by
  rw [Deq.blockCheck]
  split
  · rename_i hb
    have hbz : bz = blockSize N := by have := c.bzle; rw [c.bsz] at hb; omega
    subst hbz
    rw [if_neg (by have := c.avail_pos; omega)]
    obtain ⟨v1, F1, e1, c1, l1⟩ := c.roomBack_eq P
    rw [e1]
    simp only [Option.bind_some]
    obtain ⟨b, f', h', fs', e, F', G', hn, hl, hc, fr⟩ := c1.free.get c1.grid w
    rw [e]
    simp only [Option.bind_some]
    obtain ⟨p', e2, a2⟩ := c1.arr.snoc l1 b
    have hs := c1.size
    have hidx : v1.back + 1 = ((F1 + us.length : Nat) : Int) := by rw [c1.back]; omega
    rw [hidx, e2]
    refine ⟨_, h', us ++ [b], fs', F1, 0, rfl, ⟨?_, F', c1.len, a2, c1.front, ?_, by simp, c1.fsz, rfl,
      c1.f1le, by omega, ?_⟩, ?_, List.prefix_append _ _, blockSize_pos N⟩
    · refine G'.addBack hn hl hc fun j _ => content_ge (by omega)
    · simp; omega
    · simp only [List.length_append, List.length_singleton, Nat.add_mul]; omega
    · exact fr.congr (fun _ => Iff.rfl) (by intro b'; simp; grind)
  · rename_i hb
    refine ⟨v, h, us, fs, F, bz, rfl, c, Heap.Frame.refl w, List.prefix_refl _, ?_⟩
    rw [c.bsz] at hb; omega

theorem pushCell (c : Core N h v xs us fs F f1 bz) (w : h.Wf) (hb : bz < blockSize N) (x : X) :
    ∃ h', constructAt N v.dataptr v.back v.bsize h x = some h' ∧
      Core N h' { v with bsize := v.bsize + 1, csize := v.csize + 1 } (xs ++ [x]) us fs F f1 (bz + 1) ∧
      Heap.Frame h h' (us ++ fs) (us ++ fs) := by
  obtain ⟨b, hl⟩ := c.last
  have hne := c.ne
  have hs := c.size'
  have hbk : v.back = ((F + (us.length - 1) : Nat) : Int) := by rw [c.back]; omega
  obtain ⟨h', e, G', f'⟩ := c.grid.constructAt w (c.arr.slotGet' hl hbk) hl hb (content_ge (by omega)) x
  refine ⟨h', by rw [c.bsz]; exact e, ⟨G'.congr ?_, c.free, by simp [c.len], c.arr, c.front, c.back, c.ne, c.fsz, ?_,
    c.f1le, hb, ?_⟩, f'⟩
  · intro p _
    rw [content_snoc, hs]
  · simp [c.bsz]
  · have := c.size; simp; omega

theorem pushBack_eq (P : Pol) (c : Core N h v xs us fs F f1 bz) (w : h.Wf) (x : X) :
    ∃ v' h' us' fs' F' bz', v.pushBack P N h x = some (v', h') ∧ Core N h' v' (xs ++ [x]) us' fs' F' f1 bz' ∧
      Heap.Frame h h' (us ++ fs) (us' ++ fs') ∧ us <+: us' := by
  obtain ⟨v1, h1, us1, fs1, F1, bz1, e1, c1, fr1, p1, b1⟩ := c.blockCheck_eq P w
  obtain ⟨h2, e2, c2, fr2⟩ := c1.pushCell fr1.wf b1 x
  refine ⟨_, h2, us1, fs1, F1, bz1 + 1, ?_, c2, fr1.trans fr2, p1⟩
  rw [Deq.pushBack, e1]
  simp only [Option.bind_some, e2, Option.map_some]

theorem pushBack_null (P : Pol) (nl : Null v) (hb : v.bsize = (blockSize N : Int)) (hi : v.free.idx = 0)
    (w : h.Wf) (x : X) :
    ∃ v' h' us' bz', v.pushBack P N h x = some (v', h') ∧
      Core N h' v' [x] us' [] 30 (blockSize N / 2) bz' ∧ Heap.Frame h h' ([] ++ []) (us' ++ []) := by
  obtain ⟨v1, h1, b, e1, c1, fr1⟩ := firstBlock_eq (N := N) (h := h) nl hi w
  have hp := blockSize_pos N
  obtain ⟨h2, e2, c2, fr2⟩ := c1.pushCell fr1.wf (by omega) x
  refine ⟨_, h2, [b], _, ?_, c2, fr1.trans fr2⟩
  rw [Deq.pushBack, Deq.blockCheck, if_pos (by omega), if_pos nl.av, e1]
  simp only [Option.bind_some, e2, Option.map_some]

/-! ### push_front -/

/-- the pointer shift at 526-529 copies to an overlapping later range -/
def Overlap (v : Deq) : Prop :=
  v.fsize < 0 ∧ v.front = 0 ∧ v.back < (v.avail : Int) - 5 ∧ ((v.avail : Int) - v.back) / 2 ≤ v.back

theorem roomFront_eq (P : Pol) (c : Core N h v xs us fs F f1 bz)
    (ho : P.memmove = true ∨ ¬ Overlap v) (hf : f1 = 0) :
    ∃ v' F', v.roomFront P = some v' ∧ Core N h v' xs us fs (F' + 1) f1 bz := by
  have hle := c.arr.le
  have hne := c.ne
  have hbk := c.back
  have hfr := c.front
  have hfs := c.fsz
  rw [Deq.roomFront]
  obtain ⟨l, hl, hlen, _, hent⟩ := c.arr.ex
  split
  · rename_i hF
    have hF0 : F = 0 := by omega
    subst hF0
    have e1 : v.back + 1 = ((us.length : Nat) : Int) := by omega
    split
    · rename_i h5
      have e2 : ((v.avail : Int) - v.back) / 2 = (((v.avail - (us.length - 1)) / 2 : Nat) : Int) := by omega
      obtain ⟨r, er, rlen, rent⟩ := slotCopy_spec (src := l) (dst := l) (a := 0) (b := us.length)
        (d := (v.avail - (us.length - 1)) / 2) (by omega) (by omega) (by omega)
      rw [hl]
      simp only [Option.bind_some]
      have hnov : ¬ ((0 : Int) ≤ ((v.avail : Int) - v.back) / 2 ∧ ((v.avail : Int) - v.back) / 2 < v.back + 1 ∧
          P.memmove = false) := by
        rintro ⟨_, h2, h3⟩
        rcases ho with h4 | h4
        · rw [h4] at h3; cases h3
        · exact h4 ⟨by omega, hF, h5, by omega⟩
      rw [slotCopyIn, if_neg hnov, e2, e1]
      simp only [Int.natCast_zero] at er
      rw [er]
      have hd : 1 ≤ (v.avail - (us.length - 1)) / 2 := by omega
      refine ⟨_, (v.avail - (us.length - 1)) / 2 - 1, rfl, ⟨c.grid, c.free, c.len,
        ⟨r, rfl, by simpa [hlen] using rlen, by simp only; omega, ?_⟩, by simp only; omega,
        by simp only; omega, hne, c.fsz, c.bsz, c.f1le, c.bzle, c.size⟩⟩
      intro k b hk
      have hk' := (List.getElem?_eq_some_iff.1 hk).1
      have := rent k (by omega) hk'
      rw [Nat.sub_add_cancel hd]
      rw [Nat.sub_zero] at this
      rw [this]
      have := hent k b hk
      rwa [Nat.zero_add] at this
    · obtain ⟨r, er, rlen, rent⟩ := slotCopy_spec (src := l) (dst := List.replicate (v.avail * 2) none) (a := 0)
        (b := us.length) (d := v.avail) (by omega) (by omega) (by simp; omega)
      rw [hl]
      simp only [Option.bind_some]
      simp only [Int.natCast_zero] at er
      rw [e1, er]
      have hd : 1 ≤ v.avail := by omega
      refine ⟨_, v.avail - 1, rfl, ⟨c.grid, c.free, c.len,
        ⟨r, rfl, by simpa using rlen, by simp only; omega, ?_⟩, by simp only; omega,
        by simp only; omega, hne, c.fsz, c.bsz, c.f1le, c.bzle, c.size⟩⟩
      intro k b hk
      have hk' := (List.getElem?_eq_some_iff.1 hk).1
      have := rent k (by omega) hk'
      rw [Nat.sub_add_cancel hd]
      rw [Nat.sub_zero] at this
      rw [this]
      have := hent k b hk
      rwa [Nat.zero_add] at this
  · rename_i hF
    refine ⟨v, F - 1, rfl, ?_⟩
    rwa [Nat.sub_add_cancel (by omega)]

theorem blockCheckFront_eq (P : Pol) (c : Core N h v xs us fs F f1 bz) (w : h.Wf)
    (ho : P.memmove = true ∨ ¬ Overlap v) :
    ∃ v' h' us' fs' F' f1' pre, v.blockCheckFront P N h = some (v', h') ∧
      Core N h' v' xs us' fs' F' (f1' + 1) bz ∧
      Heap.Frame h h' (us ++ fs) (us' ++ fs') ∧ us' = pre ++ us ∧
      f1' + 1 = f1 + pre.length * blockSize N := by
  have hp := blockSize_pos N
  rw [Deq.blockCheckFront]
  split
  · rename_i hb
    have hf : f1 = 0 := by rw [c.fsz] at hb; omega
    subst hf
    rw [if_neg (by have := c.avail_pos; omega)]
    obtain ⟨v1, F1, e1, c1⟩ := c.roomFront_eq P ho rfl
    rw [e1]
    simp only [Option.bind_some]
    obtain ⟨b, f', h', fs', e, F', G', hn, hl, hc, fr⟩ := c1.free.get c1.grid w
    rw [e]
    simp only [Option.bind_some]
    obtain ⟨p', e2, a2⟩ := c1.arr.cons b
    have hs := c1.size
    have hidx : v1.front - 1 = (F1 : Int) := by rw [c1.front]; omega
    rw [hidx, e2]
    refine ⟨_, h', b :: us, fs', F1, blockSize N - 1, [b], rfl, ⟨?_, F', c1.len, a2, rfl, ?_, by simp, ?_, c1.bsz,
      by omega, c1.bzle, ?_⟩, ?_, rfl, by simp; omega⟩
    · refine (G'.addFront hn hl hc).congr fun p _ => ?_
      rw [Nat.sub_add_cancel hp]
      have := content_shift 0 (blockSize N) xs p
      rwa [Nat.zero_add] at this
    · simp only; rw [c1.back]; simp; omega
    · simp only; omega
    · simp only [List.length_cons, Nat.add_mul]; omega
    · exact fr.congr (fun _ => Iff.rfl) (by intro b'; simp)
  · rename_i hb
    have hf : 0 < f1 := by rw [c.fsz] at hb; omega
    refine ⟨v, h, us, fs, F, f1 - 1, [], rfl, ?_, Heap.Frame.refl w, rfl, by simp; omega⟩
    rwa [Nat.sub_add_cancel hf]

theorem pushFrontCell (c : Core N h v xs us fs F (f1 + 1) bz) (w : h.Wf) (x : X) :
    ∃ h', constructAt N v.dataptr v.front v.fsize h x = some h' ∧
      Core N h' { v with fsize := v.fsize - 1, csize := v.csize + 1 } (x :: xs) us fs F f1 bz ∧
      Heap.Frame h h' (us ++ fs) (us ++ fs) := by
  have hne := c.ne
  have h0 := List.getElem?_eq_getElem hne
  have hfl := c.f1le
  obtain ⟨h', e, G', f'⟩ := c.grid.constructAt w (c.arr.slotGet' (i := v.front) h0 (by rw [c.front]; simp)) h0
    (show f1 < blockSize N by omega) (content_lt (by omega)) x
  have hfs : v.fsize = (f1 : Int) := by rw [c.fsz]; omega
  refine ⟨h', by rw [hfs]; exact e, ⟨G'.congr ?_, c.free, by simp [c.len], c.arr, c.front, c.back, c.ne, ?_, c.bsz,
    by omega, c.bzle, ?_⟩, f'⟩
  · intro p _
    rw [content_cons, Nat.zero_mul, Nat.zero_add]
  · simp only; omega
  · have := c.size; simp; omega

theorem pushFront_eq (P : Pol) (c : Core N h v xs us fs F f1 bz) (w : h.Wf)
    (ho : P.memmove = true ∨ ¬ Overlap v) (x : X) :
    ∃ v' h' us' fs' F' f1' pre, v.pushFront P N h x = some (v', h') ∧
      Core N h' v' (x :: xs) us' fs' F' f1' bz ∧
      Heap.Frame h h' (us ++ fs) (us' ++ fs') ∧ us' = pre ++ us ∧
      f1' + 1 = f1 + pre.length * blockSize N := by
  obtain ⟨v1, h1, us1, fs1, F1, f11, pre, e1, c1, fr1, p1, b1⟩ := c.blockCheckFront_eq P w ho
  obtain ⟨h2, e2, c2, fr2⟩ := c1.pushFrontCell fr1.wf x
  refine ⟨_, h2, us1, fs1, F1, f11, pre, ?_, c2, fr1.trans fr2, p1, b1⟩
  rw [Deq.pushFront, e1]
  simp only [Option.bind_some, e2, Option.map_some]

theorem pushFront_null (P : Pol) (nl : Null v) (hN : 1 ≤ N) (hi : v.free.idx = 0) (w : h.Wf) (x : X) :
    ∃ v' h' us' f1', v.pushFront P N h x = some (v', h') ∧
      Core N h' v' [x] us' [] 30 f1' (blockSize N / 2) ∧ Heap.Frame h h' ([] ++ []) (us' ++ []) := by
  obtain ⟨v1, h1, b, e1, c1, fr1⟩ := firstBlock_eq (N := N) (h := h) nl hi w
  have hp : 1 ≤ blockSize N / 2 := by
    rw [blockSize_eq]
    obtain ⟨M, rfl⟩ : ∃ M, N = M + 1 := ⟨N - 1, by omega⟩
    have := Nat.two_pow_pos M
    rw [Nat.pow_succ]; omega
  have c1' : Core N h1 v1 ([] : List X) [b] [] 30 (blockSize N / 2 - 1 + 1) (blockSize N / 2) := by
    rwa [Nat.sub_add_cancel hp]
  obtain ⟨h2, e2, c2, fr2⟩ := c1'.pushFrontCell fr1.wf x
  refine ⟨_, h2, [b], _, ?_, c2, fr1.trans fr2⟩
  rw [Deq.pushFront, Deq.blockCheckFront, if_pos (by rw [nl.fs]; decide), if_pos nl.av, e1]
  simp only [Option.bind_some, e2, Option.map_some]

/-! ### pop_back and pop_front -/

theorem popCell (P : Pol) (c : Core N h v xs us fs F f1 (bz + 1)) (w : h.Wf) (hn : 0 < xs.length) :
    ∃ h', destroyAt P N v.dataptr v.back (bz : Int) h = some h' ∧
      Core N h' { v with bsize := (bz : Int), csize := v.csize - 1 } xs.dropLast us fs F f1 bz ∧
      Heap.Frame h h' (us ++ fs) (us ++ fs) := by
  obtain ⟨b, hl⟩ := c.last
  have hne := c.ne
  have hs := c.size'
  have hbl := c.bzle
  have hbk : v.back = ((F + (us.length - 1) : Nat) : Int) := by rw [c.back]; omega
  have hpos : (us.length - 1) * blockSize N + bz = f1 + (xs.length - 1) := by omega
  obtain ⟨h', e, G', f'⟩ := c.grid.destroyAt P w (c.arr.slotGet' hl hbk) hl (show bz < blockSize N by omega)
    (.inr (by rw [hpos, content_add, List.getElem?_eq_getElem (by omega)]; exact ⟨_, rfl⟩))
  refine ⟨h', e, ⟨G'.congr ?_, c.free, by simp [c.len], c.arr, c.front, c.back, c.ne, c.fsz, rfl,
    c.f1le, by omega, ?_⟩, f'⟩
  · intro p _
    rw [content_dropLast hn, hpos]
    have : f1 + xs.length - 1 = f1 + (xs.length - 1) := by omega
    rw [this]
  · have := c.size; simp; omega

theorem popBack_eq (P : Pol) (c : Core N h v xs us fs F f1 bz) (w : h.Wf) :
    ∃ v' h' us' fs' bz', v.popBack P N h = some (v', h') ∧ Core N h' v' xs.dropLast us' fs' F f1 bz' ∧
      Heap.Frame h h' (us ++ fs) (us' ++ fs') ∧ us' <+: us := by
  rw [Deq.popBack]
  split
  · rename_i h0
    have hx : xs = [] := List.length_eq_zero_iff.1 (by rw [c.len]; exact h0)
    subst hx
    exact ⟨v, h, us, fs, bz, rfl, c, Heap.Frame.refl w, List.prefix_refl _⟩
  · rename_i h0
    have hn : 0 < xs.length := by rw [c.len]; omega
    rw [Deq.popBackStep]
    split
    · rename_i hb
      have hbz : 0 < bz := by simp only [c.bsz] at hb; omega
      obtain ⟨bz, rfl⟩ : ∃ n, bz = n + 1 := ⟨bz - 1, by omega⟩
      obtain ⟨h', e, c', f'⟩ := c.popCell P w hn
      refine ⟨_, h', us, fs, bz, ?_, c', f', List.prefix_refl _⟩
      simp only [Option.bind_some, c.bsz]
      have : ((bz + 1 : Nat) : Int) - 1 = (bz : Int) := by omega
      rw [this, e]; rfl
    · rename_i hb
      have hbz : bz = 0 := by simp only [c.bsz] at hb; omega
      subst hbz
      have hs := c.size'
      have hfit := c.size
      have hp := blockSize_pos N
      have hL : 1 < us.length := by
        rcases Nat.lt_or_ge 1 us.length with h1 | h1
        · exact h1
        · rw [show us.length - 1 = 0 by omega, Nat.zero_mul] at hs; omega
      obtain ⟨us', b, rfl⟩ : ∃ us' b, us = us' ++ [b] :=
        ⟨us.dropLast, us.getLast (List.length_pos_iff.1 c.ne), (List.dropLast_concat_getLast _).symm⟩
      simp only [List.length_append, List.length_singleton, Nat.add_sub_cancel] at hL hs hfit
      obtain ⟨f', ef, F'⟩ := c.free.put b
      have hbk : v.back = ((F + us'.length : Nat) : Int) := by rw [c.back]; simp; omega
      have hsg := c.arr.slotGet' (i := v.back) (k := us'.length) (b := b) (by simp) hbk
      simp only [hsg, Option.bind_some, ef, Option.map_some]
      have G' := (c.grid.dropBack (fun j hj => content_ge (by omega))).perm
        (fs' := fs ++ [b]) (List.perm_append_singleton b fs).symm
      have c1 : Core N h { v with free := f', back := v.back - 1, bsize := (blockSize N : Int) } xs us' (fs ++ [b])
          F f1 (blockSize N - 1 + 1) :=
        ⟨G', F', c.len, c.arr.init, c.front, by simp only [hbk]; omega, by omega, c.fsz,
          by simp only; omega, c.f1le, by omega, by rw [Nat.add_mul] at hfit; omega⟩
      obtain ⟨h', e, c', fr'⟩ := c1.popCell P w hn
      refine ⟨_, h', us', fs ++ [b], _, ?_, c', ?_, List.prefix_append _ _⟩
      · simp only at e
        rw [show ((blockSize N : Int) - 1) = ((blockSize N - 1 : Nat) : Int) by omega, e]
        rfl
      · exact fr'.congr (by intro b'; simp; grind) (fun _ => Iff.rfl)

theorem popFrontCell (P : Pol) (c : Core N h v xs us fs F f1 bz) (w : h.Wf) (hf : f1 < blockSize N)
    (hn : 0 < xs.length) :
    ∃ h', destroyAt P N v.dataptr v.front (f1 : Int) h = some h' ∧
      Core N h' { v with fsize := (f1 : Int), csize := v.csize - 1 } xs.tail us fs F (f1 + 1) bz ∧
      Heap.Frame h h' (us ++ fs) (us ++ fs) := by
  have h0 := List.getElem?_eq_getElem c.ne
  obtain ⟨h', e, G', f'⟩ := c.grid.destroyAt P w (c.arr.slotGet' (i := v.front) h0 (by rw [c.front]; simp)) h0 hf
    (.inr (by rw [Nat.zero_mul, Nat.zero_add]; exact content_in (Nat.le_refl _) (by omega)))
  obtain ⟨x, xs', rfl⟩ : ∃ x xs', xs = x :: xs' := by
    cases xs with
    | nil => simp at hn
    | cons x xs' => exact ⟨x, xs', rfl⟩
  refine ⟨h', e, ⟨G'.congr ?_, c.free, ?_, c.arr, c.front, c.back, c.ne, by simp only; omega, c.bsz,
    by omega, c.bzle, ?_⟩, f'⟩
  · intro p _
    rw [content_cons, Nat.zero_mul, Nat.zero_add, List.tail_cons]
    split
    · rename_i e; rw [content_lt (by omega)]
    · rfl
  · have := c.len; simp at this ⊢; omega
  · have := c.size; simp at this ⊢; omega

theorem popFront_eq (P : Pol) (c : Core N h v xs us fs F f1 bz) (w : h.Wf) (hn : 0 < xs.length) :
    ∃ v' h' us' fs' F' f1' pre, v.popFront P N h = some (v', h') ∧ Core N h' v' xs.tail us' fs' F' f1' bz ∧
      Heap.Frame h h' (us ++ fs) (us' ++ fs') ∧ us = pre ++ us' ∧
      f1' + pre.length * blockSize N = f1 + 1 := by
  have hp := blockSize_pos N
  have hfl := c.f1le
  rw [Deq.popFront, if_neg (by rw [← c.len]; omega), Deq.popFrontStep]
  split
  · rename_i hb
    have hf : f1 < blockSize N := by simp only [c.fsz] at hb; omega
    obtain ⟨h', e, c', f'⟩ := c.popFrontCell P w hf hn
    refine ⟨_, h', us, fs, F, f1 + 1, [], ?_, c', f', rfl, by simp⟩
    simp only [Option.bind_some, c.fsz]
    have : ((f1 : Int) - 1 + 1) = (f1 : Int) := by omega
    rw [this, e]; rfl
  · rename_i hb
    have hf : f1 = blockSize N := by simp only [c.fsz] at hb; omega
    subst hf
    have hs := c.size
    have hbl := c.bzle
    obtain ⟨b, us', rfl⟩ : ∃ b us', us = b :: us' := by
      cases us with
      | nil => have := c.ne; simp at this
      | cons b us' => exact ⟨b, us', rfl⟩
    have hL : 0 < us'.length := by
      rcases Nat.eq_zero_or_pos us'.length with h1 | h1
      · simp only [List.length_cons, h1] at hs; omega
      · exact h1
    obtain ⟨f', ef, F'⟩ := c.free.put b
    have hsg := c.arr.slotGet' (i := v.front) (k := 0) (b := b) (by simp) (by rw [c.front]; simp)
    simp only [hsg, Option.bind_some, ef, Option.map_some]
    have G' := (c.grid.dropFront (fun j hj => content_lt hj)).perm
      (fs' := fs ++ [b]) (List.perm_append_singleton b fs).symm
    have c1 : Core N h { v with free := f', front := v.front + 1, fsize := -1 } xs us' (fs ++ [b])
        (F + 1) 0 bz := by
      refine ⟨G'.congr ?_, F', c.len, c.arr.tail, ?_, ?_, hL, by simp, c.bsz, by omega, c.bzle, ?_⟩
      · intro p _
        have := content_shift 0 (blockSize N) xs (p + blockSize N)
        rw [if_neg (by omega), Nat.zero_add, Nat.add_sub_cancel] at this
        exact this.symm
      · simp [c.front]
      · have := c.back; simp at this ⊢; omega
      · simp only [List.length_cons, Nat.add_mul] at hs; omega
    obtain ⟨h', e, c', fr'⟩ := c1.popFrontCell P w hp hn
    refine ⟨_, h', us', fs ++ [b], F + 1, 1, [b], ?_, c', ?_, rfl, by simp; omega⟩
    · simp only at e
      rw [show ((0 : Int)) = ((0 : Nat) : Int) from rfl, e]
      rfl
    · exact fr'.congr (by intro b'; simp; grind) (fun _ => Iff.rfl)

theorem popFront_empty (P : Pol) (hn : v.csize = 0) : v.popFront P N h = some (v, h) := by
  rw [Deq.popFront, if_pos hn]

theorem shrink_eq (c : Core N h v xs us fs F f1 bz) (w : h.Wf) :
    ∃ v' h', v.shrinkToFit N h = some (v', h') ∧ Core N h' v' xs us [] F f1 bz ∧
      Heap.Frame h h' (us ++ fs) (us ++ []) ∧ ∀ n, v'.cell N n = v.cell N n := by
  obtain ⟨h', e, G', fr⟩ := FOK.freeFrom (N := N) v.free.blocks v.free.idx (ii := 0) c.free.idx.symm
    (fun k b hb => by rw [Nat.zero_add]; exact c.free.arr.slotGet hb) c.grid w
  refine ⟨{ v with free := { v.free with idx := 0 } }, h', by rw [Deq.shrinkToFit, e]; rfl, ⟨G', ⟨⟨c.free.arr.len, by simp⟩, rfl⟩, c.len, c.arr, c.front,
    c.back, c.ne, c.fsz, c.bsz, c.f1le, c.bzle, c.size⟩, fr, fun n => rfl⟩

end Core
end Verif.Block.Deque
