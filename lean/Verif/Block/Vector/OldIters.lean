import Verif.Block.Vector.ArraysProps

/-
C153: an iterator of a StableBlockVector that is kept while elements are appended and removed at the end.  An iterator
holds three things (BlockIterator.hpp:20-23): a pointer into the array of block pointers, a pointer to the element and
the offset in the block.  The elements never move, but `push_back` replaces the array of block pointers by a larger one
and deletes the old one when all of its entries are in use (StableBlockVector.hpp:381-392).
-/
namespace Verif.Block.Vector
open Verif.Block

variable {X : Type} {N : Nat}

/-- BlockIterator.hpp:20-23: an iterator, with the number of the array of block pointers its member `vec` points into. -/
structure Held where
  arr : Option Nat
  it : Iter

/-- The array `vec` points into, seen at a later moment: if it is no longer the one of the object, it has been deleted
(C107: each array that exists belongs to one object) and reading it is undefined. -/
def Held.slots (v : AVec) (p : Held) : SlotPtr := if p.arr = v.d then v.v.dataptr else none

/-- `begin() + k` (StableBlockVector.hpp:300-306, BlockIterator.hpp:94-99). -/
def heldAt (N : Nat) (v : AVec) (k : Nat) : Option Held :=
  (Vec.begin? N v.v).bind fun b => (b.add (Vec.blockSize N) v.v.dataptr k).map fun it => ⟨v.d, it⟩

/-- `end()` (StableBlockVector.hpp:308-318). -/
def heldEnd (N : Nat) (v : AVec) : Option Held := (Vec.end? N v.v).map fun it => ⟨v.d, it⟩

/-- `*p` (BlockIterator.hpp:42). -/
def Held.deref (N : Nat) (h : Heap X) (p : Held) : Option X := p.it.deref (Vec.blockSize N) h

/-- `++p` (BlockIterator.hpp:81-87) on an iterator of `v`. -/
def Held.incr (N : Nat) (v : AVec) (p : Held) : Option Held :=
  (p.it.incr (Vec.blockSize N) (p.slots v)).map fun it => ⟨p.arr, it⟩

/-- `p != q` (BlockIterator.hpp:53-56): entries of different arrays are different. -/
def Held.ne (p q : Held) : Bool := p.it.ne q.it || decide (p.arr ≠ q.arr)

/-- The loop `for (; p != last; ++p) out.push_back(*p);` on iterators of `v`, for at most `fuel` rounds (`none` if it is
undefined or did not stop by then). -/
def Held.walk (N : Nat) (v : AVec) (h : Heap X) (last : Held) : Nat → Held → Option (List X)
  | 0, p => if p.ne last then none else some []
  | fuel + 1, p =>
    if p.ne last then
      (p.deref N h).bind fun x =>
      (p.incr N v).bind fun q => (walk N v h last fuel q).map fun xs => x :: xs
    else some []

/-! ### The arrays during appends and removals -/

/-- The array has existed and has been deleted. -/
def Gone (x : Nat) (L : Ledger) : Prop := x < L.next ∧ x ∉ L.live

theorem Gone.alloc {x : Nat} {L : Ledger} (g : Gone x L) : Gone x L.alloc.2 :=
  ⟨Nat.lt_succ_of_lt g.1, by
    have := g.1
    simp only [Ledger.alloc, List.mem_cons, not_or]
    exact ⟨by omega, g.2⟩⟩

theorem Gone.delete {x : Nat} {L L' : Ledger} {o : Option Nat} (g : Gone x L) (h : L.delete o = some L') : Gone x L' := by
  cases o with
  | none => cases h; exact g
  | some a =>
    simp only [Ledger.delete] at h
    split at h
    · cases h
      exact ⟨g.1, fun hx => g.2 (List.mem_filter.1 hx).1⟩
    · cases h

theorem Gone.of_delete {x : Nat} {L L' : Ledger} (wf : L.Wf) (hx : x ∈ L.live) (h : L.delete (some x) = some L') :
    Gone x L' := by
  rw [Ledger.delete, if_pos hx] at h
  cases h
  exact ⟨wf x hx, by simp⟩

namespace AVec

/-- What a call does to the array of block pointers of an object whose array is `x`. -/
def Keeps (x : Nat) (A : Nat) (a : AVec) (L : Ledger) : Prop :=
  (a.d = some x ∧ a.v.avail = A) ∨ (A < a.v.avail ∧ Gone x L)

theorem growSlots_keeps {x A : Nat} {a a' : AVec} {L L' : Ledger} (wf : L.Wf) (ok : a.Ok)
    (hl : ∀ y, a.d = some y → y ∈ L.live)
    (k : Keeps x A a L) (e : growSlots a L = some (a', L')) : Keeps x A a' L' := by
  unfold growSlots at e
  split at e
  · rename_i h0
    cases e
    rcases k with ⟨hd, _⟩ | ⟨h1, _⟩
    · have := ok.d
      rw [hd, ok.avail.1 h0] at this
      cases this
    · omega
  · rename_i h0
    split at e
    · rename_i h1
      simp only [Option.map_eq_some_iff] at e
      obtain ⟨L1, e1, e⟩ := e
      cases e
      have av : a.v.growSlots.avail = a.v.avail * 2 := by
        rw [Vec.growSlots, if_neg h0, if_pos h1]
      refine .inr ?_
      rcases k with ⟨hd, hA⟩ | ⟨hA, g⟩
      · refine ⟨by show A < a.v.growSlots.avail; omega, ?_⟩
        rw [hd] at e1
        refine Gone.of_delete ?_ ?_ e1
        · intro y hy
          simp only [Ledger.alloc, List.mem_cons] at hy ⊢
          rcases hy with rfl | hy
          · omega
          · have := wf y hy; omega
        · exact List.mem_cons_of_mem _ (hl x hd)
      · exact ⟨by show A < a.v.growSlots.avail; omega, g.alloc.delete e1⟩
    · cases e; exact k

theorem pushBack_keeps {x A : Nat} {a a' : AVec} {L L' : Ledger} {h h' : Heap X} {y : X} (wf : L.Wf) (ok : a.Ok)
    (hl : ∀ y, a.d = some y → y ∈ L.live)
    (k : Keeps x A a L) (e : pushBack N a h L y = some (a', h', L')) : Keeps x A a' L' := by
  simp only [pushBack, Option.bind_eq_some_iff, Option.map_eq_some_iff] at e
  obtain ⟨⟨b, h1, L1⟩, e1, _, _, _, _, e⟩ := e
  cases e
  suffices K : Keeps x A b L1 from K
  unfold blockCheck at e1
  split at e1
  · simp only [Option.bind_eq_some_iff, Option.map_eq_some_iff] at e1
    obtain ⟨⟨g, L2⟩, eg, ⟨b', v', h2⟩, en, _, _, e1⟩ := e1
    cases e1
    have K := growSlots_keeps wf ok hl k eg
    have av := (getNewBlock_keep en).2.1
    rcases K with ⟨h1, h2⟩ | ⟨h1, h2⟩
    · exact .inl ⟨h1, av.trans h2⟩
    · exact .inr ⟨by show A < v'.avail; rw [av]; exact h1, h2⟩
  · cases e1; exact k

theorem popBack_keeps {x A : Nat} {a a' : AVec} {L L' : Ledger} {h h' : Heap X}
    (k : Keeps x A a L) (e : popBack N a h L = some (a', h', L')) : Keeps x A a' L' := by
  unfold popBack at e
  split at e
  · cases e; exact k
  · simp only [Option.bind_eq_some_iff, Option.map_eq_some_iff] at e
    obtain ⟨⟨b, L1⟩, e1, _, _, _, _, e⟩ := e
    cases e
    unfold popStep at e1
    split at e1
    · cases e1; exact k
    · simp only [Option.bind_eq_some_iff, Option.map_eq_some_iff] at e1
      obtain ⟨_, _, ⟨c, L2⟩, e2, e1⟩ := e1
      cases e1
      simp only [moveBlocktoAvailable, Option.bind_eq_some_iff, Option.map_eq_some_iff] at e2
      obtain ⟨⟨g, L3⟩, eg, _, _, e2⟩ := e2
      cases e2
      suffices K : Keeps x A g L3 from K
      unfold growFree at eg
      split at eg
      · rename_i hf
        have av : ∀ v : Vec, v.growFree.avail = v.avail := by
          intro v; unfold Vec.growFree; split
          · split <;> rfl
          · rfl
        split at eg
        · cases eg
          rcases k with ⟨h1, h2⟩ | ⟨h1, h2⟩
          · exact .inl ⟨h1, (av _).trans h2⟩
          · exact .inr ⟨by show A < (Vec.growFree _).avail; rw [av]; exact h1, h2.alloc⟩
        · simp only [Option.map_eq_some_iff] at eg
          obtain ⟨L4, e4, eg⟩ := eg
          cases eg
          rcases k with ⟨h1, h2⟩ | ⟨h1, h2⟩
          · exact .inl ⟨h1, (av _).trans h2⟩
          · exact .inr ⟨by show A < (Vec.growFree _).avail; rw [av]; exact h1, h2.alloc.delete e4⟩
      · cases eg; exact k

end AVec

theorem run_keeps {x A i : Nat} (ops : List (Op X)) : ∀ {w w' : TWorld X} {a : AVec} {obs : List (Obs X)}, TInv w →
    (∀ op, op ∈ ops → op.growShrink i = true) → w.objs i = some a → a.Keeps x A w.arrays →
    runT N w ops = some (w', obs) → ∃ a', w'.objs i = some a' ∧ a'.Keeps x A w'.arrays := by
  induction ops with
  | nil => intro w w' a obs _ _ ha k e; cases e; exact ⟨a, ha, k⟩
  | cons op ops ih =>
    intro w w' a obs I hg ha k e
    simp only [runT, Option.bind_eq_some_iff, Option.map_eq_some_iff] at e
    obtain ⟨⟨w1, o⟩, e1, ⟨w2, os⟩, e2, e⟩ := e
    cases e
    have I1 : TInv w1 := by
      have h1 : runT N w [op] = some (w1, [o]) := by simp [runT, e1]
      exact (run_of_runT [op] I _ h1).2
    have O := I.owns ha
    have hl : ∀ y, a.d = some y → y ∈ w.arrays.live := fun y hy =>
      O.live y (by simp [AVec.T, AVec.owned, hy])
    suffices K : ∃ a1, w1.objs i = some a1 ∧ a1.Keeps x A w1.arrays by
      obtain ⟨a1, h1, k1⟩ := K
      exact ih I1 (fun op h => hg op (List.mem_cons_of_mem _ h)) h1 k1 e2
    have hop := hg op List.mem_cons_self
    cases op <;> simp only [Op.growShrink, beq_iff_eq, reduceCtorEq] at hop <;> subst hop <;>
      simp only [execT, TWorld.on, ha, Option.bind_some, Option.map_eq_some_iff] at e1 <;>
      obtain ⟨⟨a1, h1, L1⟩, e1, e3⟩ := e1 <;> cases e3 <;> refine ⟨a1, by simp [upd], ?_⟩
    · exact AVec.pushBack_keeps O.wf (I.ok _ _ ha) hl k e1
    · exact AVec.popBack_keeps k e1
    · simp only [AVec.shrinkToFit, Option.map_eq_some_iff] at e1
      obtain ⟨_, _, e1⟩ := e1
      cases e1; exact k

/-! ### Kept iterators -/

theorem Held.walk_eq {v : AVec} {h : Heap X} {last : Iter} (n : Nat) : ∀ (it : Iter),
    Held.walk N v h ⟨v.d, last⟩ n ⟨v.d, it⟩ = Iter.collect (Vec.blockSize N) v.v.dataptr h last n it := by
  induction n with
  | zero => intro it; simp [Held.walk, Iter.collect, Held.ne]
  | succ n ih =>
    intro it
    simp only [Held.walk, Iter.collect, Held.ne, Held.deref, Held.incr, Held.slots, ne_eq, not_true_eq_false,
      decide_false, Bool.or_false, if_true]
    split
    · cases it.deref (Vec.blockSize N) h with
      | none => rfl
      | some x =>
        cases it.incr (Vec.blockSize N) v.v.dataptr with
        | none => rfl
        | some q => simp [ih q]
    · rfl

theorem heldAt_eq {h : Heap X} {a : AVec} {xs : List X} {us fs : List Nat} (c : Vec.Core N h a.v xs us fs) {k : Nat}
    (hk : k < xs.length) :
    ∃ it, heldAt N a k = some ⟨a.d, it⟩ ∧ Iter.Denotes (Vec.blockSize N) a.v.dataptr it k := by
  have hlen := c.len
  have hu := c.csize_lt (by omega)
  have ha : a.v.avail ≠ 0 := by have := c.avail_pos hu; omega
  obtain ⟨b, hb, d⟩ := c.begin_denotes (fun e => by rw [e] at hu; simp at hu) ha
  have hex : ∃ it, Iter.Denotes (Vec.blockSize N) a.v.dataptr it k := by
    rw [Iter.denotes_iff, c.arr.len]
    exact Nat.lt_of_lt_of_le (c.div_lt (by omega)) c.arr.le
  obtain ⟨it, di⟩ := hex
  refine ⟨it, ?_, di⟩
  have := d.add (Vec.blockSize_pos N) (m := k) (by rw [Nat.zero_add]; exact di)
  simp [heldAt, hb, Iter.add, this]

/-- What can be said of an iterator to element `k` that is kept over appends and removals behind it. -/
theorem old_iterator (N : Nat) (pre post : List (Op X)) (i k : Nat)
    (aw : AWorld X) (obs : List (Obs X)) (h : idealRun N noObjs pre = some (aw, obs))
    (hc : carefulRun N noObjs pre = true) (a : AObj X) (ha : aw i = some a) (hm : a.moved = false)
    (hp : ∀ op, op ∈ post → op.growShrink i = true) (hk : keeps N i k aw post) (hc2 : carefulRun N aw post = true) :
    ∃ w w' v v' p obs' aw' a', runT N TWorld.empty pre = some (w, obs) ∧ runT N w post = some (w', obs') ∧
      w.objs i = some v ∧ w'.objs i = some v' ∧ heldAt N v k = some p ∧
      idealRun N aw post = some (aw', obs') ∧ aw' i = some a' ∧
      p.deref N w'.heap = a'.elems[k]? ∧
      (a'.reserved = a.reserved → a'.iterable N = true → ∃ e, heldEnd N v' = some e ∧
        Held.walk N v' w'.heap e (a'.elems.length + 1) p = some (a'.elems.drop k)) ∧
      (a'.reserved ≠ a.reserved → (k + 1) % 2 ^ N = 0 → p.incr N v' = none) ∧
      (a'.reserved ≠ a.reserved → ∃ x, p.arr = some x ∧ Gone x w'.arrays) := by
  obtain ⟨w, us, fs, e, W⟩ := runs pre World.empty noObjs _ _ WInv.empty aw obs h hc
  obtain ⟨tw, e1, ew⟩ := arrays_no_double_delete N pre (ideal_namesOk pre (fun _ => rfl) _ h) w obs e
  have I := (run_of_runT pre TInv.empty _ e1).2
  obtain ⟨w', aw', us', fs', os, r1, r2, W', a', ha', hm', hl', he', c, hc', rd⟩ :=
    addr_stable_run post w aw us fs W hk hc2 (fun x hx => by rw [ha] at hx; cases hx; exact hm)
  rw [← ew] at r2
  obtain ⟨tw', e2, ew'⟩ := runT_of_run (used := fun j => (aw j).isSome) post I (fun j hj => by
    have r := W.rep j
    have hn : aw j = none := by simpa using hj
    rw [hn] at r
    have : w.objs j = none := by
      cases ho : w.objs j with
      | none => rfl
      | some v => rw [ho] at r; exact r.elim
    rw [← ew] at this
    simpa [TWorld.erase] using this) (ideal_namesOk post (fun _ => rfl) _ r1) _ r2
  have I' := (run_of_runT post I _ e2).2
  obtain ⟨v0, hv, C, hr, hu⟩ := W.getLive ha hm
  obtain ⟨v0', hv', C', hr', hu'⟩ := W'.getLive ha' hm'
  have hka : k < a.elems.length := by
    have : ∃ b, aw i = some b ∧ k < b.elems.length := by
      cases post with
      | nil => exact hk
      | cons op ops => exact hk.1
    obtain ⟨b, hb, hl⟩ := this
    rw [ha] at hb; cases hb; exact hl
  obtain ⟨b, hb1, hb2, _⟩ := addr_eq W ha hka hm
  obtain ⟨b', hb1', hb2', _⟩ := addr_eq W' ha' hl' hm'
  have hbb : b' = b := by
    rw [he', hb2] at hb2'
    cases hb2'; rfl
  subst hbb
  dsimp only at ew' e2
  rw [← ew] at hv
  rw [← ew'] at hv'
  simp only [TWorld.erase, Option.map_eq_some_iff] at hv hv'
  obtain ⟨v, hv, rfl⟩ := hv
  obtain ⟨v', hv', rfl⟩ := hv'
  have hh : tw'.heap = w'.heap := by rw [← ew']; rfl
  obtain ⟨it, hat, di⟩ := heldAt_eq C hka
  have hB := Vec.blockSize_pos N
  have hsome : ∃ x, v.d = some x := by
    have h1 := (I.ok i v hv).d
    have h2 := (I.ok i v hv).avail
    have : v.v.avail ≠ 0 := by
      have := C.avail_pos (C.csize_lt (by have := C.len; omega)); omega
    cases hd : v.d with
    | some x => exact ⟨x, rfl⟩
    | none =>
      rw [hd] at h1
      exact absurd (h2.2 (by simpa using h1.symm)) this
  obtain ⟨x, hx⟩ := hsome
  obtain ⟨v1, hv1, K⟩ := run_keeps (x := x) (A := v.v.avail) post I hp hv (.inl ⟨hx, rfl⟩) e2
  rw [hv'] at hv1; cases hv1
  have hblk : it.blk = some b' := by
    obtain ⟨q1, q2, q3, q4⟩ := di.eqs
    have := C.arr.entry hb1
    rw [q1] at q4
    cases hd : v.v.dataptr with
    | none => rw [hd] at this; simp at this
    | some l =>
      rw [hd] at this q4
      simp only [derefVec, Option.getD_some] at this q4
      rw [if_pos (Int.natCast_nonneg _), Int.toNat_natCast, this] at q4
      exact (Option.some.inj q4).symm
  refine ⟨tw, tw', v, v', _, os, aw', a', e1, e2, hv, hv', hat, r1, ha', ?_, ?_, ?_, ?_⟩
  · rw [hh, Held.deref, Iter.deref, hblk]
    obtain ⟨q1, q2, q3, q4⟩ := di.eqs
    simp only
    rw [q3, q2, if_pos (by omega), Int.toNat_natCast]
    rw [hb2] at hc'; cases hc'
    rw [rd, List.getElem?_eq_getElem hl']
  · intro hres hit
    have hd : v'.d = v.d := by
      rcases K with ⟨k1, _⟩ | ⟨k1, _⟩
      · rw [k1, hx]
      · rw [hr, hr', hres] at k1; omega
    have hav : v'.v.avail ≠ 0 := by
      have := C'.avail_pos (C'.csize_lt (by have := C'.len; omega)); omega
    have hfit : a'.elems.length < v'.v.avail * Vec.blockSize N := by
      simp only [AObj.iterable, decide_eq_true_eq] at hit
      rw [hr', Vec.blockSize_eq]
      rcases hit with h0 | h0
      · rw [hr'] at hav; exact absurd h0 hav
      · exact h0
    obtain ⟨en, hen, den⟩ := C'.end_denotes hu' hav hfit
    refine ⟨⟨v'.d, en⟩, by simp [heldEnd, hen], ?_⟩
    have dn : Iter.Denotes (Vec.blockSize N) v'.v.dataptr it k := by
      obtain ⟨q1, q2, q3, q4⟩ := di.eqs
      refine .of q1 q2 q3 ?_
      have := C'.arr.entry hb1'
      rw [q1, hblk]
      cases hd : v'.v.dataptr with
      | none => rw [hd] at this; simp at this
      | some l =>
        rw [hd] at this
        simp only [derefVec, Option.getD_some] at this ⊢
        rw [if_pos (Int.natCast_nonneg _), Int.toNat_natCast, this]
    rw [← hd, Held.walk_eq, hh]
    have hlen := C'.len
    refine Iter.Denotes.collect hB _ (a'.elems.drop k) dn ?_ (by rw [List.length_drop]; omega) ?_
    · have : k + (a'.elems.drop k).length = v'.v.csize := by rw [List.length_drop]; omega
      rw [this]; exact den
    · intro j hj
      rw [List.length_drop] at hj
      obtain ⟨bj, hbj, _⟩ := C'.cell_eq (n := k + j) (by omega)
      refine ⟨bj, C'.arr.slotGet hbj, ?_⟩
      rw [Heap.read_eq (C'.live_us hbj) (Nat.mod_lt _ hB), C'.cell_val hbj, List.getElem_drop,
        List.getElem?_eq_getElem (by omega)]
  · intro hres hkB
    rcases K with ⟨_, k2⟩ | ⟨k1, g⟩
    · rw [hr, hr'] at k2; exact absurd k2 hres
    · have hne : v'.d ≠ some x := fun h1 => g.2 ((I'.owns hv').live x (by simp [AVec.T, AVec.owned, h1]))
      have hsl : Held.slots v' ⟨v.d, it⟩ = none := by
        rw [Held.slots, if_neg]
        intro h1
        exact hne (h1.symm.trans hx)
      obtain ⟨q1, q2, q3, q4⟩ := di.eqs
      rw [Held.incr, hsl, Iter.incr, Iter.check, if_pos]
      · simp only [q1, Iter.moveVec, derefVec]; rfl
      · simp only [q2]
        rw [← Vec.blockSize_eq] at hkB
        have h1 := Nat.mod_lt k hB
        have h2 : (k + 1) % Vec.blockSize N = (k % Vec.blockSize N + 1) % Vec.blockSize N := by
          rw [Nat.add_mod, Nat.add_mod (k % _)]; simp
        have h3 : ¬ k % Vec.blockSize N + 1 < Vec.blockSize N := by
          intro h3
          rw [h2, Nat.mod_eq_of_lt h3] at hkB; omega
        omega
  · intro hres
    rcases K with ⟨_, k2⟩ | ⟨_, g⟩
    · rw [hr, hr'] at k2; exact absurd k2 hres
    · exact ⟨x, hx, g⟩

/-! ## C153 -/

/-- C153.  An iterator to element `k` of a StableBlockVector, kept while elements are appended and removed behind it: it
can always be dereferenced and gives the element at position `k`; as long as the appends fit into the reserved entries,
the loop from it to the new `end()` sees the elements from position `k` on.  (If they do not, see
`old_iterator_violation`.) -/
theorem old_iterator_partial (N : Nat) (pre post : List (Op X)) (i k : Nat)
    (aw : AWorld X) (obs : List (Obs X)) (h : idealRun N noObjs pre = some (aw, obs))
    (hc : carefulRun N noObjs pre = true) (a : AObj X) (ha : aw i = some a) (hm : a.moved = false)
    (hp : ∀ op, op ∈ post → op.growShrink i = true) (hk : keeps N i k aw post) (hc2 : carefulRun N aw post = true) :
    ∃ w w' v v' p obs' aw' a', runT N TWorld.empty pre = some (w, obs) ∧ runT N w post = some (w', obs') ∧
      w.objs i = some v ∧ w'.objs i = some v' ∧ heldAt N v k = some p ∧
      idealRun N aw post = some (aw', obs') ∧ aw' i = some a' ∧
      p.deref N w'.heap = a'.elems[k]? ∧
      (a'.reserved = a.reserved → a'.iterable N = true → ∃ e, heldEnd N v' = some e ∧
        Held.walk N v' w'.heap e (a'.elems.length + 1) p = some (a'.elems.drop k)) := by
  obtain ⟨w, w', v, v', p, obs', aw', a', q1, q2, q3, q4, q5, q6, q7, q8, q9, _⟩ :=
    old_iterator N pre post i k aw obs h hc a ha hm hp hk hc2
  exact ⟨w, w', v, v', p, obs', aw', a', q1, q2, q3, q4, q5, q6, q7, q8, q9⟩

/-- An iterator to element 1 is kept over three appends and a removal. -/
example : carefulRun 1 noObjs [.new 0, .push 0 'a', .push 0 'b', .push 0 'c'] = true ∧
    (idealRun 1 noObjs [.new 0, .push 0 'a', .push 0 'b', .push 0 'c', .push 0 'd', .push 0 'e', .pop 0, .push 0 'f']).map
      (fun r => r.1 0) = some (some ⟨['a', 'b', 'c', 'd', 'f'], 64, false⟩) ∧
    (runT 1 TWorld.empty [.new 0, .push 0 'a', .push 0 'b', .push 0 'c']).bind (fun r => (r.1.objs 0).bind fun v =>
      (heldAt 1 v 1).bind fun p => (runT 1 r.1 [.push 0 'd', .push 0 'e', .pop 0, .push 0 'f']).bind fun s =>
      (s.1.objs 0).bind fun v' => (heldEnd 1 v').bind fun e => Held.walk 1 v' s.1.heap e 6 p) =
        some ['b', 'c', 'd', 'f'] := by
  decide

/-- In every state in which all reserved entries are full, one `push_back` deletes the array all older iterators point
into: they can still be dereferenced, but to advance one over the end of its block is undefined. -/
theorem old_iterator_violation (N : Nat) (pre : List (Op X)) (i k : Nat) (x : X)
    (aw : AWorld X) (obs : List (Obs X)) (h : idealRun N noObjs pre = some (aw, obs))
    (hc : carefulRun N noObjs pre = true) (a : AObj X) (ha : aw i = some a) (hm : a.moved = false)
    (hk : k < a.elems.length) (hfull : a.elems.length = a.reserved * 2 ^ N) :
    ∃ w w' v v' p, runT N TWorld.empty pre = some (w, obs) ∧ runT N w [.push i x] = some (w', [.done]) ∧
      w.objs i = some v ∧ w'.objs i = some v' ∧ heldAt N v k = some p ∧
      p.deref N w'.heap = a.elems[k]? ∧
      (∃ y, p.arr = some y ∧ y ∉ w'.arrays.live) ∧
      ((k + 1) % 2 ^ N = 0 → p.incr N v' = none) := by
  have hi : ideal N aw (.push i x) =
      some (upd aw i (some ⟨a.elems ++ [x], reservePush N a.reserved a.elems.length, a.moved⟩), .done) := by
    simp [ideal, ha]
  obtain ⟨w, w', v, v', p, obs', aw', a', q1, q2, q3, q4, q5, q6, q7, q8, _, q9, q10⟩ :=
    old_iterator N pre [.push i x] i k aw obs h hc a ha hm (by simp [Op.growShrink])
      ⟨⟨a, ha, hk⟩, by simp [Op.rebinds], _, hi, ⟨_, by simp [upd]; rfl, by simp; omega⟩⟩
      (by simp [carefulRun, careful, ha, hm, hi])
  simp only [idealRun, hi, Option.bind_some, Option.map_some, Option.some.injEq, Prod.mk.injEq] at q6
  obtain ⟨rfl, rfl⟩ := q6
  simp only [upd, if_true, Option.some.injEq] at q7
  subst q7
  have hres : reservePush N a.reserved a.elems.length ≠ a.reserved := by
    rw [reservePush, if_pos hfull]
    split
    · omega
    · omega
  refine ⟨w, w', v, v', p, q1, q2, q3, q4, q5, ?_, ?_, q9 hres⟩
  · rw [q8]; exact List.getElem?_append_left hk
  · obtain ⟨y, hy, g⟩ := q10 hres
    exact ⟨y, hy, g.2⟩

/-- A vector of 65 blocks of one element, all of them in use: an iterator to element 3 can not be advanced after
`push_back`, though before it could. -/
example :
    carefulRun 0 noObjs [.newSize 0 64 'a', .push 0 'b'] = true ∧
    (idealRun 0 noObjs [.newSize 0 64 'a', .push 0 'b']).map
      (fun r => (r.1 0).map fun a => (a.elems.length, a.reserved, a.moved)) = some (some (65, 65, false)) ∧
    (runT 0 TWorld.empty [.newSize 0 64 'a', .push 0 'b']).bind (fun r => (r.1.objs 0).bind fun v =>
      (heldAt 0 v 3).bind fun p => (runT 0 r.1 [.push 0 'c']).bind fun s => (s.1.objs 0).map fun v' =>
        ((p.incr 0 v).isSome, p.deref 0 s.1.heap, (p.incr 0 v').isSome)) = some (true, some 'a', false) := by
  decide

end Verif.Block.Vector
