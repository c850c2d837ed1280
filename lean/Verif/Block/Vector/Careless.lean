import Verif.Block.Vector.Moved

/-
C19 - C22: in every reachable state, the calls on vectors that have not been moved from that `careful` excludes are undefined, and no
others are.  Calls on vectors that have been moved from, and on copies of emptied vectors, are described in Moved.lean.
-/
namespace Verif.Block.Vector
open Verif.Block Vec
variable {X : Type} {N : Nat}

/-- The object exists and has not been moved from. -/
def unmoved (aw : AWorld X) (i : Nat) : Prop := ∃ a, aw i = some a ∧ a.moved = false

/-- The calls to which `careful_exact` applies: all calls on vectors that have not been moved from, except copy constructions from
vectors that are empty with reserved memory (`copy_emptied_calls` describes these). -/
def Op.covered (aw : AWorld X) : Op X → Prop
  | .new _ | .newSize _ _ _ | .destroy _ => True
  | .copyNew _ j => ∃ a, aw j = some a ∧ a.moved = false ∧ (a.elems = [] → a.reserved = 0)
  | .moveNew _ j | .moveAssign _ j => unmoved aw j
  | .copyAssign i j | .assignRange i j _ _ | .moveRange i j _ _ _ => unmoved aw i ∧ unmoved aw j
  | .push i _ | .pop i | .assign i _ | .clear i | .shrink i | .set i _ _ | .size i | .empty i | .get i _
  | .at i _ | .front i | .back i | .iterate i => unmoved aw i

theorem Vec.Core.not_iterable {h : Heap X} {v : Vec} {a : AObj X} {us fs : List Nat} (c : Core N h v a.elems us fs)
    (hr : v.avail = a.reserved) (hi : a.iterable N = false) : 0 < a.reserved ∧ a.elems.length = a.reserved * 2 ^ N := by
  simp only [AObj.iterable, decide_eq_false_iff_not, not_or, Nat.not_lt] at hi
  refine ⟨by omega, Nat.le_antisymm ?_ hi.2⟩
  rw [c.len, ← hr, ← blockSize_eq]
  exact Nat.le_trans c.csize_le (Nat.mul_le_mul_right _ c.arr.le)

theorem Vec.Core.begin_end_none {h : Heap X} {v : Vec} {a : AObj X} {us fs : List Nat} (c : Core N h v a.elems us fs)
    (hr : v.avail = a.reserved) (hi : a.iterable N = false) (w : Vec) (h' : Heap X) :
    Vec.iterate N v h = none ∧ assignAll N w v h' = none := by
  obtain ⟨h0, hf⟩ := c.not_iterable hr hi
  obtain ⟨h1, h2⟩ := c.iterate_full (by omega) (by rw [hr, blockSize_eq]; exact hf)
  refine ⟨h1, ?_⟩
  rw [assignAll, h2]
  cases begin? N v <;> rfl

/-- A range that ends at the end of a vector that fills its block slots cannot be formed. -/
theorem Vec.Core.sub_none {h : Heap X} {v : Vec} {a : AObj X} {us fs : List Nat} (c : Core N h v a.elems us fs)
    (hu : us = [] → v.avail = 0) (hr : v.avail = a.reserved) {lo hi : Nat} (h0 : a.reserved ≠ 0)
    (h1 : a.reserved * 2 ^ N ≤ hi) (w : Vec) (h' : Heap X) (left : Nat → Option X) : assignSub N w v h' lo hi left = none := by
  have hB := blockSize_pos N
  obtain ⟨it, hb, d⟩ := c.begin_denotes hu (by omega)
  have : it.add (blockSize N) v.dataptr hi = none :=
    d.add_none hB (by
      rw [c.arr.len, Nat.zero_add, hr, Nat.le_div_iff_mul_le hB, blockSize_eq]; exact h1)
  simp only [Vec.assignSub, hb, this, Option.bind_some]
  cases it.add (blockSize N) v.dataptr lo <;> rfl

/-- C19 - C22, C76: in every reachable state, of the calls that sequences have, those covered are undefined exactly if they are not
careful. -/
theorem careful_exact (N : Nat) (w : World X) (aw : AWorld X) (h : Reached N w aw) (op : Op X) (hk : op.covered aw)
    (hi : (ideal N aw op).isSome = true) : exec N w op = none ↔ careful N aw op = false := by
  obtain ⟨us, fs, W⟩ := h.inv
  constructor
  · intro e
    cases hc : careful N aw op with
    | false => rfl
    | true =>
      obtain ⟨⟨aw', o⟩, hi⟩ := Option.isSome_iff_exists.1 hi
      obtain ⟨w', _, _, e', _⟩ := step w aw us fs W op aw' o hi hc
      rw [e] at e'; cases e'
  · intro hc
    have range : ∀ i j lo hi (left : Nat → Option X) (a b : AObj X), aw i = some a → a.moved = false → aw j = some b → b.moved = false →
        ¬ (b.reserved = 0 ∨ hi < b.reserved * 2 ^ N) →
        ((w.objs i).bind fun u => (w.objs j).bind fun v => (Vec.assignSub N u v w.heap lo hi left).map fun r =>
          ((⟨upd w.objs i (some r.1), r.2⟩ : World X), (Obs.done : Obs X))) = none := by
      intro i j lo hi left a b ha hm hb hmb hn
      obtain ⟨u, hv, -⟩ := W.getLive ha hm
      obtain ⟨v, hv2, c, hr, hu⟩ := W.getLive hb hmb
      rw [not_or, Nat.not_lt] at hn
      rw [hv, hv2, Option.bind_some, Option.bind_some, c.sub_none hu hr hn.1 hn.2]; rfl
    cases op with
    | iterate i =>
      obtain ⟨a, ha, hm⟩ := hk
      obtain ⟨v, hv, c, hr, hu⟩ := W.getLive ha hm
      simp only [careful, ha, Option.any_some, hm, Bool.not_false, Bool.true_and] at hc
      simp only [exec, hv, Option.bind_some, (c.begin_end_none hr hc v w.heap).1]; rfl
    | copyNew i j =>
      obtain ⟨a, ha, hm, he⟩ := hk
      obtain ⟨v, hv, c, hr, hu⟩ := W.getLive ha hm
      have hc' : a.iterable N = false := by
        simp only [careful, ha, Option.any_some, hm, Bool.not_false, Bool.true_and, Bool.and_eq_false_iff, Bool.or_eq_false_iff,
          decide_eq_false_iff_not, not_not] at hc
        exact hc.elim id fun h => absurd (he h.1) h.2
      obtain ⟨h0, -⟩ := c.not_iterable hr hc'
      simp only [exec, hv, Option.bind_some, copyCtor]
      cases hd : v.dataptr with
      | none => have := c.arr.len; rw [hd] at this; simp at this; omega
      | some l =>
        simp only
        rw [(c.begin_end_none hr hc' _ w.heap).2]; rfl
    | copyAssign i j =>
      obtain ⟨⟨a, ha, hm⟩, b, hb, hmb⟩ := hk
      obtain ⟨u, hv, -⟩ := W.getLive ha hm
      obtain ⟨v, hv2, c, hr, hu⟩ := W.getLive hb hmb
      simp only [careful, ha, hb, Option.any_some, hm, hmb, Bool.not_false, Bool.true_and] at hc
      simp only [exec, hv, hv2, Option.bind_some, Vec.copyAssign, (c.begin_end_none hr hc u w.heap).2]; rfl
    | assignRange i j lo hi' =>
      obtain ⟨⟨a, ha, hm⟩, b, hb, hmb⟩ := hk
      simp only [careful, ha, hb, Option.any_some, hm, hmb, Bool.not_false, Bool.true_and, decide_eq_false_iff_not] at hc
      exact range i j lo hi' (fun _ => none) a b ha hm hb hmb hc
    | moveRange i j lo hi' left =>
      obtain ⟨⟨a, ha, hm⟩, b, hb, hmb⟩ := hk
      simp only [careful, ha, hb, Option.any_some, hm, hmb, Bool.not_false, Bool.true_and, decide_eq_false_iff_not] at hc
      exact range i j lo hi' (fun k => left[k]?) a b ha hm hb hmb hc
    | new _ | newSize _ _ _ | destroy _ => simp [careful] at hc
    | moveNew _ j | moveAssign _ j =>
      obtain ⟨a, ha, hm⟩ := hk
      simp [careful, ha, hm] at hc
    | push i _ | pop i | assign i _ | clear i | shrink i | set i _ _ | size i | empty i | get i _ | «at» i _ | front i | back i =>
      obtain ⟨a, ha, hm⟩ := hk
      simp [careful, ha, hm] at hc

/-! ## The hypotheses are met -/

set_option maxRecDepth 20000 in
/-- A vector with blocks of one element that fills its 64 block slots, and one with three elements: iterating over, copying and assigning
from the first are covered and undefined, reading its elements and all of this for the second are covered and defined. -/
example : ∃ (w : World Nat) (aw : AWorld Nat), Reached 0 w aw ∧ unmoved aw 0 ∧ unmoved aw 1 ∧
    exec 0 w (.iterate 0) = none ∧ exec 0 w (.copyNew 2 0) = none ∧ exec 0 w (.copyAssign 1 0) = none ∧
    exec 0 w (.assignRange 1 0 3 64) = none ∧ exec 0 w (.assignRange 1 0 3 63) ≠ none ∧ exec 0 w (.back 0) ≠ none ∧
    exec 0 w (.iterate 1) ≠ none ∧ exec 0 w (.copyNew 2 1) ≠ none ∧ exec 0 w (.copyAssign 0 1) ≠ none := by
  have e : idealRun 0 noObjs [Op.new 0, .assign 0 (List.range 64), .new 1, .assign 1 [1, 2, 3]] =
      some (upd (upd (upd (upd noObjs 0 (some ⟨[], 0, false⟩)) 0 (some ⟨List.range 64, 64, false⟩)) 1 (some ⟨[], 0, false⟩)) 1
        (some ⟨[1, 2, 3], 64, false⟩), [.done, .done, .done, .done]) := by
    rfl
  obtain ⟨w, -, r⟩ := after_failures_partial 0 _ _ .start [Op.new 0, .assign 0 (List.range 64), .new 1, .assign 1 [1, 2, 3]] _ _ e (by decide)
  generalize hq : upd (upd (upd (upd noObjs 0 (some ⟨[], 0, false⟩)) 0 (some ⟨List.range 64, 64, false⟩)) 1 (some ⟨[], 0, false⟩)) 1
        (some ⟨[1, 2, 3], 64, false⟩) = aw at r
  have h0 : aw 0 = some ⟨List.range 64, 64, false⟩ := by rw [← hq]; rfl
  have h1 : aw 1 = some ⟨[1, 2, 3], 64, false⟩ := by rw [← hq]; rfl
  have h2 : aw 2 = none := by rw [← hq]; rfl
  have u0 : unmoved aw 0 := ⟨_, h0, rfl⟩
  have u1 : unmoved aw 1 := ⟨_, h1, rfl⟩
  have K := fun op hk hi => careful_exact 0 w aw r op hk hi
  refine ⟨w, aw, r, u0, u1, ?_, ?_, ?_, ?_, ?_, ?_, ?_, ?_, ?_⟩
  · exact (K (.iterate 0) u0 (by simp [ideal, h0])).2 (by simp [careful, h0, AObj.iterable])
  · exact (K (.copyNew 2 0) ⟨_, h0, rfl, by simp⟩ (by simp [ideal, h0, h2])).2 (by simp [careful, h0, AObj.iterable])
  · exact (K (.copyAssign 1 0) ⟨u1, u0⟩ (by simp [ideal, h0, h1])).2 (by simp [careful, h0, h1, AObj.iterable])
  · exact (K (.assignRange 1 0 3 64) ⟨u1, u0⟩ (by simp [ideal, h0, h1])).2 (by simp [careful, h0, h1])
  · exact fun e => absurd ((K (.assignRange 1 0 3 63) ⟨u1, u0⟩ (by simp [ideal, h0, h1])).1 e) (by simp [careful, h0, h1])
  · exact fun e => absurd ((K (.back 0) u0 (by simp [ideal, h0])).1 e) (by simp [careful, h0])
  · exact fun e => absurd ((K (.iterate 1) u1 (by simp [ideal, h1])).1 e) (by simp [careful, h1, AObj.iterable])
  · exact fun e => absurd ((K (.copyNew 2 1) ⟨_, h1, rfl, by simp⟩ (by simp [ideal, h1, h2])).1 e) (by simp [careful, h1, AObj.iterable])
  · exact fun e => absurd ((K (.copyAssign 0 1) ⟨u0, u1⟩ (by simp [ideal, h0, h1])).1 e) (by simp [careful, h0, h1, AObj.iterable])

end Verif.Block.Vector
