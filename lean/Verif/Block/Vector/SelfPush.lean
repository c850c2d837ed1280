import Verif.Block.Vector.Props

/-
C155 for StableBlockVector: push_back and emplace_back with an argument that refers to an element of the same vector.
The argument is a reference; it is read when the new element is constructed, after room for it has been made
(StableBlockVector.hpp:135-157).
-/
namespace Verif.Block.Vector
open Verif.Block

variable {X : Type} {N : Nat}

/-- What is left in a source cell: nothing changes if it was copied, otherwise the moved-from value. -/
def leaveIn (bs : Nat) (h : Heap X) (c : Nat × Nat) : Option X → Option (Heap X)
  | none => some h
  | some y => h.assign bs c.1 c.2 y

/-- StableBlockVector.hpp:135-157 with an argument that refers to the cell `c`: `push_back(const X&)` or `emplace_back`
if `left = none`, else `push_back(X&&)`, where the move constructor leaves a value in the source. -/
def Vec.pushBackRef (N : Nat) (v : Vec) (h : Heap X) (c : Nat × Nat) (left : Option X) : Option (Vec × Heap X) :=
  (Vec.blockCheck N v h).bind fun r =>
  (slotGet r.1.dataptr r.1.slotIdx).bind fun b =>
  (r.2.read (Vec.blockSize N) c.1 c.2).bind fun x =>
  (r.2.construct (Vec.blockSize N) b r.1.bsize x).bind fun h =>
  (leaveIn (Vec.blockSize N) h c left).map fun h =>
    ({ r.1 with bsize := r.1.bsize + 1, csize := r.1.csize + 1 }, h)

/-- The sequence afterwards: a copy of element `k` is appended; if it was moved, `left` is in its old place. -/
def selfPushed (xs : List X) (k : Nat) (left : Option X) : List X :=
  (match left with | none => xs | some y => xs.set k y) ++ xs[k]?.toList

/-! ## C155 -/

/-- C155.  `v.push_back(v[k])`, `v.emplace_back(v[k])` and `v.push_back(std::move(v[k]))` in every state reached by a
program `pre`: the call is defined, and every further program `post` sees what it sees of a sequence with the old value of
element `k` appended (and the moved-from value at `k`). -/
theorem self_push (N : Nat) (pre post : List (Op X)) (i k : Nat) (left : Option X)
    (aw : AWorld X) (obs : List (Obs X)) (h : idealRun N noObjs pre = some (aw, obs))
    (hc : carefulRun N noObjs pre = true) (a : AObj X) (ha : aw i = some a) (hm : a.moved = false)
    (hk : k < a.elems.length) (a' : AObj X)
    (ha' : a' = ⟨selfPushed a.elems k left, reservePush N a.reserved a.elems.length, false⟩)
    (aw' : AWorld X) (obs' : List (Obs X)) (h' : idealRun N (upd aw i (some a')) post = some (aw', obs'))
    (hc' : carefulRun N (upd aw i (some a')) post = true) :
    ∃ w v c v' hp w', run N World.empty pre = some (w, obs) ∧ w.objs i = some v ∧ v.cell N k = some c ∧
      v.pushBackRef N w.heap c left = some (v', hp) ∧
      run N ⟨upd w.objs i (some v'), hp⟩ post = some (w', obs') := by
  obtain ⟨w, us, fs, e, W⟩ := runs pre World.empty noObjs _ _ WInv.empty aw obs h hc
  obtain ⟨v, hv, r⟩ := W.getSome ha
  rcases r with ⟨h0, _⟩ | ⟨_, C, _, _⟩
  · rw [hm] at h0; cases h0
  have hkc : k < v.csize := by rw [← C.len]; exact hk
  obtain ⟨b, hb, hcell⟩ := C.cell_eq hkc
  obtain ⟨v1, h1, us1, b1, fs1, e1, c1, f1, p1, _⟩ := C.blockCheck W.wf
  have hb1 : (us1 ++ [b1])[k / Vec.blockSize N]? = some b := by
    obtain ⟨t, ht⟩ := p1
    rw [← ht, List.getElem?_append_left (List.getElem?_eq_some_iff.1 hb).1]; exact hb
  have hB := Vec.blockSize_pos N
  have hread : h1.read (Vec.blockSize N) b (k % Vec.blockSize N) = some a.elems[k] := by
    rw [Heap.read_eq (c1.live_us hb1) (Nat.mod_lt _ hB), c1.cell_val hb1, List.getElem?_eq_getElem hk]
  have hcell1 : Vec.cell N v1 k = some (b, k % Vec.blockSize N) := by
    obtain ⟨b', hb', hc1⟩ := c1.cell_eq (n := k) (by rw [← c1.len]; exact hk)
    rw [hb1] at hb'; cases hb'; exact hc1
  -- the same as a push of the value, then an assignment to the source
  have hi : ideal N aw (.push i a.elems[k]) =
      some (upd aw i (some ⟨a.elems ++ [a.elems[k]], reservePush N a.reserved a.elems.length, a.moved⟩), .done) := by
    simp [ideal, ha]
  obtain ⟨w1, us2, fs2, e2, W1, _⟩ := step w aw us fs W _ _ _ hi (by simp [careful, ha, hm])
  simp only [exec, hv, Option.bind_some, Option.map_eq_some_iff] at e2
  obtain ⟨⟨v2, h2⟩, e2, e3⟩ := e2
  cases e3
  have e2' := e2
  rw [Vec.pushBack, e1] at e2
  simp only [Option.bind_some, Option.bind_eq_some_iff, Option.map_eq_some_iff] at e2
  obtain ⟨sl, hsl, h3, hcon, e4⟩ := e2
  cases e4
  have hcell2 : Vec.cell N { v1 with bsize := v1.bsize + 1, csize := v1.csize + 1 } k = some (b, k % Vec.blockSize N) := hcell1
  have hpush : ∀ hp, leaveIn (Vec.blockSize N) h2 (b, k % Vec.blockSize N) left = some hp →
      v.pushBackRef N w.heap (b, k % Vec.blockSize N) left =
        some ({ v1 with bsize := v1.bsize + 1, csize := v1.csize + 1 }, hp) := by
    intro hp hl
    simp only [Vec.pushBackRef, e1, Option.bind_some, hsl, hread, hcon, hl, Option.map_some]
  cases left with
  | none =>
    have hpr := hpush h2 rfl
    have hA : a' = ⟨a.elems ++ [a.elems[k]], reservePush N a.reserved a.elems.length, a.moved⟩ := by
      rw [ha', hm, selfPushed]; simp [List.getElem?_eq_getElem hk]
    rw [← hA] at W1
    obtain ⟨w', us', fs', e5, _⟩ := runs post _ _ _ _ W1 aw' obs' h' hc'
    exact ⟨w, v, _, _, h2, w', e, hv, hcell, hpr, e5⟩
  | some y =>
    have hi2 : ideal N (upd aw i (some ⟨a.elems ++ [a.elems[k]], reservePush N a.reserved a.elems.length, a.moved⟩))
        (.set i k y) = some (upd aw i (some ⟨(a.elems ++ [a.elems[k]]).set k y,
          reservePush N a.reserved a.elems.length, a.moved⟩), .done) := by
      have : k < (a.elems ++ [a.elems[k]]).length := by simp; omega
      simp only [ideal, upd_same, Option.bind_some, if_pos this, upd_upd]
    obtain ⟨w2, us3, fs3, e6, W2, _⟩ := step _ _ _ _ W1 _ _ _ hi2 (by simp [careful, upd_same, hm])
    simp only [exec, upd_same, Option.bind_some, Option.map_eq_some_iff] at e6
    obtain ⟨h4, e6, e7⟩ := e6
    cases e7
    rw [Vec.set, hcell2] at e6
    have hpr := hpush h4 e6
    have hA : a' = ⟨(a.elems ++ [a.elems[k]]).set k y, reservePush N a.reserved a.elems.length, a.moved⟩ := by
      rw [ha', hm, selfPushed, List.set_append_left _ _ hk]; simp [List.getElem?_eq_getElem hk]
    rw [← hA] at W2
    obtain ⟨w', us', fs', e5, _⟩ := runs post _ _ _ _ W2 aw' obs' h' hc'
    exact ⟨w, v, _, _, h4, w', e, hv, hcell, hpr, e5⟩

/-- With blocks of one element each push needs a new block: `v.push_back(std::move(v[0]))`. -/
example :
    (idealRun 0 noObjs [.new 0, .push 0 'a', .push 0 'b']).map (fun r => r.1 0) = some (some ⟨['a', 'b'], 64, false⟩) ∧
    carefulRun 0 noObjs [.new 0, .push 0 'a', .push 0 'b'] = true ∧
    (run 0 World.empty [.new 0, .push 0 'a', .push 0 'b']).bind (fun r => (r.1.objs 0).bind fun v =>
      (v.cell 0 0).bind fun c => (v.pushBackRef 0 r.1.heap c (some '-')).bind fun s =>
        (run 0 ⟨upd r.1.objs 0 (some s.1), s.2⟩ [.iterate 0, .get 0 2]).map (·.2)) =
      some [.vals ['-', 'b', 'a'], .val 'a'] := by
  decide

end Verif.Block.Vector
