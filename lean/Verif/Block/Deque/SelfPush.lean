import Verif.Block.Deque.Props

/-
C156 for StableBlockDeque: additions at both ends with an argument that refers to an element of the same deque.
The argument is a reference; it is read when the new element is constructed, after room for it has been made
(StableBlockDeque.hpp:179-199 and 216-236).
-/
namespace Verif.Block.Deque
open Verif.Block

variable {X : Type} {N : Nat}

/-- What is left in a source cell: nothing changes if it was copied, otherwise the moved-from value. -/
def leaveIn (bs : Nat) (h : Heap X) (c : Nat × Nat) : Option X → Option (Heap X)
  | none => some h
  | some y => h.assign bs c.1 c.2 y

/-- StableBlockDeque.hpp:179-199 with an argument that refers to the cell `c`: `push_back(const X&)` or `emplace_back`
if `left = none`, else `push_back(X&&)`, where the move constructor leaves a value in the source. -/
def Deq.pushBackRef (P : Pol) (N : Nat) (v : Deq) (h : Heap X) (c : Nat × Nat) (left : Option X) : Option (Deq × Heap X) :=
  (Deq.blockCheck P N v h).bind fun r =>
  (r.2.read (blockSize N) c.1 c.2).bind fun x =>
  (constructAt N r.1.dataptr r.1.back r.1.bsize r.2 x).bind fun h =>
  (leaveIn (blockSize N) h c left).map fun h =>
    ({ r.1 with bsize := r.1.bsize + 1, csize := r.1.csize + 1 }, h)

/-- StableBlockDeque.hpp:216-236 with an argument that refers to the cell `c`. -/
def Deq.pushFrontRef (P : Pol) (N : Nat) (v : Deq) (h : Heap X) (c : Nat × Nat) (left : Option X) : Option (Deq × Heap X) :=
  (Deq.blockCheckFront P N v h).bind fun r =>
  (r.2.read (blockSize N) c.1 c.2).bind fun x =>
  (constructAt N r.1.dataptr r.1.front r.1.fsize r.2 x).bind fun h =>
  (leaveIn (blockSize N) h c left).map fun h =>
    ({ r.1 with fsize := r.1.fsize - 1, csize := r.1.csize + 1 }, h)

/-- The old elements afterwards: if element `k` was moved from, `left` is in its place. -/
def leftBehind (xs : List X) (k : Nat) : Option X → List X
  | none => xs
  | some y => xs.set k y

/-! ## C156 -/

/-- C156.  `v.push_back(v[k])`, `v.emplace_back(v[k])` and `v.push_back(std::move(v[k]))` in every state reached by a
program `pre`: the call is defined, and every further program `post` sees what it sees of a sequence with the old value of
element `k` appended (and the moved-from value at `k`). -/
theorem self_push_back_partial (P : Pol) (N : Nat) (pre : List (Op X)) (i k : Nat) (left : Option X)
    (aw : AWorld X) (obs : List (Obs X)) (h : idealRun noObjs pre = some (aw, obs))
    (hc : carefulRun P N World.empty pre = true) (a : List X) (ha : aw i = some a) (hk : k < a.length) :
    ∃ w v c v' hp, run P N World.empty pre = some (w, obs) ∧ w.objs i = some v ∧ v.cell N k = some c ∧
      v.pushBackRef P N w.heap c left = some (v', hp) ∧
      ∀ (post : List (Op X)) (aw' : AWorld X) (obs' : List (Obs X)),
        idealRun (upd aw i (some (leftBehind a k left ++ [a[k]]))) post = some (aw', obs') →
        carefulRun P N ⟨upd w.objs i (some v'), hp⟩ post = true →
        ∃ w', run P N ⟨upd w.objs i (some v'), hp⟩ post = some (w', obs') := by
  obtain ⟨w, us, fs, e, W⟩ := runs P pre World.empty noObjs _ _ WInv.empty aw obs h hc
  obtain ⟨v, hv, r⟩ := W.getSome ha
  rcases r with ⟨F, f1, bz, C⟩ | ⟨_, _, _, h0⟩
  swap
  · subst h0; simp at hk
  obtain ⟨b, hb, hcell⟩ := C.cell_eq hk
  obtain ⟨v1, h1, us1, fs1, F1, bz1, e1, c1, fr1, p1, b1⟩ := C.blockCheck_eq P W.wf
  have hb1 : us1[(f1 + k) / blockSize N]? = some b := by
    obtain ⟨t, ht⟩ := p1
    rw [← ht, List.getElem?_append_left (List.getElem?_eq_some_iff.1 hb).1]; exact hb
  have hread : h1.read (blockSize N) b ((f1 + k) % blockSize N) = some a[k] := by
    rw [c1.cell_val hb1, List.getElem?_eq_getElem hk]
  have hcell1 : v1.cell N k = some (b, (f1 + k) % blockSize N) := by
    obtain ⟨b', hb', hc1⟩ := c1.cell_eq hk
    rw [hb1] at hb'; cases hb'; exact hc1
  have hi : ideal aw (.push i a[k]) = some (upd aw i (some (a ++ [a[k]])), .done) := by simp [ideal, ha]
  have hus : careful P N w (.push i a[k]) = true := by
    obtain ⟨l, hl, _⟩ := C.ptr
    simp [careful, hv, Deq.usable, hl]
  obtain ⟨w1, us2, fs2, e2, W1, _⟩ := step P w aw us fs W _ _ _ hi hus
  simp only [exec, hv, Option.bind_some, Option.map_eq_some_iff] at e2
  obtain ⟨⟨v2, h2⟩, e2, e3⟩ := e2
  cases e3
  rw [Deq.pushBack, e1] at e2
  simp only [Option.bind_some, Option.map_eq_some_iff] at e2
  obtain ⟨h3, hcon, e4⟩ := e2
  cases e4
  have hcell2 : Deq.cell N { v1 with bsize := v1.bsize + 1, csize := v1.csize + 1 } k =
      some (b, (f1 + k) % blockSize N) := hcell1
  have hpush : ∀ hp, leaveIn (blockSize N) h2 (b, (f1 + k) % blockSize N) left = some hp →
      v.pushBackRef P N w.heap (b, (f1 + k) % blockSize N) left =
        some ({ v1 with bsize := v1.bsize + 1, csize := v1.csize + 1 }, hp) := by
    intro hp hl
    simp only [Deq.pushBackRef, e1, Option.bind_some, hread, hcon, hl, Option.map_some]
  cases left with
  | none =>
    refine ⟨w, v, _, _, h2, e, hv, hcell, hpush h2 rfl, ?_⟩
    intro post aw' obs' h' hc'
    obtain ⟨w', us', fs', e5, _⟩ := runs P post _ _ _ _ W1 aw' obs' h' hc'
    exact ⟨w', e5⟩
  | some y =>
    have hi2 : ideal (upd aw i (some (a ++ [a[k]]))) (.set i k y) =
        some (upd aw i (some ((a ++ [a[k]]).set k y)), .done) := by
      have : k < (a ++ [a[k]]).length := by simp; omega
      simp only [ideal, upd_same, Option.bind_some, if_pos this, upd_upd]
    obtain ⟨w2, us3, fs3, e6, W2, _⟩ := step P _ _ _ _ W1 _ _ _ hi2 rfl
    simp only [exec, upd_same, Option.bind_some, Option.map_eq_some_iff] at e6
    obtain ⟨h4, e6, e7⟩ := e6
    cases e7
    rw [Deq.set, hcell2] at e6
    refine ⟨w, v, _, _, h4, e, hv, hcell, hpush h4 e6, ?_⟩
    intro post aw' obs' h' hc'
    rw [List.set_append_left _ _ hk] at W2
    obtain ⟨w', us', fs', e5, _⟩ := runs P post _ _ _ _ W2 aw' obs' h' hc'
    exact ⟨w', e5⟩

/-- C156.  The same at the front, where element `k` has index `k + 1` afterwards.  (The additions at the front that move
the entries of the array of block pointers onto an overlapping range are undefined anyway, C26.) -/
theorem self_push_front_partial (P : Pol) (N : Nat) (pre : List (Op X)) (i k : Nat) (left : Option X)
    (aw : AWorld X) (obs : List (Obs X)) (h : idealRun noObjs pre = some (aw, obs)) (a : List X) (ha : aw i = some a)
    (hk : k < a.length) (hc : carefulRun P N World.empty (pre ++ [.pushFront i a[k]]) = true) :
    ∃ w v c v' hp, run P N World.empty pre = some (w, obs) ∧ w.objs i = some v ∧ v.cell N k = some c ∧
      v.pushFrontRef P N w.heap c left = some (v', hp) ∧
      ∀ (post : List (Op X)) (aw' : AWorld X) (obs' : List (Obs X)),
        idealRun (upd aw i (some (a[k] :: leftBehind a k left))) post = some (aw', obs') →
        carefulRun P N ⟨upd w.objs i (some v'), hp⟩ post = true →
        ∃ w', run P N ⟨upd w.objs i (some v'), hp⟩ post = some (w', obs') := by
  obtain ⟨hc0, hcp⟩ := careful_split pre [.pushFront i a[k]] World.empty hc
  obtain ⟨w, us, fs, e, W⟩ := runs P pre World.empty noObjs _ _ WInv.empty aw obs h hc0
  have hcf := hcp w obs e
  rw [carefulRun, Bool.and_eq_true] at hcf
  have hus := hcf.1
  obtain ⟨v, hv, r⟩ := W.getSome ha
  rcases r with ⟨F, f1, bz, C⟩ | ⟨_, _, _, h0⟩
  swap
  · subst h0; simp at hk
  obtain ⟨b, hb, hcell⟩ := C.cell_eq hk
  have ho := hus
  simp only [careful, hv, Option.all_some, Bool.and_eq_true, Bool.or_eq_true, beq_iff_eq, decide_eq_true_eq,
    Bool.not_eq_true', Deq.overlap, decide_eq_false_iff_not] at ho
  obtain ⟨v1, h1, us1, fs1, F1, f1', pr, e1, c1, fr1, p1, b1⟩ := C.blockCheckFront_eq P W.wf ho.2
  have hB := blockSize_pos N
  have hpos : f1' + 1 + k = (f1 + k) + pr.length * blockSize N := by omega
  have hdiv : (f1' + 1 + k) / blockSize N = pr.length + (f1 + k) / blockSize N := by
    rw [hpos, Nat.add_mul_div_right _ _ hB, Nat.add_comm]
  have hmod : (f1' + 1 + k) % blockSize N = (f1 + k) % blockSize N := by
    rw [hpos, Nat.add_mul_mod_self_right]
  have hb1 : us1[(f1' + 1 + k) / blockSize N]? = some b := by
    rw [p1, hdiv, List.getElem?_append_right (Nat.le_add_right _ _), Nat.add_sub_cancel_left]; exact hb
  have hread : h1.read (blockSize N) b ((f1 + k) % blockSize N) = some a[k] := by
    rw [← hmod, c1.cell_val hb1, List.getElem?_eq_getElem hk]
  have hcell1 : v1.cell N k = some (b, (f1 + k) % blockSize N) := by
    obtain ⟨b', hb', hc1⟩ := c1.cell_eq hk
    rw [hb1] at hb'; cases hb'; rw [← hmod]; exact hc1
  have hi : ideal aw (.pushFront i a[k]) = some (upd aw i (some (a[k] :: a)), .done) := by simp [ideal, ha]
  obtain ⟨w1, us2, fs2, e2, W1, _⟩ := step P w aw us fs W _ _ _ hi hus
  simp only [exec, hv, Option.bind_some, Option.map_eq_some_iff] at e2
  obtain ⟨⟨v2, h2⟩, e2, e3⟩ := e2
  cases e3
  rw [Deq.pushFront, e1] at e2
  simp only [Option.bind_some, Option.map_eq_some_iff] at e2
  obtain ⟨h3, hcon, e4⟩ := e2
  cases e4
  have hcell2 : Deq.cell N { v1 with fsize := v1.fsize - 1, csize := v1.csize + 1 } (k + 1) =
      some (b, (f1 + k) % blockSize N) := by
    rw [← hcell1]
    have : v1.fsize - 1 + ((k + 1 : Nat) : Int) + 1 = v1.fsize + (k : Int) + 1 := by push_cast; omega
    simp only [Deq.cell, this]
  have hpush : ∀ hp, leaveIn (blockSize N) h2 (b, (f1 + k) % blockSize N) left = some hp →
      v.pushFrontRef P N w.heap (b, (f1 + k) % blockSize N) left =
        some ({ v1 with fsize := v1.fsize - 1, csize := v1.csize + 1 }, hp) := by
    intro hp hl
    simp only [Deq.pushFrontRef, e1, Option.bind_some, hread, hcon, hl, Option.map_some]
  cases left with
  | none =>
    refine ⟨w, v, _, _, h2, e, hv, hcell, hpush h2 rfl, ?_⟩
    intro post aw' obs' h' hc'
    obtain ⟨w', us', fs', e5, _⟩ := runs P post _ _ _ _ W1 aw' obs' h' hc'
    exact ⟨w', e5⟩
  | some y =>
    have hi2 : ideal (upd aw i (some (a[k] :: a))) (.set i (k + 1) y) =
        some (upd aw i (some ((a[k] :: a).set (k + 1) y)), .done) := by
      have : k + 1 < (a[k] :: a).length := by simp; omega
      simp only [ideal, upd_same, Option.bind_some, if_pos this, upd_upd]
    obtain ⟨w2, us3, fs3, e6, W2, _⟩ := step P _ _ _ _ W1 _ _ _ hi2 rfl
    simp only [exec, upd_same, Option.bind_some, Option.map_eq_some_iff] at e6
    obtain ⟨h4, e6, e7⟩ := e6
    cases e7
    rw [Deq.set, hcell2] at e6
    refine ⟨w, v, _, _, h4, e, hv, hcell, hpush h4 e6, ?_⟩
    intro post aw' obs' h' hc'
    rw [List.set_cons_succ] at W2
    obtain ⟨w', us', fs', e5, _⟩ := runs P post _ _ _ _ W2 aw' obs' h' hc'
    exact ⟨w', e5⟩

/-- With blocks of two elements: `v.push_front(std::move(v[1]))` needs a new first block, `v.push_back(v[0])` a new last
one. -/
example :
    (idealRun noObjs [Op.new 0, .push 0 'a', .pushFront 0 'b']).map (fun r => r.1 0) = some (some ['b', 'a']) ∧
    carefulRun ⟨false, false⟩ 1 World.empty ([Op.new 0, .push 0 'a', .pushFront 0 'b'] ++ [.pushFront 0 'a']) = true ∧
    (run ⟨false, false⟩ 1 World.empty [Op.new 0, .push 0 'a', .pushFront 0 'b']).bind (fun r => (r.1.objs 0).bind fun v =>
      (v.cell 1 1).bind fun c => (v.pushFrontRef ⟨false, false⟩ 1 r.1.heap c (some '-')).bind fun s =>
      (v.cell 1 0).bind fun c => (s.1.pushBackRef ⟨false, false⟩ 1 s.2 c none).bind fun s =>
        (run ⟨false, false⟩ 1 ⟨upd r.1.objs 0 (some s.1), s.2⟩ [.iterate 0, .get 0 0]).map (·.2)) =
      some [.vals ['a', 'b', '-', 'b'], .val 'a'] := by
  decide

end Verif.Block.Deque
