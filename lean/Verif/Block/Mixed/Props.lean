import Verif.Block.Mixed.World
import Verif.Block.Vector.Props
import Verif.Block.Deque.Props

/-
C76 for objects of different types: ranges from a StableBlockVector to a StableBlockDeque and back, and between
containers with different block sizes.
-/
namespace Verif.Block.Mixed
open Verif.Block
variable {X : Type}

/-- C76, C21, C22 for programs with vectors and deques of every block size: what a careful program sees is what it would
see with ideal sequences, and no element is leaked, read dead or destroyed twice (that would be `none`).
Missing: calls that are not `careful`, which are undefined: see `range_full_undefined` of vectors and deques. -/
theorem programs_partial (P : Deque.Pol) (ops : List (Op X)) (aw : AWorld X) (obs : List (Obs X))
    (h : idealRun noObjs ops = some (aw, obs)) (hc : carefulRun P World.empty noObjs ops = true) :
    ∃ w, run P World.empty ops = some (w, obs) := by
  obtain ⟨w, _, _, e, _⟩ := runs P ops World.empty noObjs _ _ MInv.empty aw obs h hc
  exact ⟨w, e⟩

/-- C76: when all objects have been destroyed no block, hence no element, is left. -/
theorem lifecycle_partial (P : Deque.Pol) (ops : List (Op X)) (aw : AWorld X) (obs : List (Obs X))
    (h : idealRun noObjs ops = some (aw, obs)) (hc : carefulRun P World.empty noObjs ops = true)
    (hend : ∀ n, aw.elems n = none) :
    ∃ w, run P World.empty ops = some (w, obs) ∧ ∀ b, w.heap.live b = false := by
  obtain ⟨w, us, fs, e, M⟩ := runs P ops World.empty noObjs _ _ MInv.empty aw obs h hc
  refine ⟨w, e, fun b => ?_⟩
  cases hl : w.heap.live b with
  | false => rfl
  | true =>
    obtain ⟨n, hn⟩ := M.noleak b hl
    cases n with
    | vec N i =>
      have : aw.vecs N i = none := by simpa only [AWorld.elems, Option.map_eq_none_iff] using hend (.vec N i)
      obtain ⟨_, h1, h2⟩ := (M.vecs N).getNone this
      replace h1 : us _ = [] := h1
      replace h2 : fs _ = [] := h2
      rw [h1, h2] at hn; simp at hn
    | deq N i =>
      obtain ⟨_, h1, h2⟩ := (M.deqs N).getNone (hend (.deq N i))
      replace h1 : us _ = [] := h1
      replace h2 : fs _ = [] := h2
      rw [h1, h2] at hn; simp at hn

/-- `obj.size()` -/
def size : Name → Op X
  | .vec N i => .vec N (.size i)
  | .deq N i => .deq N (.size i)

/-- `obj[k]` -/
def get (k : Nat) : Name → Op X
  | .vec N i => .vec N (.get i k)
  | .deq N i => .deq N (.get i k)

/-- a number returned -/
def num (k : Nat) : Name → Obs X
  | .vec _ _ => .vec (.num k)
  | .deq _ _ => .deq (.num k)

/-- an element returned -/
def val (x : X) : Name → Obs X
  | .vec _ _ => .vec (.val x)
  | .deq _ _ => .deq (.val x)

/-- Not a vector that has been moved from. -/
def AWorld.valid (aw : AWorld X) : Name → Prop
  | .vec N i => ∀ a, aw.vecs N i = some a → a.moved = false
  | .deq _ _ => True

theorem put_id {α : Type} (f : Nat → α) (N : Nat) : put f N (f N) = f := by
  funext M; by_cases h : M = N
  · subst h; rw [put_same]
  · rw [put_ne _ _ h]

theorem MInv.reads {w : World X} {aw : AWorld X} {us fs : Name → List Nat} (M : MInv w aw us fs) (P : Deque.Pol) {n : Name}
    {xs : List X} (hn : aw.elems n = some xs) (hv : aw.valid n) : exec P w (size n) = some (w, num xs.length n) ∧
      ∀ k x, xs[k]? = some x → exec P w (get k n) = some (w, val x n) := by
  cases n with
  | vec N i =>
    simp only [AWorld.elems, Option.map_eq_some_iff] at hn
    obtain ⟨a, ha, rfl⟩ := hn
    obtain ⟨g1, g2⟩ := (M.vecs N).getAt ha (hv a ha)
    refine ⟨?_, fun k x hx => ?_⟩
    · simp only [size, exec, g1, Option.map_some, put_id, num]
    · simp only [get, exec, g2 k x hx, Option.map_some, put_id, val]
  | deq N i =>
    obtain ⟨g1, g2⟩ := (M.deqs N).getAt (P := P) hn
    refine ⟨?_, fun k x hx => ?_⟩
    · simp only [size, exec, g1, Option.map_some, put_id, num]
    · simp only [get, exec, g2 k x hx, Option.map_some, put_id, val]

theorem valid_become {aw : AWorld X} {d n : Name} {xs : List X} (h : aw.valid n) : (aw.become d xs).valid n := by
  cases n with
  | deq N i => trivial
  | vec N i =>
    cases d with
    | deq K j => exact h
    | vec K j =>
      intro a ha
      by_cases hK : N = K
      · subst hK
        simp only [AWorld.become, put_same] at ha
        by_cases hj : i = j
        · subst hj
          simp only [Vector.upd_same, Option.map_eq_some_iff] at ha
          obtain ⟨b, hb, rfl⟩ := ha
          exact h b hb
        · rw [Vector.upd_ne _ _ hj] at ha
          exact h a ha
      · simp only [AWorld.become, put_ne _ _ hK] at ha
        exact h a ha

theorem target_valid {w : World X} {aw : AWorld X} {n : Name} (h : target w aw n = true) : aw.valid n := by
  cases n with
  | deq N i => trivial
  | vec N i =>
    intro a ha
    simpa only [target, ha, Option.any_some, Bool.not_eq_true'] using h

theorem source_valid {w : World X} {aw : AWorld X} {n : Name} {hi : Nat} (h : source w aw hi n = true) : aw.valid n := by
  cases n with
  | deq N i => trivial
  | vec N i =>
    intro a ha
    simp only [source, ha, Option.any_some, Bool.and_eq_true, Bool.not_eq_true'] at h
    exact h.1

theorem careful_split {P : Deque.Pol} (a b : List (Op X)) : ∀ (w : World X) (aw : AWorld X), carefulRun P w aw (a ++ b) = true →
    carefulRun P w aw a = true ∧ ∀ w' aw' obs obs', run P w a = some (w', obs) → idealRun aw a = some (aw', obs') →
      carefulRun P w' aw' b = true := by
  induction a with
  | nil =>
    intro w aw h
    refine ⟨rfl, fun w' aw' obs obs' e e' => ?_⟩
    cases e; cases e'
    exact h
  | cons op a ih =>
    intro w aw h
    simp only [List.cons_append, carefulRun, Bool.and_eq_true] at h ⊢
    refine ⟨⟨h.1, ?_⟩, fun w' aw' obs obs' e e' => ?_⟩
    · cases he : exec P w op with
      | none => rfl
      | some r =>
        cases hi : ideal aw op with
        | none => rfl
        | some q =>
          rw [he, hi] at h
          exact (ih r.1 q.1 h.2).1
    · simp only [run, Option.bind_eq_some_iff, Option.map_eq_some_iff] at e
      simp only [idealRun, Option.bind_eq_some_iff, Option.map_eq_some_iff] at e'
      obtain ⟨r, hr, s, hs, e⟩ := e
      obtain ⟨r', hr', s', hs', e'⟩ := e'
      cases e; cases e'
      rw [hr, hr'] at h
      exact (ih r.1 r'.1 h.2).2 s.1 s'.1 _ _ hs hs'

/-- C76, `dst.assign(src.begin() + lo, src.begin() + hi)` for a vector or deque `dst` and another vector or deque `src`, with
equal or different block sizes, after any careful program: `dst` has exactly the elements `lo, ..., hi - 1` of `src`, every other
object, `src` included, is unchanged, and any further careful program behaves as over sequences.
Missing: as for `programs_partial`. -/
theorem range_assign_partial (P : Deque.Pol) (pre post : List (Op X)) (d s : Name) (lo hi : Nat)
    (aw : AWorld X) (obs : List (Obs X)) (h : idealRun noObjs pre = some (aw, obs))
    (hc : carefulRun P World.empty noObjs (pre ++ [.assign d s lo hi]) = true) (hds : d ≠ s)
    (a b : List X) (ha : aw.elems d = some a) (hb : aw.elems s = some b) (hlo : lo ≤ hi) (hhi : hi ≤ b.length) :
    ∃ w w1 aw1, run P World.empty pre = some (w, obs) ∧ exec P w (.assign d s lo hi) = some (w1, .done) ∧
      exec P w1 (size d) = some (w1, num (hi - lo) d) ∧
      (∀ k x, k < hi - lo → b[lo + k]? = some x → exec P w1 (get k d) = some (w1, val x d)) ∧
      (∀ n c, n ≠ d → aw.elems n = some c → aw.valid n → exec P w1 (size n) = some (w1, num c.length n) ∧
        ∀ k x, c[k]? = some x → exec P w1 (get k n) = some (w1, val x n)) ∧
      ideal aw (.assign d s lo hi) = some (aw1, .done) ∧
      ∀ aw2 obs2, idealRun aw1 post = some (aw2, obs2) → carefulRun P w1 aw1 post = true →
        ∃ w2, run P w1 post = some (w2, obs2) := by
  obtain ⟨c1, c2⟩ := careful_split pre _ World.empty noObjs hc
  obtain ⟨w, us, fs, e, M⟩ := runs P pre World.empty noObjs _ _ MInv.empty aw obs h c1
  have c3 := c2 w aw obs obs e h
  rw [carefulRun, Bool.and_eq_true] at c3
  have hid : ideal aw (.assign d s lo hi) = some (aw.become d ((b.take hi).drop lo), .done) := by
    simp only [ideal, ha, hb, Option.bind_some]
    rw [if_pos ⟨hds, hlo, hhi⟩]
  obtain ⟨w1, us1, fs1, e1, M1⟩ := step P M _ hid c3.1
  have hv := c3.1
  simp only [careful, Bool.and_eq_true] at hv
  have g := M1.reads P (elems_become_same ha) (valid_become (target_valid hv.1))
  refine ⟨w, w1, _, e, e1, ?_, fun k x hk hx => g.2 k x ?_, fun n c hn hnc hvc => ?_, hid, fun aw2 obs2 h2 hc2 => ?_⟩
  · rw [g.1]; simp only [List.length_drop, List.length_take, Nat.min_eq_left hhi]
  · rw [List.getElem?_drop, List.getElem?_take_of_lt (by omega)]; exact hx
  · exact M1.reads P (by rw [elems_become hn]; exact hnc) (valid_become hvc)
  · obtain ⟨w2, _, _, e2, _⟩ := runs P post w1 _ us1 fs1 M1 aw2 obs2 h2 hc2
    exact ⟨w2, e2⟩

/-- C76, `dst.move_assign(src.begin() + lo, src.begin() + hi)` likewise, where moving from the elements leaves `left` in them:
`dst` has the old elements `lo, ..., hi - 1` of `src`, `src` keeps its size and its other elements and holds `left` in that
range, and every other object is unchanged.
Missing: as for `programs_partial`. -/
theorem range_move_partial (P : Deque.Pol) (pre post : List (Op X)) (d s : Name) (lo hi : Nat) (left : List X)
    (aw : AWorld X) (obs : List (Obs X)) (h : idealRun noObjs pre = some (aw, obs))
    (hc : carefulRun P World.empty noObjs (pre ++ [.move d s lo hi left]) = true) (hds : d ≠ s)
    (a b : List X) (ha : aw.elems d = some a) (hb : aw.elems s = some b) (hlo : lo ≤ hi) (hhi : hi ≤ b.length)
    (hl : left.length = hi - lo) :
    ∃ w w1 aw1, run P World.empty pre = some (w, obs) ∧ exec P w (.move d s lo hi left) = some (w1, .done) ∧
      exec P w1 (size d) = some (w1, num (hi - lo) d) ∧
      (∀ k x, k < hi - lo → b[lo + k]? = some x → exec P w1 (get k d) = some (w1, val x d)) ∧
      exec P w1 (size s) = some (w1, num b.length s) ∧
      (∀ k x, k < lo ∨ hi ≤ k → b[k]? = some x → exec P w1 (get k s) = some (w1, val x s)) ∧
      (∀ k y, left[k]? = some y → exec P w1 (get (lo + k) s) = some (w1, val y s)) ∧
      (∀ n c, n ≠ d → n ≠ s → aw.elems n = some c → aw.valid n → exec P w1 (size n) = some (w1, num c.length n) ∧
        ∀ k x, c[k]? = some x → exec P w1 (get k n) = some (w1, val x n)) ∧
      ideal aw (.move d s lo hi left) = some (aw1, .done) ∧
      ∀ aw2 obs2, idealRun aw1 post = some (aw2, obs2) → carefulRun P w1 aw1 post = true →
        ∃ w2, run P w1 post = some (w2, obs2) := by
  obtain ⟨c1, c2⟩ := careful_split pre _ World.empty noObjs hc
  obtain ⟨w, us, fs, e, M⟩ := runs P pre World.empty noObjs _ _ MInv.empty aw obs h c1
  have c3 := c2 w aw obs obs e h
  rw [carefulRun, Bool.and_eq_true] at c3
  have hid : ideal aw (.move d s lo hi left) =
      some ((aw.become d ((b.take hi).drop lo)).become s (b.take lo ++ left ++ b.drop hi), .done) := by
    simp only [ideal, ha, hb, Option.bind_some]
    rw [if_pos ⟨hds, hlo, hhi, hl⟩]
  obtain ⟨w1, us1, fs1, e1, M1⟩ := step P M _ hid c3.1
  have hv := c3.1
  simp only [careful, Bool.and_eq_true] at hv
  have g := M1.reads P (n := d) (xs := (b.take hi).drop lo) (by rw [elems_become hds]; exact elems_become_same ha)
    (valid_become (valid_become (target_valid hv.1)))
  have g2 := M1.reads P (n := s) (elems_become_same (ys := b) (by rw [elems_become hds.symm]; exact hb))
    (valid_become (valid_become (source_valid hv.2)))
  have hlt : (b.take lo).length = lo := by rw [List.length_take]; omega
  have hlt2 : (b.take lo ++ left).length = hi := by rw [List.length_append, hlt]; omega
  refine ⟨w, w1, _, e, e1, ?_, fun k x hk hx => g.2 k x ?_, ?_, fun k x hk hx => g2.2 k x ?_,
    fun k y hy => g2.2 _ y ?_, fun n c hnd hns hnc hvc => ?_, hid, fun aw2 obs2 h2 hc2 => ?_⟩
  · rw [g.1]; simp only [List.length_drop, List.length_take, Nat.min_eq_left hhi]
  · rw [List.getElem?_drop, List.getElem?_take_of_lt (by omega)]; exact hx
  · rw [g2.1]
    simp only [List.length_append, List.length_drop, hlt, hl]
    congr 3; omega
  · rcases hk with hk | hk
    · rw [List.append_assoc, List.getElem?_append_left (by omega), List.getElem?_take_of_lt hk]; exact hx
    · rw [List.getElem?_append_right (by omega), hlt2, List.getElem?_drop, show hi + (k - hi) = k by omega]; exact hx
  · have := (List.getElem?_eq_some_iff.1 hy).1
    rw [List.append_assoc, List.getElem?_append_right (by omega), hlt, List.getElem?_append_left (by omega),
      show lo + k - lo = k by omega]
    exact hy
  · exact M1.reads P (by rw [elems_become hns, elems_become hnd]; exact hnc) (valid_become (valid_become hvc))
  · obtain ⟨w2, _, _, e2, _⟩ := runs P post w1 _ us1 fs1 M1 aw2 obs2 h2 hc2
    exact ⟨w2, e2⟩

/-- A program with a vector of block size 2 and one of block size 1, and deques of block sizes 4 and 1. -/
def demo : List (Op Nat) :=
  [.vec 1 (.new 0), .vec 1 (.push 0 1), .vec 1 (.push 0 2), .vec 1 (.push 0 3),
   .deq 2 (.new 0), .deq 2 (.pushFront 0 7), .vec 0 (.new 5), .deq 0 (.new 1),
   .assign (.deq 2 0) (.vec 1 0) 1 3, .deq 2 (.iterate 0), .vec 1 (.iterate 0),
   .deq 2 (.pushFront 0 9), .move (.vec 0 5) (.deq 2 0) 0 2 [50, 60], .vec 0 (.iterate 5), .deq 2 (.iterate 0)]

/-- The end of the program: ranges between different block sizes, and destruction. -/
def demoEnd : List (Op Nat) :=
  [.assign (.vec 1 0) (.vec 0 5) 0 2, .vec 1 (.iterate 0), .move (.deq 0 1) (.deq 2 0) 1 3 [70, 80], .deq 2 (.iterate 0),
   .deq 0 (.get 1 1), .vec 1 (.destroy 0), .deq 2 (.destroy 0), .deq 0 (.destroy 1), .vec 0 (.destroy 5)]

example : (idealRun noObjs demo).map (fun r => r.2.drop 8) =
    some [.done, .deq (.vals [2, 3]), .vec (.vals [1, 2, 3]), .deq .done, .done, .vec (.vals [9, 2]), .deq (.vals [50, 60, 3])] := by
  decide
example : carefulRun Deque.libInt World.empty noObjs (demo ++ demoEnd) = true := by decide +kernel
example : (idealRun noObjs (demo ++ demoEnd)).map (fun r => r.2.drop 15) =
    some [.done, .vec (.vals [9, 2]), .done, .deq (.vals [50, 70, 80]), .deq (.val 3), .vec .done, .deq .done, .deq .done,
      .vec .done] := by decide
/-- The hypotheses of the theorems above are met: after `demo` by both kinds of range calls, and at the end by `hend`. -/
example : (idealRun noObjs demo).map (fun r => (r.1.elems (.vec 1 0), r.1.elems (.deq 2 0), r.1.elems (.deq 0 1))) =
      some (some [1, 2, 3], some [50, 60, 3], some []) ∧
    carefulRun Deque.libInt World.empty noObjs (demo ++ [.assign (.deq 0 1) (.vec 1 0) 0 3]) = true ∧
    carefulRun Deque.libInt World.empty noObjs (demo ++ [.move (.vec 1 0) (.deq 2 0) 0 2 [4, 4]]) = true := by
  decide +kernel
example : ∃ aw obs, idealRun noObjs (demo ++ demoEnd) = some (aw, obs) ∧ ∀ n, aw.elems n = none := by
  refine ⟨_, _, rfl, fun n => ?_⟩
  cases n with
  | vec N i =>
    by_cases h0 : N = 0
    · by_cases h5 : i = 5 <;> simp [AWorld.elems, AWorld.become, put, h0, Vector.upd, h5]
    · by_cases h1 : N = 1
      · by_cases h2 : i = 0 <;> simp [AWorld.elems, AWorld.become, put, h1, Vector.upd, h2]
      · simp [AWorld.elems, AWorld.become, put, h0, h1]
  | deq N i =>
    by_cases h0 : N = 0
    · by_cases h5 : i = 1 <;> simp [AWorld.elems, AWorld.become, put, h0, Deque.upd, h5]
    · by_cases h1 : N = 2
      · by_cases h2 : i = 0 <;> simp [AWorld.elems, AWorld.become, put, h1, Deque.upd, h2]
      · simp [AWorld.elems, AWorld.become, put, h0, h1]

end Verif.Block.Mixed
