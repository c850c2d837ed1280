import Verif.StackBuffer.HeapSpec

/-
C158 for StackBuffer: `std::swap(bi, bj)`, that is `T t(std::move(bi)); bi = std::move(bj); bj = std::move(t);` and the end of
the life of `t`, with the move constructor and move assignment of StackBuffer.hpp:153-165,186-201 and the destructor in StackBuffer.hpp:151.
-/
namespace Verif.StackBuffer

/-- `std::swap(bi, bj)` with the temporary object `t`; each call comes with a flag that says whether `new` would fail. -/
def swapCalls (t i j : Nat) (f1 f2 f3 f4 : Bool) : List (OOp × Bool) :=
  [(.moveNew t i, f1), (.moveAssign i j, f2), (.moveAssign j t, f3), (.destroy t, f4)]

/-- `f` with the values at `i` and `j` exchanged -/
def exchanged {α : Type} (f : Nat → α) (i j : Nat) : Nat → α := fun x => f (if x = i then j else if x = j then i else x)

/-- the other of the two objects `i` and `j`; any other object itself -/
def other (i j x : Nat) : Nat := if x = i then j else if x = j then i else x

/-- a call with its objects renamed by `σ` -/
def OOp.rename (σ : Nat → Nat) : OOp → OOp
  | .new a n => .new (σ a) n
  | .newDefault a => .newDefault (σ a)
  | .copyNew a b => .copyNew (σ a) (σ b)
  | .moveNew a b => .moveNew (σ a) (σ b)
  | .copyAssign a b => .copyAssign (σ a) (σ b)
  | .moveAssign a b => .moveAssign (σ a) (σ b)
  | .swap a b => .swap (σ a) (σ b)
  | .resize a n => .resize (σ a) n
  | .capacity a => .capacity (σ a)
  | .call a op => .call (σ a) op
  | .destroy a => .destroy (σ a)

theorem other_other (i j x : Nat) : other i j (other i j x) = x := by
  unfold other; repeat' split <;> simp_all

theorem other_inj (i j x y : Nat) : other i j x = other i j y ↔ x = y :=
  ⟨fun h => by rw [← other_other i j x, h, other_other], fun h => by rw [h]⟩

theorem upd_exchanged {α : Type} (f : Nat → Option α) (i j x : Nat) (a : Option α) :
    upd (exchanged f i j) x a = exchanged (upd f (other i j x) a) i j := by
  funext y
  show (if y = x then a else f (other i j y)) = if other i j y = other i j x then a else f (other i j y)
  simp only [other_inj]

theorem exec_exchanged (fresh : Int → UInt8) (fails : Bool) (s : Store) (i j : Nat) (op : OOp) :
    Store.exec fresh fails ⟨s.heap, exchanged s.objs i j⟩ op =
      (Store.exec fresh fails s (op.rename (other i j))).map fun r => (r.1, ⟨r.2.heap, exchanged r.2.objs i j⟩) := by
  have hx : ∀ x, exchanged s.objs i j x = s.objs (other i j x) := fun _ => rfl
  cases op with
  | new x n => simp only [Store.exec, OOp.rename, upd_exchanged]; cases fails <;> cases Obj.ofSize fresh s.heap n <;> rfl
  | newDefault x => simp only [Store.exec, OOp.rename, upd_exchanged, Option.map_some]
  | copyNew x y =>
    simp only [Store.exec, OOp.rename, upd_exchanged, hx]
    cases s.objs (other i j y) with
    | none => rfl
    | some b => simp only [Option.bind_some]; cases fails <;> cases Obj.copyCtor fresh s.heap b <;> rfl
  | moveNew x y => simp only [Store.exec, OOp.rename, upd_exchanged, hx]; cases s.objs (other i j y) <;> rfl
  | copyAssign x y =>
    simp only [Store.exec, OOp.rename, upd_exchanged, hx]
    cases s.objs (other i j x) with
    | none => rfl
    | some a =>
      cases s.objs (other i j y) with
      | none => rfl
      | some b =>
        simp only [Option.bind_some]
        cases Obj.copyAssign fresh fails s.heap a b with
        | none => rfl
        | some r => cases r <;> rfl
  | moveAssign x y =>
    simp only [Store.exec, OOp.rename, upd_exchanged, hx, other_inj]
    split
    · cases s.objs (other i j x) with
      | none => rfl
      | some a => simp only [Option.bind_some]; cases Obj.moveSelf s.heap a <;> rfl
    · cases s.objs (other i j x) with
      | none => rfl
      | some a =>
        cases s.objs (other i j y) with
        | none => rfl
        | some b => simp only [Option.bind_some]; cases Obj.moveAssign s.heap a b <;> rfl
  | swap x y =>
    simp only [Store.exec, OOp.rename, upd_exchanged, hx]
    cases s.objs (other i j x) <;> cases s.objs (other i j y) <;> rfl
  | resize x n =>
    simp only [Store.exec, OOp.rename, upd_exchanged, hx]
    cases s.objs (other i j x) with
    | none => rfl
    | some a =>
      simp only [Option.bind_some]
      cases Obj.resize fresh fails s.heap a n with
      | none => rfl
      | some r => cases r <;> rfl
  | capacity x => simp only [Store.exec, OOp.rename, hx]; cases s.objs (other i j x) <;> rfl
  | call x op =>
    simp only [Store.exec, OOp.rename, upd_exchanged, hx]
    cases s.objs (other i j x) with
    | none => rfl
    | some a => simp only [Option.bind_some]; cases Obj.call s.heap a op <;> rfl
  | destroy x =>
    simp only [Store.exec, OOp.rename, upd_exchanged, hx]
    cases s.objs (other i j x) with
    | none => rfl
    | some a => simp only [Option.bind_some]; cases Obj.destroy s.heap a <;> rfl

theorem calls_exchanged (fresh : Nat → Int → UInt8) (ops : List (OOp × Bool)) (s : Store) (i j : Nat) :
    Store.calls fresh ⟨s.heap, exchanged s.objs i j⟩ ops =
      (Store.calls fresh s (ops.map fun c => (c.1.rename (other i j), c.2))).map fun r =>
        (r.1, ⟨r.2.heap, exchanged r.2.objs i j⟩) := by
  induction ops generalizing s with
  | nil => rfl
  | cons c ops ih =>
    obtain ⟨op, fails⟩ := c
    simp only [List.map_cons, Store.calls, exec_exchanged, List.length_map]
    cases h : Store.exec (fresh ops.length) fails s (op.rename (other i j)) with
    | none => rfl
    | some r =>
      obtain ⟨o, s'⟩ := r
      simp only [Option.map_some, Option.bind_some, ih s']
      cases Store.calls fresh s' (ops.map fun c => (c.1.rename (other i j), c.2)) <;> rfl

/-! ## C158 -/

/-- C158.  `std::swap` of any two StackBuffers (also moved-from ones, also of a buffer with itself, and however little memory
there is) exchanges their members and does nothing else: no memory is allocated, freed or written. -/
theorem std_swap_exact (fresh : Nat → Int → UInt8) (s : Store) (t i j : Nat) (f1 f2 f3 f4 : Bool) (a b : Obj)
    (ha : s.objs i = some a) (hb : s.objs j = some b) (ht : s.objs t = none) :
    Store.calls fresh s (swapCalls t i j f1 f2 f3 f4) =
      some ([.done, .done, .done, .done], ⟨s.heap, exchanged s.objs i j⟩) := by
  have hti : t ≠ i := by rintro rfl; rw [ha] at ht; cases ht
  have htj : t ≠ j := by rintro rfl; rw [hb] at ht; cases ht
  have hfree : s.heap.free none = some s.heap := rfl
  by_cases hij : i = j
  · subst hij
    simp only [swapCalls, Store.calls, Store.exec, ha, upd, Obj.moveCtor, Obj.moveAssign, Obj.moveSelf, Obj.destroy, hfree, hti,
      hti.symm, if_true, if_false, Option.map_some, Option.bind_some]
    simp [hfree]
    funext x
    by_cases h1 : x = t
    · subst h1; simp [exchanged, upd, hti, ht]
    · by_cases h2 : x = i
      · subst h2; simp [exchanged, upd, h1, ha]
      · simp [exchanged, upd, h1, h2]
  · have hji : j ≠ i := fun h => hij h.symm
    simp only [swapCalls, Store.calls, Store.exec, ha, hb, upd, Obj.moveCtor, Obj.moveAssign, Obj.destroy, hfree, hti,
      hti.symm, htj, htj.symm, hij, hji, if_true, if_false, Option.map_some, Option.bind_some]
    simp [hfree]
    funext x
    by_cases h1 : x = t
    · subst h1; simp [exchanged, upd, hti, htj, ht]
    · by_cases h2 : x = i
      · subst h2; simp [exchanged, upd, h1, hb, hij]
      · by_cases h3 : x = j
        · subst h3; simp [exchanged, upd, h1, h2, ha]
        · simp [exchanged, upd, h1, h2, h3]

/-- C158.  What a client sees: after `std::swap(bi, bj)` every program sees what it would have seen without the exchange if
it had used `bi` wherever it uses `bj` and `bj` wherever it uses `bi`; it is undefined behaviour exactly if that is. -/
theorem std_swap_seen (fresh : Nat → Int → UInt8) (s : Store) (t i j : Nat) (f1 f2 f3 f4 : Bool) (a b : Obj)
    (ha : s.objs i = some a) (hb : s.objs j = some b) (ht : s.objs t = none) (post : List (OOp × Bool)) :
    ∃ s', Store.calls fresh s (swapCalls t i j f1 f2 f3 f4) = some ([.done, .done, .done, .done], s') ∧
      (Store.calls fresh s' post).map (·.1) =
        (Store.calls fresh s (post.map fun c => (c.1.rename (other i j), c.2))).map (·.1) := by
  refine ⟨_, std_swap_exact fresh s t i j f1 f2 f3 f4 a b ha hb ht, ?_⟩
  rw [calls_exchanged, Option.map_map]
  rfl

/-- Two buffers are exchanged while there is no memory. -/
example :
    (Store.calls (fun _ _ => 0) Store.init [(.new 0 40, false), (.new 1 50, false), (.call 0 (.push [1, 2]), false)]).map
      (fun r => ((r.2.objs 0).isSome, (r.2.objs 1).isSome, (r.2.objs 2).isSome)) = some (true, true, false) ∧
    (Store.calls (fun _ _ => 0) Store.init ([(.new 0 40, false), (.new 1 50, false), (.call 0 (.push [1, 2]), false)] ++
      swapCalls 2 0 1 true true true true ++ [(.capacity 0, true), (.call 1 (.pop 10), true)])).map (fun r => r.1.drop 7) =
      some [.cap 50, .obs (.popped 2 (some [1, 2]))] := by
  decide

/-- C158.  The member function `bi.swap(bj)` (StackBuffer.hpp:302-308) has the same effect, also for a buffer and itself. -/
theorem member_swap_exact (fresh : Nat → Int → UInt8) (s : Store) (i j : Nat) (f : Bool) (a b : Obj)
    (ha : s.objs i = some a) (hb : s.objs j = some b) :
    Store.calls fresh s [(.swap i j, f)] = some ([.done], ⟨s.heap, exchanged s.objs i j⟩) := by
  simp only [Store.calls, Store.exec, ha, hb, Option.map_some, Option.bind_some, Option.some.injEq, Prod.mk.injEq, true_and,
    Store.mk.injEq]
  funext x
  by_cases h2 : x = i
  · subst h2
    by_cases h3 : x = j
    · subst h3; simp [exchanged, upd, ha]
    · simp [exchanged, upd, hb, h3]
  · by_cases h3 : x = j
    · subst h3; simp [exchanged, upd, h2, ha]
    · simp [exchanged, upd, h2, h3]

/-- Two buffers are exchanged by the member function. -/
example :
    (Store.calls (fun _ _ => 0) Store.init [(.new 0 40, false), (.new 1 50, false), (.call 0 (.push [1, 2]), false),
      (.swap 0 1, false), (.capacity 0, true), (.call 1 (.pop 10), true)]).map (fun r => r.1.drop 4) =
      some [.cap 50, .obs (.popped 2 (some [1, 2]))] := by
  decide

end Verif.StackBuffer
