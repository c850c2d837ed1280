import Verif.StackBuffer.HeapSteps

/-
C111: the memory of StackBuffer objects.
-/
namespace Verif.StackBuffer

/-- C111 (partial): any number of StackBuffer objects that are constructed, copied, moved (also to themselves), assigned, swapped,
resized, used and destroyed in any order, with any call that needs memory failing for lack of it: there is no undefined behaviour
(in particular no block is deleted twice or used after it was deleted), and each object behaves as a stack with a capacity of its
own; a constructor or a resize that gets no memory throws and changes nothing.
Missing: copy assignments that get no memory, for which it is false (`copy_assign_violation`), and what `OOp.careful` leaves out. -/
theorem memory_session_partial (fresh : Nat → Int → UInt8) (ops : List (OOp × Bool)) :
    ∃ os s q, Store.init.run fresh ops = some (os, s) ∧ MSession (fun _ => none) ops os q := by
  obtain ⟨os, s, v, q, h1, h2, _, _⟩ := (Holds.init (c := False)).run WRep.init fresh ops (fun h => h.elim)
  exact ⟨os, s, q, h1, h2⟩

/-- C111: no two objects share memory, and the memory of an object is allocated. -/
theorem memory_owned (fresh : Nat → Int → UInt8) (ops : List (OOp × Bool)) (os : List OObs) (s : Store)
    (hrun : Store.init.run fresh ops = some (os, s)) (i : Nat) (o : Obj) (hi : s.objs i = some o) (p : Nat) (hp : o.data = some p) :
    (s.heap.blk p).isSome ∧ ∀ j o', s.objs j = some o' → o'.data = some p → j = i := by
  obtain ⟨os', s', v, q, h1, h2, h3, _⟩ := (Holds.init (c := False)).run WRep.init fresh ops (fun h => h.elim)
  rw [h1] at hrun
  cases hrun
  obtain ⟨b, _, kb⟩ := h3.get hi
  exact ⟨kb.live p hp, fun j o' hj hp' => h3.inj j i o' o p hj hi hp' hp⟩

/-- C111 (partial): no memory is leaked: in every session every allocated block is one that the destructor of some object will
delete, so nothing is left when the last object is destroyed.  Missing: sessions that construct a buffer of size 0
(`leak_violation`). -/
theorem no_leak_partial (fresh : Nat → Int → UInt8) (ops : List (OOp × Bool)) (hz : ∀ i f, (OOp.new i 0, f) ∉ ops) (os : List OObs)
    (s : Store) (hrun : Store.init.run fresh ops = some (os, s)) :
    (∀ p, (s.heap.blk p).isSome → ∃ i o, s.objs i = some o ∧ o.data = some p) ∧
    ((∀ i, s.objs i = none) → ∀ p, s.heap.blk p = none) := by
  obtain ⟨os', s', v, q, h1, h2, h3, _⟩ := (Holds.init (c := True)).run WRep.init fresh ops (fun _ => hz)
  rw [h1] at hrun
  cases hrun
  refine ⟨(h3.tight trivial).2, fun hn p => ?_⟩
  cases hb : s.heap.blk p with
  | none => rfl
  | some m =>
    obtain ⟨i, o, hi, _⟩ := (h3.tight trivial).2 p (by rw [hb]; rfl)
    rw [hn i] at hi; cases hi

/-- an execution with failures, a self move and all kinds of transfers of memory; all memory is given back -/
def sampleOps : List (OOp × Bool) :=
  [(.new 0 40, false), (.call 0 (.push [1, 2, 3]), false), (.new 1 50, true), (.copyNew 1 0, false), (.copyNew 2 0, true),
   (.resize 0 90, true), (.call 0 (.pop 9), false), (.resize 0 90, false), (.newDefault 2, false), (.copyAssign 2 1, false),
   (.moveAssign 1 0, false), (.swap 1 2, false), (.call 1 (.pop 9), false), (.moveAssign 1 1, false), (.capacity 1, false),
   (.resize 1 200, true), (.resize 1 200, false), (.moveNew 3 1, false), (.destroy 0, false), (.destroy 1, false),
   (.destroy 2, false), (.destroy 3, false)]

example : (Store.init.run (fun _ _ => 0) sampleOps).map (·.1) =
    some [.done, .obs (.pushed true), .threw, .done, .threw, .threw, .obs (.popped 3 (some [1, 2, 3])), .returned true, .done, .done,
      .done, .done, .obs (.popped 3 (some [1, 2, 3])), .done, .cap 0, .threw, .returned true, .done, .done, .done, .done, .done] := by
  decide

example : (∀ i f, (OOp.new i 0, f) ∉ sampleOps) ∧
    (∃ os s, Store.init.run (fun _ _ => 0) sampleOps = some (os, s) ∧ s.heap.next = 5 ∧ s.objs 0 = none) ∧
    ∃ os s o p, Store.init.run (fun _ _ => 0) (sampleOps.take 12) = some (os, s) ∧ s.objs 1 = some o ∧ o.data = some p :=
  ⟨(fun i f h => by simp [sampleOps] at h), ⟨_, _, rfl, rfl, rfl⟩, _, _, _, _, rfl, rfl, rfl⟩

/-- Violation of C111: a buffer constructed with size 0 owns a block of size 0, which is not deleted when it is resized. -/
theorem leak_violation : ∃ os s p, Store.init.calls (fun _ _ => 0) [(.new 0 0, false), (.resize 0 10, false), (.destroy 0, false)] = some (os, s) ∧
    os = [.done, .returned true, .done] ∧ s.objs 0 = none ∧ (s.heap.blk p).isSome :=
  ⟨_, _, 0, rfl, rfl, rfl, rfl⟩

/-- C111: a resize that throws changes nothing, for whatever reason it throws. -/
theorem resize_throws_unchanged (fresh : Int → UInt8) (fails : Bool) (s s' : Store) (i : Nat) (n : Int)
    (h : s.exec fresh fails (.resize i n) = some (.threw, s')) : s' = s := by
  simp only [Store.exec, Option.bind_eq_some_iff, Option.map_eq_some_iff] at h
  obtain ⟨o, ho, r, hr, e⟩ := h
  cases r with
  | ok ret r => cases e
  | thrown r =>
    have hr' : r = (s.heap, o) := by
      simp only [Obj.resize] at hr
      split at hr
      · cases hr
      split at hr
      · cases hr
      split at hr
      · split at hr
        · cases hr; rfl
        · simp only [Option.bind_eq_some_iff] at hr; obtain ⟨_, _, hr⟩ := hr; cases hr
      split at hr
      · split at hr
        · cases hr; rfl
        · simp only [Option.bind_eq_some_iff] at hr; obtain ⟨_, _, _, _, hr⟩ := hr; cases hr
      split at hr
      · cases hr; rfl
      · simp only [Option.bind_eq_some_iff] at hr; obtain ⟨_, _, hr⟩ := hr; cases hr
    subst hr'
    simp only [Prod.mk.injEq] at e
    rw [← e.2, upd_self ho]

example : ∃ s s1 s2, Store.init.calls (fun _ _ => 0) [(.new 0 40, false), (.call 0 (.push [1, 2, 3]), false)] = some ([.done, .obs (.pushed true)], s) ∧
    s.exec (fun _ => 0) true (.resize 0 50) = some (.threw, s1) ∧ s.exec (fun _ => 0) false (.resize 0 10) = some (.threw, s2) :=
  ⟨_, _, _, rfl, rfl, rfl⟩

/-- Violation of C111, whenever it can happen: a copy assignment that gets no memory throws and leaves the target using the memory
of the source: every call on the target answers as the same call on the source would and changes the source's memory in the same
way. -/
theorem copy_assign_fails (fresh : Nat → Int → UInt8) (ops : List (OOp × Bool)) (os : List OObs) (s : Store)
    (hrun : Store.init.run fresh ops = some (os, s)) (i j : Nat) (a b : Obj) (hi : s.objs i = some a)
    (hj : s.objs j = some b) (hc : b.cap > a.actualCapacity) (f : Int → UInt8) :
    ∃ a', s.exec f true (.copyAssign i j) = some (.threw, ⟨s.heap, upd s.objs i (some a')⟩) ∧
      a'.data = a.data ∧ a'.origin = b.data ∧
      ∀ op r h1 b1, b.call s.heap op = some (r, h1, b1) → ∃ a1, a'.call s.heap op = some (r, h1, a1) := by
  obtain ⟨os', s', v, q, h1, h2, h3, h4⟩ := (Holds.init (c := False)).run WRep.init fresh ops (fun h => h.elim)
  rw [h1] at hrun
  cases hrun
  obtain ⟨x, hx, kx⟩ := h3.get hi
  obtain ⟨y, hy, ky⟩ := h3.get hj
  obtain ⟨_, _, ox⟩ := h4.get hx
  obtain ⟨_, _, oy⟩ := h4.get hy
  have e1 := ox.stated; have e2 := ox.capA; have e3 := oy.stated; have e4 := ox.cap0
  rw [kx.fields.2.1, kx.fields.2.2.2.2.2.1] at e1
  rw [kx.fields.2.2.1, kx.fields.2.2.2.2.2.1] at e2
  rw [ky.fields.2.1, ky.fields.2.2.2.2.2.1] at e3
  rw [kx.fields.2.2.2.2.2.1] at e4
  have hown : y.own = true := by
    rcases oy.own with h | h
    · exact h
    · rw [ky.fields.2.2.2.2.2.1] at h; omega
  refine ⟨{ a with origin := b.origin, next := b.next, ni := b.ni, cap := b.cap, count := b.count }, ?_, rfl, ky.own hown, ?_⟩
  · have : ({ a with origin := b.origin, next := b.next, ni := b.ni, cap := b.cap, count := b.count } : Obj).allocates b.statedSize = true := by
      simp only [Obj.allocates, decide_eq_true_eq]; omega
    simp only [Store.exec, hi, hj, Option.bind_some, Obj.copyAssign, this, Bool.and_self, if_true, Option.map_some]
  · intro op r h1 b1 e
    simp only [Obj.call, Option.map_eq_some_iff] at e ⊢
    obtain ⟨⟨r', raw⟩, e5, e6⟩ := e
    simp only [Prod.mk.injEq] at e6
    obtain ⟨rfl, rfl, _⟩ := e6
    exact ⟨_, (r', raw), e5, rfl⟩

example : ∃ os s a b, Store.init.run (fun _ _ => 0) [(.new 0 16, false), (.new 1 64, false), (.call 1 (.push [7]), false)] = some (os, s) ∧
    s.objs 0 = some a ∧ s.objs 1 = some b ∧ b.cap > a.actualCapacity :=
  ⟨_, _, _, _, rfl, rfl, rfl, by decide⟩

/-- Violation of C111: the failed copy assignment `a = b` leaves `a` claiming the message of `b`; a message pushed to `a` is
overwritten by one pushed to `b`; and once `b` is destroyed, the next pop of `a` reads deleted memory. -/
theorem copy_assign_violation :
    (Store.init.calls (fun _ _ => 0)
      [(.new 0 16, false), (.new 1 64, false), (.call 1 (.push [7]), false), (.copyAssign 0 1, true), (.call 0 .count, false),
       (.call 0 (.push [1, 2, 3]), false), (.call 1 (.push [4, 5, 6]), false), (.call 0 (.pop 9), false)]).map (·.1) =
      some [.done, .done, .obs (.pushed true), .threw, .obs (.num 1), .obs (.pushed true), .obs (.pushed true),
        .obs (.popped 3 (some [4, 5, 6]))] ∧
    Store.init.calls (fun _ _ => 0)
      [(.new 0 16, false), (.new 1 64, false), (.call 1 (.push [7]), false), (.copyAssign 0 1, true), (.destroy 1, false),
       (.call 0 (.pop 9), false)] = none := by
  decide

end Verif.StackBuffer
