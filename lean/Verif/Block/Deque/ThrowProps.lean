import Verif.Block.Deque.Throw
import Verif.Block.Deque.Props

/-
C83, C84, C85: exceptions inside insertions and assignments of a StableBlockDeque.
-/
namespace Verif.Block.Deque
open Verif.Block
variable {X : Type}

/-- `emplace_front(x)` or `emplace_back(x)` -/
def pushOp (front : Bool) (i : Nat) (x : X) : Op X := if front then .pushFront i x else .push i x

/-- Object `i` owns memory: something has been inserted into it since it was constructed or moved from. -/
def hasMemory (w : World X) (i : Nat) : Prop := ∃ v, w.objs i = some v ∧ v.dataptr.isSome = true

/-- States a program can reach if memory may run out in any insertion, at either end, into a deque that already owns
memory, and assigning to an existing element may throw inside `assign`; `aw` is what the deques should contain.  All other
calls are careful ones.  A failed insertion changes nothing that can be seen; a failed assignment leaves the new values
before the element it failed at, the old values after it, and any value in that element. -/
inductive Reached (P : Pol) (N : Nat) : World X → AWorld X → Prop where
  | start : Reached P N World.empty noObjs
  | call {w w' aw aw' op o} (h : Reached P N w aw) (hc : careful P N w op = true) (hi : ideal aw op = some (aw', o))
      (he : exec P N w op = some (w', o)) : Reached P N w' aw'
  | noMemory {w w' aw front i x f} (h : Reached P N w aw) (hm : hasMemory w i)
      (hc : careful P N w (pushOp front i x) = true) (hf : f = .array ∨ f = .block)
      (he : execFault P N w front i x f = some (w', .threw)) : Reached P N w' aw
  | assignThrew {w w' aw i a k ys junk} (h : Reached P N w aw) (ha : aw i = some a) (hk : k < a.length) (hy : k < ys.length)
      (hc : careful P N w (.iterate i) = true) (he : execAssignThrow N w i k ys junk = some (w', .threw)) :
      Reached P N w' (upd aw i (some (ys.take k ++ junk :: a.drop (k + 1))))

theorem updL_id (g : Nat → List Nat) (i : Nat) : updL g i (g i) = g := by
  funext k; simp only [updL]; split
  · rename_i e; rw [e]
  · rfl

theorem careful_overlap {P : Pol} {N : Nat} {w : World X} {i : Nat} {x : X} {v : Deq} (hv : w.objs i = some v)
    (hc : careful P N w (.pushFront i x) = true) : P.memmove = true ∨ ¬ Core.Overlap v := by
  simp only [careful, hv, Option.all_some, Bool.and_eq_true, Bool.or_eq_true, Bool.not_eq_true', Deq.overlap,
    decide_eq_false_iff_not] at hc
  exact hc.2

theorem WInvR.noMemory {P : Pol} {N : Nat} {w : World X} {aw us fs} (W : WInv N w aw us fs) {front : Bool} {i : Nat} {x : X}
    {f : Fault} (hm : hasMemory w i) (hc : careful P N w (pushOp front i x) = true) (hf : f = .array ∨ f = .block) :
    (∃ w', execFault P N w front i x f = some (w', .threw) ∧ WInv N w' aw us fs ∧ (∀ j, j ≠ i → w'.objs j = w.objs j) ∧
        ∀ a, aw i = some a → ∀ k, k < a.length → w'.addr N i k = w.addr N i k) ∨
      (∃ w', execFault P N w front i x f = some (w', .done) ∧ exec P N w (pushOp front i x) = some (w', .done)) := by
  obtain ⟨v, hv, hd⟩ := hm
  obtain ⟨a, ha⟩ : ∃ a, aw i = some a := by
    cases ha : aw i with
    | some a => exact ⟨a, rfl⟩
    | none => rw [(W.getNone ha).1] at hv; cases hv
  obtain ⟨v0, hv0, r⟩ := W.getSome ha
  rw [hv] at hv0; cases hv0
  obtain ⟨F, f1, bz, c⟩ : ∃ F f1 bz, Core N w.heap v a (us i) (fs i) F f1 bz := by
    rcases r with h | ⟨nl, _⟩
    · exact h
    · rw [nl.ptr] at hd; cases hd
  have key : (∃ v' F', (if front then v.pushFrontFault P N w.heap x f else v.pushBackFault P N w.heap x f) =
        some (true, v', w.heap) ∧ Core N w.heap v' a (us i) (fs i) F' f1 bz) ∨
      (if front then v.pushFrontFault P N w.heap x f else v.pushBackFault P N w.heap x f) =
        (if front then v.pushFront P N w.heap x else v.pushBack P N w.heap x).map fun r => (false, r) := by
    cases front with
    | false => exact c.pushBackNoMem P x hf
    | true => exact c.pushFrontNoMem P (careful_overlap hv hc) x hf
  rcases key with ⟨v', F', e, c'⟩ | e
  · refine .inl ⟨⟨upd w.objs i (some v'), w.heap⟩, ?_, ?_, fun j hj => upd_ne _ _ hj, ?_⟩
    · simp only [execFault, hv, Option.bind_some, e, Option.map_some]; rfl
    · have := W.update i (o := some v') (oa := some a) (Heap.Frame.refl W.wf) (.inl ⟨F', f1, bz, c'⟩)
      rwa [updL_id, updL_id, upd_id ha] at this
    · intro a' ha' k hk
      rw [ha] at ha'; cases ha'
      simp only [World.addr, upd_same, Option.bind_some, hv]
      exact cell_prefix c c' (.inl (List.prefix_refl _)) hk hk
  · right
    have ok : ∃ v' h', (if front then v.pushFront P N w.heap x else v.pushBack P N w.heap x) = some (v', h') := by
      cases front with
      | false =>
        obtain ⟨v', h', _, _, _, _, e', _⟩ := c.pushBack_eq P W.wf x
        exact ⟨v', h', e'⟩
      | true =>
        obtain ⟨v', h', _, _, _, _, _, e', _⟩ := c.pushFront_eq P W.wf (careful_overlap hv hc) x
        exact ⟨v', h', e'⟩
    obtain ⟨v', h', e'⟩ := ok
    refine ⟨⟨upd w.objs i (some v'), h'⟩, ?_, ?_⟩
    · simp only [execFault, hv, Option.bind_some, e, e', Option.map_some]; rfl
    · cases front <;> simp only [pushOp, if_true, Bool.false_eq_true, if_false, exec, hv, Option.bind_some] at e' ⊢ <;>
        rw [e'] <;> rfl

theorem WInvR.assignThrew {P : Pol} {N : Nat} {w : World X} {aw us fs} (W : WInv N w aw us fs) {i k : Nat} {a ys : List X}
    (junk : X) (ha : aw i = some a) (hk : k < a.length) (hy : k < ys.length) (hc : careful P N w (.iterate i) = true) :
    ∃ w', execAssignThrow N w i k ys junk = some (w', .threw) ∧
      WInv N w' (upd aw i (some (ys.take k ++ junk :: a.drop (k + 1)))) us fs ∧ w'.objs = w.objs := by
  obtain ⟨v, hv, r⟩ := W.getSome ha
  obtain ⟨F, f1, bz, c⟩ : ∃ F f1 bz, Core N w.heap v a (us i) (fs i) F f1 bz := by
    rcases r with h | ⟨_, _, _, rfl⟩
    · exact h
    · simp at hk
  simp only [careful, hv, Option.all_some] at hc
  obtain ⟨h', e, c', f⟩ := c.assignThrow W.wf (iterable_iff.1 hc) junk hy hk
  refine ⟨⟨w.objs, h'⟩, ?_, ?_, rfl⟩
  · simp only [execAssignThrow, hv, Option.bind_some, e, Option.map_some]
  · have := W.update i (o := some v) (oa := some (ys.take k ++ junk :: a.drop (k + 1))) f (.inl ⟨F, f1, bz, c'⟩)
    rwa [updL_id, updL_id, upd_id hv] at this

theorem Reached.inv {P : Pol} {N : Nat} {w : World X} {aw : AWorld X} (h : Reached P N w aw) :
    ∃ us fs, WInv N w aw us fs := by
  induction h with
  | start => exact ⟨_, _, WInv.empty⟩
  | call _ hc hi he ih =>
    obtain ⟨us, fs, W⟩ := ih
    obtain ⟨w', us', fs', e, W', _⟩ := step P _ _ us fs W _ _ _ hi hc
    rw [he] at e; cases e
    exact ⟨us', fs', W'⟩
  | noMemory _ hm hc hf he ih =>
    obtain ⟨us, fs, W⟩ := ih
    rcases W.noMemory hm hc hf with ⟨w', e, W', _⟩ | ⟨w', e, _⟩
    · rw [he] at e; cases e
      exact ⟨us, fs, W'⟩
    · rw [he] at e; cases e
  | assignThrew _ ha hk hy hc he ih =>
    obtain ⟨us, fs, W⟩ := ih
    obtain ⟨w', e, W', _⟩ := W.assignThrew _ ha hk hy hc
    rw [he] at e; cases e
    exact ⟨us, fs, W'⟩

/-! ## C83: insertions for which there is no memory -/

/-- C83, first half: an insertion at either end during which an allocation fails either did not need that allocation and
is an ordinary one, or throws and leaves a state in which every deque has the elements it had, at the addresses they had.
Missing from the full claim: deques without memory, see `no_memory_new_violation`, and the insertions at the front that
`careful` excludes (`pushFront_overlap_violation`). -/
theorem no_memory_partial (P : Pol) (N : Nat) (w : World X) (aw : AWorld X) (h : Reached P N w aw) (front : Bool) (i : Nat)
    (x : X) (hm : hasMemory w i) (hc : careful P N w (pushOp front i x) = true) (f : Fault) (hf : f = .array ∨ f = .block) :
    (∃ w', execFault P N w front i x f = some (w', .done) ∧ exec P N w (pushOp front i x) = some (w', .done)) ∨
    (∃ w', execFault P N w front i x f = some (w', .threw) ∧ Reached P N w' aw ∧
      (∀ j, j ≠ i → w'.objs j = w.objs j) ∧
      ∀ a, aw i = some a → ∀ k, k < a.length → w'.addr N i k = w.addr N i k) := by
  obtain ⟨us, fs, W⟩ := h.inv
  rcases W.noMemory hm hc hf with ⟨w', e, W', h1, h2⟩ | h1
  · exact .inr ⟨w', e, .noMemory h hm hc hf e, h1, h2⟩
  · exact .inl h1

/-- C83 and C85, second half: whatever happened, every careful program goes on as it should. -/
theorem after_failures_partial (P : Pol) (N : Nat) (w : World X) (aw : AWorld X) (h : Reached P N w aw) (ops : List (Op X))
    (aw' : AWorld X) (obs : List (Obs X)) (hi : idealRun aw ops = some (aw', obs)) (hc : carefulRun P N w ops = true) :
    ∃ w', run P N w ops = some (w', obs) ∧ Reached P N w' aw' := by
  induction ops generalizing w aw obs with
  | nil => cases hi; exact ⟨w, rfl, h⟩
  | cons op ops ih =>
    simp only [idealRun, Option.bind_eq_some_iff, Option.map_eq_some_iff] at hi
    obtain ⟨⟨aw1, o⟩, h1, ⟨aw2, os⟩, h2, h3⟩ := hi
    cases h3
    obtain ⟨us, fs, W⟩ := h.inv
    simp only [carefulRun, Bool.and_eq_true] at hc
    obtain ⟨w1, us1, fs1, e1, W1, _⟩ := step P w aw us fs W op aw1 o h1 hc.1
    rw [e1] at hc
    obtain ⟨w2, e2, R⟩ := ih w1 aw1 (.call h hc.1 h1 e1) os h2 hc.2
    exact ⟨w2, by simp only [run, e1, Option.bind_some, e2, Option.map_some], R⟩

/-- C83: nothing leaks: once all deques are destroyed no block is allocated. -/
theorem failures_no_leak_partial (P : Pol) (N : Nat) (w : World X) (aw : AWorld X) (h : Reached P N w aw)
    (hend : ∀ i, aw i = none) : ∀ b, w.heap.live b = false := by
  intro b
  obtain ⟨us, fs, W⟩ := h.inv
  cases hl : w.heap.live b with
  | false => rfl
  | true =>
    obtain ⟨i, hi⟩ := W.noleak b hl
    obtain ⟨_, h1, h2⟩ := W.getNone (hend i)
    rw [h1, h2] at hi; simp at hi

/-- States a careful program without failures reaches are among them. -/
theorem Reached.ofRun (P : Pol) (N : Nat) (ops : List (Op X)) (aw : AWorld X) (obs : List (Obs X))
    (h : idealRun noObjs ops = some (aw, obs)) (hc : carefulRun P N World.empty ops = true) :
    ∃ w, run P N World.empty ops = some (w, obs) ∧ Reached P N w aw :=
  after_failures_partial P N _ _ .start ops aw obs h hc

theorem constructAt_live {N : Nat} {p : SlotPtr} {i j : Int} {h h' : Heap X} {x : X} (e : constructAt N p i j h x = some h') :
    h'.live = h.live := by
  simp only [constructAt, Option.bind_eq_some_iff, Heap.construct] at e
  obtain ⟨_, _, _, _, e⟩ := e
  split at e <;> cases e
  rfl

theorem get_allocates {f f' : FreeL} {h h' : Heap X} {b : Nat} (w : h.Wf) (e : f.get h = some (b, f', h')) :
    f.idx = 0 ↔ ∃ b, h'.live b = true ∧ h.live b = false := by
  rw [FreeL.get] at e
  split at e
  · rename_i hf
    cases e
    simp only [hf, true_iff]
    refine ⟨h.next, by simp [Heap.alloc], ?_⟩
    cases hn : h.live h.next with
    | false => rfl
    | true => exact absurd (w.live _ hn) (Nat.lt_irrefl _)
  · rename_i hf
    simp only [Option.map_eq_some_iff] at e
    obtain ⟨_, _, e6⟩ := e
    cases e6
    simp only [hf, false_iff]
    rintro ⟨b, h1, h2⟩
    rw [h1] at h2; cases h2

theorem same_allocates (h : Heap X) : ¬ ∃ b, h.live b = true ∧ h.live b = false := by
  rintro ⟨b, h1, h2⟩
  rw [h1] at h2; cases h2

theorem roomBack_allocates {P : Pol} {v v' : Deq} (h0 : v.avail ≠ 0) (e : v.roomBack P = some v') : v'.free = v.free ∧
    ((v.back ≥ (v.avail : Int) - 1 ∧ ¬ v.front > 5) ↔ v'.avail ≠ v.avail) := by
  rw [Deq.roomBack] at e
  split at e
  · rename_i hb
    split at e
    · rename_i hf
      simp only [Option.bind_eq_some_iff, Option.map_eq_some_iff] at e
      obtain ⟨_, _, _, _, e⟩ := e
      cases e
      exact ⟨rfl, by simp [hf]⟩
    · rename_i hf
      simp only [Option.bind_eq_some_iff, Option.map_eq_some_iff] at e
      obtain ⟨_, _, _, _, e⟩ := e
      cases e
      refine ⟨rfl, ?_⟩
      simp only [hb, hf, not_false_eq_true, and_self, true_iff]
      omega
  · rename_i hb
    cases e
    exact ⟨rfl, by simp [hb]⟩

theorem roomFront_allocates {P : Pol} {v v' : Deq} (h0 : v.avail ≠ 0) (e : v.roomFront P = some v') : v'.free = v.free ∧
    ((v.front = 0 ∧ ¬ v.back < (v.avail : Int) - 5) ↔ v'.avail ≠ v.avail) := by
  rw [Deq.roomFront] at e
  split at e
  · rename_i hb
    simp only at e
    split at e
    · rename_i hf
      simp only [Option.bind_eq_some_iff, Option.map_eq_some_iff] at e
      obtain ⟨_, _, _, _, e⟩ := e
      cases e
      exact ⟨rfl, by simp [hf]⟩
    · rename_i hf
      simp only [Option.bind_eq_some_iff, Option.map_eq_some_iff] at e
      obtain ⟨_, _, _, _, e⟩ := e
      cases e
      refine ⟨rfl, ?_⟩
      simp only [hb, hf, not_false_eq_true, and_self, true_iff]
      omega
  · rename_i hb
    cases e
    exact ⟨rfl, by simp [hb]⟩

theorem firstBlock_allocates {N : Nat} {v v' : Deq} {h h' : Heap X} (w : h.Wf) (h0 : v.avail = 0)
    (e : Deq.firstBlock N v h = some (v', h')) :
    (v.free.idx = 0 ↔ ∃ b, h'.live b = true ∧ h.live b = false) ∧ v'.avail ≠ v.avail := by
  simp only [Deq.firstBlock, Option.bind_eq_some_iff, Option.map_eq_some_iff] at e
  obtain ⟨⟨b, f, h1⟩, e1, _, _, e2⟩ := e
  cases e2
  exact ⟨get_allocates w e1, by simp [h0]⟩

/-- what an insertion at the back allocates -/
theorem pushBack_allocates {P : Pol} {N : Nat} {v v' : Deq} {h h' : Heap X} {x : X} (w : h.Wf)
    (e : v.pushBack P N h x = some (v', h')) :
    ((v.bsize ≥ blockSize N ∧ v.free.idx = 0) ↔ ∃ b, h'.live b = true ∧ h.live b = false) ∧
      ((v.bsize ≥ blockSize N ∧ (v.avail = 0 ∨ (v.back ≥ (v.avail : Int) - 1 ∧ ¬ v.front > 5))) ↔ v'.avail ≠ v.avail) := by
  simp only [Deq.pushBack, Option.bind_eq_some_iff, Option.map_eq_some_iff] at e
  obtain ⟨⟨v1, h1⟩, e1, h2, e2, e3⟩ := e
  cases e3
  simp only [constructAt_live e2]
  rw [Deq.blockCheck] at e1
  split at e1
  · rename_i hb
    simp only [hb, true_and]
    split at e1
    · rename_i h0
      obtain ⟨h3, h4⟩ := firstBlock_allocates w h0 e1
      exact ⟨h3, by simp only [h0, true_or, true_iff]; rwa [h0] at h4⟩
    · rename_i h0
      simp only [Option.bind_eq_some_iff, Option.map_eq_some_iff] at e1
      obtain ⟨v2, er, ⟨b, f, h3⟩, e3, _, _, e4⟩ := e1
      cases e4
      obtain ⟨hf, ha⟩ := roomBack_allocates h0 er
      rw [hf] at e3
      exact ⟨get_allocates w e3, by rw [← ha]; simp [h0]⟩
  · rename_i hb
    cases e1
    exact ⟨by simp only [hb, false_and, false_iff]; exact same_allocates _, by simp [hb]⟩

/-- what an insertion at the front allocates -/
theorem pushFront_allocates {P : Pol} {N : Nat} {v v' : Deq} {h h' : Heap X} {x : X} (w : h.Wf)
    (e : v.pushFront P N h x = some (v', h')) :
    ((v.fsize < 0 ∧ v.free.idx = 0) ↔ ∃ b, h'.live b = true ∧ h.live b = false) ∧
      ((v.fsize < 0 ∧ (v.avail = 0 ∨ (v.front = 0 ∧ ¬ v.back < (v.avail : Int) - 5))) ↔ v'.avail ≠ v.avail) := by
  simp only [Deq.pushFront, Option.bind_eq_some_iff, Option.map_eq_some_iff] at e
  obtain ⟨⟨v1, h1⟩, e1, h2, e2, e3⟩ := e
  cases e3
  simp only [constructAt_live e2]
  rw [Deq.blockCheckFront] at e1
  split at e1
  · rename_i hb
    simp only [hb, true_and]
    split at e1
    · rename_i h0
      obtain ⟨h3, h4⟩ := firstBlock_allocates w h0 e1
      exact ⟨h3, by simp only [h0, true_or, true_iff]; rwa [h0] at h4⟩
    · rename_i h0
      simp only [Option.bind_eq_some_iff, Option.map_eq_some_iff] at e1
      obtain ⟨v2, er, ⟨b, f, h3⟩, e3, _, _, e4⟩ := e1
      cases e4
      obtain ⟨hf, ha⟩ := roomFront_allocates h0 er
      rw [hf] at e3
      exact ⟨get_allocates w e3, by rw [← ha]; simp [h0]⟩
  · rename_i hb
    cases e1
    exact ⟨by simp only [hb, false_and, false_iff]; exact same_allocates _, by simp [hb]⟩

/-- C83: the insertion throws exactly if it needs the memory there is none of: a block if the insertion, when it succeeds,
allocates one, an array if the number of block slots grows. -/
theorem no_memory_iff_partial (P : Pol) (N : Nat) (w : World X) (aw : AWorld X) (h : Reached P N w aw) (front : Bool)
    (i : Nat) (a : List X) (x : X) (ha : aw i = some a) (hc : careful P N w (pushOp front i x) = true) :
    ∃ w', exec P N w (pushOp front i x) = some (w', .done) ∧
      ((∃ w1, execFault P N w front i x .block = some (w1, .threw)) ↔ ∃ b, w'.heap.live b = true ∧ w.heap.live b = false) ∧
      ((∃ w1, execFault P N w front i x .array = some (w1, .threw)) ↔
        (w'.objs i).map (·.avail) ≠ (w.objs i).map (·.avail)) := by
  obtain ⟨us, fs, W⟩ := h.inv
  obtain ⟨v, hv, r⟩ := W.getSome ha
  cases front with
  | false =>
    obtain ⟨w', _, _, e, _⟩ := step P w aw us fs W (.push i x) _ .done (by simp only [ideal, ha, Option.map_some]; rfl) hc
    refine ⟨w', e, ?_⟩
    simp only [exec, hv, Option.bind_some, Option.map_eq_some_iff, Prod.mk.injEq] at e
    obtain ⟨⟨v', h'⟩, e, rfl, _⟩ := e
    obtain ⟨h1, h2⟩ := pushBack_allocates W.wf e
    have hr : v.avail ≠ 0 → ∃ v1, v.roomBack P = some v1 := by
      intro h0
      rcases r with ⟨F, f1, bz, c⟩ | ⟨nl, _⟩
      · obtain ⟨v1, _, e1, _⟩ := c.roomBack_eq P
        exact ⟨v1, e1⟩
      · exact absurd nl.av h0
    refine ⟨?_, ?_⟩
    · rw [← h1]
      simp only [execFault, hv, Option.bind_some, Bool.false_eq_true, if_false, Deq.pushBackFault]
      split
      · rename_i h3
        simp only [h3, and_self, iff_true]
        split
        · exact ⟨_, rfl⟩
        · rename_i h0
          obtain ⟨v1, e1⟩ := hr h0
          rw [e1]; exact ⟨_, rfl⟩
      · rename_i h3; simp [h3, e]
    · simp only [upd_same, hv, Option.map_some, ne_eq, Option.some.injEq]
      rw [← ne_eq, ← h2]
      simp only [execFault, hv, Option.bind_some, Bool.false_eq_true, if_false, Deq.pushBackFault]
      split
      · rename_i h3; exact ⟨fun _ => h3, fun _ => ⟨_, rfl⟩⟩
      · rename_i h3; rw [e]; exact ⟨fun ⟨_, h⟩ => by simp at h, fun h => absurd h h3⟩
  | true =>
    obtain ⟨w', _, _, e, _⟩ := step P w aw us fs W (.pushFront i x) _ .done
      (by simp only [ideal, ha, Option.map_some]; rfl) hc
    refine ⟨w', e, ?_⟩
    simp only [exec, hv, Option.bind_some, Option.map_eq_some_iff, Prod.mk.injEq] at e
    obtain ⟨⟨v', h'⟩, e, rfl, _⟩ := e
    obtain ⟨h1, h2⟩ := pushFront_allocates W.wf e
    have hr : v.avail ≠ 0 → v.fsize < 0 → ∃ v1, v.roomFront P = some v1 := by
      intro h0 hf
      rcases r with ⟨F, f1, bz, c⟩ | ⟨nl, _⟩
      · obtain ⟨v1, _, e1, _⟩ := c.roomFront_eq P (careful_overlap hv hc) (by have := c.fsz; omega)
        exact ⟨v1, e1⟩
      · exact absurd nl.av h0
    refine ⟨?_, ?_⟩
    · rw [← h1]
      simp only [execFault, hv, Option.bind_some, if_true, Deq.pushFrontFault]
      split
      · rename_i h3
        simp only [h3, and_self, iff_true]
        split
        · exact ⟨_, rfl⟩
        · rename_i h0
          obtain ⟨v1, e1⟩ := hr h0 h3.1
          rw [e1]; exact ⟨_, rfl⟩
      · rename_i h3; simp [h3, e]
    · simp only [upd_same, hv, Option.map_some, ne_eq, Option.some.injEq]
      rw [← ne_eq, ← h2]
      simp only [execFault, hv, Option.bind_some, if_true, Deq.pushFrontFault]
      split
      · rename_i h3; exact ⟨fun _ => h3, fun _ => ⟨_, rfl⟩⟩
      · rename_i h3; rw [e]; exact ⟨fun ⟨_, h⟩ => by simp at h, fun h => absurd h h3⟩

/-- Blocks of two elements: the second insertion at the back needs a block, and so does the second at the front; without
memory they throw, and the elements are still those inserted before. -/
example : ((run ⟨true, false⟩ 1 World.empty [.new 0, .push 0 1, .pushFront 0 2]).bind fun r =>
    (execFault ⟨true, false⟩ 1 r.1 false 0 3 .block).bind fun s =>
    (execFault ⟨true, false⟩ 1 s.1 true 0 3 .block).bind fun t =>
    (run ⟨true, false⟩ 1 t.1 [.size 0, .iterate 0, .push 0 4, .iterate 0, .destroy 0]).map fun u =>
      (s.2, t.2, u.2, u.1.heap.live 0)) =
    some (.threw, .threw, [.num 2, .vals [2, 1], .done, .vals [2, 1, 4], .done], false) := by decide
/-- The hypotheses of `no_memory_partial` for these. -/
example : ((run ⟨true, false⟩ 1 World.empty [.new 0, .push 0 1, .pushFront 0 2]).map fun r =>
    ((r.1.objs 0).map fun v => v.dataptr.isSome, careful ⟨true, false⟩ 1 r.1 (pushOp true 0 3),
      careful ⟨true, false⟩ 1 r.1 (pushOp false 0 3))) = some (some true, true, true) := by decide
/-- An insertion into the half of the first block that is free needs no memory. -/
example : ((run ⟨true, false⟩ 1 World.empty [.new 0, .push 0 1]).bind fun r =>
    (execFault ⟨true, false⟩ 1 r.1 true 0 3 .block).bind fun s =>
    (run ⟨true, false⟩ 1 s.1 [.iterate 0]).map fun t => (s.2, t.2)) = some (.done, [.vals [3, 1]]) := by decide

/-- C83 fails for a deque without memory: if the array of block pointers is allocated but the first block is not, the
deque can no longer be destroyed, and inserting into it, at either end, constructs the element at an indeterminate
address (at the front for blocks of at least two elements). -/
theorem no_memory_new_violation (P : Pol) (N : Nat) (w : World X) (aw : AWorld X) (h : Reached P N w aw) (front : Bool)
    (i : Nat) (a : List X) (x : X) (ha : aw i = some a) (hm : ¬ hasMemory w i)
    (hc : careful P N w (pushOp front i x) = true) :
    ∃ w', execFault P N w front i x .block = some (w', .threw) ∧ exec P N w' (.destroy i) = none ∧
      (∀ y, exec P N w' (.push i y) = none) ∧ (1 ≤ N → ∀ y, exec P N w' (.pushFront i y) = none) := by
  obtain ⟨us, fs, W⟩ := h.inv
  obtain ⟨v, hv, r⟩ := W.getSome ha
  have nl : Null v := by
    rcases r with ⟨F, f1, bz, c⟩ | ⟨nl, _⟩
    · obtain ⟨l, hl, _⟩ := c.ptr
      exact absurd ⟨v, hv, by rw [hl]; rfl⟩ hm
    · exact nl
  have hB := blockSize_pos N
  have hpf : (if front then v.pushFrontFault P N w.heap x .block else v.pushBackFault P N w.heap x .block) =
      some (true, Deq.firstArray N v, w.heap) := by
    cases front with
    | false =>
      simp only [pushOp, Bool.false_eq_true, if_false, careful, hv, Option.all_some] at hc
      obtain ⟨h1, h2⟩ := usable_null nl hc
      simp only [Bool.false_eq_true, if_false, Deq.pushBackFault]
      rw [if_pos ⟨by omega, h2⟩, if_pos nl.av]
    | true =>
      simp only [pushOp, if_true, careful, hv, Option.all_some, nl.ptr, Option.isSome_none, Bool.false_or,
        Bool.and_eq_true, beq_iff_eq, decide_eq_true_eq] at hc
      simp only [if_true, Deq.pushFrontFault]
      rw [if_pos ⟨by rw [nl.fs]; decide, hc.1.1⟩, if_pos nl.av]
  have hsl : slotGet (Deq.firstArray N v).dataptr 30 = none := by
    simp only [Deq.firstArray]; rfl
  refine ⟨⟨upd w.objs i (some (Deq.firstArray N v)), w.heap⟩, ?_, ?_, ?_, ?_⟩
  · simp only [execFault, hv, Option.bind_some, hpf, Option.map_some]; rfl
  · simp only [exec, upd_same, Option.bind_some, Option.map_eq_none_iff]
    rw [Deq.freeAll]
    simp only [Deq.firstArray, if_true] at hsl ⊢
    rw [show ((((blockSize N / 2 : Nat) : Int) - 1 + 1 - 1 - (((blockSize N / 2 : Nat) : Int) - 1)).toNat) = 0 by omega]
    simp only [Deq.destroyDown, Option.bind_some, Deq.deallocSlot, hsl, Option.bind_none]
  · intro y
    simp only [exec, upd_same, Option.bind_some, Option.map_eq_none_iff]
    rw [Deq.pushBack, Deq.blockCheck, if_neg (by simp only [Deq.firstArray]; omega)]
    simp only [Option.bind_some, constructAt]
    rw [show (Deq.firstArray N v).back = 30 from rfl, hsl]; rfl
  · intro hN y
    have h2 : 2 ≤ blockSize N := by
      rw [blockSize_eq]
      obtain ⟨M, rfl⟩ : ∃ M, N = M + 1 := ⟨N - 1, by omega⟩
      have := Nat.two_pow_pos M
      rw [Nat.pow_succ]; omega
    simp only [exec, upd_same, Option.bind_some, Option.map_eq_none_iff]
    rw [Deq.pushFront, Deq.blockCheckFront, if_neg (by simp only [Deq.firstArray]; omega)]
    simp only [Option.bind_some, constructAt]
    rw [show (Deq.firstArray N v).front = 30 from rfl, hsl]; rfl

/-- The hypotheses: a new deque. -/
example : careful ⟨true, false⟩ 1 (⟨upd (fun _ => none) 0 (some (Deq.default 1)), Heap.empty⟩ : World Nat) (pushOp true 0 3) =
    true ∧ exec ⟨true, false⟩ 1 World.empty (Op.new (X := Nat) 0) =
      some (⟨upd (fun _ => none) 0 (some (Deq.default 1)), Heap.empty⟩, .done) ∧
    ¬ hasMemory (⟨upd (fun _ => none) 0 (some (Deq.default 1)), Heap.empty⟩ : World Nat) 0 := by
  refine ⟨by decide, rfl, ?_⟩
  rintro ⟨v, hv, h⟩
  cases hv; cases h

/-! ## C84: insertions whose element cannot be constructed -/

theorem DRep.brokenB {P : Pol} {N : Nat} {w : World X} {v : Deq} {i : Nat} {xs us fs} (r : DRep N w.heap v xs us fs) (W : w.heap.Wf)
    (hv : w.objs i = some v) (x : X) (hc : careful P N w (.push i x) = true) :
    ∃ v' h' us' fs' F f1 bz, v.pushBackFault P N w.heap x .element = some (true, v', h') ∧
      BrokenB N h' v' xs us' fs' F f1 bz ∧ ∀ k, k < xs.length → v'.cell N k = v.cell N k := by
  rcases r with ⟨F, f1, bz, c⟩ | ⟨nl, rfl, rfl, rfl⟩
  · obtain ⟨v1, h1, us1, fs1, F1, bz1, e, c1, fr, p, lt⟩ := c.blockCheck_eq P W
    obtain ⟨e1, B⟩ := BrokenB.make P x e c1 lt
    exact ⟨_, _, _, _, _, _, _, e1, B, fun k hk => cell_prefix c B.core (.inl p) hk hk⟩
  · simp only [careful, hv, Option.all_some] at hc
    obtain ⟨hb, hi⟩ := usable_null nl hc
    obtain ⟨v1, h1, b, e, c1, fr⟩ := Core.firstBlock_eq (N := N) (h := w.heap) nl hi W
    have hB := blockSize_pos N
    obtain ⟨e1, B⟩ := BrokenB.make (v := v) P x
      (by rw [Deq.blockCheck, if_pos (by omega), if_pos nl.av]; exact e) c1 (by omega)
    exact ⟨_, _, _, _, _, _, _, e1, B, fun k hk => by simp at hk⟩

theorem DRep.brokenF {P : Pol} {N : Nat} {w : World X} {v : Deq} {i : Nat} {xs us fs} (r : DRep N w.heap v xs us fs) (W : w.heap.Wf)
    (hv : w.objs i = some v) (x : X) (hc : careful P N w (.pushFront i x) = true) :
    ∃ v' h' us' fs' F f1 bz, v.pushFrontFault P N w.heap x .element = some (true, v', h') ∧ h'.Wf ∧
      BrokenF N h' v' xs us' fs' F f1 bz ∧ ∀ k, k < xs.length → v'.cell N (k + 1) = v.cell N k := by
  rcases r with ⟨F, f1, bz, c⟩ | ⟨nl, rfl, rfl, rfl⟩
  · obtain ⟨v1, h1, us1, fs1, F1, f11, pre, e, c1, fr, p, q⟩ := c.blockCheckFront_eq P W (careful_overlap hv hc)
    obtain ⟨e1, B⟩ := BrokenF.make P x e c1
    refine ⟨_, _, _, _, _, _, _, e1, fr.wf, B, fun k hk => ?_⟩
    rw [B.cell]
    exact cell_prepend c B.core p hk hk (by omega)
  · simp only [careful, hv, Option.all_some, nl.ptr, Option.isSome_none, Bool.false_or,
      Bool.and_eq_true, beq_iff_eq, decide_eq_true_eq] at hc
    obtain ⟨v1, h1, b, e, c1, fr⟩ := Core.firstBlock_eq (N := N) (h := w.heap) nl hc.1.1 W
    have hp : 1 ≤ blockSize N / 2 := by
      rw [blockSize_eq]
      obtain ⟨M, rfl⟩ : ∃ M, N = M + 1 := ⟨N - 1, by omega⟩
      have := Nat.two_pow_pos M
      rw [Nat.pow_succ]; omega
    have c1' : Core N h1 v1 ([] : List X) [b] [] 30 (blockSize N / 2 - 1 + 1) (blockSize N / 2) := by
      rwa [Nat.sub_add_cancel hp]
    obtain ⟨e1, B⟩ := BrokenF.make (v := v) P x
      (by rw [Deq.blockCheckFront, if_pos (by rw [nl.fs]; decide), if_pos nl.av]; exact e) c1'
    exact ⟨_, _, _, _, _, _, _, e1, fr.wf, B, fun k hk => by simp at hk⟩

/-- C84, what is left of it: if the constructor of an element inserted at the back throws, the size, the elements by index
and their addresses are as before, and no other deque is affected.  What is missing: `element_throw_violation` and
`element_throw_front_violation`. -/
theorem element_throw_partial (P : Pol) (N : Nat) (w : World X) (aw : AWorld X) (h : Reached P N w aw) (i : Nat)
    (a : List X) (x : X) (ha : aw i = some a) (hc : careful P N w (.push i x) = true) :
    ∃ w', execFault P N w false i x .element = some (w', .threw) ∧ (∀ j, j ≠ i → w'.objs j = w.objs j) ∧
      exec P N w' (.size i) = some (w', .num a.length) ∧
      exec P N w' (.empty i) = some (w', .bool a.isEmpty) ∧
      (∀ k (hk : k < a.length), exec P N w' (.get i k) = some (w', .val a[k]) ∧
        exec P N w' (.at i k) = some (w', .val a[k]) ∧ w'.addr N i k = w.addr N i k) ∧
      (∀ k, a.length ≤ k → exec P N w' (.at i k) = some (w', .threw)) ∧
      (∀ x, a.head? = some x → exec P N w' (.front i) = some (w', .val x)) := by
  obtain ⟨us, fs, W⟩ := h.inv
  obtain ⟨v, hv, r⟩ := W.getSome ha
  obtain ⟨v', h', us', fs', F, f1, bz, e, B, hcell⟩ := r.brokenB W.wf hv x hc
  have hl := B.csize
  refine ⟨⟨upd w.objs i (some v'), h'⟩, ?_, ?_, ?_, ?_, ?_, ?_, ?_⟩
  · simp only [execFault, hv, Option.bind_some, e, Option.map_some, Bool.false_eq_true, if_false]; rfl
  · intro j hj; exact upd_ne _ _ hj
  · simp only [exec, upd_same, Option.map_some, Deq.size, hl]
  · simp only [exec, upd_same, Option.map_some, Deq.empty, hl]
    cases a <;> rfl
  · intro k hk
    refine ⟨?_, ?_, ?_⟩
    · simp only [exec, upd_same, Option.bind_some, B.get hk, Option.map_some]
    · simp only [exec, upd_same, Option.bind_some, Deq.at?]
      rw [if_neg (by omega), B.get hk]; rfl
    · simp only [World.addr, upd_same, Option.bind_some, hv, hcell k hk]
  · intro k hk
    simp only [exec, upd_same, Option.bind_some, Deq.at?]
    rw [if_pos (by omega)]; rfl
  · intro x hx
    rw [List.head?_eq_getElem?] at hx
    obtain ⟨hk, rfl⟩ := List.getElem?_eq_some_iff.1 hx
    simp only [exec, upd_same, Option.bind_some, B.frontVal hk, Option.map_some]

/-- C84 fails, for every deque and at every point: after the constructor of an element inserted at the back has thrown,
`back` reads an element that does not exist, and, unless destructors are trivial, destroying the deque, and `clear` and
`pop_back` of one that is not empty, destroy it. -/
theorem element_throw_violation (P : Pol) (N : Nat) (w : World X) (aw : AWorld X) (h : Reached P N w aw) (i : Nat)
    (a : List X) (x : X) (ha : aw i = some a) (hc : careful P N w (.push i x) = true) :
    ∃ w', execFault P N w false i x .element = some (w', .threw) ∧ exec P N w' (.back i) = none ∧
      (P.triv = false → exec P N w' (.destroy i) = none ∧
        (a ≠ [] → exec P N w' (.pop i) = none ∧ exec P N w' (.clear i) = none)) := by
  obtain ⟨us, fs, W⟩ := h.inv
  obtain ⟨v, hv, r⟩ := W.getSome ha
  obtain ⟨v', h', us', fs', F, f1, bz, e, B, hcell⟩ := r.brokenB W.wf hv x hc
  refine ⟨⟨upd w.objs i (some v'), h'⟩, ?_, ?_, ?_⟩
  · simp only [execFault, hv, Option.bind_some, e, Option.map_some, Bool.false_eq_true, if_false]; rfl
  · simp only [exec, upd_same, Option.bind_some, B.backVal, Option.map_none]
  · intro hP
    refine ⟨?_, ?_⟩
    · simp only [exec, upd_same, Option.bind_some, B.freeAll P hP, Option.map_none]
    · intro hne
      simp only [exec, upd_same, Option.bind_some, B.popBack P hP hne, B.clear P hP hne, Option.map_none]
      exact ⟨trivial, trivial⟩

/-- C84 fails at the front as well: after the constructor of an element inserted there has thrown, `size` is what it was,
but every element has moved up by one index: `v[0]` and `front` read an element that does not exist, `v[k+1]` is what
`v[k]` was, and the last element cannot be had from `at`.  Unless destructors are trivial, destroying the deque, and
`pop_front` of one that is not empty, destroy an element that does not exist. -/
theorem element_throw_front_violation (P : Pol) (N : Nat) (w : World X) (aw : AWorld X) (h : Reached P N w aw) (i : Nat)
    (a : List X) (x : X) (ha : aw i = some a) (hc : careful P N w (.pushFront i x) = true) :
    ∃ w', execFault P N w true i x .element = some (w', .threw) ∧ exec P N w' (.size i) = some (w', .num a.length) ∧
      exec P N w' (.get i 0) = none ∧ exec P N w' (.front i) = none ∧
      (∀ k (hk : k < a.length), exec P N w' (.get i (k + 1)) = some (w', .val a[k]) ∧
        w'.addr N i (k + 1) = w.addr N i k) ∧
      (∀ k (hk : k + 1 < a.length), exec P N w' (.at i (k + 1)) = some (w', .val a[k])) ∧
      (∀ k, a.length ≤ k → exec P N w' (.at i k) = some (w', .threw)) ∧
      (P.triv = false → exec P N w' (.destroy i) = none ∧ (a ≠ [] → exec P N w' (.popFront i) = none)) := by
  obtain ⟨us, fs, W⟩ := h.inv
  obtain ⟨v, hv, r⟩ := W.getSome ha
  obtain ⟨v', h', us', fs', F, f1, bz, e, wf, B, hcell⟩ := r.brokenF W.wf hv x hc
  have hl := B.csize
  refine ⟨⟨upd w.objs i (some v'), h'⟩, ?_, ?_, ?_, ?_, ?_, ?_, ?_, ?_⟩
  · simp only [execFault, hv, Option.bind_some, e, Option.map_some, if_true]
  · simp only [exec, upd_same, Option.map_some, Deq.size, hl]
  · simp only [exec, upd_same, Option.bind_some, B.get_zero, Option.map_none]
  · simp only [exec, upd_same, Option.bind_some, B.frontVal, Option.map_none]
  · intro k hk
    refine ⟨?_, ?_⟩
    · simp only [exec, upd_same, Option.bind_some, B.get_succ hk, Option.map_some]
    · simp only [World.addr, upd_same, Option.bind_some, hv, hcell k hk]
  · intro k hk
    simp only [exec, upd_same, Option.bind_some, Deq.at?]
    rw [if_neg (by omega), B.get_succ (by omega)]; rfl
  · intro k hk
    simp only [exec, upd_same, Option.bind_some, Deq.at?]
    rw [if_pos (by omega)]; rfl
  · intro hP
    refine ⟨?_, ?_⟩
    · simp only [exec, upd_same, Option.bind_some, B.freeAll P hP wf, Option.map_none]
    · intro hne
      simp only [exec, upd_same, Option.bind_some, B.popFront P hP hne, Option.map_none]

/-- A deque with three elements, blocks of two: after the throw at the back `size` is 3 and `v[2]` the last element, but it
cannot be destroyed; after one at the front, `v[1]` is what was the first element. -/
example : ((run ⟨true, false⟩ 1 World.empty [.new 0, .push 0 1, .push 0 2, .push 0 3]).bind fun r =>
    (execFault ⟨true, false⟩ 1 r.1 false 0 4 .element).bind fun s =>
    (run ⟨true, false⟩ 1 s.1 [.size 0, .get 0 2]).map fun t => (s.2, t.2, (run ⟨true, false⟩ 1 t.1 [.destroy 0]).isSome)) =
    some (.threw, [.num 3, .val 3], false) := by decide
example : ((run ⟨true, false⟩ 1 World.empty [.new 0, .push 0 1, .push 0 2, .push 0 3]).bind fun r =>
    (execFault ⟨true, false⟩ 1 r.1 true 0 4 .element).bind fun s =>
    (run ⟨true, false⟩ 1 s.1 [.size 0, .at 0 1, .at 0 2, .at 0 3]).map fun t =>
      (careful ⟨true, false⟩ 1 r.1 (.pushFront 0 4), s.2, t.2)) =
    some (true, .threw, [.num 3, .val 1, .val 2, .threw]) := by decide

/-! ## C85: assignments to an element that throw -/

/-- C85, restricted to ranges no longer than the deque up to the element that throws: if assigning to the element with
index `k` throws inside `assign` or `move_assign`, the deque has the first `k` new values, what the failed assignment left
behind, and the old values from there on, all at their old addresses; `after_failures_partial` says that it is an ordinary
deque.  Missing: exceptions while the range is appended, see `element_throw_violation`, and deques whose `end()` cannot be
formed (`careful`). -/
theorem assign_throw_partial (P : Pol) (N : Nat) (w : World X) (aw : AWorld X) (h : Reached P N w aw) (i k : Nat)
    (a ys : List X) (junk : X) (ha : aw i = some a) (hk : k < a.length) (hy : k < ys.length)
    (hc : careful P N w (.iterate i) = true) :
    ∃ w', execAssignThrow N w i k ys junk = some (w', .threw) ∧
      Reached P N w' (upd aw i (some (ys.take k ++ junk :: a.drop (k + 1)))) ∧
      ∀ j m, w'.addr N j m = w.addr N j m := by
  obtain ⟨us, fs, W⟩ := h.inv
  obtain ⟨w', e, _, ho⟩ := W.assignThrew (P := P) junk ha hk hy hc
  exact ⟨w', e, .assignThrew h ha hk hy hc e, fun j m => by rw [World.addr, World.addr, ho]⟩

example : ((run ⟨true, false⟩ 1 World.empty [.new 0, .push 0 1, .push 0 2, .push 0 3, .push 0 4]).bind fun r =>
    (execAssignThrow 1 r.1 0 2 [11, 12, 13, 14, 15] 0).bind fun s =>
    (run ⟨true, false⟩ 1 s.1 [.iterate 0, .pushFront 0 5, .iterate 0, .destroy 0]).map fun t => (s.2, t.2)) =
    some (.threw, [.vals [11, 12, 0, 4], .done, .vals [5, 11, 12, 0, 4], .done]) := by decide

end Verif.Block.Deque
