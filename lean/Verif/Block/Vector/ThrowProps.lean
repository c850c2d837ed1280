import Verif.Block.Vector.Throw
import Verif.Block.Vector.Props

/-
C80, C81, C82: exceptions inside insertions and assignments of a StableBlockVector.
-/
namespace Verif.Block.Vector
open Verif.Block Vec
variable {X : Type}

/-- States a program can reach if memory may run out in any call of `emplace_back` on a vector that already has reserved
memory, and assigning to an existing element may throw inside `assign`; `aw` is what the vectors should contain.
All other calls are careful ones.  A failed insertion changes at most how much memory is reserved, a failed assignment
leaves the new values before the element it failed at, the old values after it, and any value in that element. -/
inductive Reached (N : Nat) : World X → AWorld X → Prop where
  | start : Reached N World.empty noObjs
  | call {w w' aw aw' op o} (h : Reached N w aw) (hc : careful N aw op = true) (hi : ideal N aw op = some (aw', o))
      (he : exec N w op = some (w', o)) : Reached N w' aw'
  | noMemory {w w' aw i a x f} (h : Reached N w aw) (ha : aw i = some a) (hm : a.moved = false) (hr : a.reserved ≠ 0)
      (hf : f = .array ∨ f = .block) (he : execFault N w i x f = some (w', .threw)) :
      Reached N w' (upd aw i (some { a with
        reserved := if f = .array then a.reserved else reservePush N a.reserved a.elems.length }))
  | assignThrew {w w' aw i a k ys junk} (h : Reached N w aw) (ha : aw i = some a) (hm : a.moved = false)
      (hk : k < a.elems.length) (hy : k < ys.length) (he : execAssignThrow N w i k ys junk = some (w', .threw)) :
      Reached N w' (upd aw i (some { a with elems := ys.take k ++ junk :: a.elems.drop (k + 1) }))

theorem WInvR.noMemory {N : Nat} {w : World X} {aw us fs} (W : WInv N w aw us fs) {i : Nat} {a : AObj X} (x : X) {f : Fault}
    (ha : aw i = some a) (hm : a.moved = false) (hr : a.reserved ≠ 0) (hf : f = .array ∨ f = .block) :
    (∃ w', execFault N w i x f = some (w', .threw) ∧ WInv N w' (upd aw i (some { a with
        reserved := if f = .array then a.reserved else reservePush N a.reserved a.elems.length })) us fs ∧
        (∀ j k, w'.objs j = w.objs j ∨ w.addr N j k = none ∨ a.elems.length ≤ k ∨ w'.addr N j k = w.addr N j k)) ∨
      (∃ w', execFault N w i x f = some (w', .done) ∧ exec N w (.push i x) = some (w', .done)) := by
  obtain ⟨v, hv, c, hav, hu⟩ := W.getLive ha hm
  have hus : us i ≠ [] := fun e => hr (by rw [← hav]; exact hu e)
  have hupd : ∀ (g : Nat → List Nat), updL g i (g i) = g := by
    intro g; funext k; simp only [updL]; split
    · rename_i e; rw [e]
    · rfl
  have ok : v.pushFault N w.heap x f = (Vec.pushBack N v w.heap x).map (fun r => (false, r)) →
      ∃ w', execFault N w i x f = some (w', .done) ∧ exec N w (.push i x) = some (w', .done) := by
    intro e
    obtain ⟨v', h', us', fs', e', _⟩ := c.pushBack W.wf x
    rw [e'] at e
    refine ⟨⟨upd w.objs i (some v'), h'⟩, ?_, ?_⟩
    · simp only [execFault, hv, Option.bind_some, e, Option.map_some]; rfl
    · simp only [exec, hv, Option.bind_some, e', Option.map_some]
  have threw : ∀ v' r, v.pushFault N w.heap x f = some (true, v', w.heap) → Core N w.heap v' a.elems (us i) (fs i) →
      v'.avail = r →
      ∃ w', execFault N w i x f = some (w', .threw) ∧ WInv N w' (upd aw i (some { a with reserved := r })) us fs ∧
        (∀ j k, w'.objs j = w.objs j ∨ w.addr N j k = none ∨ a.elems.length ≤ k ∨ w'.addr N j k = w.addr N j k) := by
    intro v' r e c' hr'
    refine ⟨⟨upd w.objs i (some v'), w.heap⟩, ?_, ?_, ?_⟩
    · simp only [execFault, hv, Option.bind_some, e, Option.map_some]; rfl
    · have := W.update i (o := some v') (oa := some { a with reserved := r }) (Heap.Frame.refl W.wf)
        (.inr ⟨hm, c', hr', fun e => absurd e hus⟩)
      rwa [hupd, hupd] at this
    · intro j k
      by_cases hj : j = i
      · subst hj
        by_cases hk : k < a.elems.length
        · right; right; right
          obtain ⟨b, hb, hc⟩ := c.cell_eq (c.len ▸ hk)
          obtain ⟨b', hb', hc'⟩ := c'.cell_eq (c'.len ▸ hk)
          rw [hb] at hb'; cases hb'
          simp only [World.addr, upd_same, Option.bind_some, hv, hc, hc']
        · exact .inr (.inr (.inl (by omega)))
      · exact .inl (upd_ne _ _ hj)
  rcases hf with rfl | rfl
  · rcases c.pushArray x with e | e
    · exact .inl (threw v _ e c hav)
    · exact .inr (ok e)
  · rcases c.pushBlock x with ⟨e, c', hr'⟩ | e
    · refine .inl (threw _ _ e c' ?_)
      rw [hr', capPush_eq, hav, ← c.len]; rfl
    · exact .inr (ok e)

theorem WInvR.assignThrew {N : Nat} {w : World X} {aw us fs} (W : WInv N w aw us fs) {i k : Nat} {a : AObj X} {ys : List X}
    (junk : X) (ha : aw i = some a) (hm : a.moved = false) (hk : k < a.elems.length) (hy : k < ys.length) :
    ∃ w', execAssignThrow N w i k ys junk = some (w', .threw) ∧
      (∃ us fs, WInv N w' (upd aw i (some { a with elems := ys.take k ++ junk :: a.elems.drop (k + 1) })) us fs) ∧
      w'.objs = w.objs := by
  obtain ⟨v, hv, c, hav, hu⟩ := W.getLive ha hm
  obtain ⟨h', e, c', f⟩ := c.assignThrow junk k 0 ys W.wf hy (by omega)
  refine ⟨⟨w.objs, h'⟩, ?_, ⟨us, fs, ?_⟩, rfl⟩
  · simp only [execAssignThrow, hv, Option.bind_some, e, Option.map_some]
  · have hupd : ∀ (g : Nat → List Nat), updL g i (g i) = g := by
      intro g; funext k; simp only [updL]; split
      · rename_i e; rw [e]
      · rfl
    have := W.update i (o := some v) (oa := some { a with elems := ys.take k ++ junk :: a.elems.drop (k + 1) }) f
      (.inr ⟨hm, by simpa using c', hav, hu⟩)
    rw [hupd, hupd] at this
    have ho : upd w.objs i (some v) = w.objs := by
      funext j; simp only [upd]; split
      · rename_i e; rw [e, hv]
      · rfl
    rwa [ho] at this

theorem Reached.inv {N : Nat} {w : World X} {aw : AWorld X} (h : Reached N w aw) : ∃ us fs, WInv N w aw us fs := by
  induction h with
  | start => exact ⟨_, _, WInv.empty⟩
  | call _ hc hi he ih =>
    obtain ⟨us, fs, W⟩ := ih
    obtain ⟨w', us', fs', e, W', _⟩ := step _ _ us fs W _ _ _ hi hc
    rw [he] at e; cases e
    exact ⟨us', fs', W'⟩
  | noMemory _ ha hm hr hf he ih =>
    obtain ⟨us, fs, W⟩ := ih
    rcases W.noMemory _ ha hm hr hf with ⟨w', e, W', _⟩ | ⟨w', e, _⟩
    · rw [he] at e; cases e
      exact ⟨us, fs, W'⟩
    · rw [he] at e; cases e
  | assignThrew _ ha hm hk hy he ih =>
    obtain ⟨us, fs, W⟩ := ih
    obtain ⟨w', e, W', _⟩ := W.assignThrew _ ha hm hk hy
    rw [he] at e; cases e
    exact W'

/-! ## C80: insertions for which there is no memory -/

/-- C80, first half: a call of `emplace_back` during which an allocation fails either did not need that allocation and is
an ordinary insertion, or throws and leaves a state in which every vector has the elements it had, at the addresses they
had.  Missing from the full claim: vectors that have not reserved memory yet, see `no_memory_new_violation`. -/
theorem no_memory_partial (N : Nat) (w : World X) (aw : AWorld X) (h : Reached N w aw) (i : Nat) (a : AObj X) (x : X)
    (ha : aw i = some a) (hm : a.moved = false) (hr : a.reserved ≠ 0) (f : Fault) (hf : f = .array ∨ f = .block) :
    (∃ w', execFault N w i x f = some (w', .done) ∧ exec N w (.push i x) = some (w', .done)) ∨
    (∃ w' r, execFault N w i x f = some (w', .threw) ∧ Reached N w' (upd aw i (some { a with reserved := r })) ∧
      (∀ j, j ≠ i → w'.objs j = w.objs j) ∧ ∀ k, k < a.elems.length → w'.addr N i k = w.addr N i k) := by
  obtain ⟨us, fs, W⟩ := h.inv
  rcases W.noMemory x ha hm hr hf with ⟨w', e, W', hj⟩ | ⟨w', e⟩
  · refine .inr ⟨w', _, e, .noMemory h ha hm hr hf e, ?_, ?_⟩
    · intro j hji
      obtain ⟨v, hv, _⟩ := W.getLive ha hm
      simp only [execFault, hv, Option.bind_some, Option.map_eq_some_iff, Prod.mk.injEq] at e
      obtain ⟨r, _, rfl, _⟩ := e
      exact upd_ne _ _ hji
    · intro k hk
      obtain ⟨b, _, hb, _⟩ := addr_eq W ha hk hm
      rcases hj i k with h1 | h1 | h1 | h1
      · rw [World.addr, World.addr, h1]
      · rw [hb] at h1; cases h1
      · omega
      · exact h1
  · exact .inl ⟨w', e⟩

/-- C80 and C82, second half: whatever happened, every careful program goes on as it should. -/
theorem after_failures_partial (N : Nat) (w : World X) (aw : AWorld X) (h : Reached N w aw) (ops : List (Op X))
    (aw' : AWorld X) (obs : List (Obs X)) (hi : idealRun N aw ops = some (aw', obs)) (hc : carefulRun N aw ops = true) :
    ∃ w', run N w ops = some (w', obs) ∧ Reached N w' aw' := by
  induction ops generalizing w aw obs with
  | nil => cases hi; exact ⟨w, rfl, h⟩
  | cons op ops ih =>
    simp only [idealRun, Option.bind_eq_some_iff, Option.map_eq_some_iff] at hi
    obtain ⟨⟨aw1, o⟩, h1, ⟨aw2, os⟩, h2, h3⟩ := hi
    cases h3
    simp only [carefulRun, h1, Bool.and_eq_true] at hc
    obtain ⟨us, fs, W⟩ := h.inv
    obtain ⟨w1, us1, fs1, e1, W1, _, _⟩ := step w aw us fs W op aw1 o h1 hc.1
    obtain ⟨w2, e2, R⟩ := ih w1 aw1 (.call h hc.1 h1 e1) os h2 hc.2
    exact ⟨w2, by simp only [run, e1, Option.bind_some, e2, Option.map_some], R⟩

/-- C80: nothing leaks: once all vectors are destroyed no block is allocated. -/
theorem failures_no_leak_partial (N : Nat) (w : World X) (aw : AWorld X) (h : Reached N w aw) (hend : ∀ i, aw i = none) :
    ∀ b, w.heap.live b = false := by
  intro b
  obtain ⟨us, fs, W⟩ := h.inv
  cases hl : w.heap.live b with
  | false => rfl
  | true =>
    obtain ⟨i, hi⟩ := W.noleak b hl
    obtain ⟨_, h1, h2⟩ := W.getNone (hend i)
    rw [h1, h2] at hi; simp at hi

/-- States a careful program without failures reaches are among them. -/
theorem Reached.ofRun (N : Nat) (ops : List (Op X)) (aw : AWorld X) (obs : List (Obs X))
    (h : idealRun N noObjs ops = some (aw, obs)) (hc : carefulRun N noObjs ops = true) :
    ∃ w, run N World.empty ops = some (w, obs) ∧ Reached N w aw :=
  after_failures_partial N _ _ .start ops aw obs h hc

/-- what an insertion allocates -/
theorem pushBack_allocates {N : Nat} {v v' : Vec} {h h' : Heap X} {x : X} (w : h.Wf) (e : Vec.pushBack N v h x = some (v', h')) :
    ((v.bsize ≥ blockSize N ∧ v.growSlots.freeIdx = 0) ↔ ∃ b, h'.live b = true ∧ h.live b = false) ∧
      ((v.bsize ≥ blockSize N ∧ (v.avail = 0 ∨ v.slotIdx ≥ (v.avail : Int) - 1)) ↔ v'.avail ≠ v.avail) := by
  simp only [Vec.pushBack, Option.bind_eq_some_iff, Option.map_eq_some_iff] at e
  obtain ⟨⟨v1, h1⟩, e1, b, _, h2, e2, e3⟩ := e
  cases e3
  have hl : h'.live = h1.live := by
    simp only [Heap.construct] at e2
    split at e2 <;> cases e2
    rfl
  simp only [hl]
  rw [Vec.blockCheck] at e1
  split at e1
  · rename_i hb
    simp only [Option.bind_eq_some_iff, Option.map_eq_some_iff] at e1
    obtain ⟨⟨b1, v2, h3⟩, e4, arr, _, e5⟩ := e1
    cases e5
    have hav : v2.avail = v.growSlots.avail := by
      rw [Vec.getNewBlock] at e4
      split at e4
      · cases e4; rfl
      · simp only [Option.map_eq_some_iff] at e4
        obtain ⟨_, _, e6⟩ := e4
        cases e6; rfl
    refine ⟨?_, ?_⟩
    · rw [Vec.getNewBlock] at e4
      split at e4
      · rename_i hf
        cases e4
        simp only [hb, hf, and_self, true_iff]
        exact ⟨h.next, by simp [Heap.alloc], by
          cases hn : h.live h.next with
          | false => rfl
          | true => exact absurd (w.live _ hn) (Nat.lt_irrefl _)⟩
      · rename_i hf
        simp only [Option.map_eq_some_iff] at e4
        obtain ⟨_, _, e6⟩ := e4
        cases e6
        simp only [hf, and_false, false_iff]
        rintro ⟨b, h1, h2⟩
        rw [h1] at h2; cases h2
    · simp only [hav, hb, true_and]
      rw [Vec.growSlots]
      split
      · rename_i h0; simp [h0]
      · rename_i h0
        split
        · rename_i h1
          simp only [h0, h1, or_true, true_iff]
          omega
        · rename_i h1
          simp [h0, h1]
  · rename_i hb
    cases e1
    refine ⟨?_, ?_⟩
    · simp only [hb, false_and, false_iff]
      rintro ⟨b, h1, h2⟩
      rw [h1] at h2; cases h2
    · simp [hb]

/-- C80: the insertion throws exactly if it needs the memory there is none of: a block if the insertion, when it succeeds,
allocates one, an array if the number of block slots grows. -/
theorem no_memory_iff (N : Nat) (w : World X) (aw : AWorld X) (h : Reached N w aw) (i : Nat) (a : AObj X) (x : X)
    (ha : aw i = some a) (hm : a.moved = false) :
    ∃ w', exec N w (.push i x) = some (w', .done) ∧
      ((∃ w1, execFault N w i x .block = some (w1, .threw)) ↔ ∃ b, w'.heap.live b = true ∧ w.heap.live b = false) ∧
      ((∃ w1, execFault N w i x .array = some (w1, .threw)) ↔
        (w'.objs i).map (·.avail) ≠ (w.objs i).map (·.avail)) := by
  obtain ⟨us, fs, W⟩ := h.inv
  obtain ⟨v, hv, c, hav, hu⟩ := W.getLive ha hm
  obtain ⟨v', h', _, _, e, _⟩ := c.pushBack W.wf x
  obtain ⟨h1, h2⟩ := pushBack_allocates W.wf e
  refine ⟨⟨upd w.objs i (some v'), h'⟩, by simp only [exec, hv, Option.bind_some, e, Option.map_some], ?_, ?_⟩
  · rw [← h1]
    simp only [execFault, hv, Option.bind_some, pushFault]
    split
    · rename_i h3; simp [h3]
    · rename_i h3; simp [h3, e]
  · simp only [upd_same, hv, Option.map_some, ne_eq, Option.some.injEq]
    rw [← ne_eq, ← h2]
    simp only [execFault, hv, Option.bind_some, pushFault]
    split
    · rename_i h3; simp [h3]
    · rename_i h3; simp [h3, e]

/-- Blocks of two elements: the third insertion needs a block; without memory it throws, the elements are still 1, 2. -/
example : ((run 1 World.empty [.new 0, .push 0 1, .push 0 2]).bind fun r => (execFault 1 r.1 0 3 .block).bind fun s =>
    (run 1 s.1 [.size 0, .iterate 0, .push 0 4, .iterate 0, .destroy 0]).map fun t => (s.2, t.2, t.1.heap.live 0)) =
    some (.threw, [.num 2, .vals [1, 2], .done, .vals [1, 2, 4], .done], false) := by decide
/-- The second insertion needs no memory. -/
example : ((run 1 World.empty [.new 0, .push 0 1]).bind fun r => (execFault 1 r.1 0 3 .block).bind fun s =>
    (run 1 s.1 [.iterate 0]).map fun t => (s.2, t.2)) = some (.done, [.vals [1, 3]]) := by decide
/-- The hypotheses of `no_memory_partial` for these. -/
example : (idealRun 1 noObjs [.new 0, .push 0 1, .push 0 2]).bind (fun r => r.1 0) = some ⟨[1, 2], 64, false⟩ ∧
    carefulRun 1 noObjs [.new 0, .push 0 1, .push 0 2] = true := by decide

/-- C80 fails for a vector that has not reserved memory: if the array of block pointers is allocated but the first block
is not, the vector can no longer be destroyed or cleared.  (A later insertion that does get its memory repairs it.) -/
theorem no_memory_new_violation (N : Nat) (w : World X) (aw : AWorld X) (h : Reached N w aw) (i : Nat) (a : AObj X) (x : X)
    (ha : aw i = some a) (hm : a.moved = false) (hr : a.reserved = 0) :
    ∃ w', execFault N w i x .block = some (w', .threw) ∧ exec N w' (.destroy i) = none ∧ exec N w' (.clear i) = none ∧
      ∀ y, ∃ w'', run N w' [.push i y, .iterate i, .destroy i] = some (w'', [.done, .vals [y], .done]) := by
  obtain ⟨us, fs, W⟩ := h.inv
  obtain ⟨v, hv, c, hav, hu⟩ := W.getLive ha hm
  have h0 : v.avail = 0 := by rw [hav, hr]
  obtain ⟨hx, _, _⟩ := c.null_iter h0
  have hue : us i = [] := List.length_eq_zero_iff.1 (by have := c.arr.le; omega)
  have hbz : v.bsize = blockSize N := by
    have h1 := c.size
    have h2 := c.bsz
    rw [hue] at h1
    simp at h1; omega
  have hfi : v.freeIdx = 0 := by rw [c.fidx, c.fav h0]; rfl
  have hg : v.growSlots = { v with dataptr := some (List.replicate 64 none), avail := 64, slotIdx := -1 } := by
    rw [Vec.growSlots, if_pos h0]
  obtain ⟨cg, _⟩ := c.growSlots hbz
  have hB := blockSize_pos N
  have hdd : Vec.destroyDown N v.growSlots.dataptr v.growSlots.slotIdx v.growSlots.bsize w.heap = none := by
    obtain ⟨n, hn⟩ : ∃ n, blockSize N = n + 1 := ⟨blockSize N - 1, by omega⟩
    rw [hg]
    simp only [hbz, hn, Vec.destroyDown, slotGet]
    rfl
  have hpf : v.pushFault N w.heap x .block = some (true, v.growSlots, w.heap) := by
    rw [pushFault, if_pos]
    exact ⟨by omega, by rw [hg]; exact hfi⟩
  refine ⟨⟨upd w.objs i (some v.growSlots), w.heap⟩, ?_, ?_, ?_, ?_⟩
  · simp only [execFault, hv, Option.bind_some, hpf, Option.map_some]; rfl
  · simp only [exec, upd_same, Option.bind_some]
    rw [Vec.freeAll]
    split
    · rename_i e; rw [hg] at e; cases e
    · rw [hdd]; rfl
  · simp only [exec, upd_same, Option.bind_some]
    rw [Vec.clear, if_neg (by rw [hg]; simp), hdd]; rfl
  · intro y
    obtain ⟨v1, h1, us1, fs1, e1, c1, f1, _, hp1, hc1⟩ := cg.pushBack W.wf y
    have hv1 : v1.avail = 64 := by
      rw [hc1, hg, capPush, if_neg]
      have := c.len
      rw [hx] at this
      simp only [← this, List.length_nil]
      omega
    rw [hx] at c1
    have W1 := W.update i (o := some v1) (oa := some ⟨[y], 64, false⟩) f1
      (.inr ⟨rfl, c1, hv1, fun e => by rw [e] at hp1; simp at hp1⟩)
    have hpos := Nat.two_pow_pos N
    obtain ⟨w2, _, _, e2, _⟩ := runs [.iterate i, .destroy i] _ _ _ _ W1
      (upd (upd aw i (some ⟨[y], 64, false⟩)) i none) [.vals [y], .done]
      (by simp [idealRun, ideal, upd_same])
      (by simp [carefulRun, ideal, careful, upd_same, AObj.iterable]; omega)
    refine ⟨w2, ?_⟩
    rw [run]
    simp only [exec, upd_same, Option.bind_some, e1, Option.map_some, upd_upd]
    rw [e2]; rfl

example : (idealRun 1 noObjs [Op.new 0]).bind (fun r => r.1 0) = some (⟨[], 0, false⟩ : AObj Nat) ∧
    carefulRun 1 noObjs [Op.new (X := Nat) 0] = true := by decide

/-! ## C81: insertions whose element cannot be constructed -/

/-- C81, what is left of it: if the constructor of the new element throws, the size, the elements and their addresses
can still be read as before, and no other vector is affected.  What is missing is nearly everything else, see
`element_throw_violation`. -/
theorem element_throw_partial (N : Nat) (w : World X) (aw : AWorld X) (h : Reached N w aw) (i : Nat) (a : AObj X) (x : X)
    (ha : aw i = some a) (hm : a.moved = false) :
    ∃ w', execFault N w i x .element = some (w', .threw) ∧ (∀ j, j ≠ i → w'.objs j = w.objs j) ∧
      exec N w' (.size i) = some (w', .num a.elems.length) ∧
      exec N w' (.empty i) = some (w', .bool a.elems.isEmpty) ∧
      (∀ k (hk : k < a.elems.length), exec N w' (.get i k) = some (w', .val a.elems[k]) ∧
        exec N w' (.at i k) = some (w', .val a.elems[k]) ∧ w'.addr N i k = w.addr N i k) ∧
      (∀ k, a.elems.length ≤ k → exec N w' (.at i k) = some (w', .threw)) ∧
      (∀ x, a.elems.head? = some x → exec N w' (.front i) = some (w', .val x)) := by
  obtain ⟨us, fs, W⟩ := h.inv
  obtain ⟨v, hv, c, hav, hu⟩ := W.getLive ha hm
  obtain ⟨v', h', us', b, fs', e, B, f, p⟩ := c.pushElement W.wf x
  have hl := B.core.len
  simp only at hl
  have hget : ∀ k (hk : k < a.elems.length), Vec.get N v' h' k = some a.elems[k] := fun k hk => B.core.get_eq hk
  refine ⟨⟨upd w.objs i (some v'), h'⟩, ?_, ?_, ?_, ?_, ?_, ?_, ?_⟩
  · simp only [execFault, hv, Option.bind_some, e, Option.map_some]; rfl
  · intro j hj; exact upd_ne _ _ hj
  · simp only [exec, upd_same, Option.map_some, Vec.size, hl]
  · simp only [exec, upd_same, Option.map_some, Vec.empty, ← hl]
    cases a.elems <;> rfl
  · intro k hk
    refine ⟨?_, ?_, ?_⟩
    · simp only [exec, upd_same, Option.bind_some, hget k hk, Option.map_some]
    · simp only [exec, upd_same, Option.bind_some, at?]
      rw [if_neg (by omega), hget k hk]; rfl
    · obtain ⟨b1, hb1, hc1⟩ := c.cell_eq (c.len ▸ hk)
      obtain ⟨b2, hb2, hc2⟩ := B.core.cell_eq (n := k) (by simp only; omega)
      have := prefix_get (.inl p) hb1 hb2
      subst this
      have hc2' : Vec.cell N v' k = some (b1, k % blockSize N) := hc2
      simp only [World.addr, upd_same, Option.bind_some, hv, hc1, hc2']
  · intro k hk
    simp only [exec, upd_same, Option.bind_some, at?]
    rw [if_pos (by omega)]; rfl
  · intro x hx
    rw [List.head?_eq_getElem?] at hx
    obtain ⟨hk, rfl⟩ := List.getElem?_eq_some_iff.1 hx
    have := B.core.front_eq hk
    have : Vec.front N v' h' = some a.elems[0] := this
    simp only [exec, upd_same, Option.bind_some, this, Option.map_some]

/-- C81 fails, for every vector and at every point: after the constructor of a new element has thrown, destroying and
clearing the vector destroy an element that does not exist, `back` reads it, and so do iterating over and `pop_back` of a
vector that is not empty; the next insertion succeeds, but its element cannot be read at the index it should have. -/
theorem element_throw_violation (N : Nat) (w : World X) (aw : AWorld X) (h : Reached N w aw) (i : Nat) (a : AObj X) (x : X)
    (ha : aw i = some a) (hm : a.moved = false) :
    ∃ w', execFault N w i x .element = some (w', .threw) ∧ exec N w' (.destroy i) = none ∧ exec N w' (.clear i) = none ∧
      exec N w' (.back i) = none ∧
      (a.elems ≠ [] → exec N w' (.pop i) = none ∧ exec N w' (.iterate i) = none) ∧
      ∀ y, ∃ w'', run N w' [.push i y, .size i] = some (w'', [.done, .num (a.elems.length + 1)]) ∧
        exec N w'' (.get i a.elems.length) = none := by
  obtain ⟨us, fs, W⟩ := h.inv
  obtain ⟨v, hv, c, hav, hu⟩ := W.getLive ha hm
  obtain ⟨v', h', us', b, fs', e, B, f, p⟩ := c.pushElement W.wf x
  refine ⟨⟨upd w.objs i (some v'), h'⟩, ?_, ?_, ?_, ?_, ?_, ?_⟩
  · simp only [execFault, hv, Option.bind_some, e, Option.map_some]; rfl
  · simp only [exec, upd_same, Option.bind_some, B.freeAll, Option.map_none]
  · simp only [exec, upd_same, Option.bind_some, B.clear, Option.map_none]
  · simp only [exec, upd_same, Option.bind_some, B.back, Option.map_none]
  · intro hne
    simp only [exec, upd_same, Option.bind_some, B.popBack hne, B.iterate hne, Option.map_none]
    exact ⟨trivial, trivial⟩
  · intro y
    obtain ⟨v2, h2, e2, hs, hg⟩ := B.push f.wf y
    refine ⟨⟨upd w.objs i (some v2), h2⟩, ?_, ?_⟩
    · simp only [run, exec, upd_same, Option.bind_some, e2, Option.map_some, upd_upd, Vec.size, hs]
    · simp only [exec, upd_same, Option.bind_some, hg, Option.map_none]

/-- A vector with three elements, blocks of two: after the throw `size` is 3 and `v[2]` the last element, but it cannot
be destroyed. -/
example : ((run 1 World.empty [.new 0, .push 0 1, .push 0 2, .push 0 3]).bind fun r =>
    (execFault 1 r.1 0 4 .element).bind fun s =>
    (run 1 s.1 [.size 0, .get 0 2]).map fun t => (s.2, t.2, (run 1 t.1 [.destroy 0]).isSome)) =
    some (.threw, [.num 3, .val 3], false) := by decide

/-! ## C82: assignments to an element that throw -/

/-- C82, restricted to ranges no longer than the vector up to the element that throws: if assigning to the element with
index `k` throws inside `assign` or `move_assign`, the vector has the first `k` new values, what the failed assignment left
behind, and the old values from there on, all at their old addresses; `after_failures_partial` says that it is an ordinary
vector.  Missing: exceptions while the range is appended, see `element_throw_violation`. -/
theorem assign_throw_partial (N : Nat) (w : World X) (aw : AWorld X) (h : Reached N w aw) (i k : Nat) (a : AObj X)
    (ys : List X) (junk : X) (ha : aw i = some a) (hm : a.moved = false) (hk : k < a.elems.length) (hy : k < ys.length) :
    ∃ w', execAssignThrow N w i k ys junk = some (w', .threw) ∧
      Reached N w' (upd aw i (some { a with elems := ys.take k ++ junk :: a.elems.drop (k + 1) })) ∧
      ∀ j m, w'.addr N j m = w.addr N j m := by
  obtain ⟨us, fs, W⟩ := h.inv
  obtain ⟨w', e, _, ho⟩ := W.assignThrew junk ha hm hk hy
  exact ⟨w', e, .assignThrew h ha hm hk hy e, fun j m => by rw [World.addr, World.addr, ho]⟩

example : ((run 1 World.empty [.new 0, .push 0 1, .push 0 2, .push 0 3, .push 0 4]).bind fun r =>
    (execAssignThrow 1 r.1 0 2 [11, 12, 13, 14, 15] 0).bind fun s =>
    (run 1 s.1 [.iterate 0, .push 0 5, .iterate 0, .destroy 0]).map fun t => (s.2, t.2)) =
    some (.threw, [.vals [11, 12, 0, 4], .done, .vals [11, 12, 0, 4, 5], .done]) := by decide

end Verif.Block.Vector
