import Verif.StackBuffer.OwnerLemmas

/-
Property theorems for StackBuffer (C09-C16, C70).
-/
namespace Verif.StackBuffer

/-- zero-filled memory for the witnesses -/
def zeros (n : Int) : Mem := ⟨n, fun _ => 0⟩

/-! ## C09, C10: LIFO order with reverse, no access outside the block -/

/-- C09 (and C10, C12): for every capacity, every initial memory content and every finite
sequence of push, pop, reverse, clear and query calls, the calls run without undefined
behaviour and every answer is that of the ideal message stack. -/
theorem lifo (mem : Mem) (cap : Int) (h0 : 0 ≤ cap) (hm : cap ≤ mem.size) (hc : cap < 2147483648)
    (ops : List Op) :
    ∃ os b q, (Raw.init mem cap).run ops = some (os, b) ∧ Session [] ops os q := by
  obtain ⟨os, b, es, h1, h2, _⟩ := (Rep.init mem cap h0 hm hc).run ops
  exact ⟨os, b, _, h1, h2⟩

example : ((Raw.init (zeros 60) 60).run
    [.push [1,2,3], .push [4], .push [5,6], .reverse, .pop 9, .push [7,8], .count, .pop 1, .pop 9,
     .nextDataSize, .pop 9, .reverse, .pop 9, .empty]).map (·.1) =
    some [.pushed true, .pushed true, .pushed true, .done, .popped 3 (some [1,2,3]), .pushed true,
      .num 3, .popped (-2) none, .popped 2 (some [7,8]), .num 1, .popped 1 (some [4]), .done,
      .popped 2 (some [5,6]), .isEmpty true] := by decide

/-- C10: no session reads or writes outside the block. -/
theorem inBounds (mem : Mem) (cap : Int) (h0 : 0 ≤ cap) (hm : cap ≤ mem.size) (hc : cap < 2147483648)
    (ops : List Op) : (Raw.init mem cap).run ops ≠ none := by
  obtain ⟨os, b, q, h1, _⟩ := lifo mem cap h0 hm hc ops
  simp [h1]

example : (0 : Int) ≤ 11 ∧ (11 : Int) ≤ (zeros 11).size ∧ (11 : Int) < 2147483648 := by decide

/-- the hypothesis `cap ≤ mem.size` is needed: with a block smaller than announced the model
does detect the out-of-bounds write -/
example : (Raw.init (zeros 10) 20).run [.push [1]] = none := rfl

/-! ## C11: push succeeds exactly when there is space -/

/-- C11. For every buffer state and all arguments: a push returns true iff the data pointer
is not null, the size is positive and `isSpaceAvailable` was true; a refused push leaves the
whole state unchanged. -/
theorem push_iff_space (b b' : Raw) (data : Option Msg) (n : Int) (r : Bool)
    (hp : b.push data n = some (r, b')) :
    (r = true ↔ data ≠ none ∧ 0 < n ∧ b.isSpaceAvailable n = true) ∧ (r = false → b' = b) := by
  unfold Raw.push at hp
  cases data with
  | none => cases hp; simp
  | some d =>
    simp only at hp
    by_cases h0 : n ≤ 0
    · rw [if_pos h0] at hp; cases hp; simp; omega
    · rw [if_neg h0] at hp
      cases hs : b.isSpaceAvailable n with
      | false => rw [if_pos hs] at hp; cases hp; simp
      | true =>
        rw [if_neg (by simp [hs])] at hp
        split at hp
        · cases hp
        · simp only [Option.bind_eq_some_iff] at hp
          obtain ⟨_, _, _, _, _, _, hp⟩ := hp
          cases hp
          simp; omega

/-- C11, refusals: never undefined behaviour and no change, in every state. -/
theorem push_refused (b : Raw) (data : Option Msg) (n : Int)
    (h : data = none ∨ n ≤ 0 ∨ b.isSpaceAvailable n = false) :
    b.push data n = some (false, b) := by
  unfold Raw.push
  cases data with
  | none => rfl
  | some d =>
    simp only
    by_cases h0 : n ≤ 0
    · rw [if_pos h0]
    · rw [if_neg h0]
      rcases h with h | h | h
      · cases h
      · exact absurd h h0
      · rw [if_pos h]

example : ∃ b', (Raw.init (zeros 20) 20).push (some [1,2,3]) 3 = some (true, b') := ⟨_, rfl⟩
example : (Raw.init (zeros 20) 20).isSpaceAvailable 13 = false := by decide

/-- C11 for the owning class. -/
theorem owner_push_iff_space (b b' : Buf) (data : Option Msg) (n : Int) (r : Bool)
    (hp : b.push data n = some (r, b')) :
    (r = true ↔ data ≠ none ∧ 0 < n ∧ b.isSpaceAvailable n = true) ∧ (r = false → b' = b) := by
  unfold Buf.push at hp
  simp only [Option.map_eq_some_iff] at hp
  obtain ⟨⟨r', raw'⟩, h1, h2⟩ := hp
  cases h2
  have h3 := push_iff_space _ _ _ _ _ h1
  refine ⟨h3.1, fun h => ?_⟩
  rw [h3.2 h]
  cases b with
  | mk d o _ _ _ _ _ _ => cases d <;> cases o <;> simp [Buf.setRaw, Buf.raw, Buf.dmem]

example : ∃ b b', Buf.ofSize (fun _ => 7) 20 = some b ∧ b.push (some [1,2,3]) 3 = some (true, b') :=
  ⟨_, _, rfl, rfl⟩

/-! ## C12: pop result codes and counts -/

/-- C12: after any session, with `q` the messages on the stack (top first), `pop`,
`nextDataSize`, `getCurrentCount` and `empty` answer as the protocol says, and a pop that
does not deliver has no effect at all. -/
theorem pop_protocol (mem : Mem) (cap : Int) (h0 : 0 ≤ cap) (hm : cap ≤ mem.size)
    (hc : cap < 2147483648) (ops : List Op) (os : List Obs) (b : Raw)
    (hrun : (Raw.init mem cap).run ops = some (os, b)) :
    ∃ q, Session [] ops os q ∧ b.getCurrentCount = q.length ∧ b.empty = q.isEmpty ∧
      b.nextDataSize = some (match q with | [] => 0 | d :: _ => (d.length : Int)) ∧
      ∀ max, ∃ r out b', b.pop max = some (r, out, b') ∧
        match q with
        | [] => r = 0 ∧ out = none ∧ b' = b
        | d :: rest =>
          if (d.length : Int) ≤ max then r = d.length ∧ out = some d ∧
              b'.getCurrentCount = rest.length ∧
              b'.nextDataSize = some (match rest with | [] => 0 | e :: _ => (e.length : Int))
          else r = -(d.length : Int) ∧ out = none ∧ b' = b := by
  obtain ⟨os', b', es, h1, h2, h3, _⟩ := (Rep.init mem cap h0 hm hc).run ops
  rw [h1] at hrun
  cases hrun
  refine ⟨_, h2, by simpa [Raw.getCurrentCount] using h3.cnt, by simpa using h3.empty_eq, h3.nextDataSize, ?_⟩
  intro max
  cases es with
  | nil => exact ⟨_, _, _, h3.pop_empty max, rfl, rfl, rfl⟩
  | cons e rest =>
    by_cases hmx : (e.2.length : Int) ≤ max
    · refine ⟨_, _, _, h3.pop_ok max hmx, ?_⟩
      simp only [List.map_cons, hmx, if_true]
      exact ⟨trivial, trivial, by simpa [Raw.getCurrentCount] using h3.release.cnt, h3.release.nextDataSize⟩
    · refine ⟨_, _, _, h3.pop_small max (by omega), ?_⟩
      simp only [List.map_cons, hmx, if_false]
      exact ⟨trivial, trivial, trivial⟩

example : ∃ os b, (Raw.init (zeros 40) 40).run [.push [1,2,3], .push [4], .reverse] = some (os, b) ∧
    b.empty = false := ⟨_, _, rfl, rfl⟩

/-! ## C13, C15: owning objects: resize, copies, moves, swap -/

/-- C13 and C15 (and C09, C10, C12 for the owning class): any session of a careful client on
any number of StackBuffer objects (construction, copies, moves, assignments, swaps, resizes
to any size, all calls, destruction) runs without undefined behaviour, and every object
behaves as an independent ideal stack with the stated capacity: a resize keeps all messages,
or throws (only when shrinking a non-empty buffer) and changes nothing.
The client's only restrictions (`OOp.careful`) are: no self-assignment, and an object that
was the source of a move assignment is not resized (or copy-assigned) to a size within its
old `rawBlockCapacity()`; without that restriction C15 fails (`moved_from_violation`). -/
theorem objects_session_partial (fresh : Nat → Int → UInt8) (ops : List OOp) :
    ∃ os w q, runWorld fresh (fun _ => none) ops = some (os, w) ∧
      OSession (fun _ => none) ops os q := by
  obtain ⟨os, w, q, h1, h2, _⟩ := WRep.init.run fresh ops
  exact ⟨os, w, q, h1, h2⟩

example : (runWorld (fun _ _ => 0) (fun _ => none)
    [.new 0 40, .call 0 (.push [1,2,3]), .call 0 (.push [4,5]), .copyNew 1 0, .resize 0 100,
     .call 0 .reverse, .call 0 (.pop 9), .capacity 0, .moveNew 2 1, .call 2 (.pop 9),
     .call 1 .empty, .resize 2 30, .resize 2 5, .swap 0 2, .call 0 (.pop 9), .call 2 (.pop 9),
     .moveAssign 0 2, .call 0 .empty, .resize 2 7, .destroy 0, .destroy 1, .destroy 2]).map (·.1) =
    some [.done, .obs (.pushed true), .obs (.pushed true), .done, .returned true,
      .obs .done, .obs (.popped 3 (some [1,2,3])), .cap 100, .done, .obs (.popped 2 (some [4,5])),
      .obs (.isEmpty true), .returned true, .threw, .done, .obs (.popped 3 (some [1,2,3])),
      .obs (.popped 2 (some [4,5])), .done, .obs (.isEmpty true), .skipped, .done, .done, .done] := by
  decide

/-- Violation of C15: after `b = std::move(a)`, `a.resize(10)` reports success but `a` has no
memory: the next push writes through a null pointer. -/
theorem moved_from_violation : ∃ a b c,
    Buf.ofSize (fun _ => 0) 20 = some a ∧ Buf.default.moveAssign a = (a, b) ∧
    b.resize (fun _ => 0) 10 = some (.ok true c) ∧ c.capacity = 10 ∧ c.isSpaceAvailable 1 = true ∧
    c.push (some [1]) 1 = none := ⟨_, _, _, rfl, rfl, rfl, rfl, by decide, rfl⟩

/-- C13: whenever `resize` throws, in any state whatsoever, the buffer is unchanged. -/
theorem resize_throw_unchanged (b b' : Buf) (fresh : Int → UInt8) (n : Int)
    (h : b.resize fresh n = some (.thrown b')) : b' = b := by
  unfold Buf.resize at h
  split at h
  · cases h
  split at h
  · cases h
  split at h
  · simp only [Option.bind_eq_some_iff] at h
    obtain ⟨_, _, h⟩ := h
    cases h
  split at h
  · simp only [Option.bind_eq_some_iff] at h
    obtain ⟨_, _, _, _, h⟩ := h
    cases h
  split at h
  · cases h; rfl
  · simp only [Option.bind_eq_some_iff] at h
    obtain ⟨_, _, h⟩ := h
    cases h

example : ∃ b b1 b2, Buf.ofSize (fun _ => 0) 40 = some b ∧ b.push (some [1,2,3,4]) 4 = some (true, b1) ∧
    b1.resize (fun _ => 0) 11 = some (.thrown b2) := ⟨_, _, _, rfl, rfl, rfl⟩

/-! ## C14: a grown buffer can store more -/

/-- Full statement of C14. -/
def GrownBufferStoresMore : Prop :=
  ∀ (fresh : Nat → Int → UInt8) (ops : List OOp) os w i b, runWorld fresh (fun _ => none) ops = some (os, w) →
    w i = some b → ∀ n k : Int, b.capacity < n → n < 2147483648 → 0 < k → k + 8 ≤ n - b.capacity →
    ∀ ret b', b.resize (fun _ => 0) n = some (.ok ret b') → b'.isSpaceAvailable k = true

/-- Violation of C14: a buffer of 40 bytes holding one 3 byte message refuses a 1 byte message
after being resized to 100000 bytes. -/
theorem grow_violation : ¬ GrownBufferStoresMore := by
  intro h
  have := h (fun _ _ => 0) [.new 0 40, .call 0 (.push [1,2,3])] _ _ 0 _ rfl rfl 100000 1
    (by decide) (by decide) (by decide) (by decide) _ _ rfl
  revert this
  decide

/-- C14 never holds for a non-empty buffer: after any successful resize to a different size,
every push is refused until the buffer has been emptied. -/
theorem resize_nonempty_blocks_push (fresh : Nat → Int → UInt8) (ops : List OOp) (os : List OObs)
    (w : Nat → Option Buf) (hrun : runWorld fresh (fun _ => none) ops = some (os, w))
    (i : Nat) (b : Buf) (hi : w i = some b) (hne : b.empty = false) (f : Int → UInt8) (n : Int)
    (hn : 0 ≤ n) (hn2 : n < 2147483648) (hd : n ≠ b.capacity)
    (ret : Bool) (b' : Buf) (hr : b.resize f n = some (.ok ret b')) (k : Int) (hk : 0 < k) :
    b'.isSpaceAvailable k = false := by
  obtain ⟨os', w', s, h1, _, h3⟩ := WRep.init.run fresh ops
  rw [h1] at hrun
  cases hrun
  obtain ⟨es, e1, e2⟩ := h3.get hi
  have hnil : es ≠ [] := by
    rintro rfl
    have := e2.rep.empty_eq
    simp [Buf.empty] at hne
    rw [this] at hne; cases hne
  have hcap : b.cap ≠ 0 := fun h => hnil (e2.nil_of_cap h)
  obtain ⟨m, k1, _⟩ := e2.raw_mem hcap
  rcases e2.resize f n hn hn2 (.inl (by simp [k1])) with ⟨b2, f1, f2, f3, f4, _⟩ | ⟨f1, _⟩
  · rw [f1] at hr
    cases hr
    have g1 := f4 hd hnil
    have g2 : b'.count = es.length := f2.rep.cnt
    have g3 : b'.cap = n := f3
    unfold Buf.isSpaceAvailable Raw.isSpaceAvailable
    apply decide_eq_false
    simp only [Buf.raw]
    omega
  · rw [f1] at hr; cases hr

example : ∃ os w b b', runWorld (fun _ _ => 0) (fun _ => none) [.new 0 40, .call 0 (.push [1,2,3])] = some (os, w) ∧
    w 0 = some b ∧ b.empty = false ∧ b.resize (fun _ => 0) 100 = some (.ok true b') :=
  ⟨_, _, _, _, rfl, rfl, rfl, rfl⟩

/-- C14 (partial: empty buffers): growing an empty buffer always succeeds and afterwards a
message of length `k` fits iff `k + 8 ≤ n`. Missing: non-empty buffers, where it is false. -/
theorem grow_empty_partial (fresh : Nat → Int → UInt8) (ops : List OOp) (os : List OObs)
    (w : Nat → Option Buf) (hrun : runWorld fresh (fun _ => none) ops = some (os, w))
    (i : Nat) (b : Buf) (hi : w i = some b) (he : b.empty = true) (f : Int → UInt8) (n : Int)
    (hn : b.rawBlockCapacity < n) (hn2 : n < 2147483648) :
    ∃ b', b.resize f n = some (.ok true b') ∧ ∀ k, b'.isSpaceAvailable k = true ↔ k + 8 ≤ n := by
  obtain ⟨os', w', s, h1, _, h3⟩ := WRep.init.run fresh ops
  rw [h1] at hrun
  cases hrun
  obtain ⟨es, e1, e2⟩ := h3.get hi
  have hes : es = [] := by
    have := e2.rep.empty_eq
    simp only [Buf.empty] at he
    rw [this] at he; simpa using he
  subst hes
  have hc0 := e2.cap0
  have hcA := e2.capA
  simp only [Buf.rawBlockCapacity] at hn
  rcases e2.resize f n (by omega) hn2 (.inr (.inr (.inl hn))) with ⟨b2, f1, f2, f3, f4, _⟩ | ⟨_, f2, _⟩
  · refine ⟨b2, f1, ?_⟩
    intro k
    have g2 : b2.count = 0 := f2.rep.cnt
    have g3 : b2.cap = n := f3
    have g4 : b2.next = 0 := f2.rep.nextE rfl
    simp only [Buf.isSpaceAvailable, Raw.isSpaceAvailable, Buf.raw, decide_eq_true_eq, g2, g3, g4]
    omega
  · exact absurd rfl f2

example : ∃ os w b, runWorld (fun _ _ => 0) (fun _ => none)
    [.new 0 40, .call 0 (.push [1,2,3]), .call 0 (.pop 3)] = some (os, w) ∧
    w 0 = some b ∧ b.empty = true ∧ b.rawBlockCapacity < 100 := ⟨_, _, _, rfl, rfl, rfl, by decide⟩

/-! ## C16: space is reclaimed -/

/-- C16: whenever the buffer is empty, whatever happened before (reverses included), a message
of length `n > 0` is accepted iff `n + 8 ≤ capacity`. -/
theorem space_reclaimed (mem : Mem) (cap : Int) (h0 : 0 ≤ cap) (hm : cap ≤ mem.size)
    (hc : cap < 2147483648) (ops : List Op) (os : List Obs) (b : Raw)
    (hrun : (Raw.init mem cap).run ops = some (os, b)) (he : b.empty = true) (n : Int) :
    b.isSpaceAvailable n = true ↔ n + 8 ≤ cap := by
  obtain ⟨os', b', es, h1, h2, h3, h4⟩ := (Rep.init mem cap h0 hm hc).run ops
  rw [h1] at hrun
  cases hrun
  have hes : es = [] := by
    rw [h3.empty_eq] at he; simpa using he
  subst hes
  have g2 : b.count = 0 := h3.cnt
  have g4 := h3.nextE rfl
  have g3 : b.cap = cap := h4
  simp only [Raw.isSpaceAvailable, decide_eq_true_eq, g2, g3, g4]
  omega

example : ∃ os b, (Raw.init (zeros 60) 60).run
    [.push [1,2,3], .push [4], .push [5,6], .reverse, .pop 9, .push [7], .pop 9, .pop 9, .pop 9] = some (os, b) ∧
    b.empty = true := ⟨_, _, rfl, rfl⟩

/-- C16 for the owning class, after any careful session with resizes, copies, moves. -/
theorem owner_space_reclaimed (fresh : Nat → Int → UInt8) (ops : List OOp) (os : List OObs)
    (w : Nat → Option Buf) (hrun : runWorld fresh (fun _ => none) ops = some (os, w))
    (i : Nat) (b : Buf) (hi : w i = some b) (he : b.empty = true) (n : Int) :
    b.isSpaceAvailable n = true ↔ n + 8 ≤ b.capacity := by
  obtain ⟨os', w', s, h1, _, h3⟩ := WRep.init.run fresh ops
  rw [h1] at hrun
  cases hrun
  obtain ⟨es, e1, e2⟩ := h3.get hi
  have hes : es = [] := by
    have := e2.rep.empty_eq
    simp only [Buf.empty] at he
    rw [this] at he; simpa using he
  subst hes
  have g2 : b.count = 0 := e2.rep.cnt
  have g4 : b.next = 0 := e2.rep.nextE rfl
  simp only [Buf.isSpaceAvailable, Buf.capacity, Raw.isSpaceAvailable, Raw.capacity, Buf.raw, decide_eq_true_eq, g2, g4]
  omega

example : ∃ os w b, runWorld (fun _ _ => 0) (fun _ => none)
    [.new 0 40, .call 0 (.push [1,2,3]), .resize 0 60, .call 0 (.pop 3)] = some (os, w) ∧
    w 0 = some b ∧ b.empty = true ∧ b.capacity = 60 := ⟨_, _, _, rfl, rfl, rfl, rfl⟩

/-! ## C70: exact space accounting without reverse -/

/-- C70: in every session without `reverse`, each stored message costs its length plus 8 bytes
and nothing else: a message of length `n` is accepted iff the lengths of the stored messages,
8 bytes for each of them, and `n + 8` fit in the capacity. -/
theorem space_exact (mem : Mem) (cap : Int) (h0 : 0 ≤ cap) (hm : cap ≤ mem.size)
    (hc : cap < 2147483648) (ops : List Op) (hno : Op.reverse ∉ ops) (os : List Obs) (b : Raw)
    (hrun : (Raw.init mem cap).run ops = some (os, b)) :
    ∃ q, Session [] ops os q ∧ ∀ n, b.isSpaceAvailable n = true ↔
      (q.map fun d => (d.length : Int) + 8).sum + (n + 8) ≤ cap := by
  obtain ⟨os', b', es, h1, h2, h3, h4, h5⟩ := (Rep.init mem cap h0 hm hc).tight_run rfl ops hno
  rw [h1] at hrun
  cases hrun
  refine ⟨_, h2, fun n => ?_⟩
  have g1 := h3.cnt
  have g2 := h4.sum
  have g3 : b.cap = cap := h5
  have g4 : ((es.map (·.2)).map fun d => (d.length : Int) + 8).sum =
      (es.map fun e => (e.2.length : Int)).sum + 8 * es.length := by
    clear g1 g2 h3 h4 h2 h1
    induction es with
    | nil => rfl
    | cons e es ih =>
      simp only [List.map_cons, List.sum_cons, List.length_cons] at ih ⊢
      rw [ih]; omega
  rw [g4]
  simp only [Raw.isSpaceAvailable, decide_eq_true_eq, g1, g3, g2]
  omega

/-- With `reverse` the accounting is not exact: the 10 bytes of the popped message stay unusable
while the other message is stored, so a 24 byte message is refused although it would fit. -/
theorem space_reverse_wastes :
    ((Raw.init (zeros 50) 50).run [.push [1,2,3,4,5,6,7,8,9,10], .push [11], .reverse, .pop 10]).map
      (fun r => r.2.isSpaceAvailable 24) = some false ∧ (1 : Int) + 8 + (24 + 8) ≤ 50 := by decide

example : Op.reverse ∉ [Op.push [1,2], .push [3], .pop 4] ∧
    ∃ os b, (Raw.init (zeros 50) 50).run [.push [1,2], .push [3], .pop 4] = some (os, b) :=
  ⟨by decide, _, _, rfl⟩

end Verif.StackBuffer
