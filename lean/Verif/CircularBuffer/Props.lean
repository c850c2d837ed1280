import Verif.CircularBuffer.World

/-
Property theorems for CircularBuffer (C01-C08).
-/
namespace Verif.CircularBuffer
open Mem

/-! ## C01: first-in first-out, byte for byte -/

/-- The full English property C01+C02 for arbitrary clients: every session on a fresh buffer
runs without undefined behaviour and is a session of the ideal FIFO. -/
def FifoForAllClients : Prop :=
  ∀ (mem : Mem) (cap : Int), cap ≤ mem.size → cap < 2147483648 → ∀ ops : List Op,
    ∃ os b q, runCalls Raw.call (Raw.init mem cap) ops = some (os, b) ∧ Session [] ops os q

/-- C01 (partial: clients that push only after `isSpaceAvailable(size+8)`).  For every
capacity, every initial memory content and every sequence of calls, the session runs
without undefined behaviour and is exactly a session of the ideal message FIFO.
Missing for the full property: clients that push without the 8-byte margin; for them the
property is false (`fifo_violation_*`). -/
theorem fifo_partial (mem : Mem) (cap : Int) (hm : cap ≤ mem.size) (hc : cap < 2147483648)
    (ops : List Op) :
    ∃ os b q, runCalls Raw.carefulCall (Raw.init mem cap) ops = some (os, b) ∧
      Session [] ops os q := by
  obtain ⟨os, b, q, h1, h2, _⟩ := (Rep.init mem cap hm hc).run_careful ops
  exact ⟨os, b, q, h1, h2⟩

/-- C01 (partial: clients that do not overfill the buffer), in terms of the messages only: without `clear`, the
messages accepted so far are the messages delivered so far followed by those still queued,
and draining the buffer delivers exactly those, in order. -/
theorem fifo_order_partial (mem : Mem) (cap : Int) (hm : cap ≤ mem.size) (hc : cap < 2147483648)
    (ops : List Op) (hno : Op.clear ∉ ops) :
    ∃ os b q, runCalls Raw.exactCall (Raw.init mem cap) ops = some (os, b) ∧
      accepted ops os = delivered os ++ q ∧
      (∃ os' b', runCalls Raw.call b (List.replicate q.length (.pop 2147483647)) = some (os', b') ∧
        delivered os' = q ∧ b'.empty = true) := by
  obtain ⟨os, b, q, h1, h2, h3⟩ := (Rep.init mem cap hm hc).run_exact ops
  refine ⟨os, b, q, h1, by simpa using h2.conserve hno, ?_⟩
  clear h1 h2
  induction q generalizing b with
  | nil => exact ⟨[], b, rfl, rfl, by simp [Raw.empty, h3.empty_iff.2 rfl]⟩
  | cons d q ih =>
    have hlen : (d.length : Int) ≤ 2147483647 := by
      obtain ⟨p, _, _, h, _⟩ := h3.front; omega
    obtain ⟨b1, e1, e2⟩ := h3.pop_ok 2147483647 hlen
    obtain ⟨os', b', f1, f2, f3⟩ := ih b1 e2
    refine ⟨.popped d.length (some d) :: os', b', ?_, ?_, f3⟩
    · simp [List.replicate_succ, runCalls, Raw.call, e1, f1]
    · simp [delivered, f2]

/-- zero-filled memory for the witnesses -/
def zeros (n : Int) : Mem := ⟨n, fun _ => 0⟩

/-- the conditions of `fifo_partial` are met, and the session is not trivial: 40 bytes, three
messages pushed, popped, wrapping around the end -/
example : (runCalls Raw.carefulCall (Raw.init (zeros 40) 40)
    [.push [1,2,3,4,5,6,7,8,9,10], .push [11,12,13,14], .pop 100, .push [21], .pop 2, .pop 100,
     .push [31,32], .nextDataSize, .pop 9, .pop 9, .pop 9, .empty]).map (·.1) =
    some [.pushed true, .pushed true, .popped 10 (some [1,2,3,4,5,6,7,8,9,10]), .pushed true,
      .popped (-4) none, .popped 4 (some [11,12,13,14]), .pushed true, .size 1,
      .popped 1 (some [21]), .popped 2 (some [31,32]), .popped 0 none, .isEmpty true] := by
  decide

/-- Violation 1 of C01 (duplicate delivery): capacity 20, one 16-byte message pushed once is
delivered twice. -/
theorem fifo_violation_duplicate :
    (runCalls Raw.call (Raw.init (zeros 20) 20)
      [.push [1,2,3,4,5,6,7,8,9,10,11,12,13,14,15,16], .pop 16, .pop 16]).map (·.1) =
    some [.pushed true, .popped 16 (some [1,2,3,4,5,6,7,8,9,10,11,12,13,14,15,16]),
      .popped 16 (some [1,2,3,4,5,6,7,8,9,10,11,12,13,14,15,16])] := by
  decide

/-- Violation 2 of C01 (loss of everything): a push that exactly fills the gap is accepted
and then the buffer, which holds three messages, reports it is empty. -/
theorem fifo_violation_loss :
    (runCalls Raw.call (Raw.init (zeros 34) 34)
      [.push [1,2,3,4,5,6], .push [7,8,9,10,11,12], .push [0,0,0,0,0,0], .pop 9,
       .push [13,14,15,16,17,18], .empty, .pop 9]).map (·.1) =
    some [.pushed true, .pushed true, .pushed true, .popped 6 (some [1,2,3,4,5,6]), .pushed true,
      .isEmpty true, .popped 0 none] := by
  decide

/-- Violation of C01 as a negated universal statement. -/
theorem fifo_violation : ¬ FifoForAllClients := by
  intro h
  obtain ⟨os, b, q, h1, h2⟩ := h (zeros 20) 20 (by decide) (by decide)
    [.push [1,2,3,4,5,6,7,8,9,10,11,12,13,14,15,16], .pop 16, .pop 16]
  have h3 := fifo_violation_duplicate
  rw [h1] at h3
  simp only [Option.map_some, Option.some.injEq] at h3
  subst h3
  cases h2 with
  | cons a1 a2 =>
    cases a1
    cases a2 with
    | cons b1 b2 =>
      cases b1
      cases b2 with
      | cons c1 c2 => cases c1

/-- The margin of 8 in the careful client is the best possible uniform one: with 7 spare
bytes a message is delivered twice. -/
theorem fifo_margin_tight :
    (Raw.init (zeros 16) 16).isSpaceAvailable (5 + 7) = true ∧
    (runCalls Raw.call (Raw.init (zeros 16) 16) [.push [1,2,3,4,5], .pop 9, .pop 9]).map (·.1) =
      some [.pushed true, .popped 5 (some [1,2,3,4,5]), .popped 5 (some [1,2,3,4,5])] := by
  decide

/-- For every buffer in the wrapped position, a push that exactly fills the gap is accepted
and leaves the buffer reporting "empty": all queued messages are lost. -/
theorem exact_fill_loses_everything (b b' : Raw) (d : Msg) (r : Bool)
    (_hw : b.nw < b.nr) (hgap : b.nr - b.nw = d.length + 4)
    (hp : b.push (some d) d.length = some (r, b')) (hd : d ≠ []) :
    r = true ∧ b'.empty = true := by
  have hpos : ¬ ((d.length : Int) ≤ 0) := by
    cases d with
    | nil => exact absurd rfl hd
    | cons => simp
  unfold Raw.push at hp
  simp only [hpos, if_false] at hp
  rw [if_neg (by omega), if_pos (by omega)] at hp
  simp only [Option.bind_eq_bind, Option.bind_eq_some_iff] at hp
  obtain ⟨m, _, h2⟩ := hp
  cases h2
  refine ⟨rfl, ?_⟩
  simp [Raw.empty]; omega

example : ∃ b' r, (⟨zeros 40, 40, 10, 20⟩ : Raw).push (some [1,2,3,4,5,6]) 6 = some (r, b') :=
  ⟨_, _, rfl⟩

/-! ## C02: no access outside the block -/

/-- C02 (partial: clients that do not overfill the buffer): no session has an
out-of-bounds access.  Missing: other clients, for which it is false (`inBounds_violation`). -/
theorem inBounds_partial (mem : Mem) (cap : Int) (hm : cap ≤ mem.size) (hc : cap < 2147483648)
    (ops : List Op) : runCalls Raw.exactCall (Raw.init mem cap) ops ≠ none := by
  obtain ⟨os, b, q, h1, _⟩ := (Rep.init mem cap hm hc).run_exact ops
  simp [h1]

example : (20 : Int) ≤ (zeros 20).size ∧ (20 : Int) < 2147483648 := by decide

/-- Violation of C02: with capacity 18 the third call writes the wrap marker past the end of
the block (`none` = undefined behaviour), although every push was accepted. -/
theorem inBounds_violation :
    (runCalls Raw.call (Raw.init (zeros 18) 18)
      [.push [1,2,3,4], .push [1,2,3,4], .pop 4]).map (·.1) =
      some [.pushed true, .pushed true, .popped 4 (some [1,2,3,4])] ∧
    (runCalls Raw.call (Raw.init (zeros 18) 18)
      [.push [1,2,3,4], .push [1,2,3,4], .pop 4, .push [9,9,9,9]]) = none := by
  refine ⟨by decide, rfl⟩

/-! ## C03: push succeeds exactly when there is space; a refused push is invisible -/

/-- C03. For every buffer state whatsoever and all arguments: a push that the model executes
returns true iff the data pointer is not null, the size is positive and `isSpaceAvailable`
was true, and a refused push leaves the whole state unchanged. -/
theorem push_iff_space (b b' : Raw) (data : Option Msg) (n : Int) (r : Bool)
    (hp : b.push data n = some (r, b')) :
    (r = true ↔ data ≠ none ∧ 0 < n ∧ b.isSpaceAvailable n = true) ∧ (r = false → b' = b) := by
  unfold Raw.push at hp
  unfold Raw.isSpaceAvailable
  cases data with
  | none => simp only [Option.some.injEq, Prod.mk.injEq] at hp; obtain ⟨rfl, rfl⟩ := hp; simp
  | some d =>
    simp only at hp
    by_cases h0 : n ≤ 0
    · rw [if_pos h0] at hp; cases hp; simp; omega
    · rw [if_neg h0] at hp
      have h0' : 0 < n := by omega
      by_cases h1 : b.nw ≥ b.nr
      · rw [if_pos h1] at hp
        by_cases h2 : b.cap - b.nw ≥ n + 4
        · rw [if_pos h2] at hp
          simp only [Option.bind_eq_bind, Option.bind_eq_some_iff] at hp
          obtain ⟨m, _, h⟩ := hp
          cases h; simp [h0', h1, h2]
        · rw [if_neg h2] at hp
          by_cases h3 : b.nr ≥ n + 4
          · rw [if_pos h3] at hp
            simp only [Option.bind_eq_bind, Option.bind_eq_some_iff] at hp
            obtain ⟨m, _, m2, _, h⟩ := hp
            cases h; simp [h0', h1, h2, h3]
          · rw [if_neg h3] at hp
            cases hp; simp [h1, h2, h3]
      · rw [if_neg h1] at hp
        by_cases h2 : b.nr - b.nw ≥ n + 4
        · rw [if_pos h2] at hp
          simp only [Option.bind_eq_bind, Option.bind_eq_some_iff] at hp
          obtain ⟨m, _, h⟩ := hp
          cases h; simp [h0', h1, h2]
        · rw [if_neg h2] at hp
          cases hp; simp [h1, h2]

/-- C03, refusals: a push without space (or with a null pointer or non-positive size) is
never undefined behaviour and changes nothing, in every state. -/
theorem push_refused (b : Raw) (data : Option Msg) (n : Int)
    (h : data = none ∨ n ≤ 0 ∨ b.isSpaceAvailable n = false) :
    b.push data n = some (false, b) := by
  unfold Raw.push
  cases data with
  | none => rfl
  | some d =>
    simp only
    by_cases h0 : n ≤ 0
    · rw [if_pos h0]
    · rw [if_neg h0]
      have h : b.isSpaceAvailable n = false := by
        rcases h with h | h | h
        · cases h
        · exact absurd h h0
        · exact h
      unfold Raw.isSpaceAvailable at h
      by_cases h1 : b.nw ≥ b.nr
      · rw [if_pos h1] at h ⊢
        by_cases h2 : b.cap - b.nw ≥ n + 4
        · rw [if_pos h2] at h; cases h
        · rw [if_neg h2] at h ⊢
          by_cases h3 : b.nr ≥ n + 4
          · rw [if_pos h3] at h; cases h
          · rw [if_neg h3]
      · rw [if_neg h1] at h ⊢
        by_cases h2 : b.nr - b.nw ≥ n + 4
        · rw [if_pos h2] at h; cases h
        · rw [if_neg h2]

example : ∃ b', (Raw.init (zeros 20) 20).push (some [1,2,3]) 3 = some (true, b') := ⟨_, rfl⟩
example : (Raw.init (zeros 20) 20).isSpaceAvailable 17 = false := by decide

/-- C03 for the owning class. -/
theorem owner_push_iff_space (b b' : Buf) (data : Option Msg) (n : Int) (r : Bool)
    (hp : b.push data n = some (r, b')) :
    (r = true ↔ data ≠ none ∧ 0 < n ∧ b.isSpaceAvailable n = true) ∧ (r = false → b' = b) := by
  unfold Buf.push at hp
  simp only [Option.map_eq_some_iff] at hp
  obtain ⟨⟨r', raw'⟩, h1, h2⟩ := hp
  cases h2
  have h3 := push_iff_space _ _ _ _ _ h1
  refine ⟨h3.1, fun h => ?_⟩
  rw [h3.2 h]
  cases b with
  | mk d _ _ _ _ _ => cases d <;> simp [Buf.setRaw, Buf.raw, Blk.mem]

example : ∃ b b', Buf.ofSize (fun _ => 7) 20 = some b ∧ b.push (some [1,2,3]) 3 = some (true, b') :=
  ⟨_, _, rfl, rfl⟩

/-! ## C04: pop result codes -/

/-- C04 (partial: clients that do not overfill the buffer): after any session, with `q` the messages still queued,
`pop`, `nextDataSize` and `empty` answer exactly as the protocol says and the queue changes
accordingly (third conjunct: what a later drain sees). -/
theorem pop_protocol_partial (mem : Mem) (cap : Int) (hm : cap ≤ mem.size) (hc : cap < 2147483648)
    (ops : List Op) (os : List Obs) (b : Raw)
    (hrun : runCalls Raw.exactCall (Raw.init mem cap) ops = some (os, b)) :
    ∃ q, Session [] ops os q ∧ b.empty = q.isEmpty ∧
      b.nextDataSize = some (match q with | [] => 0 | d :: _ => (d.length : Int)) ∧
      ∀ max, ∃ r out b', b.pop max = some (r, out, b') ∧
        match q with
        | [] => r = 0 ∧ out = none ∧ b' = b
        | d :: rest =>
          if (d.length : Int) ≤ max then r = d.length ∧ out = some d ∧
              b'.nextDataSize = some (match rest with | [] => 0 | e :: _ => (e.length : Int))
          else r = -(d.length : Int) ∧ out = none ∧ b'.nextDataSize = some (d.length : Int) := by
  obtain ⟨os', b', q, h1, h2, h3⟩ := (Rep.init mem cap hm hc).run_exact ops
  rw [h1] at hrun
  cases hrun
  refine ⟨q, h2, ?_, by have := h3.nextDataSize; cases q <;> exact this, ?_⟩
  · have := h3.empty_iff
    cases q <;> simp_all [Raw.empty]
  · intro max
    cases q with
    | nil => exact ⟨_, _, _, h3.pop_empty max, rfl, rfl, rfl⟩
    | cons d rest =>
      by_cases hmx : (d.length : Int) ≤ max
      · obtain ⟨b1, e1, e2⟩ := h3.pop_ok max hmx
        exact ⟨_, _, _, e1, by simp only [hmx, if_true]; refine ⟨trivial, trivial, ?_⟩; have := e2.nextDataSize; cases rest <;> exact this⟩
      · obtain ⟨b1, e1, e2⟩ := h3.pop_small max (by omega)
        exact ⟨_, _, _, e1, by simp only [hmx, if_false]; exact ⟨trivial, trivial, e2.nextDataSize⟩⟩

example : ∃ os b, runCalls Raw.exactCall (Raw.init (zeros 40) 40)
    [.push [1,2,3], .push [4], .pop 2] = some (os, b) ∧ b.empty = false := ⟨_, _, rfl, rfl⟩

/-! ## C07, C08: space -/

/-- Full statement of C07. -/
def EmptyAcceptsAnythingThatFits : Prop :=
  ∀ (mem : Mem) (cap : Int), cap ≤ mem.size → cap < 2147483648 → ∀ (ops : List Op) os b,
    runCalls Raw.carefulCall (Raw.init mem cap) ops = some (os, b) → b.empty = true →
    ∀ n : Int, 0 < n → n + 4 ≤ cap → b.isSpaceAvailable n = true

/-- Violation of C07: the empty buffer of capacity 40 refuses a 20 byte message. -/
theorem empty_accepts_violation : ¬ EmptyAcceptsAnythingThatFits := by
  intro h
  have := h (zeros 40) 40 (by decide) (by decide)
    [.push [1,2,3,4,5,6,7,8,9,10,11,12,13,14], .pop 20] _ _ rfl rfl 20 (by decide) (by decide)
  revert this
  decide

/-- C07 (partial): whatever happened before (any client), an empty buffer accepts every
message of up to about half the capacity. Missing: messages between half and full capacity,
for which it is false. -/
theorem empty_accepts_partial (b : Raw) (he : b.empty = true) (n : Int)
    (hn : 2 * (n + 4) ≤ b.cap + 1) : b.isSpaceAvailable n = true := by
  simp only [Raw.empty, beq_iff_eq] at he
  unfold Raw.isSpaceAvailable
  rw [if_pos (by omega)]
  split
  · rfl
  · rw [if_pos (by omega)]

example : (Raw.init (zeros 40) 40).empty = true ∧ 2 * ((16 : Int) + 4) ≤ 40 + 1 := by decide

/-- One message of `k` bytes, pushed and popped: the buffer is empty, and what it accepts depends on `k`. -/
theorem one_message (mem : Mem) (cap : Int) (hm : cap ≤ mem.size) (hc : cap < 2147483648) (k : Nat) (hk : 0 < k)
    (hcap : (k : Int) + 12 ≤ cap) :
    ∃ os b, runCalls Raw.carefulCall (Raw.init mem cap) [.push (List.replicate k 0), .pop k] = some (os, b) ∧ b.empty = true ∧
      ∀ n, b.isSpaceAvailable n = decide (n + 4 ≤ cap - (k + 4) ∨ n + 4 ≤ k + 4) := by
  have hl : (List.replicate k (0 : UInt8)).length = k := List.length_replicate ..
  have hsp : (Raw.init mem cap).isSpaceAvailable (k + 8) = true := by
    simp only [Raw.isSpaceAvailable, Raw.init, ge_iff_le, Int.le_refl, if_true]
    rw [if_pos (by omega)]
  obtain ⟨m, e1, _, e3, e4, _⟩ := storeMsg_ok (m := mem) (pos := 0) (d := List.replicate k 0) (Int.le_refl _) (by rw [hl]; omega)
  rw [hl] at e1 e3 e4
  have hp : (Raw.init mem cap).push (some (List.replicate k 0)) k = some (true, ⟨m, cap, k + 4, 0⟩) := by
    simp only [Raw.push, Raw.init, ge_iff_le, Int.le_refl, if_true]
    rw [if_neg (by omega), if_pos (by omega), e1]
    simp
  have hr : m.readI32 0 = some (k : Int) := by
    exact readI32_of_read e3 (by omega) (by omega)
  have hq : (⟨m, cap, k + 4, 0⟩ : Raw).pop k = some ((k : Int), some (List.replicate k 0), ⟨m, cap, k + 4, k + 4⟩) := by
    have n1 : ¬ ((k : Int) + 4 = 0) := by omega
    have n2 : ¬ ((k : Int) < 0) := by omega
    have n3 : ¬ (cap - ((k : Int) + 4) < 8) := by omega
    rw [Int.zero_add] at e4
    simp [Raw.pop, n1, n2, n3, hr, e4]
  refine ⟨[.pushed true, .popped k (some (List.replicate k 0))], ⟨m, cap, k + 4, k + 4⟩, ?_, ?_, fun n => ?_⟩
  · simp only [runCalls, Raw.carefulCall, Raw.call, hl, hsp, if_true, hp, Option.map_some, hq]
  · simp [Raw.empty]
  · simp only [Raw.isSpaceAvailable, ge_iff_le, Int.le_refl, if_true]
    by_cases h1 : n + 4 ≤ cap - (k + 4)
    · simp [h1]
    · by_cases h2 : n + 4 ≤ (k : Int) + 4 <;> simp [h1, h2]

theorem careful_cap {b0 b : Raw} (ops : List Op) {os : List Obs} (h : runCalls Raw.carefulCall b0 ops = some (os, b)) :
    b.cap = b0.cap := by
  induction ops generalizing b0 os with
  | nil => cases h; rfl
  | cons op ops ih =>
    unfold runCalls at h
    split at h
    · cases h
    · rename_i o b1 hc
      split at h
      · cases h
      · rename_i os' b2 hr
        cases h
        rw [ih hr]
        cases op with
        | push d =>
          simp only [Raw.carefulCall] at hc
          split at hc
          · simp only [Raw.call, Option.map_eq_some_iff] at hc
            obtain ⟨⟨r, b3⟩, e1, e2⟩ := hc
            cases e2; exact (push_cap_size e1).1
          · cases hc; rfl
        | pop max =>
          simp only [Raw.carefulCall, Raw.call, Option.map_eq_some_iff] at hc
          obtain ⟨⟨r, o', b3⟩, e1, e2⟩ := hc
          cases e2; exact (pop_cap_mem e1).1
        | nextDataSize =>
          simp only [Raw.carefulCall, Raw.call, Option.map_eq_some_iff] at hc
          obtain ⟨r, e1, e2⟩ := hc
          cases e2; rfl
        | empty => cases hc; rfl
        | clear => cases hc; rfl

/-- C07, exactly: an empty buffer accepts a message of `n` bytes whatever happened before if and only if the message and its header
fit into half the capacity. -/
theorem empty_accepts_iff (mem : Mem) (cap : Int) (hm : cap ≤ mem.size) (hc : cap < 2147483648) (h13 : 13 ≤ cap) (n : Int) (hn : 5 ≤ n) :
    (∀ ops os b, runCalls Raw.carefulCall (Raw.init mem cap) ops = some (os, b) → b.empty = true → b.isSpaceAvailable n = true) ↔
      2 * (n + 4) ≤ cap + 1 := by
  constructor
  · intro h
    apply Classical.byContradiction
    intro hb
    by_cases hf : n + 4 ≤ cap
    · obtain ⟨os, b, e, he, ha⟩ := one_message mem cap hm hc (max (cap - n - 7) 1).toNat (by omega) (by omega)
      have := h _ _ _ e he
      rw [ha, decide_eq_true_eq] at this
      omega
    · have := h [] [] _ rfl (by simp [Raw.empty, Raw.init])
      simp only [Raw.isSpaceAvailable, Raw.init, ge_iff_le, Int.le_refl, if_true] at this
      rw [if_neg (by omega), if_neg (by omega)] at this
      cases this
  · intro h ops os b e he
    refine empty_accepts_partial b he n ?_
    have := careful_cap ops e
    have : (Raw.init mem cap).cap = cap := rfl
    omega

/-- `one_message`, `empty_accepts_iff`: capacity 40, the limit is 16 bytes -/
example : (40 : Int) ≤ (zeros 40).size ∧ ((10 : Nat) : Int) + 12 ≤ 40 ∧ (2 * ((16 : Int) + 4) ≤ 40 + 1) ∧ ¬ 2 * ((17 : Int) + 4) ≤ 40 + 1 := by decide

/-- C08. After any session of a client that does not overfill the buffer, however long, once the buffer is empty every
message `d` with `2*(size+12) ≤ capacity+1` is accepted and the next pop delivers it. -/
theorem space_reclaimed (mem : Mem) (cap : Int) (hm : cap ≤ mem.size) (hc : cap < 2147483648)
    (ops : List Op) (os : List Obs) (b : Raw)
    (hrun : runCalls Raw.exactCall (Raw.init mem cap) ops = some (os, b))
    (he : b.empty = true) (d : Msg) (hd : d ≠ []) (hsz : 2 * ((d.length : Int) + 12) ≤ cap + 1) :
    (runCalls Raw.exactCall b [.push d, .pop d.length]).map (·.1) =
      some [.pushed true, .popped d.length (some d)] := by
  obtain ⟨os', b', q, h1, h2, h3⟩ := (Rep.init mem cap hm hc).run_exact ops
  rw [h1] at hrun
  cases hrun
  have hcap : b.cap = cap := by
    clear h2 h3 he
    have : ∀ (b0 : Raw) ops os b, runCalls Raw.exactCall b0 ops = some (os, b) → b.cap = b0.cap := by
      intro b0 ops
      induction ops generalizing b0 with
      | nil => intro os b h; cases h; rfl
      | cons op ops ih =>
        intro os b h
        unfold runCalls at h
        split at h
        · cases h
        · rename_i o b1 hc
          split at h
          · cases h
          · rename_i os' b2 hr
            cases h
            rw [ih _ _ _ hr]
            cases op with
            | push d =>
              simp only [Raw.exactCall] at hc
              by_cases hsp : b0.overfills d.length = true
              · rw [if_pos hsp] at hc
                cases hc; rfl
              · rw [if_neg hsp] at hc
                simp only [Raw.call, Option.map_eq_some_iff] at hc
                obtain ⟨⟨r, b3⟩, e1, e2⟩ := hc
                cases e2; exact (push_cap_size e1).1
            | pop max =>
              simp only [Raw.exactCall, Raw.call, Option.map_eq_some_iff] at hc
              obtain ⟨⟨r, o', b3⟩, e1, e2⟩ := hc
              cases e2; exact (pop_cap_mem e1).1
            | nextDataSize =>
              simp only [Raw.exactCall, Raw.call, Option.map_eq_some_iff] at hc
              obtain ⟨r, e1, e2⟩ := hc
              cases e2; rfl
            | empty => cases hc; rfl
            | clear => cases hc; rfl
    exact this _ _ _ _ h1
  have hq : q = [] := by
    apply h3.empty_iff.1
    simpa [Raw.empty] using he
  subst hq
  have hg : b.isSpaceAvailable (d.length + 8) = true :=
    empty_accepts_partial b he _ (by omega)
  have hpos : 0 < d.length := by cases d <;> simp_all
  obtain ⟨b1, e1, e2⟩ := h3.push d hpos hg
  obtain ⟨b2, e3, e4⟩ := e2.pop_ok (d.length : Int) (by omega)
  simp [runCalls, Raw.exactCall, (margin_exact (by omega) hg).2, Raw.call, e1, e3]

example : ∃ os b, runCalls Raw.exactCall (Raw.init (zeros 64) 64)
    [.push [1,2,3,4,5,6,7,8,9,10,11,12,13,14,15,16], .pop 20, .push [1,2,3], .pop 20] = some (os, b) ∧
    b.empty = true ∧ 2 * (([1,2,3,4,5] : Msg).length + 12 : Int) ≤ 64 + 1 := ⟨_, _, rfl, rfl, by decide⟩

/-! ## C05: resize -/

/-- C05, throwing: whenever `resize` throws, in any state whatsoever, the buffer is
unchanged. -/
theorem resize_throw_unchanged (b b' : Buf) (fresh : Int → UInt8) (n : Int)
    (h : b.resize fresh n = some (.thrown b')) : b' = b := by
  unfold Buf.resize at h
  split at h
  · cases h
  split at h
  · simp only [Option.bind_eq_bind, Option.bind_eq_some_iff] at h
    obtain ⟨_, _, h⟩ := h
    cases h
  split at h
  · simp only [Option.bind_eq_bind, Option.bind_eq_some_iff] at h
    obtain ⟨_, _, h⟩ := h
    split at h
    · cases h
    · simp only [Option.bind_eq_some_iff] at h
      obtain ⟨_, _, h⟩ := h
      cases h
  split at h
  · split at h
    · cases h
    · split at h
      · simp only [Option.bind_eq_bind, Option.bind_eq_some_iff] at h
        obtain ⟨_, _, h⟩ := h
        cases h
      · cases h; rfl
  · simp only at h
    split at h
    · simp only [Option.bind_eq_bind, Option.bind_eq_some_iff] at h
      obtain ⟨_, _, h⟩ := h
      cases h
    · cases h; rfl

example : ∃ b b1 b2, Buf.ofSize (fun _ => 0) 40 = some b ∧ b.push (some [1,2,3,4]) 4 = some (true, b1) ∧
    b1.resize (fun _ => 0) 5 = some (.thrown b2) := ⟨_, _, _, rfl, rfl, rfl⟩

/-- C05 and C06 (partial), with C01 and C02 for the owning class: any session of a careful
client on any number of CircularBuffer objects (construction, copies, moves, assignments,
resizes, pushes, pops, destruction) runs without undefined behaviour, no double free
included, and every object behaves as an independent ideal FIFO with the stated capacity.
Missing: the steps the careful client avoids (`OOp.careful`): pushes that overfill the buffer
(`overfill_breaks`), shrinking a non-empty buffer so that less than 8 bytes are left behind
its newest message (`jam_breaks`), copying a buffer without memory
(`copy_of_default_violation`). For each of them the property fails. -/
theorem objects_session_partial (fresh : Nat → Int → UInt8) (ops : List OOp) :
    ∃ os w q, runWorld fresh (fun _ => none) ops = some (os, w) ∧
      OSession (fun _ => none) ops os q := by
  obtain ⟨os, w, q, h1, h2, _⟩ := WRep.init.run fresh ops
  exact ⟨os, w, q, h1, h2⟩

example : (runWorld (fun _ _ => 0) (fun _ => none)
    [.new 0 40, .call 0 (.push [1,2,3]), .call 0 (.push [4,5]), .copyNew 1 0, .resize 0 100,
     .call 0 (.pop 9), .capacity 0, .moveNew 2 1, .call 2 (.pop 9), .call 2 (.pop 9),
     .call 1 .empty, .moveAssign 0 2, .call 0 .empty, .destroy 0, .destroy 1, .destroy 2]).map (·.1) =
    some [.done, .obs (.pushed true), .obs (.pushed true), .done, .done,
      .obs (.popped 3 (some [1,2,3])), .cap 100, .done, .obs (.popped 3 (some [1,2,3])),
      .obs (.popped 2 (some [4,5])), .obs (.isEmpty true), .done, .obs (.isEmpty true),
      .done, .done, .done] := by decide

/-- C05, growing: after any session of a careful client, changing the size of any buffer to
`n ≥ capacity()` does not throw, sets the capacity to `n`, and popping then delivers exactly
the messages it would have delivered without the resize. -/
theorem resize_grow (fresh : Nat → Int → UInt8) (ops : List OOp) (os : List OObs)
    (w : Nat → Option Buf) (hrun : runWorld fresh (fun _ => none) ops = some (os, w))
    (i : Nat) (b : Buf) (hi : w i = some b) (f : Int → UInt8) (n : Int)
    (hn : b.capacity ≤ n) (hn2 : n < 2147483648) :
    ∃ b', b.resize f n = some (.ok b') ∧ b'.capacity = n ∧ ∀ k, b'.drain k = b.drain k := by
  obtain ⟨os', w', s, h1, _, h3⟩ := WRep.init.run fresh ops
  rw [h1] at hrun
  cases hrun
  obtain ⟨q, e1, e2, e3⟩ := h3.get hi
  have hn' : b.cap ≤ n := hn
  rcases e2.resize f n (by have := e2.cap0; omega) hn2
    (by simp only [Buf.jams, decide_eq_false_iff_not]; omega) with ⟨b', f1, f2, f3⟩ | ⟨_, f2, _⟩
  case inr => have f2 : n < b.cap := f2; omega
  exact ⟨b', f1, f3, fun k => by rw [f2.drain, e2.drain]⟩

example : ∃ os w b, runWorld (fun _ _ => 0) (fun _ => none)
    [.new 0 40, .call 0 (.push [1,2,3]), .call 0 (.push [4,5])] = some (os, w) ∧ w 0 = some b ∧
    b.capacity = 40 ∧ b.drain 3 = some [[1,2,3],[4,5]] := ⟨_, _, _, rfl, rfl, rfl, by decide⟩

/-- C05, shrinking: after any careful session, a resize that does not throw leaves at least as
many bytes as the stored messages need (4 header bytes and the payload of each). -/
theorem resize_never_too_small (fresh : Nat → Int → UInt8) (ops : List OOp) (os : List OObs)
    (w : Nat → Option Buf) (hrun : runWorld fresh (fun _ => none) ops = some (os, w))
    (i : Nat) (b b' : Buf) (hi : w i = some b) (f : Int → UInt8) (n : Int) (hn : 0 ≤ n)
    (hr : b.resize f n = some (.ok b')) (k : Nat) (l : List Msg) (hl : b.drain k = some l) :
    (l.map fun d => (d.length : Int) + 4).sum ≤ n := by
  obtain ⟨os', w', s, h1, _, h3⟩ := WRep.init.run fresh ops
  rw [h1] at hrun
  cases hrun
  obtain ⟨q, e1, e2, e3⟩ := h3.get hi
  have h4 := e2.resize_ok_fits hn hr
  rw [e2.drain] at hl
  cases hl
  have := usedBytes_take q k
  unfold usedBytes at this h4
  omega

example : ∃ os w b b', runWorld (fun _ _ => 0) (fun _ => none)
    [.new 0 40, .call 0 (.push [1,2,3]), .call 0 (.push [4,5])] = some (os, w) ∧ w 0 = some b ∧
    b.resize (fun _ => 0) 30 = some (.ok b') ∧ b.drain 3 = some [[1,2,3],[4,5]] :=
  ⟨_, _, _, _, rfl, rfl, rfl, by decide⟩

/-- Violation of C05: shrinking to exactly the used size makes the single message of the
buffer be delivered twice. -/
theorem resize_violation : ∃ b b1 b2 b3 b4,
    Buf.ofSize (fun _ => 0) 40 = some b ∧
    b.push (some [1,2,3,4,5,6,7,8,9,10,11,12,13,14,15,16]) 16 = some (true, b1) ∧
    b1.resize (fun _ => 0) 20 = some (.ok b2) ∧
    b2.pop 16 = some (16, some [1,2,3,4,5,6,7,8,9,10,11,12,13,14,15,16], b3) ∧
    b3.pop 16 = some (16, some [1,2,3,4,5,6,7,8,9,10,11,12,13,14,15,16], b4) :=
  ⟨_, _, _, _, _, rfl, rfl, rfl, rfl, rfl⟩

/-! ## C06: copies and moves -/

/-- Violation of C06: copy-constructing from a default-constructed buffer and then moving
another buffer into the copy frees the same memory twice. -/
theorem copy_of_default_violation : ∃ c b,
    Buf.copyCtor (fun _ => 0) Buf.default = some c ∧ Buf.ofSize (fun _ => 0) 10 = some b ∧
    c.moveAssign b = none := ⟨_, _, rfl, rfl, rfl⟩

/-- Violation of C06 (leak): a buffer constructed with size 0 owns a block that its
destructor does not free. -/
theorem size_zero_leak : ∃ b, Buf.ofSize (fun _ => 0) 0 = some b ∧
    (∃ m, b.data = .owned m) ∧ ¬ (b.actualCapacity > 0) := ⟨_, rfl, ⟨_, rfl⟩, by decide⟩

end Verif.CircularBuffer
