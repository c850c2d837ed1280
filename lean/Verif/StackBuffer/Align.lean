import Verif.StackBuffer.Props

/-
C112: the index entries (`dataIndex`, two `int32_t`: an alignment of 4) that StackBuffer keeps at the end of its memory are accessed
through a `dataIndex*` (StackBuffer.hpp:47-49, 79-80, 90, 96-98, 123-125), which is undefined if the address is not a multiple of 4.
-/
namespace Verif.StackBuffer

/-- the call reads or writes index entries: lines 79-80 (push), 90 (nextDataSize), 96-98 (pop), 124 (reverse) -/
def Raw.usesIndex (b : Raw) : Op → Bool
  | .push d => decide (0 < d.length) && b.isSpaceAvailable d.length
  | .pop _ => decide (b.count > 0)
  | .nextDataSize => decide (b.count > 0)
  | .reverse => decide (b.count > 1)
  | _ => false

/-- A call on a buffer whose memory begins at the address `base`: the model of `Raw.call`, with accesses to misaligned index entries
undefined.  All entries lie a multiple of 8 bytes from `nextIndex`. -/
def Raw.callAt (base : Int) (b : Raw) (op : Op) : Option (Obs × Raw) :=
  if b.usesIndex op = true ∧ (base + b.ni) % 4 ≠ 0 then none else b.call op

/-- a sequence of calls -/
def Raw.runAt (base : Int) : Raw → List Op → Option (List Obs × Raw)
  | b, [] => some ([], b)
  | b, op :: ops => (b.callAt base op).bind fun (o, b') => (Raw.runAt base b' ops).map fun (os, b'') => (o :: os, b'')

theorem Rep.room8 {b es} (h : Rep b es) {op : Op} (hu : b.usesIndex op = true) : 8 ≤ b.cap := by
  have hr := h.room
  have hc := h.cnt
  have h0 := h.next0
  cases op with
  | push d =>
    simp only [Raw.usesIndex, Raw.isSpaceAvailable, Bool.and_eq_true, decide_eq_true_eq] at hu
    omega
  | pop m => simp only [Raw.usesIndex, decide_eq_true_eq] at hu; omega
  | nextDataSize => simp only [Raw.usesIndex, decide_eq_true_eq] at hu; omega
  | reverse => simp only [Raw.usesIndex, decide_eq_true_eq] at hu; omega
  | _ => cases hu

theorem Rep.callAt {b es} (h : Rep b es) (base : Int) (op : Op) :
    b.callAt base op = if b.usesIndex op = true ∧ (base + b.cap) % 4 ≠ 0 then none else b.call op := by
  unfold Raw.callAt
  by_cases hu : b.usesIndex op = true
  · have := h.ni (h.room8 hu)
    have e : (base + b.ni) % 4 = (base + b.cap) % 4 := by omega
    rw [e]
  · simp [hu]

/-- C112: if the memory ends at a multiple of 4, all histories of calls are as they are without regard to alignment (C09–C12). -/
theorem aligned_partial (mem : Mem) (cap : Int) (h0 : 0 ≤ cap) (hm : cap ≤ mem.size) (hc : cap < 2147483648) (base : Int)
    (ha : (base + cap) % 4 = 0) (ops : List Op) :
    Raw.runAt base (Raw.init mem cap) ops = (Raw.init mem cap).run ops := by
  have key : ∀ ops b es, Rep b es → (base + b.cap) % 4 = 0 → Raw.runAt base b ops = b.run ops := by
    intro ops
    induction ops with
    | nil => intro b es _ _; rfl
    | cons op ops ih =>
      intro b es h ha
      obtain ⟨os, b', es', e1, e2, e3, e4⟩ := h.run [op]
      have hcall : ∃ o, b.call op = some (o, b') := by
        simp only [Raw.run] at e1
        cases hx : b.call op with
        | none => rw [hx] at e1; cases e1
        | some r => rw [hx] at e1; cases e1; exact ⟨_, rfl⟩
      obtain ⟨o, hcall⟩ := hcall
      have hcap : b'.cap = b.cap := e4
      simp only [Raw.runAt, h.callAt base op, ha]
      simp only [ne_eq, not_true_eq_false, and_false, if_false, hcall, Option.bind_some, Raw.run]
      rw [ih b' es' e3 (by rw [hcap]; exact ha)]
      cases b'.run ops with
      | none => rfl
      | some r => rfl
  exact key ops _ _ (Rep.init mem cap h0 hm hc) ha

/-- Violation of C112: if the memory does not end at a multiple of 4, the first push that finds room is undefined, after any history
of calls that were not. -/
theorem misaligned_push (mem : Mem) (cap : Int) (h0 : 0 ≤ cap) (hm : cap ≤ mem.size) (hc : cap < 2147483648) (base : Int)
    (ha : (base + cap) % 4 ≠ 0) (ops : List Op) (os : List Obs) (b : Raw) (hrun : (Raw.init mem cap).run ops = some (os, b))
    (d : Msg) (hd : d ≠ []) (hs : b.isSpaceAvailable d.length = true) : b.callAt base (.push d) = none := by
  obtain ⟨os', b', es', e1, e2, e3, e4⟩ := (Rep.init mem cap h0 hm hc).run ops
  rw [e1] at hrun
  cases hrun
  rw [e3.callAt, if_pos]
  refine ⟨?_, ?_⟩
  · simp only [Raw.usesIndex, Bool.and_eq_true, decide_eq_true_eq]
    exact ⟨by cases d with | nil => exact absurd rfl hd | cons => simp, hs⟩
  · have : b.cap = cap := e4
    rw [this]; exact ha

/-- C112, exactly which calls: if the memory does not end at a multiple of 4, then after any history a call is undefined if and only
if it is a push that would be accepted, a pop or a `nextDataSize` on a buffer that holds a message, or a reversal of two or more
messages. -/
theorem misaligned_iff (mem : Mem) (cap : Int) (h0 : 0 ≤ cap) (hm : cap ≤ mem.size) (hc : cap < 2147483648) (base : Int)
    (ha : (base + cap) % 4 ≠ 0) (ops : List Op) (os : List Obs) (b : Raw) (hrun : (Raw.init mem cap).run ops = some (os, b)) :
    ∃ q, Session [] ops os q ∧ ∀ op, b.callAt base op = none ↔
      match op with
      | .push d => ∃ b', b.call (.push d) = some (.pushed true, b')
      | .pop _ | .nextDataSize => q ≠ []
      | .reverse => 2 ≤ q.length
      | .count | .empty | .clear => False := by
  obtain ⟨os', b', es', e1, e2, e3, e4⟩ := (Rep.init mem cap h0 hm hc).run ops
  rw [e1] at hrun
  cases hrun
  have e4' : b.cap = cap := e4
  refine ⟨es'.map Prod.snd, e2, fun op => ?_⟩
  have key : b.callAt base op = none ↔ b.usesIndex op = true := by
    rw [e3.callAt, e4']
    obtain ⟨o, b1, es1, h1, _⟩ := e3.call op
    by_cases hu : b.usesIndex op = true
    · simp [hu, ha]
    · simp [hu, h1]
  rw [key]
  have hcnt := e3.cnt
  cases op with
  | push d =>
    simp only [Raw.usesIndex, Bool.and_eq_true, decide_eq_true_eq]
    constructor
    · rintro ⟨hd, hs⟩
      obtain ⟨b1, e, _⟩ := e3.push d (by rintro rfl; simp at hd) hs
      exact ⟨b1, by simp [Raw.call, e]⟩
    · rintro ⟨b1, e⟩
      simp only [Raw.call, Raw.push, Option.map_eq_some_iff] at e
      obtain ⟨r, hr, e⟩ := e
      split at hr
      · cases hr; cases e
      · rename_i hn
        split at hr
        · cases hr; cases e
        · rename_i hs
          exact ⟨by omega, by simpa using hs⟩
  | pop m =>
    simp only [Raw.usesIndex, decide_eq_true_eq, hcnt, ← List.length_pos_iff, List.length_map]; omega
  | nextDataSize =>
    simp only [Raw.usesIndex, decide_eq_true_eq, hcnt, ← List.length_pos_iff, List.length_map]; omega
  | reverse => simp only [Raw.usesIndex, decide_eq_true_eq, List.length_map]; omega
  | _ => simp [Raw.usesIndex]

example : (∃ os b, (Raw.init ⟨41, fun _ => 0⟩ 41).run [.empty, .pop 3, .reverse] = some (os, b) ∧ b.callAt 4096 (.pop 3) ≠ none ∧
    b.callAt 4096 (.push [1]) = none) ∧ (4096 + 41 : Int) % 4 ≠ 0 := ⟨⟨_, _, rfl, by simp [Raw.callAt, Raw.usesIndex, Raw.init, Raw.call, Raw.pop], rfl⟩, by decide⟩

/-- C112 for the owning class (memory from `new` begins at a multiple of 4): after any careful session the index entries of a buffer
are aligned exactly if its capacity is a multiple of 4. -/
theorem owner_aligned_iff (fresh : Nat → Int → UInt8) (ops : List OOp) (os : List OObs) (w : Nat → Option Buf)
    (hrun : runWorld fresh (fun _ => none) ops = some (os, w)) (i : Nat) (b : Buf) (hi : w i = some b) (hc : 8 ≤ b.capacity)
    (base : Int) (hb : base % 4 = 0) : (base + b.ni) % 4 = 0 ↔ b.capacity % 4 = 0 := by
  obtain ⟨os', w', s, h1, _, h3⟩ := WRep.init.run fresh ops
  rw [h1] at hrun
  cases hrun
  obtain ⟨es, _, e2⟩ := h3.get hi
  have := e2.rep.ni hc
  have h1 : b.raw.ni = b.ni := rfl
  have h2 : b.raw.cap = b.capacity := rfl
  rw [h1, h2] at this
  omega

example : Raw.runAt 4096 (Raw.init ⟨40, fun _ => 0⟩ 40) [.push [1, 2], .push [3], .reverse, .nextDataSize, .pop 9] =
    (Raw.init ⟨40, fun _ => 0⟩ 40).run [.push [1, 2], .push [3], .reverse, .nextDataSize, .pop 9] := rfl

/-- a StackBuffer of 41 bytes -/
theorem misaligned_violation : ∃ os w b, runWorld (fun _ _ => 0) (fun _ => none) [.new 0 41] = some (os, w) ∧ w 0 = some b ∧
    b.raw.isSpaceAvailable 1 = true ∧ b.raw.callAt 4096 (.push [7]) = none ∧ (b.raw.callAt 4096 .empty).isSome ∧
    ¬ (4096 + b.ni) % 4 = 0 :=
  ⟨_, _, _, rfl, rfl, rfl, rfl, rfl, by decide⟩

end Verif.StackBuffer
