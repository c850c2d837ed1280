import Verif.CircularBuffer.Props

/-
C114: exactly which pushes and which resizes break a CircularBuffer.
-/
namespace Verif.CircularBuffer
open Mem

/-- C01, C02 (partial): a client may push whenever this does not overfill the buffer: every session then runs without undefined
behaviour and is a session of the ideal FIFO.  Missing: overfilling pushes, each of which breaks the buffer (`push_safe_iff`). -/
theorem fifo_exact_partial (mem : Mem) (cap : Int) (hm : cap ≤ mem.size) (hc : cap < 2147483648) (ops : List Op) :
    ∃ os b q, runCalls Raw.exactCall (Raw.init mem cap) ops = some (os, b) ∧ Session [] ops os q := by
  obtain ⟨os, b, q, h1, h2, _⟩ := (Rep.init mem cap hm hc).run_exact ops
  exact ⟨os, b, q, h1, h2⟩

/-- a session in which messages end in the last bytes of the block and one byte in front of the oldest message -/
example : (runCalls Raw.exactCall (Raw.init (zeros 40) 40)
    [.push [1,2,3,4,5,6,7,8], .push [9], .pop 9, .push [1,2,3,4,5,6,7,8,9,10,11,12,13,14,15,16,17], .push [1,2,3,4,5,6,7], .nextDataSize,
     .push [1,2,3,4,5,6,7,8], .pop 30, .pop 30, .pop 30, .empty]).map (·.1) =
    some [.pushed true, .pushed true, .popped 8 (some [1,2,3,4,5,6,7,8]), .pushed true, .pushed true, .size 1,
      .pushed false, .popped 1 (some [9]), .popped 17 (some [1,2,3,4,5,6,7,8,9,10,11,12,13,14,15,16,17]), .popped 7 (some [1,2,3,4,5,6,7]),
      .isEmpty true] := by
  decide

/-! ### A jammed buffer does not recover by popping -/

/-- the call and its answer determine what is queued afterwards -/
def nextQueue (q : List Msg) : Op → Obs → List Msg
  | .push d, .pushed true => q ++ [d]
  | .pop _, .popped _ (some _) => q.tail
  | .clear, _ => []
  | _, _ => q

theorem Fifo.next {q op o q'} (h : Fifo q op o q') : q' = nextQueue q op o := by
  cases h <;> rfl

theorem Fifo.det {q op o q1 q2} (a : Fifo q op o q1) (b : Fifo q op o q2) : q1 = q2 := by
  rw [a.next, b.next]

theorem Fifo.popInv {l op o q'} (h : Fifo l op o q') : ∀ {max r x}, op = .pop max → o = .popped r (some x) →
    ∃ d q, l = d :: q ∧ r = d.length ∧ x = d ∧ q' = q := by
  cases h with
  | pop d q max h => rintro _ _ _ - h; cases h; exact ⟨_, _, rfl, rfl, rfl, rfl⟩
  | _ => intros; simp_all

theorem Session.det {q ops os q1 q2} (a : Session q ops os q1) (b : Session q ops os q2) : q1 = q2 := by
  induction a generalizing q2 with
  | nil q => cases b; rfl
  | cons h _ ih =>
    cases b with
    | cons h' t' => cases h.det h'; exact ih t'

/-- what a pop that delivers a message from the beginning of the block does to the read position -/
theorem pop_origin {b b' : Raw} {max r d} (h0 : b.nr = 0) (e : b.pop max = some (r, some d, b')) :
    (b'.nr = 0 ∨ b'.nr = r + 4) ∧ b'.nw = b.nw := by
  unfold Raw.pop at e
  split at e
  · cases e
  simp only [h0, ite_self, Option.bind_eq_bind, Option.bind_eq_some_iff] at e
  obtain ⟨s0, _, e⟩ := e
  have key : ∀ s : Int, (if s ≤ max then
      if s < 0 then none
      else (b.mem.read (0 + 4) s.toNat).bind fun d =>
        some (s, some d, ({ b with nr := if b.cap - (0 + (s + 4)) < 8 then 0 else 0 + (s + 4) } : Raw))
      else some (-s, none, { b with nr := 0 })) = some (r, some d, b') → (b'.nr = 0 ∨ b'.nr = r + 4) ∧ b'.nw = b.nw := by
    intro s e
    split at e
    · split at e
      · cases e
      · simp only [Option.bind_eq_some_iff] at e
        obtain ⟨d', _, e⟩ := e
        cases e
        refine ⟨?_, rfl⟩
        simp only [Int.zero_add]
        split
        · exact .inl rfl
        · exact .inr rfl
    · cases e
  by_cases hs : s0 < 0
  · rw [if_pos hs, Option.bind_eq_some_iff] at e
    obtain ⟨s, _, e⟩ := e
    exact key s e
  · rw [if_neg hs, Option.bind_some] at e
    exact key s0 e

/-- what is left to do: pop everything, then ask whether the buffer is empty -/
def drainOps (n : Nat) : List Op := List.replicate n (.pop 2147483647) ++ [.empty]

theorem jam_drain {b : Raw} {q : List Msg} (hq : q ≠ []) (h0 : 0 ≤ b.nr) (hs : Seg b.mem (b.nw + 8) b.nr b.nw q)
    (hj : b.cap < b.nw + 8) (hc : b.nw ≤ b.cap) :
    ¬ ∃ os b' q', runCalls Raw.exactCall b (drainOps q.length) = some (os, b') ∧ Session q (drainOps q.length) os q' := by
  induction q generalizing b with
  | nil => exact absurd rfl hq
  | cons d q ih =>
    rintro ⟨os, b', q', e1, e2⟩
    obtain ⟨k1, k2, k3, k4, k5, k6⟩ := hs.head
    have hle := k6.le
    have hne : ¬ b.nw = b.nr := by omega
    have hns : ¬ ((d.length : Int) < 0) := by omega
    have hpop : b.exactCall (.pop 2147483647) = some (.popped d.length (some d),
        { b with nr := if b.cap - (b.nr + (d.length + 4)) < 8 then 0 else b.nr + (d.length + 4) }) := by
      have hm : (d.length : Int) ≤ 2147483647 := by omega
      simp [Raw.exactCall, Raw.call, Raw.pop, hne, k4, hns, hm, k5]
    simp only [drainOps, List.length_cons, List.replicate_succ, List.cons_append, runCalls, hpop] at e1
    split at e1
    · cases e1
    rename_i os' b'' e3
    cases e1
    simp only [drainOps, List.length_cons, List.replicate_succ, List.cons_append] at e2
    cases e2 with
    | cons a1 a2 =>
      obtain ⟨_, _, x1, _, _, x2⟩ := a1.popInv rfl rfl
      cases x1
      cases x2
      by_cases hw : b.cap - (b.nr + ((d.length : Int) + 4)) < 8
      · rw [if_pos hw] at e3
        cases q with
        | nil =>
          -- that was the last message: the buffer is not empty now
          have := k6.nil_eq
          have hz : ¬ b.nw = 0 := by omega
          simp only [List.length_nil, List.replicate_zero, List.nil_append, runCalls, Raw.exactCall, Raw.call, Raw.empty] at e3 a2
          cases e3
          cases a2 with
          | cons c1 _ =>
            have : (b.nw == 0) = false := by simpa using hz
            rw [this] at c1
            cases c1
        | cons d2 q =>
          -- the next message is skipped
          obtain ⟨l1, l2, l3, l4, l5, l6⟩ := k6.head
          have hq2 : q = [] := by
            cases q with
            | nil => rfl
            | cons d3 q => have := l6.lt; omega
          subst hq2
          have hnw := l6.nil_eq
          simp only [List.length_cons, List.length_nil, List.replicate_succ, List.replicate_zero, List.cons_append, List.nil_append,
            runCalls] at e3 a2
          cases a2 with
          | cons c1 c2 =>
            cases c2 with
            | cons f1 f2 =>
              split at e3
              · cases e3
              rename_i o2 b2 g1
              simp only [Raw.exactCall, Raw.call, Option.map_eq_some_iff] at g1
              obtain ⟨⟨r2, out2, b3⟩, g2, g3⟩ := g1
              cases g3
              simp only [Raw.exactCall, Raw.call] at e3
              cases e3
              cases out2 with
              | none => cases c1 with | popTooSmall _ _ _ hx => omega
              | some x =>
                obtain ⟨_, _, x1, x2, _, x3⟩ := c1.popInv rfl rfl
                cases x1
                cases x3
                obtain ⟨p1, p2⟩ := pop_origin rfl g2
                simp only at p2
                have : b'.empty = false := by
                  simp only [Raw.empty, beq_eq_false_iff_ne]
                  rw [p2]; omega
                rw [this] at f1
                cases f1
      · rw [if_neg hw] at e3
        cases q with
        | nil => have := k6.nil_eq; omega
        | cons d2 q =>
          exact ih (b := { b with nr := b.nr + (d.length + 4) }) (by simp) (by simp only; omega) k6 hj hc ⟨_, _, _, e3, a2⟩

/-- After the call `push d` on a buffer that holds `q`, a client that makes the calls `more` (without overfilling the buffer again)
sees what it would see of a FIFO. -/
def PushBehaves (b : Raw) (q : List Msg) (d : Msg) (more : List Op) : Prop :=
  ∃ o b1 os b' q', b.call (.push d) = some (o, b1) ∧ runCalls Raw.exactCall b1 more = some (os, b') ∧
    Session q (.push d :: more) (o :: os) q'

theorem Rep.overfill {b q} (h : Rep b q) (d : Msg) (hd : d ≠ []) (ho : b.overfills d.length = true) :
    ∃ more, ¬ PushBehaves b q d more := by
  have hpos : 0 < d.length := by cases d with | nil => exact absurd rfl hd | cons => simp
  have hempty : ∀ (b1 : Raw), b1.nw = b1.nr → b.call (.push d) = some (.pushed true, b1) → ¬ PushBehaves b q d [.empty] := by
    rintro b1 e1 e2 ⟨o, b2, os, b', q', f1, f2, f3⟩
    rw [e2] at f1
    cases f1
    simp only [runCalls, Raw.exactCall, Raw.call] at f2
    cases f2
    cases f3 with
    | cons g1 g2 =>
      cases g1
      cases g2 with
      | cons g3 _ =>
        have : b1.empty = true := by simp [Raw.empty, e1]
        rw [this] at g3
        generalize hx : (q ++ [d]).isEmpty = x
        have hx' : (q ++ [d]).isEmpty = false := by simp
        generalize q ++ [d] = l at g3 hx'
        generalize ht : true = t at g3
        cases g3
        rw [hx'] at ht; cases ht
  have hnone : b.call (.push d) = none → ∃ more, ¬ PushBehaves b q d more := by
    intro hn
    refine ⟨[], ?_⟩
    rintro ⟨o, b1, os, b', q', f1, _⟩
    rw [hn] at f1; cases f1
  simp only [Raw.overfills, Bool.and_eq_true] at ho
  obtain ⟨hs, ho⟩ := ho
  obtain ⟨nr0, nw0, hsize, hcap, body⟩ := h
  have hp : ¬ ((d.length : Int) ≤ 0) := by omega
  by_cases hge : b.nw ≥ b.nr
  · rw [if_pos hge] at ho
    rcases body with ⟨hle, hend, hseg⟩ | ⟨hlt, _⟩
    case inr => omega
    by_cases hA : b.cap - b.nw ≥ (d.length : Int) + 4
    · rw [if_pos hA] at ho
      simp only [decide_eq_true_eq] at ho
      obtain ⟨m', hst, hsz, hr1, hr2, hfr⟩ := storeMsg_ok (m := b.mem) (pos := b.nw) (d := d) nw0 (by omega)
      have hcall : b.call (.push d) = some (.pushed true, { b with mem := m', nw := b.nw + (d.length + 4) }) := by
        have hw : ¬ (b.cap - (b.nw + ((d.length : Int) + 4)) < 8 ∧ b.nr > 0) := by omega
        simp only [Raw.call, Raw.push, if_neg hp, if_pos hge, if_pos hA, hst, Option.bind_eq_bind, Option.bind_some, if_neg hw,
          Option.map_some]
      refine ⟨drainOps (q ++ [d]).length, ?_⟩
      rintro ⟨o, b1, os, b', q', f1, f2, f3⟩
      rw [hcall] at f1
      cases f1
      cases f3 with
      | cons g1 g2 =>
        cases g1
        refine jam_drain (b := { b with mem := m', nw := b.nw + (d.length + 4) }) (q := q ++ [d]) (by simp) nr0 ?_ (by simp only; omega) (by simp only; omega) ⟨_, _, _, f2, g2⟩
        have hf : Seg m' b.cap b.nr b.nw q := hseg.frame nr0 (by omega) fun j _ hj => hfr j (by omega)
        exact Seg.snoc (hf.lim_of_end (by simp only; omega)) d hpos (by omega) (by simp only; omega) hr1 hr2
    · rw [if_neg hA] at ho
      simp only [decide_eq_true_eq] at ho
      cases hcall : b.call (.push d) with
      | none => exact hnone hcall
      | some r =>
        obtain ⟨o, b1⟩ := r
        have hc := hcall
        simp only [Raw.call, Raw.push, if_neg hp, if_pos hge, if_neg hA, if_pos (show b.nr ≥ (d.length : Int) + 4 by omega),
          Option.bind_eq_bind, Option.map_eq_some_iff, Option.bind_eq_some_iff] at hc
        obtain ⟨⟨r1, b2⟩, ⟨m0, _, m1, _, e2⟩, e3⟩ := hc
        cases e2
        cases e3
        exact ⟨_, hempty _ (by simp only; omega) hcall⟩
  · rw [if_neg hge] at ho
    simp only [decide_eq_true_eq] at ho
    cases hcall : b.call (.push d) with
    | none => exact hnone hcall
    | some r =>
      obtain ⟨o, b1⟩ := r
      have hc := hcall
      simp only [Raw.call, Raw.push, if_neg hp, if_neg hge, if_pos (show b.nr - b.nw ≥ (d.length : Int) + 4 by omega),
        Option.bind_eq_bind, Option.map_eq_some_iff, Option.bind_eq_some_iff] at hc
      obtain ⟨⟨r1, b2⟩, ⟨m1, _, e2⟩, e3⟩ := hc
      cases e2
      cases e3
      exact ⟨_, hempty _ (by simp only; omega) hcall⟩

/-- C114: after any session of a client that does not overfill the buffer, which holds `q` then: the client may push `d`, and go on as
it likes, if and only if this does not overfill the buffer. -/
theorem push_safe_iff (mem : Mem) (cap : Int) (hm : cap ≤ mem.size) (hc : cap < 2147483648) (ops : List Op) (os : List Obs) (b : Raw)
    (hrun : runCalls Raw.exactCall (Raw.init mem cap) ops = some (os, b)) (q : List Msg) (hq : Session [] ops os q) (d : Msg)
    (hd : d ≠ []) : (∀ more, PushBehaves b q d more) ↔ b.overfills d.length = false := by
  obtain ⟨os', b', q', h1, h2, h3⟩ := (Rep.init mem cap hm hc).run_exact ops
  rw [h1] at hrun
  cases hrun
  cases h2.det hq
  constructor
  · intro h
    cases ho : b.overfills d.length with
    | false => rfl
    | true =>
      obtain ⟨more, hmore⟩ := h3.overfill d hd ho
      exact absurd (h more) hmore
  · intro ho more
    obtain ⟨o, b1, q1, e1, e2, e3⟩ := h3.exactCall (.push d)
    have e1' : b.call (.push d) = some (o, b1) := by
      have he : b.exactCall (.push d) = if b.overfills d.length then some (.pushed false, b) else b.call (.push d) := rfl
      rw [he, ho] at e1
      exact e1
    obtain ⟨os2, b2, q2, f1, f2, _⟩ := e3.run_exact more
    exact ⟨o, b1, os2, b2, q2, e1', f1, .cons e2 f2⟩

/-- both kinds of overfilling pushes and a push that is fine -/
example : ∃ os b q, runCalls Raw.exactCall (Raw.init (zeros 40) 40) [.push [1,2,3,4,5,6,7,8], .push [1,2,3,4,5,6,7,8], .pop 9] = some (os, b) ∧
    Session [] [.push [1,2,3,4,5,6,7,8], .push [1,2,3,4,5,6,7,8], .pop 9] os q ∧ b.overfills 12 = false ∧
    b.overfills 8 = false ∧ b.isSpaceAvailable 12 = true ∧
    (Raw.init (zeros 40) 40).overfills 30 = true ∧
    (∃ os2 b2, runCalls Raw.exactCall b [.push [1,2,3,4,5,6,7,8,9,10,11,12]] = some (os2, b2) ∧ b2.overfills 8 = true) :=
  ⟨_, _, _, rfl, .cons (.push _ _) (.cons (.push _ _) (.cons (.pop _ _ _ (by decide)) (.nil _))), by decide, by decide, by decide, by decide,
    _, _, rfl, by decide⟩

/-- C114: a client that leaves 8 spare bytes, which it can ask for with `isSpaceAvailable(size + 8)`, never overfills the buffer. -/
theorem margin_never_overfills (b : Raw) (n : Int) (hn : 0 ≤ n) (h : b.isSpaceAvailable (n + 8) = true) : b.overfills n = false :=
  (margin_exact hn h).2

example : (Raw.init (zeros 40) 40).isSpaceAvailable (20 + 8) = true := by decide

/-! ### Resizing -/

/-- The calls `more` on the buffer, which holds `q`, are answered as by a FIFO. -/
def Behaves (b : Raw) (q : List Msg) (more : List Op) : Prop :=
  ∃ os b' q', runCalls Raw.exactCall b more = some (os, b') ∧ Session q more os q'

theorem Owns.jam {b q} (h : Owns b q) (fresh : Int → UInt8) (n : Int) (hj : b.jams n = true) :
    ∃ b', b.resize fresh n = some (.ok b') ∧ ∃ more, ¬ Behaves b'.raw q more := by
  simp only [Buf.jams, decide_eq_true_eq] at hj
  obtain ⟨j1, j2, j3⟩ := hj
  have hact := h.act
  obtain ⟨m, hd, hsz⟩ := h.owned_of_ne (by omega)
  have hq : q ≠ [] := fun e => by have : b.nw = b.nr := h.rep.empty_iff.2 e; omega
  have hcl := h.capLe
  obtain ⟨nr0, nw0, hsize, hcap, body⟩ := h.rep
  simp only [Buf.raw, hd, Blk.mem] at nr0 nw0 hsize hcap body
  rcases body with ⟨hle, hend, hseg⟩ | ⟨hlt, _⟩
  case inr => omega
  by_cases h5 : b.nw ≤ n
  · refine ⟨{ b with cap := n, actualSize := n }, ?_, drainOps q.length, ?_⟩
    · simp only [Buf.resize, if_neg (show ¬ n = b.cap by omega), if_neg (show ¬ b.nw = b.nr by omega),
        if_neg (show ¬ n > b.actualSize by omega), if_pos j1, if_pos h5]
    · rintro ⟨os, b', q', e1, e2⟩
      refine jam_drain (b := ⟨m, n, b.nw, b.nr⟩) hq nr0 (hseg.lim_of_end (Int.le_refl _)) (by simp only; omega) h5
        ⟨_, b', _, ?_, e2⟩
      simpa [Buf.raw, hd, Blk.mem] using e1
  · obtain ⟨m2, f1, f2, f3, f4⟩ := move_eq (m := m) (dst := 0) (src := b.nr)
      (n := b.nw - b.nr) (by omega) (by omega) (by omega) (by omega) (by omega)
    refine ⟨{ b with data := .owned m2, nr := 0, nw := b.nw - b.nr, cap := n, actualSize := n }, ?_, drainOps q.length, ?_⟩
    · simp only [Buf.resize, if_neg (show ¬ n = b.cap by omega), if_neg (show ¬ b.nw = b.nr by omega),
        if_neg (show ¬ n > b.actualSize by omega), if_pos j1, if_neg h5, if_pos (show b.nw - b.nr < n by omega),
        Buf.moveBytes, hd, f1, Option.map_some, Option.bind_eq_bind, Option.bind_some]
    · rintro ⟨os, b', q', e1, e2⟩
      have hs2 := hseg.transport (m' := m2) (lim' := b.cap + -b.nr) (-b.nr) (by omega) (by omega) (by omega) (by
        intro j k1 k2
        have := f3 (j - b.nr) (by omega) (by omega)
        have e1 : 0 + (j - b.nr) = j + -b.nr := by omega
        have e2 : b.nr + (j - b.nr) = j := by omega
        rw [e1, e2] at this; exact this)
      have x1 : b.nw + -b.nr = b.nw - b.nr := by omega
      have x2 : b.nr + -b.nr = 0 := by omega
      rw [x1, x2] at hs2
      refine jam_drain (b := ⟨m2, n, b.nw - b.nr, 0⟩) hq (Int.le_refl _) (hs2.lim_of_end (Int.le_refl _)) (by simp only; omega)
        (by simp only; omega) ⟨_, b', _, ?_, e2⟩
      simpa [Buf.raw, Blk.mem] using e1

/-- C114 for resize: after any careful session, let `q` be the messages in a buffer (what popping delivers).  After a resize of it that
does not throw, all further calls are answered as by a FIFO holding `q`, if and only if the resize does not jam the buffer. -/
theorem resize_safe_iff (fresh : Nat → Int → UInt8) (ops : List OOp) (os : List OObs) (w : Nat → Option Buf)
    (hrun : runWorld fresh (fun _ => none) ops = some (os, w)) (i : Nat) (b : Buf) (hi : w i = some b) (q : List Msg)
    (hq : ∀ k, b.drain k = some (q.take k)) (f : Int → UInt8) (n : Int) (hn : 0 ≤ n) (hn2 : n < 2147483648) :
    (∀ b', b.resize f n = some (.ok b') → ∀ more, Behaves b'.raw q more) ↔ b.jams n = false := by
  obtain ⟨os', w', s, h1, _, h3⟩ := WRep.init.run fresh ops
  rw [h1] at hrun
  cases hrun
  obtain ⟨q0, e1, e2, e3⟩ := h3.get hi
  have hqq : q0 = q := by
    have := hq (q0.length + q.length)
    rw [e2.drain, List.take_of_length_le (by omega), List.take_of_length_le (by omega)] at this
    exact Option.some.inj this
  subst hqq
  constructor
  · intro h
    cases hj : b.jams n with
    | false => rfl
    | true =>
      obtain ⟨b', g1, more, g2⟩ := e2.jam f n hj
      exact absurd (h b' g1 more) g2
  · intro hj b' hb' more
    rcases e2.resize f n hn hn2 hj with ⟨b1, f1, f2, f3⟩ | ⟨f1, _⟩
    · rw [f1] at hb'
      cases hb'
      obtain ⟨os2, b2, q2, g1, g2, _⟩ := f2.rep.run_exact more
      exact ⟨os2, b2, q2, g1, g2⟩
    · rw [f1] at hb'; cases hb'

example : ∃ os w b, runWorld (fun _ _ => 0) (fun _ => none) [.new 0 40, .call 0 (.push [1,2,3]), .call 0 (.push [4,5]), .call 0 (.pop 9)] = some (os, w) ∧
    w 0 = some b ∧ (∀ k, b.drain k = some (([[4,5]] : List Msg).take k)) ∧ b.jams 20 = true ∧ b.jams 21 = false ∧ b.jams 13 = true ∧
    b.jams 12 = true ∧ b.jams 6 = false := by
  refine ⟨_, _, _, rfl, rfl, ?_, by decide, by decide, by decide, by decide, by decide⟩
  intro k
  match k with
  | 0 => rfl
  | 1 => rfl
  | 2 => rfl
  | k + 3 => rfl

end Verif.CircularBuffer
