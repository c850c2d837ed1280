import Verif.CircularBuffer.OwnerLemmas

/- Refinement of sessions over several owning objects. -/
namespace Verif.CircularBuffer

/-- Every object stands for its specification counterpart, and none has a dangling block. -/
def WRep (w : Nat → Option Buf) (s : Nat → Option SObj) : Prop :=
  ∀ i, match w i, s i with
    | none, none => True
    | some b, some (c, q) => Owns b q ∧ b.capacity = c ∧ b.data ≠ .dangling
    | _, _ => False

theorem WRep.init : WRep (fun _ => none) (fun _ => none) := fun _ => trivial

theorem WRep.get {w s} (h : WRep w s) {i b} (hi : w i = some b) :
    ∃ q, s i = some (b.capacity, q) ∧ Owns b q ∧ b.data ≠ .dangling := by
  have := h i
  rw [hi] at this
  cases hs : s i with
  | none => rw [hs] at this; exact this.elim
  | some c => rw [hs] at this; obtain ⟨h1, h2, h3⟩ := this; exact ⟨c.2, by rw [h2], h1, h3⟩

theorem WRep.getNone {w s} (h : WRep w s) {i} (hi : w i = none) : s i = none := by
  have := h i
  rw [hi] at this
  cases hs : s i with
  | none => rfl
  | some c => rw [hs] at this; exact this.elim

theorem WRep.set {w s} (h : WRep w s) (i : Nat) {b q c} (hb : Owns b q) (hc : b.capacity = c)
    (hd : b.data ≠ .dangling) :
    WRep (upd w i (some b)) (upd s i (some (c, q))) := by
  intro k
  unfold upd
  by_cases hk : k = i
  · simp only [hk, if_true]; exact ⟨hb, hc, hd⟩
  · simp only [hk, if_false]; exact h k

theorem WRep.setNone {w s} (h : WRep w s) (i : Nat) :
    WRep (upd w i none) (upd s i none) := by
  intro k
  unfold upd
  by_cases hk : k = i
  · simp [hk]
  · simp only [hk, if_false]; exact h k

theorem setRaw_not_dangling {b : Buf} {r} (h : b.data ≠ .dangling) : (b.setRaw r).data ≠ .dangling := by
  unfold Buf.setRaw
  cases hd : b.data <;> simp_all

theorem setRaw_raw (b : Buf) : b.setRaw b.raw = b := by
  cases b with
  | mk d _ _ _ _ _ => cases d <;> simp [Buf.setRaw, Buf.raw, Blk.mem]

theorem Owns.call {b q} (h : Owns b q) (hd : b.data ≠ .dangling) (op : Op)
    (hg : ∀ d, op = .push d → b.raw.overfills d.length = false) :
    ∃ o b' q', b.call op = some (o, b') ∧ Fifo q op o q' ∧ Owns b' q' ∧
      b'.capacity = b.capacity ∧ b'.data ≠ .dangling := by
  cases op with
  | push d =>
    have hg := hg d rfl
    by_cases hdl : 0 < d.length
    · by_cases hs : b.raw.isSpaceAvailable d.length = true
      · obtain ⟨b', e1, e2⟩ := h.push d hdl hs hg
        refine ⟨_, b', _, by simp [Buf.call, e1], .push q d, e2, ?_⟩
        simp only [Buf.push, Option.map_eq_some_iff] at e1
        obtain ⟨⟨r, raw⟩, e3, e4⟩ := e1
        cases e4
        exact ⟨(push_cap_size e3).1, setRaw_not_dangling hd⟩
      · rw [Bool.not_eq_true] at hs
        refine ⟨.pushed false, b, q, ?_, .refused q _, h, rfl, hd⟩
        simp [Buf.call, Buf.push, push_no_space hs, setRaw_raw]
    · have : d = [] := by cases d <;> simp_all
      subst this
      refine ⟨.pushed false, b, q, ?_, .refused q _, h, rfl, hd⟩
      simp [Buf.call, Buf.push, Raw.push, setRaw_raw]
  | pop max =>
    have cd : ∀ r o b', b.pop max = some (r, o, b') → b'.capacity = b.capacity ∧ b'.data ≠ .dangling := by
      intro r o b' e
      simp only [Buf.pop, Option.map_eq_some_iff] at e
      obtain ⟨⟨r, o, raw⟩, e3, e4⟩ := e
      cases e4
      exact ⟨(pop_cap_mem e3).1, setRaw_not_dangling hd⟩
    cases q with
    | nil =>
      obtain ⟨b', e1, e2⟩ := h.pop_empty max
      exact ⟨_, b', _, by simp [Buf.call, e1], .popEmpty max, e2, cd _ _ _ e1⟩
    | cons d q =>
      by_cases hm : (d.length : Int) ≤ max
      · obtain ⟨b', e1, e2⟩ := h.pop_ok max hm
        exact ⟨_, b', _, by simp [Buf.call, e1], .pop d q max hm, e2, cd _ _ _ e1⟩
      · obtain ⟨b', e1, e2⟩ := h.pop_small max (by omega)
        exact ⟨_, b', _, by simp [Buf.call, e1], .popTooSmall d q max (by omega), e2, cd _ _ _ e1⟩
  | nextDataSize =>
    cases q with
    | nil => exact ⟨_, b, _, by simp [Buf.call, Buf.nextDataSize, h.rep.nextDataSize], .sizeEmpty, h, rfl, hd⟩
    | cons d q => exact ⟨_, b, _, by simp [Buf.call, Buf.nextDataSize, h.rep.nextDataSize], .size d q, h, rfl, hd⟩
  | empty =>
    refine ⟨_, b, _, rfl, ?_, h, rfl, hd⟩
    have : b.empty = q.isEmpty := by
      have := h.rep.empty_iff
      cases q <;> simp_all [Buf.empty, Raw.empty]
    rw [this]; exact .empty q
  | clear => exact ⟨_, _, _, rfl, .clear q, h.clear, rfl, setRaw_not_dangling hd⟩

theorem Owns.drain {b q} (h : Owns b q) (k : Nat) : b.drain k = some (q.take k) := by
  induction k generalizing b q with
  | zero => simp [Buf.drain]
  | succ k ih =>
    cases q with
    | nil =>
      obtain ⟨b', e1, _⟩ := h.pop_empty 2147483647
      simp [Buf.drain, e1]
    | cons d q =>
      have hlen : (d.length : Int) ≤ 2147483647 := by
        obtain ⟨p, _, _, h, _⟩ := h.rep.front; omega
      obtain ⟨b', e1, e2⟩ := h.pop_ok 2147483647 hlen
      simp [Buf.drain, e1, ih e2]

theorem resizeMemory_not_dangling {fresh} {b b' : Buf} {n c} (h : b.data ≠ .dangling)
    (e : Buf.resizeMemory fresh b n c = some b') : b'.data ≠ .dangling := by
  unfold Buf.resizeMemory at e
  split at e
  · simp only [Option.bind_eq_some_iff] at e
    obtain ⟨_, _, _, _, e⟩ := e
    cases e; simp
  · cases e; exact h

theorem moveBytes_not_dangling {b b' : Buf} {x y z} (e : b.moveBytes x y z = some b') :
    b'.data ≠ .dangling := by
  unfold Buf.moveBytes at e
  split at e
  · simp only [Option.map_eq_some_iff] at e
    obtain ⟨_, _, e⟩ := e
    cases e; simp
  · cases e

theorem resize_not_dangling {fresh} {b b' : Buf} {n} (h : b.data ≠ .dangling)
    (e : b.resize fresh n = some (.ok b')) : b'.data ≠ .dangling := by
  unfold Buf.resize at e
  split at e
  · cases e; exact h
  split at e
  · simp only [Option.bind_eq_bind, Option.bind_eq_some_iff] at e
    obtain ⟨b1, e1, e⟩ := e
    have := resizeMemory_not_dangling h e1; cases e; exact this
  split at e
  · simp only [Option.bind_eq_bind, Option.bind_eq_some_iff] at e
    obtain ⟨b1, e1, e⟩ := e
    split at e
    · have := resizeMemory_not_dangling h e1; cases e; exact this
    · simp only [Option.bind_eq_some_iff] at e
      obtain ⟨b2, e2, e⟩ := e
      have := moveBytes_not_dangling e2; cases e; exact this
  split at e
  · split at e
    · cases e; exact h
    · split at e
      · simp only [Option.bind_eq_bind, Option.bind_eq_some_iff] at e
        obtain ⟨b2, e2, e⟩ := e
        have := moveBytes_not_dangling e2; cases e; exact this
      · cases e
  · simp only at e
    split at e
    · simp only [Option.bind_eq_bind, Option.bind_eq_some_iff] at e
      obtain ⟨b2, e2, e⟩ := e
      have := moveBytes_not_dangling e2; cases e; exact this
    · cases e

theorem free_ok {x : Blk} (h : x ≠ .dangling) : Buf.free x = some () := by
  cases x <;> simp_all [Buf.free]

theorem WRep.step {w s} (h : WRep w s) (fresh : Int → UInt8) (op : OOp) :
    ∃ o w' s', op.step fresh w = some (o, w') ∧ OStep s op o s' ∧ WRep w' s' := by
  unfold OOp.step
  by_cases hc : op.careful w = true
  · rw [if_pos hc]
    cases op with
    | new i size =>
      simp only [OOp.careful, Bool.and_eq_true, Option.isNone_iff_eq_none, decide_eq_true_eq] at hc
      obtain ⟨h1, h2, h3⟩ := hc
      have e : Buf.ofSize fresh size = some ⟨.owned ⟨size, fresh⟩, size, size, size, 0, 0⟩ := by
        unfold Buf.ofSize; rw [if_neg (by omega)]
      exact ⟨_, _, _, by simp only [OOp.exec, e, Option.map_some], .new s i size (h.getNone h1),
        h.set i (Owns.ofSize e h3) rfl (by simp)⟩
    | newDefault i =>
      simp only [OOp.careful, Option.isNone_iff_eq_none] at hc
      exact ⟨_, _, _, rfl, .newDefault s i (h.getNone hc), h.set i Owns.default rfl (by simp [Buf.default])⟩
    | copyNew i j =>
      simp only [OOp.careful, Bool.and_eq_true, Option.isNone_iff_eq_none] at hc
      obtain ⟨h1, h2⟩ := hc
      cases hj : w j with
      | none => simp [hj] at h2
      | some b =>
        simp only [hj, decide_eq_true_eq] at h2
        obtain ⟨q, e1, e2, e3⟩ := h.get hj
        obtain ⟨c, f1, f2, f3⟩ := e2.copyCtor fresh
        refine ⟨_, _, _, by simp only [OOp.exec, hj, Option.bind_some, f1, Option.map_some],
          .copyNew s i j _ (h.getNone h1) e1, h.set i f2 f3 ?_⟩
        intro hdang
        have hcap := f2.mem
        rcases hcap with ⟨m, x1, _⟩ | ⟨_, x2⟩
        · rw [x1] at hdang; cases hdang
        · have y1 := f2.capLe
          simp only [Buf.capacity, Buf.raw, Raw.capacity] at f3 h2
          omega
    | moveNew i j =>
      simp only [OOp.careful, Bool.and_eq_true, Option.isNone_iff_eq_none, Option.isSome_iff_exists] at hc
      obtain ⟨h1, b, hj⟩ := hc
      obtain ⟨q, e1, e2, e3⟩ := h.get hj
      exact ⟨_, _, _, by simp only [OOp.exec, hj, Option.map_some]; rfl, .moveNew s i j _ (h.getNone h1) e1,
        (h.set i (b := b.moveCtor.1) e2 rfl e3).set j Owns.default rfl (by simp [Buf.default])⟩
    | copyAssign i j =>
      simp only [OOp.careful, Bool.and_eq_true, decide_eq_true_eq, Option.isSome_iff_exists] at hc
      obtain ⟨⟨hne, a, hi⟩, b, hj⟩ := hc
      obtain ⟨q, e1, e2, e3⟩ := h.get hj
      obtain ⟨qa, a1, a2, a3⟩ := h.get hi
      obtain ⟨c, f1, f2, f3⟩ := e2.copyAssign a2 fresh
      refine ⟨_, _, _, by simp only [OOp.exec, hi, hj, Option.bind_some, f1, Option.map_some],
        .copyAssign s i j _ _ hne a1 e1, h.set i f2 f3 ?_⟩
      unfold Buf.copyAssign at f1
      simp only [Option.bind_eq_bind, Option.bind_eq_some_iff] at f1
      obtain ⟨b1, g1, g2⟩ := f1
      have hb1 := resizeMemory_not_dangling (b := { a with cap := b.cap, nw := b.nw, nr := b.nr }) a3 g1
      split at g2
      · cases g2
      · split at g2
        · cases g2; exact hb1
        · simp only [Option.bind_eq_some_iff] at g2
          obtain ⟨_, _, _, _, g2⟩ := g2
          split at g2
          · cases g2; simp
          · cases g2
    | moveAssign i j =>
      simp only [OOp.careful, Bool.and_eq_true, decide_eq_true_eq, Option.isSome_iff_exists] at hc
      obtain ⟨⟨hne, a, hi⟩, b, hj⟩ := hc
      obtain ⟨q, e1, e2, e3⟩ := h.get hj
      obtain ⟨qa, a1, a2, a3⟩ := h.get hi
      refine ⟨_, _, _, by simp only [OOp.exec, hi, hj, Option.bind_some, Buf.moveAssign, free_ok a3, Option.bind_eq_bind, Option.map_some]; rfl,
        .moveAssign s i j _ _ hne a1 e1, ?_⟩
      exact (h.set i (b := ⟨b.data, b.actualSize, b.actualCapacity, b.cap, b.nw, b.nr⟩) e2 rfl e3).set j Owns.default rfl (by simp [Buf.default])
    | resize i n =>
      cases hi : w i with
      | none => simp [OOp.careful, hi] at hc
      | some b =>
        simp only [OOp.careful, hi, decide_eq_true_eq, Bool.and_eq_true, Bool.not_eq_true'] at hc
        obtain ⟨q, e1, e2, e3⟩ := h.get hi
        rcases e2.resize fresh n hc.1.1 hc.1.2 hc.2 with ⟨b', f1, f2, f3⟩ | ⟨f1, f2, f3⟩
        case inr =>
          have hu : upd w i (some b) = w := by
            funext k; unfold upd; split
            · rename_i hk; rw [hk, hi]
            · rfl
          exact ⟨_, w, _, by simp only [OOp.exec, hi, Option.bind_some, f1, Option.map_some, hu],
            .resizeThrows s i n _ q e1 f2 f3, h⟩
        exact ⟨_, _, _, by simp only [OOp.exec, hi, Option.bind_some, f1, Option.map_some],
          .resize s i n _ q e1, h.set i f2 f3 (resize_not_dangling e3 f1)⟩
    | capacity i =>
      simp only [OOp.careful, Option.isSome_iff_exists] at hc
      obtain ⟨b, hi⟩ := hc
      obtain ⟨q, e1, e2, e3⟩ := h.get hi
      exact ⟨_, _, _, by simp only [OOp.exec, hi, Option.map_some], .capacity s i _ q e1, h⟩
    | call i op =>
      have hex : ∃ b, w i = some b ∧ ∀ d, op = .push d → b.raw.overfills d.length = false := by
        cases hi : w i with
        | none => cases op <;> simp [OOp.careful, hi] at hc
        | some b =>
          refine ⟨b, rfl, ?_⟩
          rintro d rfl
          simpa [OOp.careful, hi] using hc
      obtain ⟨b, hi, hg⟩ := hex
      obtain ⟨q, e1, e2, e3⟩ := h.get hi
      obtain ⟨o, b', q', f1, f2, f3, f4, f5⟩ := e2.call e3 op hg
      exact ⟨_, _, _, by simp only [OOp.exec, hi, Option.bind_some, f1, Option.map_some],
        .call s i op o _ q q' e1 f2, h.set i f3 f4 f5⟩
    | destroy i =>
      simp only [OOp.careful, Option.isSome_iff_exists] at hc
      obtain ⟨b, hi⟩ := hc
      obtain ⟨q, e1, e2, e3⟩ := h.get hi
      have : b.destroy = some () := by
        unfold Buf.destroy; split
        · exact free_ok e3
        · rfl
      exact ⟨_, _, _, by simp only [OOp.exec, hi, Option.bind_some, this, Option.map_some],
        .destroy s i _ e1, h.setNone i⟩
  · rw [if_neg hc]
    exact ⟨_, _, _, rfl, .skipped s op, h⟩

theorem WRep.run {w s} (h : WRep w s) (fresh : Nat → Int → UInt8) (ops : List OOp) :
    ∃ os w' s', runWorld fresh w ops = some (os, w') ∧ OSession s ops os s' ∧ WRep w' s' := by
  induction ops generalizing w s with
  | nil => exact ⟨_, _, _, rfl, .nil s, h⟩
  | cons op ops ih =>
    obtain ⟨o, w1, s1, h1, h2, h3⟩ := h.step (fresh ops.length) op
    obtain ⟨os, w2, s2, h4, h5, h6⟩ := ih h3
    exact ⟨_, _, _, by simp [runWorld, h1, h4], .cons h2 h5, h6⟩

end Verif.CircularBuffer

namespace Verif.CircularBuffer

/-- bytes used by a list of messages: 4 header bytes each plus the payload -/
def usedBytes (q : List Msg) : Int := (q.map fun d => (d.length : Int) + 4).sum

theorem usedBytes_append (a b : List Msg) : usedBytes (a ++ b) = usedBytes a + usedBytes b := by
  simp [usedBytes]

theorem usedBytes_take (q : List Msg) (k : Nat) : usedBytes (q.take k) ≤ usedBytes q := by
  induction q generalizing k with
  | nil => simp
  | cons d q ih =>
    cases k with
    | zero => 
      have := ih 0
      simp [usedBytes] at this ⊢; omega
    | succ k => have := ih k; simp [usedBytes] at this ⊢; omega

theorem Seg.used {m lim a b q} (h : Seg m lim a b q) : usedBytes q = b - a := by
  induction h with
  | nil => simp [usedBytes]
  | cons a b d q _ _ _ _ _ _ ih => simp only [usedBytes, List.map_cons, List.sum_cons] at ih ⊢; omega

/-- A resize that succeeds leaves room for all messages. -/
theorem Owns.resize_ok_fits {b q} (h : Owns b q) {fresh n b'} (hn : 0 ≤ n)
    (e : b.resize fresh n = some (.ok b')) : usedBytes q ≤ n := by
  have hact := h.act
  have hbody := h.rep.body
  have hnr := h.rep.nr0
  have hnw := h.rep.nw0
  simp only [Buf.raw] at hbody hnr hnw
  have hle : usedBytes q ≤ b.cap := by
    rcases hbody with ⟨h1, h2, h3⟩ | ⟨h1, x, q1, q2, rfl, h2, h3, h4, _⟩
    · have := h3.used; have := h.cap0; omega
    · rw [usedBytes_append, h3.used, h4.used]; omega
  unfold Buf.resize at e
  split at e
  · omega
  split at e
  · rename_i heq
    rcases hbody with ⟨h1, h2, h3⟩ | ⟨h1, x, q1, q2, rfl, h2, h3, h4, _⟩
    · have := h3.used; omega
    · omega
  split at e
  · omega
  split at e
  · rename_i hlt
    have hu : usedBytes q = b.nw - b.nr := by
      rcases hbody with ⟨h1, h2, h3⟩ | ⟨h1, x, q1, q2, rfl, h2, h3, h4, _⟩
      · exact h3.used
      · omega
    split at e
    · omega
    · split at e
      · omega
      · cases e
  · rename_i hlt
    have hu : usedBytes q ≤ b.cap - b.nr + b.nw := by
      rcases hbody with ⟨h1, h2, h3⟩ | ⟨h1, x, q1, q2, rfl, h2, h3, h4, _⟩
      · have := h3.used; omega
      · rw [usedBytes_append, h3.used, h4.used]; omega
    simp only at e
    split at e
    · omega
    · cases e

end Verif.CircularBuffer
