import Verif.StackBuffer.Spec

/- Representation invariant of the raw stack buffer and its preservation. -/
namespace Verif.StackBuffer
open Mem

/-- the 8 bytes of an index entry -/
def ent (e : Int × Msg) : List UInt8 := encI32 e.1 ++ encI32 e.2.length

theorem ent_length (e) : (ent e).length = 8 := rfl

theorem idx_length (es : List (Int × Msg)) : (es.flatMap ent).length = 8 * es.length := by
  induction es with
  | nil => rfl
  | cons e es ih => simp only [List.flatMap_cons, List.length_append, ih, ent_length, List.length_cons]; omega

/-- two stored blocks do not overlap -/
def Apart (a b : Int × Msg) : Prop := a.1 + a.2.length ≤ b.1 ∨ b.1 + b.2.length ≤ a.1

/-- The buffer holds the messages `es.map (·.2)`, top first, at the offsets `es.map (·.1)`. -/
structure Rep (b : Raw) (es : List (Int × Msg)) : Prop where
  cap0 : 0 ≤ b.cap
  capM : b.cap ≤ b.mem.size
  capI : b.cap < 2147483648
  cnt : b.count = es.length
  ni : 8 ≤ b.cap → b.ni = b.cap - 8 - 8 * es.length
  next0 : 0 ≤ b.next
  nextE : es = [] → b.next = 0
  nextC : b.next ≤ b.cap
  idx : b.mem.read (b.cap - 8 * es.length) (8 * es.length) = some (es.flatMap ent)
  blk : ∀ e ∈ es, 0 < e.2.length ∧ 0 ≤ e.1 ∧ e.1 + e.2.length ≤ b.next ∧
    e.1 + e.2.length ≤ b.cap - 8 * es.length ∧ b.mem.read e.1 e.2.length = some e.2
  disj : es.Pairwise Apart

theorem Rep.room {b es} (h : Rep b es) : 8 * (es.length : Int) ≤ b.cap := by
  have := (read_bounds h.idx).1; omega

theorem read_zero {m : Mem} {p : Int} (h0 : 0 ≤ p) (h1 : p ≤ m.size) : m.read p 0 = some [] := by
  unfold Mem.read; rw [if_pos (by omega)]; rfl

theorem Rep.ofEmpty {b : Raw} (h0 : 0 ≤ b.cap) (h1 : b.cap ≤ b.mem.size) (h2 : b.cap < 2147483648)
    (hc : b.count = 0) (hn : b.next = 0) (hi : 8 ≤ b.cap → b.ni = b.cap - 8) : Rep b [] := by
  refine ⟨h0, h1, h2, by simpa using hc, ?_, by omega, fun _ => hn, by omega, ?_, by simp, .nil⟩
  · intro h; rw [hi h]; simp
  · exact read_zero (by simp; omega) (by simpa using h1)

theorem Rep.init (mem : Mem) (cap : Int) (h0 : 0 ≤ cap) (hm : cap ≤ mem.size) (hc : cap < 2147483648) :
    Rep (Raw.init mem cap) [] :=
  Rep.ofEmpty h0 hm hc rfl rfl (fun _ => rfl)

theorem Rep.clear {b es} (h : Rep b es) : Rep b.clear [] :=
  Rep.ofEmpty h.cap0 h.capM h.capI rfl rfl (fun _ => rfl)

/-- the entries of a non-empty index -/
theorem Rep.top {b e es} (h : Rep b (e :: es)) :
    b.mem.readI32 (b.ni + 8) = some e.1 ∧ b.mem.readI32 (b.ni + 12) = some (e.2.length : Int) ∧
    b.mem.read (b.ni + 16) (8 * es.length) = some (es.flatMap ent) ∧
    b.ni = b.cap - 16 - 8 * es.length ∧ (e.2.length : Int) < 2147483648 := by
  have hroom := h.room
  simp only [List.length_cons] at hroom
  have hni := h.ni (by omega)
  simp only [List.length_cons] at hni
  have hidx := h.idx
  simp only [List.length_cons, List.flatMap_cons] at hidx
  have e1 : 8 * (es.length + 1) = (ent e).length + (es.flatMap ent).length := by
    rw [idx_length, ent_length]; omega
  rw [e1, read_append] at hidx
  obtain ⟨i1, i2⟩ := hidx
  have e2 : (ent e).length = (encI32 e.1).length + (encI32 (e.2.length : Int)).length := rfl
  rw [e2, show ent e = encI32 e.1 ++ encI32 (e.2.length : Int) from rfl, read_append] at i1
  obtain ⟨i3, i4⟩ := i1
  obtain ⟨b1, b2, b3, b4, b5⟩ := h.blk e (by simp)
  have hcI := h.capI
  simp only [List.length_cons] at b4
  have p1 : b.cap - 8 * ((es.length + 1 : Nat) : Int) = b.ni + 8 := by omega
  rw [p1] at i2 i3 i4
  refine ⟨?_, ?_, ?_, by omega, by omega⟩
  · exact readI32_of_read i3 (by omega) (by omega)
  · refine readI32_of_read ?_ (by omega) (by omega)
    have : b.ni + 8 + ((encI32 e.1).length : Int) = b.ni + 12 := by rw [encI32_length]; omega
    rw [this] at i4; exact i4
  · have : b.ni + 8 + ((ent e).length : Int) = b.ni + 16 := by rw [ent_length]; omega
    rw [this, idx_length] at i2; exact i2

theorem Rep.empty_eq {b es} (h : Rep b es) : b.empty = es.isEmpty := by
  have := h.cnt
  cases es with
  | nil => simp_all [Raw.empty]
  | cons e es => simp [Raw.empty, this]; omega

theorem Rep.push {b es} (h : Rep b es) (d : Msg) (hd : d ≠ [])
    (hs : b.isSpaceAvailable d.length = true) :
    ∃ b', b.push (some d) d.length = some (true, b') ∧ Rep b' ((b.next, d) :: es) ∧ b'.cap = b.cap
      ∧ b'.mem.size = b.mem.size := by
  have hpos : 0 < d.length := by cases d <;> simp_all
  have hcnt := h.cnt
  have hroom := h.room
  have hs' := hs
  simp only [Raw.isSpaceAvailable, decide_eq_true_eq, hcnt] at hs'
  have hn0 := h.next0
  have hni := h.ni (by omega)
  have hcM := h.capM
  have hcI := h.capI
  obtain ⟨m1, w1⟩ := write_eq (m := b.mem) (off := b.next) (bs := d) hn0 (by omega)
  have s1 := write_spec w1
  obtain ⟨m2, w2⟩ := write_eq (m := m1) (off := b.ni) (bs := encI32 b.next) (by omega)
    (by rw [encI32_length]; omega)
  have s2 := write_spec w2
  obtain ⟨m3, w3⟩ := write_eq (m := m2) (off := b.ni + 4) (bs := encI32 (d.length : Int)) (by omega)
    (by rw [encI32_length]; omega)
  have s3 := write_spec w3
  refine ⟨{ b with mem := m3, next := b.next + d.length, ni := b.ni - 8, count := b.count + 1 }, ?_, ?_,
    rfl, by simp only [s1, s2, s3]⟩
  · unfold Raw.push
    simp only
    rw [if_neg (by omega), if_neg (by simp [hs]), if_neg (by omega)]
    simp only [Int.toNat_natCast, List.take_length, w1, Option.bind_some, Mem.writeI32, w2, w3]
  · have lift : ∀ p n bs, b.mem.read p n = some bs →
        (p + n ≤ b.next ∨ b.next + d.length ≤ p) → (p + n ≤ b.ni ∨ b.ni + 8 ≤ p) →
        m3.read p n = some bs := by
      intro p n bs hr h1 h2
      refine read_write_disjoint w3 (read_write_disjoint w2 (read_write_disjoint w1 hr ?_) ?_) ?_
      · exact h1
      · rw [encI32_length]; omega
      · rw [encI32_length]; omega
    refine ⟨h.cap0, ?_, h.capI, ?_, ?_, ?_, by simp, ?_, ?_, ?_, ?_⟩
    · simp only [s3, s2, s1]; exact hcM
    · simp [hcnt]
    · intro _; simp only [List.length_cons]; omega
    · simp only; omega
    · simp only; omega
    · simp only [List.length_cons, List.flatMap_cons]
      have e1 : 8 * (es.length + 1) = (ent (b.next, d)).length + (es.flatMap ent).length := by
        rw [idx_length, ent_length]; omega
      rw [e1, read_append]
      have p1 : b.cap - 8 * ((es.length + 1 : Nat) : Int) = b.ni := by omega
      rw [p1]
      constructor
      · have e2 : (ent (b.next, d)).length = (encI32 b.next).length + (encI32 (d.length : Int)).length := rfl
        rw [e2, show ent (b.next, d) = encI32 b.next ++ encI32 (d.length : Int) from rfl, read_append]
        refine ⟨?_, ?_⟩
        · exact read_write_disjoint w3 s2.2.2.2.2 (by rw [encI32_length]; omega)
        · have := s3.2.2.2.2
          simpa using this
      · rw [idx_length, ent_length]
        refine lift _ _ _ ?_ ?_ ?_
        · have := h.idx
          rw [show b.cap - 8 * (es.length : Int) = b.ni + ((8 : Nat) : Int) by omega] at this
          exact this
        · right; omega
        · right; omega
    · intro e he
      simp only [List.mem_cons] at he
      simp only [List.length_cons]
      rcases he with rfl | he
      · refine ⟨hpos, hn0, by simp, by simp only; omega, ?_⟩
        have r2 : m2.read b.next d.length = some d :=
          read_write_disjoint w2 s1.2.2.2.2 (by left; omega)
        exact read_write_disjoint (off' := b.next) (n := d.length) w3 r2 (by left; omega)
      · obtain ⟨b1, b2, b3, b4, b5⟩ := h.blk e he
        exact ⟨b1, b2, by omega, by omega, lift _ _ _ b5 (by omega) (by omega)⟩
    · refine .cons ?_ h.disj
      intro e he
      obtain ⟨b1, b2, b3, b4, b5⟩ := h.blk e he
      right; exact b3

theorem Rep.release {b e es} (h : Rep b (e :: es)) : Rep (b.release e.1 e.2.length) es := by
  obtain ⟨t1, t2, t3, t4, t5⟩ := h.top
  have hcnt := h.cnt
  simp only [List.length_cons] at hcnt
  have hn0 := h.next0
  have hnC := h.nextC
  have hroom := h.room
  simp only [List.length_cons] at hroom
  cases es with
  | nil =>
    unfold Raw.release
    simp only
    rw [if_pos (by simp at hcnt; omega)]
    exact Rep.ofEmpty h.cap0 h.capM h.capI (by simp at hcnt ⊢; omega) rfl (fun _ => rfl)
  | cons f fs =>
    have hdj := h.disj
    rw [List.pairwise_cons] at hdj
    unfold Raw.release
    simp only
    rw [if_neg (by simp at hcnt; omega)]
    obtain ⟨c1, c2, c3, c4, c5⟩ := h.blk e (by simp)
    simp only [List.length_cons] at hroom hcnt t4
    refine ⟨h.cap0, h.capM, h.capI, by simp only [List.length_cons]; omega, ?_, ?_, by simp, ?_, ?_, ?_, hdj.2⟩
    · intro _; simp only [List.length_cons]; omega
    · simp only; split <;> omega
    · simp only; split <;> omega
    · have : b.cap - 8 * ((f :: fs).length : Int) = b.ni + 16 := by simp only [List.length_cons]; omega
      simp only; rw [this]; exact t3
    · intro g hg
      obtain ⟨b1, b2, b3, b4, b5⟩ := h.blk g (List.mem_cons_of_mem _ hg)
      have ap := hdj.1 g hg
      unfold Apart at ap
      simp only [List.length_cons] at b4 ⊢
      refine ⟨b1, b2, ?_, by omega, b5⟩
      split <;> omega

theorem Rep.pop_empty {b} (h : Rep b []) (max : Int) : b.pop max = some (0, none, b) := by
  have := h.cnt
  unfold Raw.pop
  rw [if_neg (by simp at this; omega)]

theorem Rep.pop_ok {b e es} (h : Rep b (e :: es)) (max : Int) (hm : (e.2.length : Int) ≤ max) :
    b.pop max = some ((e.2.length : Int), some e.2, b.release e.1 e.2.length) := by
  obtain ⟨t1, t2, t3, t4, t5⟩ := h.top
  have hcnt := h.cnt
  simp only [List.length_cons] at hcnt
  obtain ⟨c1, c2, c3, c4, c5⟩ := h.blk e (by simp)
  unfold Raw.pop
  rw [if_pos (by omega), t2]
  simp only [Option.bind_some]
  rw [if_pos hm, if_neg (by omega), t1]
  simp only [Option.bind_some, Int.toNat_natCast, c5]

theorem Rep.pop_small {b e es} (h : Rep b (e :: es)) (max : Int) (hm : max < (e.2.length : Int)) :
    b.pop max = some (-(e.2.length : Int), none, b) := by
  obtain ⟨t1, t2, t3, t4, t5⟩ := h.top
  have hcnt := h.cnt
  simp only [List.length_cons] at hcnt
  unfold Raw.pop
  rw [if_pos (by omega), t2]
  simp only [Option.bind_some]
  rw [if_neg (by omega)]

theorem chunks8_idx (es : List (Int × Msg)) (rest : List UInt8) :
    Raw.chunks8 es.length (es.flatMap ent ++ rest) = es.map ent := by
  induction es with
  | nil => rfl
  | cons e es ih =>
    simp only [List.length_cons, Raw.chunks8, List.flatMap_cons, List.append_assoc, List.map_cons]
    rw [List.take_left' (ent_length e), List.drop_left' (ent_length e), ih]

theorem Apart.symm {a b} (h : Apart a b) : Apart b a := Or.symm h

theorem Rep.reverse {b es} (h : Rep b es) :
    ∃ b', b.reverse = some b' ∧ Rep b' es.reverse ∧ b'.cap = b.cap ∧ b'.mem.size = b.mem.size := by
  have hcnt := h.cnt
  unfold Raw.reverse
  by_cases h1 : b.count > 1
  · rw [if_pos h1]
    have hroom := h.room
    have hni := h.ni (by omega)
    have hr := h.idx
    have hcM := h.capM
    rw [show b.cap - 8 * (es.length : Int) = b.ni + 8 by omega] at hr
    have e0 : b.count.toNat = es.length := by omega
    have hch : Raw.chunks8 es.length (es.flatMap ent) = es.map ent := by
      simpa using chunks8_idx es []
    have hflat : (es.map ent).reverse.flatten = es.reverse.flatMap ent := by
      rw [List.flatMap_def, List.map_reverse]
    rw [e0, hr]
    simp only [Option.bind_some, hch, hflat]
    obtain ⟨m, w⟩ := write_eq (m := b.mem) (off := b.ni + 8) (bs := es.reverse.flatMap ent) (by omega)
      (by rw [idx_length, List.length_reverse]; omega)
    have s := write_spec w
    rw [idx_length, List.length_reverse] at s
    refine ⟨{ b with mem := m }, by simp [w], ?_, rfl, s.2.2.1⟩
    refine ⟨h.cap0, by simp only [s]; exact hcM, h.capI, by simpa using hcnt, ?_, h.next0, ?_, h.nextC, ?_, ?_, ?_⟩
    · intro h8; simp only [List.length_reverse]; exact h.ni h8
    · intro hE; exact h.nextE (by simpa using hE)
    · simp only [List.length_reverse]
      rw [show b.cap - 8 * (es.length : Int) = b.ni + 8 by omega]
      exact s.2.2.2.2
    · intro e he
      obtain ⟨b1, b2, b3, b4, b5⟩ := h.blk e (List.mem_reverse.1 he)
      refine ⟨b1, b2, b3, by simpa using b4, ?_⟩
      refine read_write_disjoint w b5 ?_
      left; omega
    · rw [List.pairwise_reverse]
      exact h.disj.imp Apart.symm
  · rw [if_neg h1]
    refine ⟨b, rfl, ?_, rfl, rfl⟩
    have : es.reverse = es := by
      match es, hcnt with
      | [], _ => rfl
      | [_], _ => rfl
      | _ :: _ :: _, hc => simp at hc; omega
    rw [this]; exact h

theorem Rep.nextDataSize {b es} (h : Rep b es) :
    b.nextDataSize = some (match es.map (·.2) with | [] => 0 | d :: _ => (d.length : Int)) := by
  have hcnt := h.cnt
  unfold Raw.nextDataSize
  cases es with
  | nil => rw [if_neg (by simp at hcnt; omega)]; rfl
  | cons e es =>
    simp only [List.length_cons] at hcnt
    rw [if_pos (by omega), h.top.2.1]; rfl

theorem Rep.call {b es} (h : Rep b es) (op : Op) :
    ∃ o b' es', b.call op = some (o, b') ∧ Lifo (es.map (·.2)) op o (es'.map (·.2)) ∧ Rep b' es'
      ∧ b'.cap = b.cap ∧ b'.mem.size = b.mem.size := by
  cases op with
  | push d =>
    by_cases hd : d = []
    · subst hd
      refine ⟨.pushed false, b, es, by simp [Raw.call, Raw.push], .refused _ _, h, rfl, rfl⟩
    · by_cases hs : b.isSpaceAvailable d.length = true
      · obtain ⟨b', e1, e2, e3, e4⟩ := h.push d hd hs
        exact ⟨_, b', _, by simp [Raw.call, e1], .push _ _ hd, e2, e3, e4⟩
      · have : b.push (some d) d.length = some (false, b) := by
          unfold Raw.push; simp [hs]
        exact ⟨_, b, es, by simp [Raw.call, this], .refused _ _, h, rfl, rfl⟩
  | pop max =>
    cases es with
    | nil => exact ⟨_, _, [], by simp [Raw.call, h.pop_empty max], .popEmpty max, h, rfl, rfl⟩
    | cons e es =>
      by_cases hm : (e.2.length : Int) ≤ max
      · refine ⟨_, _, es, by simp [Raw.call, h.pop_ok max hm], .pop _ _ max hm, h.release, ?_, ?_⟩
        · unfold Raw.release; simp only; split <;> rfl
        · unfold Raw.release; simp only; split <;> rfl
      · exact ⟨_, _, e :: es, by simp [Raw.call, h.pop_small max (by omega)], .popTooSmall _ _ max (Int.not_le.1 hm), h, rfl, rfl⟩
  | nextDataSize =>
    have hn := h.nextDataSize
    cases es with
    | nil => exact ⟨.num 0, b, [], by simp [Raw.call, hn], .sizeEmpty, h, rfl, rfl⟩
    | cons e es => exact ⟨.num e.2.length, b, e :: es, by simp [Raw.call, hn], .size _ _, h, rfl, rfl⟩
  | count =>
    refine ⟨_, b, es, rfl, ?_, h, rfl, rfl⟩
    have : b.getCurrentCount = ((es.map (·.2)).length : Int) := by simpa [Raw.getCurrentCount] using h.cnt
    rw [this]; exact .count _
  | empty =>
    refine ⟨_, b, es, rfl, ?_, h, rfl, rfl⟩
    have : b.empty = (es.map (·.2)).isEmpty := by rw [h.empty_eq]; simp
    rw [this]; exact .empty _
  | reverse =>
    obtain ⟨b', e1, e2, e3, e4⟩ := h.reverse
    exact ⟨.done, b', es.reverse, by simp [Raw.call, e1], by rw [List.map_reverse]; exact .reverse _, e2, e3, e4⟩
  | clear => exact ⟨_, _, [], rfl, .clear _, h.clear, rfl, rfl⟩

theorem Rep.run {b es} (h : Rep b es) (ops : List Op) :
    ∃ os b' es', b.run ops = some (os, b') ∧ Session (es.map (·.2)) ops os (es'.map (·.2)) ∧ Rep b' es'
      ∧ b'.cap = b.cap := by
  induction ops generalizing b es with
  | nil => exact ⟨_, _, _, rfl, .nil _, h, rfl⟩
  | cons op ops ih =>
    obtain ⟨o, b1, es1, h1, h2, h3, h4, _⟩ := h.call op
    obtain ⟨os, b2, es2, h5, h6, h7, h8⟩ := ih h3
    exact ⟨_, _, _, by simp [Raw.run, h1, h5], .cons h2 h6, h7, by rw [h8, h4]⟩

end Verif.StackBuffer

namespace Verif.StackBuffer

/-- The blocks are stored back to back below `next`. -/
def Tight : Int → List (Int × Msg) → Prop
  | next, [] => next = 0
  | next, e :: es => e.1 + e.2.length = next ∧ Tight e.1 es

theorem Tight.sum {next es} (h : Tight next es) :
    next = ((es.map fun e => (e.2.length : Int)).sum) := by
  induction es generalizing next with
  | nil => simpa [Tight] using h
  | cons e es ih =>
    obtain ⟨h1, h2⟩ := h
    have := ih h2
    simp only [List.map_cons, List.sum_cons]; omega

theorem Rep.tight_call {b es} (h : Rep b es) (ht : Tight b.next es) (op : Op) (hop : op ≠ .reverse) :
    ∃ o b' es', b.call op = some (o, b') ∧ Lifo (es.map (·.2)) op o (es'.map (·.2)) ∧ Rep b' es'
      ∧ Tight b'.next es' ∧ b'.cap = b.cap := by
  cases op with
  | push d =>
    by_cases hd : d = []
    · subst hd
      refine ⟨.pushed false, b, es, by simp [Raw.call, Raw.push], .refused _ _, h, ht, rfl⟩
    · by_cases hs : b.isSpaceAvailable d.length = true
      · obtain ⟨b', e1, e2, e3, e4⟩ := h.push d hd hs
        refine ⟨_, b', _, by simp [Raw.call, e1], .push _ _ hd, e2, ?_, e3⟩
        have : b'.next = b.next + d.length := by
          unfold Raw.push at e1
          simp only at e1
          have hpos : 0 < d.length := by cases d <;> simp_all
          rw [if_neg (by omega), if_neg (by simp [hs]), if_neg (by omega)] at e1
          simp only [Option.bind_eq_some_iff] at e1
          obtain ⟨_, _, _, _, _, _, e1⟩ := e1
          cases e1; rfl
        exact ⟨by simp [this], ht⟩
      · have : b.push (some d) d.length = some (false, b) := by
          unfold Raw.push; simp [hs]
        exact ⟨_, b, es, by simp [Raw.call, this], .refused _ _, h, ht, rfl⟩
  | pop max =>
    cases es with
    | nil => exact ⟨_, _, [], by simp [Raw.call, h.pop_empty max], .popEmpty max, h, ht, rfl⟩
    | cons e es =>
      by_cases hm : (e.2.length : Int) ≤ max
      · refine ⟨_, _, es, by simp [Raw.call, h.pop_ok max hm], .pop _ _ max hm, h.release, ?_, ?_⟩
        · have hcnt := h.cnt
          simp only [List.length_cons] at hcnt
          obtain ⟨t1, t2⟩ := ht
          cases es with
          | nil =>
            unfold Raw.release; simp only
            rw [if_pos (by simp at hcnt; omega)]; rfl
          | cons f fs =>
            unfold Raw.release; simp only
            rw [if_neg (by simp at hcnt; omega), if_pos t1]
            simp only
            have : b.next - (e.2.length : Int) = e.1 := by omega
            rw [this]; exact t2
        · unfold Raw.release; simp only; split <;> rfl
      · exact ⟨_, _, e :: es, by simp [Raw.call, h.pop_small max (by omega)], .popTooSmall _ _ max (Int.not_le.1 hm), h, ht, rfl⟩
  | nextDataSize =>
    have hn := h.nextDataSize
    cases es with
    | nil => exact ⟨.num 0, b, [], by simp [Raw.call, hn], .sizeEmpty, h, ht, rfl⟩
    | cons e es => exact ⟨.num e.2.length, b, e :: es, by simp [Raw.call, hn], .size _ _, h, ht, rfl⟩
  | count =>
    refine ⟨_, b, es, rfl, ?_, h, ht, rfl⟩
    have : b.getCurrentCount = ((es.map (·.2)).length : Int) := by simpa [Raw.getCurrentCount] using h.cnt
    rw [this]; exact .count _
  | empty =>
    refine ⟨_, b, es, rfl, ?_, h, ht, rfl⟩
    have : b.empty = (es.map (·.2)).isEmpty := by rw [h.empty_eq]; simp
    rw [this]; exact .empty _
  | reverse => exact absurd rfl hop
  | clear => exact ⟨_, _, [], rfl, .clear _, h.clear, rfl, rfl⟩

theorem Rep.tight_run {b es} (h : Rep b es) (ht : Tight b.next es) (ops : List Op) (hno : Op.reverse ∉ ops) :
    ∃ os b' es', b.run ops = some (os, b') ∧ Session (es.map (·.2)) ops os (es'.map (·.2)) ∧ Rep b' es'
      ∧ Tight b'.next es' ∧ b'.cap = b.cap := by
  induction ops generalizing b es with
  | nil => exact ⟨_, _, _, rfl, .nil _, h, ht, rfl⟩
  | cons op ops ih =>
    simp only [List.mem_cons, not_or] at hno
    obtain ⟨o, b1, es1, h1, h2, h3, h4, h5⟩ := h.tight_call ht op (fun e => hno.1 e.symm)
    obtain ⟨os, b2, es2, h6, h7, h8, h9, h10⟩ := ih h3 h4 hno.2
    exact ⟨_, _, _, by simp [Raw.run, h1, h6], .cons h2 h7, h8, h9, by rw [h10, h5]⟩

end Verif.StackBuffer
