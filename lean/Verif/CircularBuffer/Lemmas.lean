import Verif.CircularBuffer.Spec

/-
Representation relation between the memory of a CircularBuffer and the queue of messages
it stands for, and the proof that every operation of a careful client preserves it.
-/
namespace Verif.CircularBuffer
open Mem

/-- `Seg m lim a b q`: the bytes `[a,b)` of `m` are exactly the encodings of the messages
`q`, each of which starts at least 8 bytes before `lim`. -/
inductive Seg (m : Mem) (lim : Int) : Int → Int → List Msg → Prop
  | nil (a) : Seg m lim a a []
  | cons (a b) (d : Msg) (q) (hpos : 0 < d.length) (hsm : (d.length : Int) < 2147483648)
      (hlim : a + 8 ≤ lim)
      (hh : m.read a 4 = some (encI32 d.length)) (hd : m.read (a + 4) d.length = some d)
      (ht : Seg m lim (a + (d.length + 4)) b q) : Seg m lim a b (d :: q)

theorem Seg.le {m lim a b q} (h : Seg m lim a b q) : a ≤ b := by
  induction h with
  | nil => omega
  | cons => omega

theorem Seg.lt {m lim a b d q} (h : Seg m lim a b (d :: q)) : a + 4 < b := by
  cases h with
  | cons a b d q hpos hsm hlim hh hd ht => have := ht.le; omega

theorem Seg.eq_nil {m lim a q} (h : Seg m lim a a q) : q = [] := by
  cases q with
  | nil => rfl
  | cons d q => have := h.lt; omega

theorem Seg.nil_eq {m lim a b} (h : Seg m lim a b []) : a = b := by
  cases h; rfl

theorem Seg.snoc {m lim a b q} (h : Seg m lim a b q) (d : Msg) (hpos : 0 < d.length)
    (hsm : (d.length : Int) < 2147483648) (hlim : b + 8 ≤ lim)
    (hh : m.read b 4 = some (encI32 d.length)) (hd : m.read (b + 4) d.length = some d) :
    Seg m lim a (b + (d.length + 4)) (q ++ [d]) := by
  induction h with
  | nil a => exact .cons _ _ _ _ hpos hsm hlim hh hd (.nil _)
  | cons a b d' q h1 h2 h3 h4 h5 _ ih =>
    exact .cons _ _ _ _ h1 h2 h3 h4 h5 (ih hlim hh hd)

/-- A segment can be transported to another memory (and shifted by `k`) as long as its
bytes are the same there. -/
theorem Seg.transport {m m' : Mem} {lim lim' a b q} (h : Seg m lim a b q) (k : Int)
    (h0 : 0 ≤ a + k) (h1 : b + k ≤ m'.size) (hlim : lim + k ≤ lim')
    (hb : ∀ j, a ≤ j → j < b → m'.byte (j + k) = m.byte j) :
    Seg m' lim' (a + k) (b + k) q := by
  induction h with
  | nil a => exact .nil _
  | cons a b d q hp hs hl hh hd ht ih =>
    have hle := ht.le
    refine .cons _ _ _ _ hp hs (by omega) ?_ ?_ ?_
    · refine read_congr hh h0 (by omega) ?_
      intro i hi
      have := hb (a + i) (by omega) (by omega)
      rw [← this]; congr 1; omega
    · refine read_congr hd (by omega) (by omega) ?_
      intro i hi
      have := hb (a + 4 + i) (by omega) (by omega)
      rw [← this]; congr 1; omega
    · have := ih (by omega) h1 (fun j hj1 hj2 => hb j (by omega) hj2)
      have e : a + k + (↑d.length + 4) = a + (↑d.length + 4) + k := by omega
      rw [e]; exact this

theorem Seg.frame {m m' : Mem} {lim a b q} (h : Seg m lim a b q)
    (h0 : 0 ≤ a) (h1 : b ≤ m'.size) (hb : ∀ j, a ≤ j → j < b → m'.byte j = m.byte j) :
    Seg m' lim a b q := by
  have := h.transport (m' := m') (lim' := lim) 0 (by omega) (by omega) (by omega)
    (fun j h1 h2 => by simpa using hb j h1 h2)
  simpa using this

theorem Seg.lim_mono {m : Mem} {lim lim' a b q} (h : Seg m lim a b q) (hl : lim ≤ lim') :
    Seg m lim' a b q := by
  induction h with
  | nil a => exact .nil _
  | cons a b d q hp hs hl' hh hd ht ih => exact .cons _ _ _ _ hp hs (by omega) hh hd ih

/-- a segment whose end is at least 8 below `lim'` satisfies that limit -/
theorem Seg.lim_of_end {m : Mem} {lim lim' a b q} (h : Seg m lim a b q)
    (hl : b + 8 ≤ lim') : Seg m lim' a b q := by
  induction h with
  | nil a => exact .nil _
  | cons a b d q hp hs hl' hh hd ht ih =>
    have := ht.le
    exact .cons _ _ _ _ hp hs (by omega) hh hd (ih hl)

/-- The representation relation: the buffer holds the messages `q`. -/
structure Rep (b : Raw) (q : List Msg) : Prop where
  nr0 : 0 ≤ b.nr
  nw0 : 0 ≤ b.nw
  hsize : b.cap ≤ b.mem.size
  hcap : b.cap < 2147483648
  body :
    (b.nr ≤ b.nw ∧ (b.nw + 8 ≤ b.cap ∨ b.nw = 0) ∧ Seg b.mem b.cap b.nr b.nw q) ∨
    (b.nw < b.nr ∧ ∃ e q1 q2, q = q1 ++ q2 ∧ e ≤ b.cap ∧
      Seg b.mem b.cap b.nr e q1 ∧ Seg b.mem b.cap 0 b.nw q2 ∧
      ((e + 8 ≤ b.cap ∧ b.mem.read e 4 = some (encI32 (-1)) ∧ q2 ≠ []) ∨
       (b.cap < e + 8 ∧ q1 ≠ [])))

theorem Rep.init (mem : Mem) (cap : Int) (h : cap ≤ mem.size) (hc : cap < 2147483648) :
    Rep (Raw.init mem cap) [] :=
  ⟨by simp [Raw.init], by simp [Raw.init], h, hc, .inl ⟨by simp [Raw.init], by simp [Raw.init], .nil _⟩⟩

theorem storeMsg_ok {m : Mem} {pos : Int} {d : Msg} (h0 : 0 ≤ pos)
    (h1 : pos + (d.length + 4) ≤ m.size) :
    ∃ m', Raw.storeMsg m pos d d.length = some m' ∧ m'.size = m.size ∧
      m'.read pos 4 = some (encI32 d.length) ∧ m'.read (pos + 4) d.length = some d ∧
      (∀ j, (j < pos ∨ pos + (d.length + 4) ≤ j) → m'.byte j = m.byte j) := by
  obtain ⟨m1, hm1⟩ := write_eq (m := m) (off := pos) (bs := encI32 d.length) h0
    (by rw [encI32_length]; omega)
  have s1 := write_spec hm1
  rw [encI32_length] at s1
  obtain ⟨m2, hm2⟩ := write_eq (m := m1) (off := pos + 4) (bs := d) (by omega)
    (by rw [s1.2.2.1]; omega)
  have s2 := write_spec hm2
  refine ⟨m2, ?_, by rw [s2.2.2.1, s1.2.2.1], ?_, s2.2.2.2.2, ?_⟩
  · simp [Raw.storeMsg, writeI32, hm1, hm2]
  · exact read_write_disjoint hm2 s1.2.2.2.2 (by omega)
  · intro j hj
    rw [s2.2.2.2.1 j (by omega), s1.2.2.2.1 j (by omega)]

/-- A push that has room and does not overfill the buffer succeeds, without undefined behaviour, and appends the message. -/
theorem Rep.push_exact {b : Raw} {q : List Msg} (h : Rep b q) (d : Msg) (hd : 0 < d.length)
    (hg : b.isSpaceAvailable d.length = true)
    (ho : b.overfills d.length = false) :
    ∃ b', b.push (some d) d.length = some (true, b') ∧ Rep b' (q ++ [d]) := by
  obtain ⟨nr0, nw0, hsize, hcap, body⟩ := h
  obtain ⟨m, cap, nw, nr⟩ := b
  simp only at *
  simp only [Raw.overfills, hg, Bool.true_and] at ho
  unfold Raw.isSpaceAvailable at hg
  simp only at hg
  unfold Raw.push
  simp only
  rw [if_neg (by omega)]
  rcases body with ⟨hle, hend, hseg⟩ | ⟨hlt, e, q1, q2, rfl, hecap, hs1, hs2, htail⟩
  · rw [if_pos (by omega)] at hg ho ⊢
    by_cases hA : cap - nw ≥ (d.length : Int) + 4
    · rw [if_pos hA] at ho ⊢
      have hguard : nr ≠ 0 ∨ cap - nw ≥ (d.length : Int) + 12 := by
        simp only [decide_eq_false_iff_not] at ho; omega
      obtain ⟨m', hst, hsz, hr1, hr2, hfr⟩ := storeMsg_ok (m := m) (pos := nw) (d := d) nw0 (by omega)
      have hseg' : Seg m' cap nr (nw + (d.length + 4)) (q ++ [d]) := by
        refine Seg.snoc (hseg.frame nr0 (by omega) ?_) d hd (by omega) (by omega) hr1 hr2
        intro j _ hj; exact hfr j (by omega)
      rw [hst]
      simp only [Option.bind_eq_bind, Option.bind_some]
      by_cases hw : cap - (nw + (↑d.length + 4)) < 8 ∧ nr > 0
      · refine ⟨_, by rw [if_pos hw], nr0, by simp, by simp [hsz]; omega, by simpa using hcap, .inr ⟨?_, nw + (d.length + 4), q ++ [d], [], by simp, by simp; omega, hseg', .nil _, .inr ⟨by simp; omega, by simp⟩⟩⟩
        simp; omega
      · refine ⟨_, by rw [if_neg hw], nr0, by simp; omega, by simp [hsz]; omega, by simpa using hcap, .inl ⟨by simp; omega, by simp; omega, hseg'⟩⟩
    · rw [if_neg hA] at hg ho ⊢
      have hguard : nr > (d.length : Int) + 4 := by
        simp only [decide_eq_false_iff_not] at ho
        split at hg
        · omega
        · cases hg
      rw [if_pos (by omega)]
      obtain ⟨m0, hm0⟩ := write_eq (m := m) (off := nw) (bs := encI32 (-1)) nw0
        (by rw [encI32_length]; omega)
      have s0 := write_spec hm0
      rw [encI32_length] at s0
      obtain ⟨m', hst, hsz, hr1, hr2, hfr⟩ := storeMsg_ok (m := m0) (pos := 0) (d := d) (by omega) (by omega)
      simp only [writeI32, hm0, hst, Option.bind_eq_bind, Option.bind_some]
      refine ⟨_, rfl, nr0, by simp; omega, by simp [hsz, s0.2.2.1]; omega, by simpa using hcap, .inr ⟨by simp; omega, nw, q, [d], rfl, by simp; omega, ?_, ?_, .inl ⟨by simp; omega, ?_, by simp⟩⟩⟩
      · refine hseg.frame nr0 (by rw [hsz, s0.2.2.1]; omega) ?_
        intro j _ hj; rw [hfr j (by omega), s0.2.2.2.1 j (by omega)]
      · have := Seg.snoc (m := m') (lim := cap) (.nil 0) d hd (by omega) (by omega) hr1 hr2
        simpa using this
      · refine read_congr s0.2.2.2.2 nw0 (by rw [hsz, s0.2.2.1]; simp; omega) ?_
        intro i hi; exact hfr _ (by omega)
  · rw [if_neg (by omega)] at hg ho ⊢
    have hguard : nr - nw > (d.length : Int) + 4 := by
      simp only [decide_eq_false_iff_not] at ho
      split at hg
      · omega
      · cases hg
    rw [if_pos (by omega)]
    have hle1 := hs1.le
    have hnr8 : nr + 8 ≤ cap := by
      cases hs1 with
      | nil => exact htail.elim (·.1) fun h => absurd rfl h.2
      | cons _ _ _ _ _ _ h => exact h
    obtain ⟨m', hst, hsz, hr1, hr2, hfr⟩ := storeMsg_ok (m := m) (pos := nw) (d := d) nw0 (by omega)
    simp only [hst, Option.bind_eq_bind, Option.bind_some]
    refine ⟨_, rfl, nr0, by simp; omega, by simp [hsz]; omega, by simpa using hcap, .inr ⟨by simp; omega, e, q1, q2 ++ [d], by simp, hecap, ?_, ?_, ?_⟩⟩
    · refine hs1.frame nr0 (by simp [hsz]; omega) ?_
      intro j hj1 hj; exact hfr j (by omega)
    · refine Seg.snoc (hs2.frame (by omega) (by simp [hsz]; omega) ?_) d hd (by omega) (by omega) hr1 hr2
      intro j _ hj; exact hfr j (by omega)
    · rcases htail with ⟨h1, h2, h3⟩ | ⟨h1, h2⟩
      · refine .inl ⟨h1, ?_, by simp⟩
        refine read_congr h2 (by omega) (by simp [hsz]; omega) ?_
        intro i hi; exact hfr _ (by omega)
      · exact .inr ⟨h1, h2⟩


/-- room for 8 more bytes than needed: the buffer is not overfilled -/
theorem margin_exact {b : Raw} {n : Int} (hn : 0 ≤ n) (h : b.isSpaceAvailable (n + 8) = true) :
    b.isSpaceAvailable n = true ∧ b.overfills n = false := by
  have h1 : b.isSpaceAvailable n = true := by
    unfold Raw.isSpaceAvailable at h ⊢
    split at h <;> split at h
    · rw [if_pos (by assumption), if_pos (by omega)]
    · rw [if_pos (by assumption)]
      split at h
      · split
        · rfl
        · rw [if_pos (by omega)]
      · cases h
    · rw [if_neg (by assumption), if_pos (by omega)]
    · cases h
  refine ⟨h1, ?_⟩
  simp only [Raw.overfills, h1, Bool.true_and]
  unfold Raw.isSpaceAvailable at h
  split at h <;> split at h
  · rw [if_pos (by assumption), if_pos (by omega)]; simp only [decide_eq_false_iff_not]; omega
  · rw [if_pos (by assumption)]
    split at h
    · split <;> simp only [decide_eq_false_iff_not] <;> omega
    · cases h
  · rw [if_neg (by assumption)]; simp only [decide_eq_false_iff_not]; omega
  · cases h

/-- A guarded push succeeds, without undefined behaviour, and appends the message. -/
theorem Rep.push {b : Raw} {q : List Msg} (h : Rep b q) (d : Msg) (hd : 0 < d.length)
    (hg : b.isSpaceAvailable (d.length + 8) = true) :
    ∃ b', b.push (some d) d.length = some (true, b') ∧ Rep b' (q ++ [d]) :=
  h.push_exact d hd (margin_exact (by omega) hg).1 (margin_exact (by omega) hg).2

/-- A push without room is refused. -/
theorem push_no_space {b : Raw} {d : Msg} (hg : b.isSpaceAvailable d.length = false) :
    b.push (some d) d.length = some (false, b) := by
  unfold Raw.push
  simp only
  split
  · rfl
  unfold Raw.isSpaceAvailable at hg
  split
  · rw [if_pos (by assumption)] at hg
    split at hg
    · cases hg
    · rw [if_neg (by assumption)]
      split at hg
      · cases hg
      · rw [if_neg (by assumption)]
  · rw [if_neg (by assumption)] at hg
    split at hg
    · cases hg
    · rw [if_neg (by assumption)]

theorem Seg.head {m lim a b d q} (h : Seg m lim a b (d :: q)) :
    0 < d.length ∧ (d.length : Int) < 2147483648 ∧ a + 8 ≤ lim ∧
    m.readI32 a = some (d.length : Int) ∧ m.read (a + 4) d.length = some d ∧
    Seg m lim (a + (d.length + 4)) b q := by
  cases h with
  | cons a b d q hpos hsm hlim hh hd ht =>
    exact ⟨hpos, hsm, hlim, readI32_of_read hh (by omega) hsm, hd, ht⟩

theorem readI32_marker {m : Mem} {e : Int} (h : m.read e 4 = some (encI32 (-1))) :
    m.readI32 e = some (-1) := readI32_of_read h (by omega) (by omega)

/-- The buffer looks empty exactly when no message is queued. -/
theorem Rep.empty_iff {b : Raw} {q} (h : Rep b q) : b.nw = b.nr ↔ q = [] := by
  obtain ⟨nr0, nw0, hsize, hcap, body⟩ := h
  rcases body with ⟨hle, hend, hseg⟩ | ⟨hlt, e, q1, q2, rfl, hecap, hs1, hs2, htail⟩
  · constructor
    · intro h; rw [h] at hseg; exact hseg.eq_nil
    · rintro rfl; exact hseg.nil_eq.symm
  · constructor
    · intro h; omega
    · intro h
      simp only [List.append_eq_nil_iff] at h
      obtain ⟨rfl, rfl⟩ := h
      simp at htail

/-- Where the oldest message is: at `nr`, or at the origin behind a wrap marker. -/
theorem Rep.front {b : Raw} {d q} (h : Rep b (d :: q)) :
    ∃ p, (b.mem.readI32 b.nr = some (d.length : Int) ∧ p = b.nr ∨
          b.mem.readI32 b.nr = some (-1) ∧ p = 0) ∧
      0 < d.length ∧ (d.length : Int) < 2147483648 ∧
      b.mem.readI32 p = some (d.length : Int) ∧ b.mem.read (p + 4) d.length = some d ∧
      Rep { b with nr := p } (d :: q) ∧
      Rep { b with nr := if b.cap - (p + (d.length + 4)) < 8 then 0 else p + (d.length + 4) } q := by
  obtain ⟨nr0, nw0, hsize, hcap, body⟩ := h
  obtain ⟨m, cap, nw, nr⟩ := b
  simp only at *
  rcases body with ⟨hle, hend, hseg⟩ | ⟨hlt, e, q1, q2, hq, hecap, hs1, hs2, htail⟩
  · obtain ⟨h1, h2, h3, h4, h5, h6⟩ := hseg.head
    have hle' := h6.le
    refine ⟨nr, .inl ⟨h4, rfl⟩, h1, h2, h4, h5, ⟨nr0, nw0, hsize, hcap, .inl ⟨hle, hend, hseg⟩⟩, ?_⟩
    rw [if_neg (by omega)]
    exact ⟨by simp; omega, nw0, hsize, hcap, .inl ⟨by simp; omega, hend, h6⟩⟩
  · cases q1 with
    | nil =>
      have := hs1.nil_eq
      subst this
      simp only [List.nil_append] at hq
      subst hq
      rcases htail with ⟨t1, t2, t3⟩ | ⟨t1, t2⟩
      · obtain ⟨h1, h2, h3, h4, h5, h6⟩ := hs2.head
        have hle' := h6.le
        refine ⟨0, .inr ⟨readI32_marker t2, rfl⟩, h1, h2, h4, h5,
          ⟨by simp, nw0, hsize, hcap, .inl ⟨nw0, by simp; omega, hs2⟩⟩, ?_⟩
        rw [if_neg (by omega)]
        exact ⟨by simp; omega, nw0, hsize, hcap, .inl ⟨by simp at *; omega, by simp; omega, h6⟩⟩
      · exact absurd rfl t2
    | cons d' q1 =>
      simp only [List.cons_append, List.cons.injEq] at hq
      obtain ⟨rfl, rfl⟩ := hq
      obtain ⟨h1, h2, h3, h4, h5, h6⟩ := hs1.head
      have hle' := h6.le
      refine ⟨nr, .inl ⟨h4, rfl⟩, h1, h2, h4, h5,
        ⟨nr0, nw0, hsize, hcap, .inr ⟨hlt, e, d :: q1, q2, rfl, hecap, hs1, hs2, htail⟩⟩, ?_⟩
      by_cases hw : cap - (nr + ((d.length : Int) + 4)) < 8
      · rw [if_pos hw]
        have hq1 : q1 = [] := by
          cases q1 with
          | nil => rfl
          | cons d2 q1 => have := h6.head.2.2.1; omega
        subst hq1
        exact ⟨by simp, nw0, hsize, hcap, .inl ⟨nw0, by simp; omega, hs2⟩⟩
      · rw [if_neg hw]
        refine ⟨by simp; omega, nw0, hsize, hcap, .inr ⟨by simp; omega, e, q1, q2, rfl, hecap, h6, hs2, ?_⟩⟩
        rcases htail with t | ⟨t1, t2⟩
        · exact .inl t
        · refine .inr ⟨t1, ?_⟩
          rintro rfl
          have := h6.nil_eq
          omega

theorem Rep.pop_empty {b : Raw} (h : Rep b []) (max : Int) :
    b.pop max = some (0, none, b) := by
  unfold Raw.pop; rw [if_pos (h.empty_iff.2 rfl)]

theorem Rep.pop_ok {b : Raw} {d q} (h : Rep b (d :: q)) (max : Int)
    (hm : (d.length : Int) ≤ max) :
    ∃ b', b.pop max = some ((d.length : Int), some d, b') ∧ Rep b' q := by
  have hne : b.nw ≠ b.nr := fun e => by have := h.empty_iff.1 e; cases this
  obtain ⟨p, hp, h1, h2, h3, h4, h5, h6⟩ := h.front
  refine ⟨_, ?_, h6⟩
  unfold Raw.pop
  rw [if_neg hne]
  have hns : ¬ ((d.length : Int) < 0) := by omega
  rcases hp with ⟨hr, rfl⟩ | ⟨hr, rfl⟩
  · simp [hr, hns, hm, h4]
  · rw [Int.zero_add] at h4
    simp [hr, h3, hns, hm, h4]

theorem Rep.pop_small {b : Raw} {d q} (h : Rep b (d :: q)) (max : Int)
    (hm : max < (d.length : Int)) :
    ∃ b', b.pop max = some (-(d.length : Int), none, b') ∧ Rep b' (d :: q) := by
  have hne : b.nw ≠ b.nr := fun e => by have := h.empty_iff.1 e; cases this
  obtain ⟨p, hp, h1, h2, h3, h4, h5, h6⟩ := h.front
  refine ⟨_, ?_, h5⟩
  unfold Raw.pop
  rw [if_neg hne]
  have hns : ¬ ((d.length : Int) < 0) := by omega
  have hm' : ¬ ((d.length : Int) ≤ max) := by omega
  rcases hp with ⟨hr, rfl⟩ | ⟨hr, rfl⟩
  · simp [hr, hns, hm']
  · simp [hr, h3, hm']

theorem Rep.nextDataSize {b : Raw} {q} (h : Rep b q) :
    b.nextDataSize = some (match q with | [] => 0 | d :: _ => (d.length : Int)) := by
  unfold Raw.nextDataSize
  cases q with
  | nil => rw [if_pos (h.empty_iff.2 rfl)]
  | cons d q =>
    have hne : b.nw ≠ b.nr := fun e => by have := h.empty_iff.1 e; cases this
    obtain ⟨p, hp, h1, h2, h3, h4, h5, h6⟩ := h.front
    rw [if_neg hne]
    have hns : ¬ ((d.length : Int) < 0) := by omega
    rcases hp with ⟨hr, rfl⟩ | ⟨hr, rfl⟩
    · simp [hr, hns]
    · simp [hr, h3]

theorem Rep.clear {b : Raw} {q} (h : Rep b q) : Rep b.clear [] :=
  ⟨by simp [Raw.clear], by simp [Raw.clear], h.hsize, h.hcap,
    .inl ⟨by simp [Raw.clear], by simp [Raw.clear], .nil _⟩⟩

/-- One call of a careful client is a step of the ideal FIFO. -/
theorem Rep.carefulCall {b : Raw} {q} (h : Rep b q) (op : Op) :
    ∃ o b' q', b.carefulCall op = some (o, b') ∧ Fifo q op o q' ∧ Rep b' q' := by
  cases op with
  | push d =>
    unfold Raw.carefulCall
    by_cases hg : b.isSpaceAvailable (d.length + 8) = true
    · simp only [hg, if_true]
      by_cases hd : 0 < d.length
      · obtain ⟨b', h1, h2⟩ := h.push d hd hg
        exact ⟨_, _, _, by simp [Raw.call, h1], .push q d, h2⟩
      · refine ⟨.pushed false, b, q, ?_, .refused q d, h⟩
        have : d = [] := by cases d <;> simp_all
        subst this
        simp [Raw.call, Raw.push]
    · simp only [hg]
      exact ⟨_, _, _, rfl, .refused q d, h⟩
  | pop max =>
    unfold Raw.carefulCall
    cases q with
    | nil => exact ⟨_, _, _, by simp [Raw.call, h.pop_empty], .popEmpty max, h⟩
    | cons d q =>
      by_cases hm : (d.length : Int) ≤ max
      · obtain ⟨b', h1, h2⟩ := h.pop_ok max hm
        exact ⟨_, _, _, by simp [Raw.call, h1], .pop d q max hm, h2⟩
      · obtain ⟨b', h1, h2⟩ := h.pop_small max (by omega)
        exact ⟨_, _, _, by simp [Raw.call, h1], .popTooSmall d q max (by omega), h2⟩
  | nextDataSize =>
    unfold Raw.carefulCall
    cases q with
    | nil => exact ⟨_, _, _, by simp [Raw.call, h.nextDataSize], .sizeEmpty, h⟩
    | cons d q => exact ⟨_, _, _, by simp [Raw.call, h.nextDataSize], .size d q, h⟩
  | empty =>
    refine ⟨_, _, _, rfl, ?_, h⟩
    have : b.empty = q.isEmpty := by
      have := h.empty_iff
      cases q <;> simp_all [Raw.empty]
    rw [this]; exact .empty q
  | clear => exact ⟨_, _, _, rfl, .clear q, h.clear⟩

/-- One call of a client that does not overfill the buffer is a step of the ideal FIFO. -/
theorem Rep.exactCall {b : Raw} {q} (h : Rep b q) (op : Op) :
    ∃ o b' q', b.exactCall op = some (o, b') ∧ Fifo q op o q' ∧ Rep b' q' := by
  cases op with
  | push d =>
    have he : b.exactCall (.push d) = if b.overfills d.length then some (.pushed false, b) else b.call (.push d) := rfl
    rw [he]
    by_cases ho : b.overfills d.length = true
    · rw [if_pos ho]; exact ⟨_, _, _, rfl, .refused q d, h⟩
    · rw [if_neg ho]
      rw [Bool.not_eq_true] at ho
      by_cases hd : 0 < d.length
      · by_cases hs : b.isSpaceAvailable d.length = true
        · obtain ⟨b', h1, h2⟩ := h.push_exact d hd hs ho
          exact ⟨_, _, _, by simp [Raw.call, h1], .push q d, h2⟩
        · exact ⟨_, _, _, by simp [Raw.call, push_no_space (Bool.not_eq_true _ ▸ hs)], .refused q d, h⟩
      · refine ⟨.pushed false, b, q, ?_, .refused q d, h⟩
        have : d = [] := by cases d <;> simp_all
        subst this
        simp [Raw.call, Raw.push]
  | pop max => exact h.carefulCall (.pop max)
  | nextDataSize => exact h.carefulCall .nextDataSize
  | empty => exact h.carefulCall .empty
  | clear => exact h.carefulCall .clear

theorem Rep.run_exact {b : Raw} {q} (h : Rep b q) (ops : List Op) :
    ∃ os b' q', runCalls Raw.exactCall b ops = some (os, b') ∧ Session q ops os q' ∧ Rep b' q' := by
  induction ops generalizing b q with
  | nil => exact ⟨_, _, _, rfl, .nil q, h⟩
  | cons op ops ih =>
    obtain ⟨o, b1, q1, h1, h2, h3⟩ := h.exactCall op
    obtain ⟨os, b2, q2, h4, h5, h6⟩ := ih h3
    exact ⟨_, _, _, by simp [runCalls, h1, h4], .cons h2 h5, h6⟩

theorem Rep.run_careful {b : Raw} {q} (h : Rep b q) (ops : List Op) :
    ∃ os b' q', runCalls Raw.carefulCall b ops = some (os, b') ∧ Session q ops os q' ∧ Rep b' q' := by
  induction ops generalizing b q with
  | nil => exact ⟨_, _, _, rfl, .nil q, h⟩
  | cons op ops ih =>
    obtain ⟨o, b1, q1, h1, h2, h3⟩ := h.carefulCall op
    obtain ⟨os, b2, q2, h4, h5, h6⟩ := ih h3
    exact ⟨_, _, _, by simp [runCalls, h1, h4], .cons h2 h5, h6⟩

/-- In a session without `clear`, what was accepted is what was delivered followed by what
is still queued. -/
theorem Session.conserve {q ops os q'} (h : Session q ops os q') (hc : Op.clear ∉ ops) :
    q ++ accepted ops os = delivered os ++ q' := by
  induction h with
  | nil q => simp [accepted, delivered]
  | cons hs _ ih =>
    simp only [List.mem_cons, not_or] at hc
    have ih := ih hc.2
    cases hs <;> simp_all [accepted, delivered]

end Verif.CircularBuffer
