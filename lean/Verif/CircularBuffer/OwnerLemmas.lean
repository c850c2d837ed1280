import Verif.CircularBuffer.Lemmas
import Verif.CircularBuffer.OwnerSpec

/- Lemmas about the owning class `CircularBuffer`: resize, copies, moves. -/
namespace Verif.CircularBuffer
open Mem

/-- The owning buffer holds the messages `q` and its memory bookkeeping is consistent. -/
structure Owns (b : Buf) (q : List Msg) : Prop where
  rep : Rep b.raw q
  act : b.actualSize = b.cap
  cap0 : 0 ≤ b.cap
  capLe : b.cap ≤ b.actualCapacity
  mem : (∃ m, b.data = .owned m ∧ m.size = b.actualCapacity) ∨
        ((b.data = .null ∨ b.data = .dangling) ∧ b.actualCapacity = 0)

theorem Owns.mem_size {b q} (h : Owns b q) : b.data.mem.size = b.actualCapacity := by
  rcases h.mem with ⟨m, h1, h2⟩ | ⟨h1 | h1, h2⟩ <;> simp [h1, Blk.mem, h2, Mem.null]

theorem Owns.setRaw {b q r q'} (h : Owns b q) (hr : Rep r q') (hc : r.cap = b.cap)
    (hs : r.mem.size = b.data.mem.size) : Owns (b.setRaw r) q' := by
  rcases h.mem with ⟨m, h1, h2⟩ | ⟨h1, h2⟩
  · refine ⟨?_, ?_, ?_, ?_, .inl ⟨r.mem, by simp [Buf.setRaw, h1], ?_⟩⟩
    · simpa [Buf.raw, Buf.setRaw, h1, Blk.mem] using hr
    · simpa [Buf.setRaw, hc] using h.act
    · simpa [Buf.setRaw, hc] using h.cap0
    · simpa [Buf.setRaw, hc] using h.capLe
    · simp only [Buf.setRaw]; rw [hs, h.mem_size]
  · have hcap : b.cap = 0 := by have := h.cap0; have := h.capLe; omega
    have hnil : Rep (b.setRaw r).raw q' := by
      obtain ⟨a1, a2, a3, a4, a5⟩ := hr
      rw [hc, hcap] at a5
      have hr0 : r.nr = 0 ∧ r.nw = 0 ∧ q' = [] := by
        rcases a5 with ⟨b1, b2, b3⟩ | ⟨b1, e, q1, q2, rfl, b2, b3, b4, b5⟩
        · have e1 : r.nw = 0 := by omega
          have e2 : r.nr = 0 := by omega
          rw [e1, e2] at b3
          exact ⟨e2, e1, b3.eq_nil⟩
        · have := b3.le; omega
      obtain ⟨e1, e2, rfl⟩ := hr0
      refine ⟨by simp [Buf.raw, Buf.setRaw, e1], by simp [Buf.raw, Buf.setRaw, e2], ?_, ?_, .inl ⟨?_, ?_, ?_⟩⟩
      · rcases h1 with h1 | h1 <;> simp [Buf.raw, Buf.setRaw, hc, hcap, h1, Blk.mem, Mem.null]
      · simp [Buf.raw, Buf.setRaw, hc, hcap]
      · simp [Buf.raw, Buf.setRaw, e1, e2]
      · simp [Buf.raw, Buf.setRaw, e2]
      · simp only [Buf.raw, Buf.setRaw, e1, e2]; exact .nil _
    refine ⟨hnil, ?_, ?_, ?_, .inr ⟨?_, ?_⟩⟩
    · simpa [Buf.setRaw, hc] using h.act
    · simpa [Buf.setRaw, hc] using h.cap0
    · simpa [Buf.setRaw, hc] using h.capLe
    · rcases h1 with h1 | h1 <;> simp [Buf.setRaw, h1]
    · simpa [Buf.setRaw] using h2

theorem storeMsg_size {m m' : Mem} {pos d n} (h : Raw.storeMsg m pos d n = some m') :
    m'.size = m.size := by
  unfold Raw.storeMsg at h
  simp only [Option.bind_eq_bind, Option.bind_eq_some_iff] at h
  obtain ⟨m1, h1, h2⟩ := h
  split at h2
  · cases h2
  · rw [write_size h2, write_size h1]

theorem push_cap_size {b b' : Raw} {d n r} (h : b.push d n = some (r, b')) :
    b'.cap = b.cap ∧ b'.mem.size = b.mem.size := by
  unfold Raw.push at h
  split at h
  · cases h; exact ⟨rfl, rfl⟩
  · repeat' split at h
    all_goals first
      | (cases h; exact ⟨rfl, rfl⟩)
      | (simp only [Option.bind_eq_bind, Option.bind_eq_some_iff] at h
         obtain ⟨m1, h1, h2⟩ := h
         cases h2; exact ⟨rfl, storeMsg_size h1⟩)
      | (simp only [Option.bind_eq_bind, Option.bind_eq_some_iff] at h
         obtain ⟨m1, h1, m2, h2, h3⟩ := h
         cases h3; refine ⟨rfl, ?_⟩
         show m2.size = _
         rw [storeMsg_size h2, write_size h1])

theorem pop_cap_mem {b b' : Raw} {n r d} (h : b.pop n = some (r, d, b')) :
    b'.cap = b.cap ∧ b'.mem = b.mem := by
  unfold Raw.pop at h
  split at h
  · cases h; exact ⟨rfl, rfl⟩
  · simp only [Option.bind_eq_bind, Option.bind_eq_some_iff] at h
    obtain ⟨s0, h0, h⟩ := h
    have key : ∀ (nr s1 : Int), (if s1 ≤ n then
          if s1 < 0 then none
          else (b.mem.read (nr + 4) s1.toNat).bind fun d' =>
            some (s1, some d', { b with nr := if b.cap - (nr + (s1 + 4)) < 8 then 0 else nr + (s1 + 4) })
        else some (-s1, none, { b with nr := nr })) = some (r, d, b') →
        b'.cap = b.cap ∧ b'.mem = b.mem := by
      intro nr s1 h2
      split at h2
      · split at h2
        · cases h2
        · simp only [Option.bind_eq_some_iff] at h2
          obtain ⟨d', h3, h4⟩ := h2
          cases h4; exact ⟨rfl, rfl⟩
      · cases h2; exact ⟨rfl, rfl⟩
    by_cases hs : s0 < 0
    · simp only [hs, if_true, Option.bind_eq_some_iff] at h
      obtain ⟨s1, h1, h2⟩ := h
      exact key _ _ h2
    · have := key b.nr s0
      simp only [hs, if_false] at this
      simp only [hs, if_false, Option.bind_some] at h
      exact this h

/-- `resizeMemory` with copying keeps the first `actualSize` bytes. -/
theorem resizeMemory_ok {fresh b n} (hs : 0 ≤ b.actualSize) (hsc : b.actualSize ≤ b.actualCapacity)
    (hmem : (∃ m, b.data = .owned m ∧ m.size = b.actualCapacity) ∨
        ((b.data = .null ∨ b.data = .dangling) ∧ b.actualCapacity = 0)) :
    ∃ b', Buf.resizeMemory fresh b n true = some b' ∧ b'.cap = b.cap ∧ b'.nw = b.nw ∧
      b'.nr = b.nr ∧ b'.actualSize = n ∧ n ≤ b'.actualCapacity ∧
      ((∃ m, b'.data = .owned m ∧ m.size = b'.actualCapacity) ∨
        ((b'.data = .null ∨ b'.data = .dangling) ∧ b'.actualCapacity = 0)) ∧
      b'.data.mem.size = b'.actualCapacity ∧
      (∀ j, 0 ≤ j → j < b.actualSize → b'.data.mem.byte j = b.data.mem.byte j) := by
  unfold Buf.resizeMemory
  by_cases hn : n > b.actualCapacity
  · rw [if_pos hn]
    by_cases hc : b.actualCapacity > 0
    · rcases hmem with ⟨m, hd, hsz⟩ | ⟨_, h0⟩
      · obtain ⟨bs, hbs⟩ := read_isSome (m := m) (off := 0) (n := b.actualSize.toNat) (by omega) (by omega)
        have hrb := read_eq_some.1 hbs
        obtain ⟨m', hm'⟩ := write_eq (m := ⟨n, fresh⟩) (off := 0) (bs := bs) (by omega)
          (by simp only; rw [hrb.2.2.1]; omega)
        have hw := write_spec hm'
        have hwr := read_eq_some.1 hw.2.2.2.2
        refine ⟨{ b with data := .owned m', actualCapacity := n, actualSize := n }, ?_, rfl, rfl, rfl, rfl, ?_, .inl ⟨m', rfl, ?_⟩, ?_, ?_⟩
        · have hns : ¬ b.actualSize < 0 := by omega
          simp [Buf.copyOld, hc, hns, hd, Blk.mem, hbs, hm', Buf.free]
        · simp
        · simpa using hw.2.2.1
        · simpa [Blk.mem] using hw.2.2.1
        · intro j h0 hj
          obtain ⟨i, rfl⟩ := Int.eq_ofNat_of_zero_le h0
          have e1 := hwr.2.2.2 i (by rw [hrb.2.2.1]; omega)
          have e2 := hrb.2.2.2 i (by omega)
          rw [e1] at e2
          simpa [Blk.mem, hd] using Option.some.inj e2
      · omega
    · have hz : b.actualCapacity = 0 := by omega
      refine ⟨{ b with data := .owned ⟨n, fresh⟩, actualCapacity := n, actualSize := n }, ?_, rfl, rfl, rfl, rfl, ?_, .inl ⟨_, rfl, rfl⟩, rfl, ?_⟩
      · simp [Buf.copyOld, hc]
      · simp
      · intro j h0 hj; omega
  · rw [if_neg hn]
    refine ⟨_, rfl, rfl, rfl, rfl, rfl, ?_, hmem, ?_, ?_⟩
    · simp; omega
    · rcases hmem with ⟨m, h1, h2⟩ | ⟨h1 | h1, h2⟩ <;> simp [h1, Blk.mem, h2, Mem.null]
    · intros; rfl

theorem Owns.owned_of_ne {b q} (h : Owns b q) (hne : b.nw ≠ b.nr) :
    ∃ m, b.data = .owned m ∧ m.size = b.actualCapacity := by
  rcases h.mem with h1 | ⟨h1, h2⟩
  · exact h1
  · exfalso
    have hc0 := h.cap0
    have hcl := h.capLe
    obtain ⟨a1, a2, a3, a4, a5⟩ := h.rep
    simp only [Buf.raw] at *
    rcases a5 with ⟨b1, b2, b3⟩ | ⟨b1, e, q1, q2, rfl, b2, b3, b4, b5⟩
    · omega
    · have := b3.le; omega

theorem Rep.gap {b q} (h : Rep b q) : (b.nr < b.nw → b.nw + 8 ≤ b.cap) ∧ (b.nw < b.nr → b.nr + 8 ≤ b.cap) := by
  obtain ⟨nr0, nw0, hsize, hcap, body⟩ := h
  rcases body with ⟨hle, hend, hseg⟩ | ⟨hlt, e, q1, q2, rfl, hecap, hs1, hs2, htail⟩
  · constructor <;> intro <;> omega
  · have : b.nr + 8 ≤ b.cap := by
      cases hs1 with
      | nil => exact htail.elim (·.1) fun h => absurd rfl h.2
      | cons _ _ _ _ _ _ h => exact h
    constructor <;> intro <;> omega

/-- wrapped contents survive moving the first segment to the end of the block -/
theorem Rep.shift_tail {m m' : Mem} {cap nw nr q n} (h : Rep ⟨m, cap, nw, nr⟩ q) (hw : nw < nr)
    (hn : n ≤ m'.size) (hn2 : n < 2147483648) (hroom : (cap - nr) + nw < n)
    (hmv : ∀ j, 0 ≤ j → j < cap - nr → m'.byte (n - (cap - nr) + j) = m.byte (nr + j))
    (hkeep : ∀ j, 0 ≤ j → j < nw → m'.byte j = m.byte j) :
    Rep ⟨m', n, nw, n - (cap - nr)⟩ q := by
  have hgap := h.gap.2 hw
  obtain ⟨nr0, nw0, hsize, hcap, body⟩ := h
  simp only at *
  rcases body with ⟨hle, hend, hseg⟩ | ⟨hlt, e, q1, q2, rfl, hecap, hs1, hs2, htail⟩
  · omega
  · have hle1 := hs1.le
    refine ⟨by simp; omega, nw0, hn, hn2, .inr ⟨by simp; omega, e + (n - cap), q1, q2, rfl, by simp; omega, ?_, ?_, ?_⟩⟩
    · have := hs1.transport (m' := m') (lim' := n) (n - cap) (by omega) (by omega) (by omega) (by
        intro j h1 h2
        have := hmv (j - nr) (by omega) (by omega)
        have e1 : n - (cap - nr) + (j - nr) = j + (n - cap) := by omega
        have e2 : nr + (j - nr) = j := by omega
        rw [e1, e2] at this; exact this)
      have e1 : nr + (n - cap) = n - (cap - nr) := by omega
      rw [e1] at this; exact this
    · have hf := hs2.frame (m' := m') (by omega) (by omega) (fun j h1 h2 => hkeep j h1 h2)
      exact hf.lim_of_end (by simp only; omega)
    · rcases htail with ⟨t1, t2, t3⟩ | ⟨t1, t2⟩
      · refine .inl ⟨by simp; omega, ?_, t3⟩
        refine read_congr t2 (by omega) (by simp; omega) ?_
        intro i hi
        have := hmv (e - nr + i) (by omega) (by omega)
        have e1 : n - (cap - nr) + (e - nr + i) = e + (n - cap) + i := by omega
        have e2 : nr + (e - nr + i) = e + i := by omega
        rw [e1, e2] at this; exact this
      · exact .inr ⟨by simp; omega, t2⟩

/-- linear contents survive being moved by `k` -/
theorem Rep.shift_linear {m m' : Mem} {cap nw nr q n k} (h : Rep ⟨m, cap, nw, nr⟩ q) (hl : nr < nw)
    (hk : 0 ≤ nr + k) (hn : n ≤ m'.size) (hn2 : n < 2147483648) (hroom : nw + k + 8 ≤ n)
    (hmv : ∀ j, nr ≤ j → j < nw → m'.byte (j + k) = m.byte j) :
    Rep ⟨m', n, nw + k, nr + k⟩ q := by
  obtain ⟨nr0, nw0, hsize, hcap, body⟩ := h
  simp only at *
  rcases body with ⟨hle, hend, hseg⟩ | ⟨hlt, _⟩
  · refine ⟨hk, by simp; omega, hn, hn2, .inl ⟨by simp; omega, by simp; omega, ?_⟩⟩
    have hf := hseg.transport (m' := m') (lim' := cap + k) k hk (by omega) (by omega) hmv
    exact hf.lim_of_end hroom
  · omega

theorem Owns.resize {b q} (h : Owns b q) (fresh : Int → UInt8) (n : Int) (hn0 : 0 ≤ n)
    (hn2 : n < 2147483648) (hmarg : b.jams n = false) :
    (∃ b', b.resize fresh n = some (.ok b') ∧ Owns b' q ∧ b'.capacity = n) ∨
    (b.resize fresh n = some (.thrown b) ∧ n < b.capacity ∧ q ≠ []) := by
  have hact := h.act
  have hc0 := h.cap0
  have hcl := h.capLe
  unfold Buf.resize
  by_cases h1 : n = b.cap
  · rw [if_pos h1]; exact .inl ⟨b, rfl, h, h1.symm⟩
  rw [if_neg h1]
  by_cases h2 : b.nw = b.nr
  · rw [if_pos h2]
    obtain ⟨b', e1, e2, e3, e4, e5, e6, e7, e8, e9⟩ :=
      resizeMemory_ok (fresh := fresh) (b := b) (n := n) (by omega) (by omega) h.mem
    have hq : q = [] := h.rep.empty_iff.1 h2
    subst hq
    refine .inl ⟨{ b' with cap := n, nw := 0, nr := 0 }, by simp [e1], ⟨?_, e5, hn0, e6, e7⟩, rfl⟩
    exact ⟨by simp [Buf.raw], by simp [Buf.raw], by simp [Buf.raw, e8]; exact e6, by simpa [Buf.raw] using hn2, .inl ⟨by simp [Buf.raw], by simp [Buf.raw], .nil _⟩⟩
  rw [if_neg h2]
  obtain ⟨m, hd, hsz⟩ := h.owned_of_ne h2
  have hrep : Rep ⟨m, b.cap, b.nw, b.nr⟩ q := by
    have := h.rep; simpa [Buf.raw, hd, Blk.mem] using this
  have hb1 := hrep.nr0
  have hb2 := hrep.nw0
  simp only at hb1 hb2
  have hbnd : (b.nr < b.nw → b.nw ≤ b.cap) ∧ (b.nw < b.nr → b.nr ≤ b.cap) := by
    obtain ⟨a1, a2, a3, a4, a5⟩ := hrep
    simp only at a5
    rcases a5 with ⟨x1, x2, x3⟩ | ⟨x1, e, q1, q2, rfl, x2, x3, x4, x5⟩
    · constructor <;> intro <;> omega
    · have := x3.le; constructor <;> intro <;> omega
  by_cases h3 : n > b.actualSize
  · rw [if_pos h3]
    obtain ⟨b', e1, e2, e3, e4, e5, e6, e7, e8, e9⟩ :=
      resizeMemory_ok (fresh := fresh) (b := b) (n := n) (by omega) (by omega) h.mem
    have hb' : ∃ m', b'.data = .owned m' ∧ m'.size = b'.actualCapacity := by
      rcases e7 with h | ⟨_, h⟩
      · exact h
      · omega
    obtain ⟨m', hd', hsz'⟩ := hb'
    have hby : ∀ j, 0 ≤ j → j < b.cap → m'.byte j = m.byte j := by
      intro j j1 j2
      have := e9 j j1 (by omega)
      simpa [hd', hd, Blk.mem] using this
    simp only [e1, Option.bind_eq_bind, Option.bind_some, e2, e3, e4]
    by_cases h4 : b.nr < b.nw
    · rw [if_pos h4]
      refine .inl ⟨_, rfl, ⟨?_, e5, hn0, e6, e7⟩, rfl⟩
      have := hrep.shift_linear (m' := m') (n := n) (k := 0) h4 (by omega) (by omega) hn2 (by
        have := hrep.gap; simp only at this; omega)
        (by intro j j1 j2; simpa using hby j (by omega) (by omega))
      simpa [Buf.raw, hd', Blk.mem, e3, e4] using this
    · rw [if_neg h4]
      clear e7
      obtain ⟨m2, f1, f2, f3, f4⟩ := move_eq (m := m') (dst := n - (b.cap - b.nr)) (src := b.nr)
        (n := b.cap - b.nr) (by omega) (by omega) (by omega) (by omega) (by omega)
      simp only [Buf.moveBytes, hd', f1, Option.map_some, Option.bind_some]
      refine .inl ⟨_, rfl, ⟨?_, e5, hn0, e6, .inl ⟨m2, rfl, by simp [f2, hsz']⟩⟩, rfl⟩
      have := hrep.shift_tail (m' := m2) (n := n) (by omega) (by omega) hn2 (by
        have := hrep.gap; simp only at this; omega)
        (by
          intro j j1 j2
          rw [f3 j j1 j2]; exact hby _ (by omega) (by omega))
        (by
          intro j j0 j1
          rw [f4 j (by omega)]; exact hby _ (by omega) (by omega))
      simpa [Buf.raw, Blk.mem, e3] using this
  · rw [if_neg h3]
    have hqne : q ≠ [] := fun e => h2 (h.rep.empty_iff.2 e)
    have hncap : n < b.capacity := by show n < b.cap; omega
    simp only [Buf.jams, decide_eq_false_iff_not] at hmarg
    by_cases h4 : b.nr < b.nw
    · rw [if_pos h4]
      by_cases h5 : b.nw ≤ n
      · rw [if_pos h5]
        refine .inl ⟨_, rfl, ⟨?_, rfl, hn0, by simp; omega, h.mem⟩, rfl⟩
        have := hrep.shift_linear (m' := m) (n := n) (k := 0) h4 (by omega) (by omega) hn2 (by omega)
          (by intro j j1 j2; simp)
        simpa [Buf.raw, hd, Blk.mem] using this
      · rw [if_neg h5]
        by_cases h6 : b.nw - b.nr < n
        case neg => rw [if_neg h6]; exact .inr ⟨rfl, hncap, hqne⟩
        rw [if_pos h6]
        obtain ⟨m2, f1, f2, f3, f4⟩ := move_eq (m := m) (dst := 0) (src := b.nr)
          (n := b.nw - b.nr) (by omega) (by omega) (by omega) (by omega) (by omega)
        simp only [Buf.moveBytes, hd, f1, Option.map_some, Option.bind_eq_bind, Option.bind_some]
        refine .inl ⟨_, rfl, ⟨?_, rfl, hn0, by simp; omega, .inl ⟨m2, rfl, by simp [f2, hsz]⟩⟩, rfl⟩
        have := hrep.shift_linear (m' := m2) (n := n) (k := -b.nr) h4 (by omega) (by omega) hn2 (by omega)
          (by
            intro j j1 j2
            have := f3 (j - b.nr) (by omega) (by omega)
            have e1 : 0 + (j - b.nr) = j + -b.nr := by omega
            have e2 : b.nr + (j - b.nr) = j := by omega
            rw [e1, e2] at this; exact this)
        have e1 : b.nw + -b.nr = b.nw - b.nr := by omega
        have e2 : b.nr + -b.nr = 0 := by omega
        rw [e1, e2] at this
        simpa [Buf.raw, Blk.mem] using this
    · rw [if_neg h4]
      simp only
      by_cases h6 : b.cap - b.nr + b.nw < n
      case neg => rw [if_neg h6]; exact .inr ⟨rfl, hncap, hqne⟩
      rw [if_pos h6]
      obtain ⟨m2, f1, f2, f3, f4⟩ := move_eq (m := m) (dst := n - (b.cap - b.nr)) (src := b.nr)
        (n := b.cap - b.nr) (by omega) (by omega) (by omega) (by omega) (by omega)
      simp only [Buf.moveBytes, hd, f1, Option.map_some, Option.bind_eq_bind, Option.bind_some]
      refine .inl ⟨_, rfl, ⟨?_, rfl, hn0, by simp; omega, .inl ⟨m2, rfl, by simp [f2, hsz]⟩⟩, rfl⟩
      have := hrep.shift_tail (m' := m2) (n := n) (by omega) (by omega) hn2 (by omega)
        (fun j j1 j2 => f3 j j1 j2) (fun j j0 j1 => f4 j (by omega))
      simpa [Buf.raw, Blk.mem] using this

theorem Owns.push {b q} (h : Owns b q) (d : Msg) (hd : 0 < d.length)
    (hg : b.raw.isSpaceAvailable d.length = true) (ho : b.raw.overfills d.length = false) :
    ∃ b', b.push (some d) d.length = some (true, b') ∧ Owns b' (q ++ [d]) := by
  obtain ⟨r, h1, h2⟩ := h.rep.push_exact d hd hg ho
  have h3 := push_cap_size h1
  exact ⟨_, by simp [Buf.push, h1], h.setRaw h2 h3.1 h3.2⟩

theorem Owns.pop_empty {b} (h : Owns b []) (max : Int) :
    ∃ b', b.pop max = some (0, none, b') ∧ Owns b' [] := by
  have h1 := h.rep.pop_empty max
  exact ⟨_, by simp [Buf.pop, h1], h.setRaw h.rep rfl rfl⟩

theorem Owns.pop_ok {b d q} (h : Owns b (d :: q)) (max : Int) (hm : (d.length : Int) ≤ max) :
    ∃ b', b.pop max = some ((d.length : Int), some d, b') ∧ Owns b' q := by
  obtain ⟨r, h1, h2⟩ := h.rep.pop_ok max hm
  have h3 := pop_cap_mem h1
  exact ⟨_, by simp [Buf.pop, h1], h.setRaw h2 h3.1 (by rw [h3.2]; rfl)⟩

theorem Owns.pop_small {b d q} (h : Owns b (d :: q)) (max : Int) (hm : max < (d.length : Int)) :
    ∃ b', b.pop max = some (-(d.length : Int), none, b') ∧ Owns b' (d :: q) := by
  obtain ⟨r, h1, h2⟩ := h.rep.pop_small max hm
  have h3 := pop_cap_mem h1
  exact ⟨_, by simp [Buf.pop, h1], h.setRaw h2 h3.1 (by rw [h3.2]; rfl)⟩

theorem Owns.clear {b q} (h : Owns b q) : Owns b.clear [] :=
  h.setRaw h.rep.clear rfl rfl

theorem Owns.default : Owns Buf.default [] :=
  ⟨Rep.init _ _ (by decide) (by decide), rfl, by simp [Buf.default],
    by simp [Buf.default], .inr ⟨.inl rfl, rfl⟩⟩

theorem Owns.ofSize {fresh size b} (h : Buf.ofSize fresh size = some b) (hs : size < 2147483648) :
    Owns b [] := by
  unfold Buf.ofSize at h
  split at h
  · cases h
  · cases h
    exact ⟨Rep.init _ _ (by simp [Blk.mem]) hs, rfl, by simp; omega, by simp, .inl ⟨_, rfl, rfl⟩⟩

/-- bytes below `cap` determine what a buffer holds -/
theorem Rep.congr_mem {m m' : Mem} {cap nw nr q} (h : Rep ⟨m, cap, nw, nr⟩ q) (hs : cap ≤ m'.size)
    (hb : ∀ j, 0 ≤ j → j < cap → m'.byte j = m.byte j) : Rep ⟨m', cap, nw, nr⟩ q := by
  obtain ⟨nr0, nw0, hsize, hcap, body⟩ := h
  simp only at *
  rcases body with ⟨hle, hend, hseg⟩ | ⟨hlt, e, q1, q2, rfl, hecap, hs1, hs2, htail⟩
  · refine ⟨nr0, nw0, hs, hcap, .inl ⟨hle, hend, ?_⟩⟩
    rcases hend with hend | hend
    · exact hseg.frame nr0 (by simp only; omega) (fun j h1 h2 => hb j (by omega) (by omega))
    · have e2 : nr = 0 := by omega
      subst hend e2
      have := hseg.eq_nil; subst this; exact .nil _
  · have := hs1.le
    have := hs2.le
    refine ⟨nr0, nw0, hs, hcap, .inr ⟨hlt, e, q1, q2, rfl, hecap, ?_, ?_, ?_⟩⟩
    · exact hs1.frame nr0 (by simp only; omega) (fun j h1 h2 => hb j (by omega) (by omega))
    · exact hs2.frame (by omega) (by simp only; omega) (fun j h1 h2 => hb j (by omega) (by omega))
    · rcases htail with ⟨t1, t2, t3⟩ | t
      · refine .inl ⟨t1, ?_, t3⟩
        exact read_congr t2 (by omega) (by simp only; omega) (fun i hi => hb _ (by omega) (by omega))
      · exact .inr t

theorem read_write_copy {m m' : Mem} {n : Int} {bs} (h0 : 0 ≤ n) (hr : m.read 0 n.toNat = some bs)
    (dst : Mem) (hw : dst.write 0 bs = some m') :
    m'.size = dst.size ∧ ∀ j, 0 ≤ j → j < n → m'.byte j = m.byte j := by
  have hrb := read_eq_some.1 hr
  have hw := write_spec hw
  have hwr := read_eq_some.1 hw.2.2.2.2
  refine ⟨hw.2.2.1, ?_⟩
  intro j j0 hj
  obtain ⟨i, rfl⟩ := Int.eq_ofNat_of_zero_le j0
  have e1 := hwr.2.2.2 i (by rw [hrb.2.2.1]; omega)
  have e2 := hrb.2.2.2 i (by omega)
  rw [e1] at e2
  simpa using Option.some.inj e2

/-- A buffer without memory has capacity zero and nothing in it. -/
theorem Owns.no_mem {b q} (h : Owns b q) (hc : b.actualCapacity = 0) :
    b.cap = 0 ∧ b.nw = 0 ∧ b.nr = 0 ∧ q = [] := by
  have hcap : b.cap = 0 := by have := h.cap0; have := h.capLe; omega
  obtain ⟨a1, a2, a3, a4, a5⟩ := h.rep
  simp only [Buf.raw] at *
  rw [hcap] at a5
  rcases a5 with ⟨b1, b2, b3⟩ | ⟨b1, e, q1, q2, rfl, b2, b3, b4, b5⟩
  · have e1 : b.nw = 0 := by omega
    have e2 : b.nr = 0 := by omega
    rw [e1, e2] at b3
    exact ⟨hcap, e1, e2, b3.eq_nil⟩
  · have := b3.le; omega

theorem Owns.copyCtor {b q} (h : Owns b q) (fresh : Int → UInt8) :
    ∃ b', Buf.copyCtor fresh b = some b' ∧ Owns b' q ∧ b'.capacity = b.capacity := by
  have hact := h.act
  have hc0 := h.cap0
  have hcl := h.capLe
  unfold Buf.copyCtor
  rw [if_neg (by omega)]
  rcases h.mem with ⟨m, hd, hsz⟩ | ⟨hd, hz⟩
  · obtain ⟨bs, hbs⟩ := read_isSome (m := m) (off := 0) (n := b.actualSize.toNat) (by omega) (by omega)
    obtain ⟨m', hm'⟩ := write_eq (m := ⟨b.actualSize, fresh⟩) (off := 0) (bs := bs) (by omega)
      (by simp only; rw [(read_bounds hbs).2.2]; omega)
    have hcp := read_write_copy (by omega) hbs _ hm'
    have hrep : Rep ⟨m, b.cap, b.nw, b.nr⟩ q := by
      have := h.rep; simpa [Buf.raw, hd, Blk.mem] using this
    refine ⟨⟨.owned m', b.actualSize, b.actualSize, b.cap, b.nw, b.nr⟩, by simp [hd, hbs, hm'], ⟨?_, hact, hc0, by simp only; omega, .inl ⟨m', rfl, hcp.1⟩⟩, rfl⟩
    exact hrep.congr_mem (by show b.cap ≤ m'.size; rw [hcp.1]; simp only; omega) (fun j j0 j1 => hcp.2 j j0 (by omega))
  · obtain ⟨e1, e2, e3, rfl⟩ := h.no_mem hz
    have hs0 : b.actualSize = 0 := by omega
    rcases hd with hd | hd
    · refine ⟨⟨.dangling, 0, 0, b.cap, b.nw, b.nr⟩, by simp [hd], ⟨?_, by simp [e1], by simp [e1], by simp [e1], .inr ⟨.inr rfl, rfl⟩⟩, rfl⟩
      simp only [Buf.raw, e1, e2, e3]
      exact Rep.init _ _ (by simp [Blk.mem, Mem.null]) (by simp)
    · refine ⟨⟨.owned ⟨0, fresh⟩, 0, 0, b.cap, b.nw, b.nr⟩, by simp [hd, hs0], ⟨?_, by simp [e1], by simp [e1], by simp [e1], .inl ⟨_, rfl, rfl⟩⟩, rfl⟩
      simp only [Buf.raw, e1, e2, e3]
      exact Rep.init _ _ (by simp [Blk.mem]) (by simp)

theorem Owns.copyAssign {b q b0 q0} (h : Owns b q) (h0 : Owns b0 q0) (fresh : Int → UInt8) :
    ∃ b', Buf.copyAssign fresh b0 b = some b' ∧ Owns b' q ∧ b'.capacity = b.capacity := by
  have hact := h.act
  have hc0 := h.cap0
  have hcl := h.capLe
  have hcl0 := h0.capLe
  have hc00 := h0.cap0
  unfold Buf.copyAssign
  have hrm : ∃ b1, Buf.resizeMemory fresh { b0 with cap := b.cap, nw := b.nw, nr := b.nr } b.actualSize false = some b1 ∧
      b1.cap = b.cap ∧ b1.nw = b.nw ∧ b1.nr = b.nr ∧ b1.actualSize = b.actualSize ∧
      b.actualSize ≤ b1.actualCapacity ∧
      ((∃ m, b1.data = .owned m ∧ m.size = b1.actualCapacity) ∨
        ((b1.data = .null ∨ b1.data = .dangling) ∧ b1.actualCapacity = 0)) := by
    unfold Buf.resizeMemory
    by_cases hn : b.actualSize > b0.actualCapacity
    · rw [if_pos hn]
      have hfree : (if b0.actualCapacity > 0 then Buf.free b0.data else some ()) = some () := by
        rcases h0.mem with ⟨m, hd, hsz⟩ | ⟨hd, hz⟩
        · simp [hd, Buf.free]
        · simp [hz]
      refine ⟨{ b0 with cap := b.cap, nw := b.nw, nr := b.nr, data := .owned ⟨b.actualSize, fresh⟩, actualCapacity := b.actualSize, actualSize := b.actualSize }, by simp only [Buf.copyOld, hfree, and_false, if_false, Option.bind_some, Bool.false_eq_true], rfl, rfl, rfl, rfl, by simp, .inl ⟨_, rfl, rfl⟩⟩
    · rw [if_neg hn]
      exact ⟨_, rfl, rfl, rfl, rfl, rfl, by simp; omega, h0.mem⟩
  obtain ⟨b1, e0, e1, e2, e3, e4, e5, e6⟩ := hrm
  simp only [e0, Option.bind_eq_bind, Option.bind_some]
  rw [if_neg (by omega)]
  by_cases hz : b.actualSize = 0
  · rw [if_pos hz]
    have hcz : b.cap = 0 := by omega
    have hp : b.nw = 0 ∧ b.nr = 0 ∧ q = [] := by
      obtain ⟨a1, a2, a3, a4, a5⟩ := h.rep
      simp only [Buf.raw, hcz] at *
      rcases a5 with ⟨b1, b2, b3⟩ | ⟨b1, e, q1, q2, rfl, b2, b3, b4, b5⟩
      · have e1 : b.nw = 0 := by omega
        have e2 : b.nr = 0 := by omega
        rw [e1, e2] at b3
        exact ⟨e1, e2, b3.eq_nil⟩
      · have := b3.le; omega
    obtain ⟨p1, p2, rfl⟩ := hp
    refine ⟨b1, rfl, ⟨?_, by omega, by omega, by omega, e6⟩, by simp [Buf.capacity, Buf.raw, Raw.capacity, e1]⟩
    have hmz : (0:Int) ≤ b1.data.mem.size := by
      rcases e6 with ⟨m, h1, h2⟩ | ⟨h1 | h1, h2⟩
      · simp [h1, Blk.mem]; omega
      · simp [h1, Blk.mem, Mem.null]
      · simp [h1, Blk.mem, Mem.null]
    have : b1.raw = Raw.init b1.data.mem 0 := by
      simp [Buf.raw, Raw.init, e1, e2, e3, hcz, p1, p2]
    rw [this]; exact Rep.init _ _ hmz (by simp)
  · rw [if_neg hz]
    obtain ⟨m, hd, hsz⟩ : ∃ m, b.data = .owned m ∧ m.size = b.actualCapacity := by
      rcases h.mem with h | ⟨_, h⟩
      · exact h
      · omega
    obtain ⟨m1, hd1, hsz1⟩ : ∃ m, b1.data = .owned m ∧ m.size = b1.actualCapacity := by
      rcases e6 with h | ⟨_, h⟩
      · exact h
      · omega
    obtain ⟨bs, hbs⟩ := read_isSome (m := m) (off := 0) (n := b.actualSize.toNat) (by omega) (by omega)
    obtain ⟨m', hm'⟩ := write_eq (m := m1) (off := 0) (bs := bs) (by omega)
      (by rw [(read_bounds hbs).2.2]; omega)
    have hcp := read_write_copy (by omega) hbs _ hm'
    have hrep : Rep ⟨m, b.cap, b.nw, b.nr⟩ q := by
      have := h.rep; simpa [Buf.raw, hd, Blk.mem] using this
    simp only [hd, hd1, Blk.mem, hbs, hm', Option.bind_some]
    refine ⟨_, rfl, ⟨?_, by simp [e1, e4, hact], by simp [e1, hc0], by simp [e1]; omega, .inl ⟨m', rfl, by simp [hcp.1, hsz1]⟩⟩, by simp [Buf.capacity, Buf.raw, Raw.capacity, e1]⟩
    have := hrep.congr_mem (m' := m') (by rw [hcp.1]; omega) (fun j j0 j1 => hcp.2 j j0 (by omega))
    simpa [Buf.raw, e1, e2, e3, Blk.mem] using this

end Verif.CircularBuffer
