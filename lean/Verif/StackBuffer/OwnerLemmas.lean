import Verif.StackBuffer.Lemmas

/- Lemmas about the owning class `StackBuffer`: resize, copies, moves, sessions. -/
namespace Verif.StackBuffer
open Mem

/-- The owning buffer holds the messages `es.map (·.2)` and its memory bookkeeping is
consistent. -/
structure Owns (b : Buf) (es : List (Int × Msg)) : Prop where
  rep : Rep b.raw es
  stated : b.statedSize = b.cap
  capA : b.cap ≤ b.actualCapacity
  own : b.own = true ∨ b.cap = 0
  mem : (∃ m, b.data = some m ∧ m.size = b.actualCapacity) ∨ (b.data = none ∧ b.cap = 0)

theorem Owns.cap0 {b es} (h : Owns b es) : 0 ≤ b.cap := h.rep.cap0

theorem Owns.nil_of_cap {b es} (h : Owns b es) (hc : b.cap = 0) : es = [] := by
  have h1 : 8 * (es.length : Int) ≤ b.cap := h.rep.room
  cases es with
  | nil => rfl
  | cons e es => simp only [List.length_cons] at h1; omega

theorem Owns.setRaw {b es r es'} (h : Owns b es) (hr : Rep r es') (hc : r.cap = b.cap)
    (hs : r.mem.size = b.raw.mem.size) : Owns (b.setRaw r) es' := by
  have hcap : (b.setRaw r).cap = b.cap := hc
  by_cases h0 : b.cap = 0
  · -- no memory is involved
    have hes : es' = [] := by
      have h1 := hr.room
      cases es' with
      | nil => rfl
      | cons e es => simp only [List.length_cons] at h1; omega
    subst hes
    have hcnt := hr.cnt
    have hnx := hr.nextE rfl
    refine ⟨?_, ?_, ?_, .inr (by rw [hcap]; exact h0), ?_⟩
    · refine Rep.ofEmpty ?_ ?_ ?_ (by simpa [Buf.raw, Buf.setRaw] using hcnt) (by simpa [Buf.raw, Buf.setRaw] using hnx) ?_
      · show 0 ≤ r.cap; omega
      · show r.cap ≤ (b.setRaw r).raw.mem.size
        have hrs := hr.capM
        have : 0 ≤ (b.setRaw r).raw.mem.size := by
          unfold Buf.raw Buf.setRaw Buf.dmem
          by_cases ho : b.own = true
          · simp only [ho, if_true]
            cases hd : b.data with
            | none => simp [Mem.null]
            | some m => simp; omega
          · simp only [ho]; simp [Mem.null]
        omega
      · exact hr.capI
      · intro h8; simp only [Buf.raw, Buf.setRaw] at h8; omega
    · show b.statedSize = r.cap; rw [hc]; exact h.stated
    · show r.cap ≤ b.actualCapacity; rw [hc]; exact h.capA
    · rcases h.mem with ⟨m, hm, hm2⟩ | ⟨hm, _⟩
      · refine .inl ?_
        cases ho : b.own
        · exact ⟨m, by simp [Buf.setRaw, ho, hm], hm2⟩
        · refine ⟨r.mem, by simp [Buf.setRaw, ho, hm], ?_⟩
          simp only [Buf.setRaw]
          rw [hs]; simp [Buf.raw, ho, Buf.dmem, hm, hm2]
      · refine .inr ⟨?_, by rw [hcap]; exact h0⟩
        cases ho : b.own <;> simp [Buf.setRaw, ho, hm]
  · have ho : b.own = true := by rcases h.own with h1 | h1 <;> simp_all
    obtain ⟨m, hm, hm2⟩ : ∃ m, b.data = some m ∧ m.size = b.actualCapacity := by
      rcases h.mem with h1 | h1
      · exact h1
      · exact absurd h1.2 h0
    refine ⟨?_, ?_, ?_, .inl ?_, .inl ⟨r.mem, by simp [Buf.setRaw, ho, hm], ?_⟩⟩
    · have : (b.setRaw r).raw = r := by
        cases r; simp [Buf.raw, Buf.setRaw, ho, Buf.dmem, hm]
      rw [this]; exact hr
    · show b.statedSize = r.cap; rw [hc]; exact h.stated
    · show r.cap ≤ b.actualCapacity; rw [hc]; exact h.capA
    · exact ho
    · show r.mem.size = b.actualCapacity
      rw [hs]; simp [Buf.raw, ho, Buf.dmem, hm, hm2]

theorem Owns.default : Owns Buf.default [] := by
  refine ⟨Rep.ofEmpty ?_ ?_ ?_ rfl rfl ?_, rfl, ?_, .inl rfl, .inr ⟨rfl, rfl⟩⟩ <;>
    simp [Buf.raw, Buf.default, Buf.dmem, Mem.null]

theorem Owns.ofSize {fresh size} (h0 : 0 ≤ size) (h1 : size < 2147483648) :
    ∃ b, Buf.ofSize fresh size = some b ∧ Owns b [] ∧ b.capacity = size := by
  refine ⟨⟨some ⟨size, fresh⟩, true, size, size, 0, size - 8, size, 0⟩, ?_, ?_, rfl⟩
  · unfold Buf.ofSize; rw [if_neg (by omega)]
  · exact ⟨Rep.ofEmpty h0 (Int.le_refl _) h1 rfl rfl (fun _ => rfl), rfl, Int.le_refl _, .inl rfl, .inl ⟨_, rfl, rfl⟩⟩

/-- The object left behind by a move assignment. -/
theorem Owns.movedFrom {c : Int} (h : 0 ≤ c) : Owns ⟨none, true, 0, c, 0, 0, 0, 0⟩ [] := by
  refine ⟨Rep.ofEmpty ?_ ?_ ?_ rfl rfl ?_, rfl, h, .inl rfl, .inr ⟨rfl, rfl⟩⟩ <;>
    simp [Buf.raw, Buf.dmem, Mem.null]

/-- A buffer with the same bytes below `cap` (and the same positions) holds the same
messages. -/
theorem Rep.congr {b b' : Raw} {es} (h : Rep b es) (hcap : b'.cap = b.cap) (hcnt : b'.count = b.count)
    (hnx : b'.next = b.next) (hni : 8 ≤ b.cap → b'.ni = b.cap - 8 - 8 * es.length) (hM : b.cap ≤ b'.mem.size)
    (hb : ∀ j, 0 ≤ j → j < b.cap → b'.mem.byte j = b.mem.byte j) : Rep b' es := by
  have hroom := h.room
  refine ⟨by rw [hcap]; exact h.cap0, by rw [hcap]; exact hM, by rw [hcap]; exact h.capI,
    by rw [hcnt]; exact h.cnt, by rw [hcap]; exact hni, by rw [hnx]; exact h.next0,
    fun e => by rw [hnx]; exact h.nextE e, by rw [hnx, hcap]; exact h.nextC, ?_, ?_, h.disj⟩
  · rw [hcap]
    refine read_congr h.idx (by omega) (by omega) ?_
    intro i hi
    exact hb _ (by omega) (by omega)
  · intro e he
    obtain ⟨b1, b2, b3, b4, b5⟩ := h.blk e he
    rw [hnx, hcap]
    refine ⟨b1, b2, b3, b4, read_congr b5 b2 (by omega) ?_⟩
    intro i hi
    exact hb _ (by omega) (by omega)

theorem copy_block {m m0 : Mem} {n : Int} (h0 : 0 ≤ n) (h1 : n ≤ m.size) (h2 : n ≤ m0.size) :
    ∃ bs m', m.read 0 n.toNat = some bs ∧ m0.write 0 bs = some m' ∧ m'.size = m0.size ∧
      ∀ j, 0 ≤ j → j < n → m'.byte j = m.byte j := by
  obtain ⟨bs, hbs⟩ := read_isSome (m := m) (off := 0) (n := n.toNat) (by omega) (by omega)
  have hb := read_eq_some.1 hbs
  obtain ⟨m', hw⟩ := write_eq (m := m0) (off := 0) (bs := bs) (by omega) (by omega)
  have s := write_spec hw
  have r := read_eq_some.1 s.2.2.2.2
  refine ⟨bs, m', hbs, hw, s.2.2.1, ?_⟩
  intro j hj hjn
  obtain ⟨i, rfl⟩ := Int.eq_ofNat_of_zero_le hj
  have e1 := hb.2.2.2 i (by omega)
  have e2 := r.2.2.2 i (by omega)
  rw [e1] at e2
  simpa using (Option.some.inj e2).symm

theorem Owns.copyCtor {b es} (h : Owns b es) (fresh) :
    ∃ c, Buf.copyCtor fresh b = some c ∧ Owns c es ∧ c.capacity = b.capacity := by
  have hst := h.stated
  have h0 := h.cap0
  have hcA := h.capA
  unfold Buf.copyCtor
  rw [if_neg (by omega)]
  have emptyCase : b.cap = 0 → Owns ⟨none, false, 0, 0, b.next, b.ni, b.cap, b.count⟩ es := by
    intro hc
    have hes := h.nil_of_cap hc
    subst hes
    have h1 := h.rep.cnt
    have h2 := h.rep.nextE rfl
    refine ⟨Rep.ofEmpty ?_ ?_ ?_ ?_ ?_ ?_, ?_, ?_, .inr hc, .inr ⟨rfl, hc⟩⟩
    · exact h0
    · simp [Buf.raw, Mem.null, hc]
    · simp [Buf.raw, hc]
    · simpa [Buf.raw] using h1
    · simpa [Buf.raw] using h2
    · simp only [Buf.raw]; omega
    · exact hc.symm
    · simp [hc]
  cases hd : b.data with
  | none =>
    have hc : b.cap = 0 := by
      rcases h.mem with ⟨m, hm, _⟩ | ⟨_, hc⟩
      · rw [hd] at hm; cases hm
      · exact hc
    exact ⟨_, rfl, emptyCase hc, rfl⟩
  | some m =>
    have hms : m.size = b.actualCapacity := by
      rcases h.mem with ⟨m', hm, hm2⟩ | ⟨hm, _⟩
      · rw [hd] at hm; cases hm; exact hm2
      · rw [hd] at hm; cases hm
    by_cases hpos : b.statedSize > 0
    · simp only
      rw [if_pos hpos]
      obtain ⟨bs, m', e1, e2, e3, e4⟩ := copy_block (m := m) (m0 := ⟨b.statedSize, fresh⟩) (n := b.statedSize)
        (by omega) (by omega) (Int.le_refl _)
      simp only [e1, Option.bind_some, e2]
      have ho : b.own = true := by rcases h.own with h1 | h1; exact h1; omega
      refine ⟨_, rfl, ⟨?_, hst, by simp only; omega, .inl rfl, .inl ⟨_, rfl, e3⟩⟩, rfl⟩
      have hcnt : b.count = es.length := h.rep.cnt
      refine h.rep.congr rfl rfl rfl ?_ ?_ ?_
      · intro _; simp only [Buf.raw]; omega
      · simp only [Buf.raw, Buf.dmem, if_true, Option.getD_some]; rw [e3]; simp only; omega
      · intro j hj0 hj
        simp only [Buf.raw, Buf.dmem, if_true, Option.getD_some, ho, hd]
        exact e4 j hj0 (by simp only [Buf.raw] at hj; omega)
    · simp only
      rw [if_neg hpos]
      exact ⟨_, rfl, emptyCase (by omega), rfl⟩

theorem Owns.raw_mem {b es} (h : Owns b es) (hc : b.cap ≠ 0) :
    ∃ m, b.data = some m ∧ m.size = b.actualCapacity ∧ b.own = true ∧
      b.raw = ⟨m, b.next, b.ni, b.cap, b.count⟩ := by
  rcases h.mem with ⟨m, hm, hm2⟩ | ⟨_, h1⟩
  · have ho : b.own = true := by rcases h.own with h1 | h1; exact h1; exact absurd h1 hc
    exact ⟨m, hm, hm2, ho, by simp [Buf.raw, ho, Buf.dmem, hm]⟩
  · exact absurd h1 hc

/-- not a moved-from object whose stale capacity would be used -/
def Fresh (b : Buf) (n : Int) : Prop := b.data ≠ none ∨ b.actualCapacity ≤ 0 ∨ b.actualCapacity < n ∨ n = 0

/-- What `resizeMemory` does to the block. -/
theorem resizeMemory_ok {b : Buf} {fresh} {n : Int} {cp : Bool} (hn : 0 ≤ n) (hs0 : 0 ≤ b.statedSize)
    (hsA : b.statedSize ≤ b.actualCapacity)
    (hmem : (∃ m, b.data = some m ∧ m.size = b.actualCapacity) ∨ (b.data = none ∧ b.statedSize = 0))
    (hf : Fresh b n) :
    ∃ b', Buf.resizeMemory fresh b n cp = some b' ∧ b'.statedSize = n ∧ n ≤ b'.actualCapacity ∧
      b'.next = b.next ∧ b'.ni = b.ni ∧ b'.cap = b.cap ∧ b'.count = b.count ∧
      ((∃ m', b'.data = some m' ∧ m'.size = b'.actualCapacity ∧
        (cp = true → ∀ j, 0 ≤ j → j < b.statedSize → m'.byte j = b.dmem.byte j)) ∨
       (b'.data = none ∧ n = 0 ∧ b.data = none)) := by
  unfold Buf.resizeMemory
  by_cases h1 : n = b.statedSize
  · rw [if_pos h1]
    refine ⟨b, rfl, h1.symm, by omega, rfl, rfl, rfl, rfl, ?_⟩
    rcases hmem with ⟨m, e1, e2⟩ | ⟨e1, e2⟩
    · exact .inl ⟨m, e1, e2, fun _ j _ _ => by simp [Buf.dmem, e1]⟩
    · exact .inr ⟨e1, by omega, e1⟩
  · rw [if_neg h1]
    by_cases h2 : n > b.actualCapacity
    · rw [if_pos h2]
      unfold Buf.copyOld
      by_cases h3 : b.actualCapacity > 0 ∧ cp = true
      · rw [if_pos h3, if_neg (by omega)]
        have hsz : b.statedSize ≤ b.dmem.size := by
          rcases hmem with ⟨m, e1, e2⟩ | ⟨e1, e2⟩
          · simp [Buf.dmem, e1]; omega
          · simp [Buf.dmem, e1, Mem.null]; omega
        obtain ⟨bs, m', e1, e2, e3, e4⟩ := copy_block (m := b.dmem) (m0 := ⟨n, fresh⟩) (n := b.statedSize)
          hs0 hsz (by simp only; omega)
        simp only [e1, Option.bind_some, e2]
        exact ⟨_, rfl, rfl, Int.le_refl _, rfl, rfl, rfl, rfl, .inl ⟨m', rfl, e3, fun _ => e4⟩⟩
      · rw [if_neg h3]
        refine ⟨_, rfl, rfl, Int.le_refl _, rfl, rfl, rfl, rfl, .inl ⟨_, rfl, rfl, ?_⟩⟩
        intro hcp j hj0 hj
        exfalso
        apply h3
        exact ⟨by omega, hcp⟩
    · rw [if_neg h2]
      refine ⟨_, rfl, rfl, by simp only; omega, rfl, rfl, rfl, rfl, ?_⟩
      rcases hmem with ⟨m, e1, e2⟩ | ⟨e1, e2⟩
      · exact .inl ⟨m, e1, e2, fun _ j _ _ => by simp [Buf.dmem, e1]⟩
      · refine .inr ⟨e1, ?_, e1⟩
        rcases hf with hf | hf | hf | hf
        · exact absurd e1 hf
        · omega
        · omega
        · exact hf

theorem Owns.memS {b es} (h : Owns b es) :
    (∃ m, b.data = some m ∧ m.size = b.actualCapacity) ∨ (b.data = none ∧ b.statedSize = 0) := by
  rcases h.mem with h1 | ⟨h1, h2⟩
  · exact .inl h1
  · exact .inr ⟨h1, by rw [h.stated]; exact h2⟩

theorem Owns.copyAssign {a esa b es} (ha : Owns a esa) (h : Owns b es) (fresh) (hf : Fresh a b.cap) :
    ∃ c, Buf.copyAssign fresh a b = some c ∧ Owns c es ∧ c.capacity = b.capacity := by
  have hst := h.stated
  have h0 := h.cap0
  have hcA := h.capA
  have ha0 := ha.cap0
  have hast := ha.stated
  have hacA := ha.capA
  obtain ⟨c, e1, e2, e3, e4, e5, e6, e7, e8⟩ := resizeMemory_ok (fresh := fresh) (cp := false)
    (b := { a with own := false, next := b.next, ni := b.ni, cap := b.cap, count := b.count })
    (n := b.statedSize) (by omega) (by simp only; omega) (by simp only; omega) ha.memS
    (by rw [hst]; exact hf)
  simp only at e4 e5 e6 e7
  unfold Buf.copyAssign
  simp only [e1, Option.bind_some]
  rw [if_neg (by omega)]
  have hbd : b.statedSize ≤ b.dmem.size := by
    rcases h.memS with ⟨m, f1, f2⟩ | ⟨f1, f2⟩
    · simp [Buf.dmem, f1]; omega
    · simp [Buf.dmem, f1, Mem.null]; omega
  have hcnt : b.count = es.length := h.rep.cnt
  rcases e8 with ⟨m', f1, f2, _⟩ | ⟨f1, f2, _⟩
  · obtain ⟨bs, m'', g1, g2, g3, g4⟩ := copy_block (m := b.dmem) (m0 := m') (n := b.statedSize)
      (by omega) hbd (by omega)
    simp only [g1, Option.bind_some, Buf.withData, f1, g2, Option.map_some]
    refine ⟨_, rfl, ⟨?_, by simp only; rw [e2, e6]; exact hst, by simp only; omega, .inl rfl,
      .inl ⟨_, rfl, by simp only; rw [g3, f2]⟩⟩, by simp [Buf.capacity, Buf.raw, Raw.capacity, e6]⟩
    refine h.rep.congr ?_ ?_ ?_ ?_ ?_ ?_
    · simp only [Buf.raw]; exact e6
    · simp only [Buf.raw]; exact e7
    · simp only [Buf.raw]; exact e4
    · intro _; simp only [Buf.raw]; rw [e6, e7, hcnt]
    · simp only [Buf.raw, if_true, Buf.dmem, Option.getD_some]; omega
    · intro j hj0 hj
      simp only [Buf.raw] at hj
      simp only [Buf.raw, if_true, Buf.dmem, Option.getD_some]
      rw [g4 j hj0 (by omega)]
      obtain ⟨m, k1, k2, k3, k4⟩ := h.raw_mem (by omega)
      simp [Buf.dmem, k1, k3]
  · obtain ⟨bs, m'', g1, g2, g3, g4⟩ := copy_block (m := b.dmem) (m0 := Mem.null) (n := b.statedSize)
      (by omega) hbd (by simp only [Mem.null]; omega)
    simp only [g1, Option.bind_some, Buf.withData, f1, g2, Option.map_some]
    have hes := h.nil_of_cap (by omega)
    subst hes
    refine ⟨_, rfl, ⟨?_, by simp only; rw [e2, e6]; exact hst, by simp only; omega, .inl rfl,
      .inr ⟨by simp, by simp only; omega⟩⟩, by simp [Buf.capacity, Buf.raw, Raw.capacity, e6]⟩
    have hnx := h.rep.nextE rfl
    simp only [Buf.raw] at hnx
    refine Rep.ofEmpty ?_ ?_ ?_ ?_ ?_ ?_
    · simp only [Buf.raw]; omega
    · simp only [Buf.raw, if_true, Buf.dmem, Option.getD_none, Mem.null]; omega
    · simp only [Buf.raw]; omega
    · simp only [Buf.raw]; rw [e7, hcnt]; rfl
    · simp only [Buf.raw]; rw [e4]; exact hnx
    · simp only [Buf.raw]; omega

/-- Relocating the index area keeps the messages. -/
theorem relocate_ok {b : Buf} {es : List (Int × Msg)} {m : Mem} {n : Int}
    (hd : b.data = some m) (hr : Rep ⟨m, b.next, b.ni, b.cap, b.count⟩ es) (hne : es ≠ [])
    (hn0 : n < 2147483648) (hnm : n ≤ m.size)
    (hfit : ∀ e ∈ es, e.1 + e.2.length ≤ n - 8 * es.length) (hidx : 8 * (es.length : Int) ≤ n) :
    ∃ b' m', b.relocate n = some b' ∧ b'.data = some m' ∧ m'.size = m.size ∧ b'.own = true ∧
      b'.cap = n ∧ b'.statedSize = b.statedSize ∧ b'.actualCapacity = b.actualCapacity ∧
      b'.next = n ∧ Rep b'.raw es := by
  have hcnt : b.count = es.length := hr.cnt
  have hroom := hr.room
  have hcM : b.cap ≤ m.size := hr.capM
  simp only at hroom
  have hpos : 0 < es.length := by cases es <;> simp_all
  obtain ⟨m', w1, w2, w3, w4⟩ := move_eq (m := m) (dst := n - 8 * b.count) (src := b.cap - 8 * b.count)
    (n := 8 * b.count) (by omega) (by omega) (by omega) (by omega) (by omega)
  refine ⟨{ b with data := some m', cap := n, own := true, next := n, ni := n - 8 - 8 * b.count }, m',
    ?_, rfl, w2, rfl, rfl, rfl, rfl, rfl, ?_⟩
  · unfold Buf.relocate
    simp only [Buf.withData, hd, w1, Option.map_some, Option.bind_some]
  · have hsz : m'.size = m.size := w2
    refine ⟨?_, ?_, hn0, hcnt, ?_, ?_, fun e => absurd e hne, Int.le_refl _, ?_, ?_, hr.disj⟩
    · simp only [Buf.raw]; omega
    · simp only [Buf.raw, if_true, Buf.dmem, Option.getD_some]; omega
    · intro _; simp only [Buf.raw]; omega
    · simp only [Buf.raw]; omega
    · simp only [Buf.raw, if_true, Buf.dmem, Option.getD_some]
      refine read_congr hr.idx (by omega) (by omega) ?_
      intro i hi
      have := w3 (i : Int) (by omega) (by omega)
      simp only
      rw [← hcnt]
      exact this
    · intro e he
      obtain ⟨b1, b2, b3, b4, b5⟩ := hr.blk e he
      have hf := hfit e he
      simp only at b4
      refine ⟨b1, b2, ?_, hf, ?_⟩
      · simp only [Buf.raw]; omega
      · simp only [Buf.raw, if_true, Buf.dmem, Option.getD_some]
        refine read_congr b5 b2 (by omega) ?_
        intro i hi
        exact w4 _ (by left; omega)

/-- The outcome of `resize`. -/
theorem Owns.resize {b es} (h : Owns b es) (fresh) (n : Int) (hn : 0 ≤ n) (hn2 : n < 2147483648)
    (hf : Fresh b n) :
    (∃ b', b.resize fresh n = some (.ok true b') ∧ Owns b' es ∧ b'.capacity = n ∧
      (n ≠ b.cap → es ≠ [] → b'.next = n) ∧ (b.actualCapacity ≤ b'.actualCapacity ∨ b.data = none)) ∨
    (b.resize fresh n = some (.thrown b) ∧ es ≠ [] ∧ n < b.next + 8 * b.count ∧ n < b.cap) := by
  have hst := h.stated
  have h0 := h.cap0
  have hcA := h.capA
  have hcnt : b.count = es.length := h.rep.cnt
  unfold Buf.resize
  rw [if_neg (by omega)]
  by_cases h1 : n = b.cap
  · rw [if_pos h1]
    exact .inl ⟨b, rfl, h, h1.symm, fun h2 => absurd h1 h2, .inl (Int.le_refl _)⟩
  · rw [if_neg h1]
    by_cases h2 : b.count = 0
    · rw [if_pos h2]
      have hes : es = [] := by cases es <;> simp_all; omega
      subst hes
      obtain ⟨c, e1, e2, e3, e4, e5, e6, e7, e8⟩ := resizeMemory_ok (fresh := fresh) (cp := true) (b := b)
        (n := n) hn (by omega) (by omega) h.memS hf
      left
      simp only [e1, Option.bind_some]
      refine ⟨{ c with own := true, next := 0, ni := n - 8, cap := n, count := 0 }, by rw [e2]; simp, ⟨?_, e2, e3, .inl rfl, ?_⟩, rfl, fun _ h3 => absurd rfl h3, ?_⟩
      · refine Rep.ofEmpty hn ?_ hn2 rfl rfl (fun _ => rfl)
        simp only [Buf.raw, if_true, Buf.dmem]
        rcases e8 with ⟨m', f1, f2, _⟩ | ⟨f1, f2, _⟩
        · simp only [f1, Option.getD_some]; omega
        · simp only [f1, Option.getD_none, Mem.null]; omega
      · rcases e8 with ⟨m', f1, f2, _⟩ | ⟨f1, f2, _⟩
        · exact .inl ⟨m', f1, f2⟩
        · exact .inr ⟨f1, f2⟩
      · unfold Buf.resizeMemory at e1
        split at e1
        · cases e1; left; exact Int.le_refl _
        · split at e1
          · simp only [Option.bind_eq_some_iff] at e1
            obtain ⟨_, _, e1⟩ := e1
            cases e1; left; simp only; omega
          · cases e1; left; exact Int.le_refl _
    · rw [if_neg h2]
      have hne : es ≠ [] := by rintro rfl; simp at hcnt; omega
      have hc0 : b.cap ≠ 0 := fun e => hne (h.nil_of_cap e)
      obtain ⟨m, k1, k2, k3, k4⟩ := h.raw_mem hc0
      have hrep := h.rep
      rw [k4] at hrep
      by_cases h3 : n > b.statedSize
      · rw [if_pos h3]
        obtain ⟨c, e1, e2, e3, e4, e5, e6, e7, e8⟩ := resizeMemory_ok (fresh := fresh) (cp := true) (b := b)
          (n := n) hn (by omega) (by omega) h.memS hf
        rcases e8 with ⟨m', f1, f2, f3⟩ | ⟨f1, f2, f3⟩
        · have hrep' : Rep ⟨m', c.next, c.ni, c.cap, c.count⟩ es := by
            refine hrep.congr e6 e7 e4 ?_ ?_ ?_
            · intro h8; simp only at h8 ⊢; rw [e5]; exact hrep.ni h8
            · simp only; omega
            · intro j hj0 hj
              simp only at hj ⊢
              rw [f3 rfl j hj0 (by omega)]
              simp [Buf.dmem, k1]
          have hroom := hrep.room
          simp only at hroom
          obtain ⟨b', m'', g1, g2, g3, g4, g5, g6, g7, g8, g9⟩ := relocate_ok (b := c) (n := n) f1 hrep' hne hn2 (by omega)
            (by
              intro e he
              have hb4 := (hrep.blk e he).2.2.2.1
              simp only at hb4
              omega)
            (by omega)
          left
          simp only [e1, Option.bind_some, g1]
          refine ⟨b', ?_, ⟨g9, by omega, by omega, .inl g4, .inl ⟨m'', g2, by omega⟩⟩, ?_, fun _ _ => g8, ?_⟩
          · rw [g6, e2]; simp
          · exact g5
          · left
            rw [g7]
            unfold Buf.resizeMemory at e1
            split at e1
            · cases e1; exact Int.le_refl _
            · split at e1
              · simp only [Option.bind_eq_some_iff] at e1
                obtain ⟨_, _, e1⟩ := e1
                cases e1; simp only; omega
              · cases e1; exact Int.le_refl _
        · rw [f3] at k1; cases k1
      · rw [if_neg h3]
        by_cases h4 : n < b.next + 8 * b.count
        · rw [if_pos h4]
          exact .inr ⟨rfl, hne, h4, by omega⟩
        · rw [if_neg h4]
          have hn0 := hrep.next0
          simp only at hn0
          obtain ⟨b', m'', g1, g2, g3, g4, g5, g6, g7, g8, g9⟩ := relocate_ok (b := b) (n := n) k1 hrep hne hn2 (by omega)
            (by
              intro e he
              have hb3 := (hrep.blk e he).2.2.1
              simp only at hb3
              omega)
            (by omega)
          left
          simp only [g1, Option.bind_some]
          refine ⟨_, rfl, ⟨g9, g5.symm, by simp only; omega, .inl g4, .inl ⟨m'', g2, by simp only; omega⟩⟩, g5, fun _ _ => g8, .inl ?_⟩
          simp only; omega

theorem Owns.call {b es} (h : Owns b es) (op : Op) :
    ∃ o b' es', b.call op = some (o, b') ∧ Lifo (es.map (·.2)) op o (es'.map (·.2)) ∧ Owns b' es' ∧
      b'.capacity = b.capacity := by
  obtain ⟨o, r, es', h1, h2, h3, h4, h5⟩ := h.rep.call op
  have key : ∃ b', b.call op = some (o, b') ∧ (b' = b.setRaw r ∨ (b' = b ∧ r = b.raw)) := by
    cases op with
    | push d =>
      simp only [Raw.call, Option.map_eq_some_iff] at h1
      obtain ⟨x, e1, e2⟩ := h1
      cases e2
      exact ⟨_, by simp only [Buf.call, Buf.push, e1, Option.map_some], .inl rfl⟩
    | pop max =>
      simp only [Raw.call, Option.map_eq_some_iff] at h1
      obtain ⟨x, e1, e2⟩ := h1
      cases e2
      exact ⟨_, by simp only [Buf.call, Buf.pop, e1, Option.map_some], .inl rfl⟩
    | nextDataSize =>
      simp only [Raw.call, Option.map_eq_some_iff] at h1
      obtain ⟨x, e1, e2⟩ := h1
      cases e2
      exact ⟨_, by simp only [Buf.call, Buf.nextDataSize, e1, Option.map_some], .inr ⟨rfl, rfl⟩⟩
    | count => cases h1; exact ⟨_, rfl, .inr ⟨rfl, rfl⟩⟩
    | empty => cases h1; exact ⟨_, rfl, .inr ⟨rfl, rfl⟩⟩
    | reverse =>
      simp only [Raw.call, Option.map_eq_some_iff] at h1
      obtain ⟨x, e1, e2⟩ := h1
      cases e2
      exact ⟨_, by simp only [Buf.call, Buf.reverse, e1, Option.map_some], .inl rfl⟩
    | clear => cases h1; exact ⟨_, rfl, .inl rfl⟩
  obtain ⟨b', e1, e2⟩ := key
  refine ⟨o, b', es', e1, h2, ?_, ?_⟩
  · rcases e2 with rfl | ⟨rfl, rfl⟩
    · exact h.setRaw h3 h4 h5
    · exact ⟨h3, h.stated, h.capA, h.own, h.mem⟩
  · rcases e2 with rfl | ⟨rfl, rfl⟩
    · exact h4
    · rfl

/-! ### Several objects -/

def WRep (w : Nat → Option Buf) (s : Nat → Option SObj) : Prop :=
  ∀ i, match w i, s i with
    | none, none => True
    | some b, some (c, q) => ∃ es, Owns b es ∧ b.capacity = c ∧ es.map (·.2) = q
    | _, _ => False

theorem WRep.init : WRep (fun _ => none) (fun _ => none) := fun _ => trivial

theorem WRep.get {w s} (h : WRep w s) {i b} (hi : w i = some b) :
    ∃ es, s i = some (b.capacity, es.map (·.2)) ∧ Owns b es := by
  have := h i
  rw [hi] at this
  cases hs : s i with
  | none => rw [hs] at this; exact this.elim
  | some c => rw [hs] at this; obtain ⟨es, h1, h2, h3⟩ := this; exact ⟨es, by rw [h2, h3], h1⟩

theorem WRep.getNone {w s} (h : WRep w s) {i} (hi : w i = none) : s i = none := by
  have := h i
  rw [hi] at this
  cases hs : s i with
  | none => rfl
  | some c => rw [hs] at this; exact this.elim

theorem WRep.set {w s} (h : WRep w s) (i : Nat) {b es c} (hb : Owns b es) (hc : b.capacity = c) :
    WRep (upd w i (some b)) (upd s i (some (c, es.map (·.2)))) := by
  intro k
  unfold upd
  by_cases hk : k = i
  · simp only [hk, if_true]; exact ⟨es, hb, hc, rfl⟩
  · simp only [hk, if_false]; exact h k

theorem WRep.setNone {w s} (h : WRep w s) (i : Nat) : WRep (upd w i none) (upd s i none) := by
  intro k
  unfold upd
  by_cases hk : k = i
  · simp [hk]
  · simp only [hk, if_false]; exact h k

theorem upd_self {α : Type} {w : Nat → Option α} {i a} (h : w i = a) : upd w i a = w := by
  funext k; unfold upd; split
  · rename_i h1; rw [h1, h]
  · rfl

theorem fresh_of_careful {b : Buf} {n : Int}
    (h : (!b.stale || decide (n > b.rawBlockCapacity) || decide (n = 0)) = true) : Fresh b n := by
  simp only [Buf.stale, Buf.rawBlockCapacity, Bool.or_eq_true, Bool.not_eq_true', Bool.and_eq_false_iff,
    decide_eq_true_eq] at h
  unfold Fresh
  rcases h with (h | h) | h
  · rcases h with h | h
    · left; cases hd : b.data <;> simp_all
    · right; left; have := of_decide_eq_false h; omega
  · right; right; left; exact of_decide_eq_true h
  · right; right; right; exact h

theorem WRep.step {w s} (h : WRep w s) (fresh : Int → UInt8) (op : OOp) :
    ∃ o w' s', op.step fresh w = some (o, w') ∧ OStep s op o s' ∧ WRep w' s' := by
  unfold OOp.step
  by_cases hc : op.careful w = true
  · rw [if_pos hc]
    cases op with
    | new i size =>
      simp only [OOp.careful, Bool.and_eq_true, Option.isNone_iff_eq_none, decide_eq_true_eq] at hc
      obtain ⟨h1, h2, h3⟩ := hc
      obtain ⟨b, e1, e2, e3⟩ := Owns.ofSize (fresh := fresh) h2 h3
      exact ⟨_, _, _, by simp only [OOp.exec, e1, Option.map_some], .new s i size (h.getNone h1),
        h.set i e2 e3⟩
    | newDefault i =>
      simp only [OOp.careful, Option.isNone_iff_eq_none] at hc
      exact ⟨_, _, _, rfl, .newDefault s i (h.getNone hc), h.set i Owns.default rfl⟩
    | copyNew i j =>
      simp only [OOp.careful, Bool.and_eq_true, Option.isNone_iff_eq_none, Option.isSome_iff_exists] at hc
      obtain ⟨h1, b, hj⟩ := hc
      obtain ⟨es, e1, e2⟩ := h.get hj
      obtain ⟨c, f1, f2, f3⟩ := e2.copyCtor fresh
      exact ⟨_, _, _, by simp only [OOp.exec, hj, Option.bind_some, f1, Option.map_some],
        .copyNew s i j _ (h.getNone h1) e1, h.set i f2 f3⟩
    | moveNew i j =>
      simp only [OOp.careful, Bool.and_eq_true, Option.isNone_iff_eq_none, Option.isSome_iff_exists] at hc
      obtain ⟨h1, b, hj⟩ := hc
      obtain ⟨es, e1, e2⟩ := h.get hj
      exact ⟨_, _, _, by simp only [OOp.exec, hj, Option.map_some]; rfl, .moveNew s i j _ (h.getNone h1) e1,
        (h.set i (b := b.moveCtor.1) e2 rfl).set j Owns.default rfl⟩
    | copyAssign i j =>
      simp only [OOp.careful, Bool.and_eq_true, decide_eq_true_eq] at hc
      obtain ⟨hne, hc⟩ := hc
      cases hi : w i with
      | none => simp [hi] at hc
      | some a =>
        cases hj : w j with
        | none => simp [hi, hj] at hc
        | some b =>
          simp only [hi, hj] at hc
          obtain ⟨es, e1, e2⟩ := h.get hj
          obtain ⟨esa, a1, a2⟩ := h.get hi
          obtain ⟨c, f1, f2, f3⟩ := a2.copyAssign e2 fresh (fresh_of_careful hc)
          exact ⟨_, _, _, by simp only [OOp.exec, hi, hj, Option.bind_some, f1, Option.map_some],
            .copyAssign s i j _ _ hne a1 e1, h.set i f2 f3⟩
    | moveAssign i j =>
      simp only [OOp.careful, Bool.and_eq_true, decide_eq_true_eq, Option.isSome_iff_exists] at hc
      obtain ⟨⟨hne, a, hi⟩, b, hj⟩ := hc
      obtain ⟨es, e1, e2⟩ := h.get hj
      obtain ⟨esa, a1, a2⟩ := h.get hi
      refine ⟨_, _, _, by simp only [OOp.exec, hi, hj, Option.bind_some, Option.map_some]; rfl,
        .moveAssign s i j _ _ hne a1 e1, ?_⟩
      refine (h.set i (b := b) e2 rfl).set j (Owns.movedFrom ?_) rfl
      have := e2.cap0; have := e2.capA; omega
    | swap i j =>
      simp only [OOp.careful, Bool.and_eq_true, Option.isSome_iff_exists] at hc
      obtain ⟨⟨a, hi⟩, b, hj⟩ := hc
      obtain ⟨es, e1, e2⟩ := h.get hj
      obtain ⟨esa, a1, a2⟩ := h.get hi
      exact ⟨_, _, _, by simp only [OOp.exec, hi, hj, Option.bind_some, Option.map_some]; rfl,
        .swap s i j _ _ a1 e1, (h.set i (b := b) e2 rfl).set j a2 rfl⟩
    | resize i n =>
      cases hi : w i with
      | none => simp [OOp.careful, hi] at hc
      | some b =>
        simp only [OOp.careful, hi, Bool.and_eq_true, decide_eq_true_eq] at hc
        obtain ⟨es, e1, e2⟩ := h.get hi
        by_cases hn : 0 ≤ n
        · have hf : Fresh b n := fresh_of_careful (by
            have := hc.2
            simp only [Bool.or_eq_true, decide_eq_true_eq] at this ⊢
            rcases this with this | this
            · exact .inl this
            · right; omega)
          rcases e2.resize fresh n hn hc.1 hf with ⟨b', f1, f2, f3, _⟩ | ⟨f1, f2, f3, f4⟩
          · exact ⟨_, _, _, by simp only [OOp.exec, hi, Option.bind_some, f1, Option.map_some],
              .resize s i n _ _ e1 hn, h.set i f2 f3⟩
          · refine ⟨_, w, s, ?_, .resizeThrows s i n _ _ e1 hn (by simpa using f2) f4, h⟩
            simp only [OOp.exec, hi, Option.bind_some, f1, Option.map_some]
            rw [upd_self hi]
        · have : b.resize fresh n = some (.ok false b) := by
            unfold Buf.resize; rw [if_pos (by omega)]
          refine ⟨_, w, s, ?_, .resizeNegative s i n _ e1 (by omega), h⟩
          simp only [OOp.exec, hi, Option.bind_some, this, Option.map_some]
          rw [upd_self hi]
    | capacity i =>
      simp only [OOp.careful, Option.isSome_iff_exists] at hc
      obtain ⟨b, hi⟩ := hc
      obtain ⟨es, e1, e2⟩ := h.get hi
      exact ⟨_, _, _, by simp only [OOp.exec, hi, Option.map_some], .capacity s i _ _ e1, h⟩
    | call i op =>
      simp only [OOp.careful, Option.isSome_iff_exists] at hc
      obtain ⟨b, hi⟩ := hc
      obtain ⟨es, e1, e2⟩ := h.get hi
      obtain ⟨o, b', es', f1, f2, f3, f4⟩ := e2.call op
      exact ⟨_, _, _, by simp only [OOp.exec, hi, Option.bind_some, f1, Option.map_some],
        .call s i op o _ _ _ e1 f2, h.set i f3 f4⟩
    | destroy i =>
      simp only [OOp.careful, Option.isSome_iff_exists] at hc
      obtain ⟨b, hi⟩ := hc
      obtain ⟨es, e1, e2⟩ := h.get hi
      exact ⟨_, _, _, by simp only [OOp.exec, hi, Option.map_some], .destroy s i _ e1, h.setNone i⟩
  · rw [if_neg hc]
    exact ⟨_, _, _, rfl, .skipped s op, h⟩

theorem WRep.run {w s} (h : WRep w s) (fresh : Nat → Int → UInt8) (ops : List OOp) :
    ∃ os w' s', runWorld fresh w ops = some (os, w') ∧ OSession s ops os s' ∧ WRep w' s' := by
  induction ops generalizing w s with
  | nil => exact ⟨_, _, _, rfl, .nil s, h⟩
  | cons op ops ih =>
    obtain ⟨o, w1, s1, h1, h2, h3⟩ := h.step (fresh ops.length) op
    obtain ⟨os, w2, s2, h4, h5, h6⟩ := ih h3
    exact ⟨_, _, _, by simp [runWorld, h1, h4], .cons h2 h5, h6⟩

end Verif.StackBuffer
