import Verif.StackBuffer.Spec

/-
C135 for StackBuffer: overflow of `int` in programs.
-/
namespace Verif.StackBuffer

/-- the values of the type `int` -/
def IsInt (x : Int) : Prop := -2147483648 ≤ x ∧ x ≤ 2147483647

instance (x : Int) : Decidable (IsInt x) := inferInstanceAs (Decidable (_ ∧ _))

/-- The results of arithmetic and conversions to `int` in the calls on the member `stack`.  StackBuffer.hpp:80 (`next - origin`),
84 (`++dataCount`); 99 (`offset + blkSize`), 100 (`next - origin`), 104 (`--dataCount`), 114 (`-blkSize`).  The other arithmetic
is done on pointers and `ptrdiff_t` (64 bits). -/
def Raw.ints (b : Raw) : Op → List Int
  | .push d =>
    if (d.length : Int) ≤ 0 then []
    else if b.isSpaceAvailable d.length = false then []
    else [b.next, b.count + 1]
  | .pop max =>
    if b.count > 0 then
      match b.mem.readI32 (b.ni + 12), b.mem.readI32 (b.ni + 8) with
      | some blkSize, some off => if max ≥ blkSize then [off + blkSize, b.next, b.count - 1] else [-blkSize]
      | _, _ => []
    else []
  | _ => []

/-- The results of arithmetic and conversions to `int` in resize, in the order of execution.  StackBuffer.hpp:230-231
(`diSize * dataCount`, `dataSize - diSize * dataCount`, `newsize - diSize * dataCount`), 246-248 (the same, and the conversion of
`next - origin`), 249 (`dataOffset + diSize * dataCount`). -/
def Buf.resizeInts (b : Buf) (newsize : Int) : List Int :=
  if newsize < 0 then []
  else if newsize = b.cap then []
  else if b.count = 0 then []
  else if newsize > b.statedSize then [8 * b.count, b.cap - 8 * b.count, newsize - 8 * b.count]
  else [8 * b.count, b.cap - 8 * b.count, newsize - 8 * b.count, b.next, b.next + 8 * b.count]

/-- the `int` values that a statement computes -/
def OOp.ints (w : Nat → Option Buf) : OOp → List Int
  | .resize i n => match w i with | some b => b.resizeInts n | none => []
  | .call i op => match w i with | some b => b.raw.ints op | none => []
  | _ => []

/-- The arguments are `int` values, and sizes are at most `L`. -/
def OOp.argsInt (L : Int) : OOp → Prop
  | .new _ size => -2147483648 ≤ size ∧ size ≤ L
  | .resize _ n => -2147483648 ≤ n ∧ n ≤ L
  | .call _ (.push d) => IsInt d.length
  | .call _ (.pop max) => IsInt max
  | _ => True

/-- The states that programs with sizes at most `L` reach, no matter what they call (as long as nothing undefined has
happened). -/
inductive Reached (L : Int) : (Nat → Option Buf) → Prop
  | start : Reached L fun _ => none
  | step {w : Nat → Option Buf} {op : OOp} {o : OObs} {w' : Nat → Option Buf} (fresh : Int → UInt8) (h : Reached L w) (ha : op.argsInt L)
      (e : op.exec fresh w = some (o, w')) : Reached L w'

/-- invariant of all objects -/
structure Buf.Small (L : Int) (b : Buf) : Prop where
  cap : 0 ≤ b.cap ∧ b.cap ≤ L
  count : 0 ≤ b.count ∧ 8 * b.count ≤ b.cap
  next : 0 ≤ b.next ∧ b.next ≤ b.cap
  actual : b.actualCapacity ≤ L
  data : ∀ m, b.data = some m → m.size ≤ L
  stated : b.statedSize ≤ L

theorem Buf.Small.default {L : Int} (hL : 0 ≤ L) : Buf.default.Small L :=
  ⟨⟨Int.le_refl _, hL⟩, by decide, by decide, hL, nofun, hL⟩

theorem write_size {m m' : Mem} {off : Int} {bs : List UInt8} (e : m.write off bs = some m') : m'.size = m.size := by
  unfold Mem.write at e
  split at e
  · cases e; rfl
  · cases e

theorem move_size {m m' : Mem} {d s n : Int} (e : m.move d s n = some m') : m'.size = m.size ∧ 0 ≤ d := by
  unfold Mem.move at e
  split at e
  · simp only [Option.bind_eq_some_iff] at e
    obtain ⟨bs, -, e⟩ := e
    refine ⟨write_size e, ?_⟩
    unfold Mem.write at e
    split at e
    · rename_i h; exact h.1
    · cases e
  · cases e

theorem withData_eq {b c : Buf} {f : Mem → Option Mem} {P : Prop} (hf : ∀ m m', f m = some m' → m'.size = m.size ∧ P)
    (e : b.withData f = some c) : c.cap = b.cap ∧ c.count = b.count ∧ c.next = b.next ∧ c.actualCapacity = b.actualCapacity ∧
      c.statedSize = b.statedSize ∧ (∀ m', c.data = some m' → ∃ m, b.data = some m ∧ m'.size = m.size) ∧ P := by
  unfold Buf.withData at e
  split at e
  · rename_i m hm
    simp only [Option.map_eq_some_iff] at e
    obtain ⟨m', h1, e⟩ := e
    subst e
    refine ⟨rfl, rfl, rfl, rfl, rfl, ?_, (hf _ _ h1).2⟩
    rintro m2 ⟨⟩
    exact ⟨m, hm, (hf _ _ h1).1⟩
  · rename_i hm
    simp only [Option.map_eq_some_iff] at e
    obtain ⟨m', h1, e⟩ := e
    subst e
    refine ⟨rfl, rfl, rfl, rfl, rfl, ?_, (hf _ _ h1).2⟩
    intro m2 h2; rw [hm] at h2; cases h2

theorem Buf.Small.copyCtor {L : Int} {b c : Buf} {fresh} (hL : 0 ≤ L) (h : b.Small L) (e : Buf.copyCtor fresh b = some c) : c.Small L := by
  unfold Buf.copyCtor at e
  split at e
  · cases e
  · split at e
    · cases e
      exact ⟨h.cap, h.count, h.next, hL, nofun, hL⟩
    · split at e
      · simp only [Option.bind_eq_some_iff] at e
        obtain ⟨bs, -, m', hm, e⟩ := e
        cases e
        refine ⟨h.cap, h.count, h.next, h.stated, ?_, h.stated⟩
        rintro m ⟨⟩
        rw [write_size hm]; exact h.stated
      · cases e
        exact ⟨h.cap, h.count, h.next, hL, nofun, hL⟩

theorem resizeMemory_eq {L : Int} {fresh} {b c : Buf} {n : Int} {cp : Bool} (hn : n ≤ L) (ha : b.actualCapacity ≤ L)
    (hd : ∀ m, b.data = some m → m.size ≤ L) (e : Buf.resizeMemory fresh b n cp = some c) :
    c.cap = b.cap ∧ c.next = b.next ∧ c.count = b.count ∧ c.statedSize = n ∧ c.actualCapacity ≤ L ∧
      (∀ m, c.data = some m → m.size ≤ L) := by
  unfold Buf.resizeMemory at e
  split at e
  · rename_i h; cases e; exact ⟨rfl, rfl, rfl, h.symm, ha, hd⟩
  split at e
  · simp only [Option.bind_eq_some_iff] at e
    obtain ⟨m, hm, e⟩ := e
    cases e
    refine ⟨rfl, rfl, rfl, rfl, hn, ?_⟩
    rintro m' ⟨⟩
    unfold Buf.copyOld at hm
    split at hm
    · split at hm
      · cases hm
      · simp only [Option.bind_eq_some_iff] at hm
        obtain ⟨bs, -, hm⟩ := hm
        rw [write_size hm]; exact hn
    · cases hm; exact hn
  · cases e
    exact ⟨rfl, rfl, rfl, rfl, ha, hd⟩

theorem Buf.Small.copyAssign {L : Int} {a b c : Buf} {fresh} (ha : a.Small L) (h : b.Small L) (e : Buf.copyAssign fresh a b = some c) :
    c.Small L := by
  unfold Buf.copyAssign at e
  simp only [Option.bind_eq_some_iff] at e
  obtain ⟨d, hd, e⟩ := e
  obtain ⟨h1, h2, h3, h4, h5, h6⟩ := resizeMemory_eq (L := L) h.stated (by exact ha.actual) (by exact ha.data) hd
  simp only [] at h1 h2 h3
  split at e
  · cases e
  · simp only [Option.bind_eq_some_iff] at e
    obtain ⟨bs, -, x, hx, e⟩ := e
    cases e
    obtain ⟨g1, g2, g3, g4, g5, g6, -⟩ := withData_eq (P := True) (fun m m' h => ⟨write_size h, trivial⟩) hx
    refine ⟨?_, ?_, ?_, ?_, ?_, ?_⟩
    · simp only [g1, h1]; exact h.cap
    · simp only [g1, g2, h1, h3]; exact h.count
    · simp only [g1, g3, h1, h2]; exact h.next
    · simp only [g4]; exact h5
    · intro m' hm
      obtain ⟨m, e1, e2⟩ := g6 m' hm
      rw [e2]; exact h6 m e1
    · simp only [g5, h4]; exact h.stated

theorem Buf.Small.relocate {L : Int} {b c : Buf} {n : Int} (hc : 0 ≤ b.count) (ha : b.actualCapacity ≤ L)
    (hd : ∀ m, b.data = some m → m.size ≤ L) (hs : b.statedSize ≤ L) (hn : 0 ≤ n ∧ n ≤ L) (e : b.relocate n = some c) : c.Small L := by
  unfold Buf.relocate at e
  simp only [Option.bind_eq_some_iff] at e
  obtain ⟨x, hx, e⟩ := e
  cases e
  obtain ⟨g1, g2, g3, g4, g5, g6, g7⟩ := withData_eq (P := 0 ≤ n - 8 * b.count) (fun m m' h => move_size h) hx
  refine ⟨hn, ?_, ?_, ?_, ?_, ?_⟩
  · simp only [g2]; omega
  · simp only []; omega
  · simp only [g4]; exact ha
  · intro m' hm
    obtain ⟨m, e1, e2⟩ := g6 m' hm
    rw [e2]; exact hd m e1
  · simp only [g5]; exact hs

theorem Buf.Small.resize {L : Int} {b : Buf} {fresh} {n : Int} {r : Outcome Buf} (h : b.Small L) (hn : n ≤ L)
    (e : b.resize fresh n = some r) : ∀ c, ((∃ ret, r = .ok ret c) ∨ r = .thrown c) → c.Small L := by
  unfold Buf.resize at e
  split at e
  · cases e
    rintro c (⟨_, e⟩ | e) <;> cases e
    exact h
  rename_i hn0
  split at e
  · cases e
    rintro c (⟨_, e⟩ | e) <;> cases e
    exact h
  split at e
  · simp only [Option.bind_eq_some_iff] at e
    obtain ⟨d, hd, e⟩ := e
    obtain ⟨h1, h2, h3, h4, h5, h6⟩ := resizeMemory_eq (L := L) hn h.actual h.data hd
    cases e
    rintro c (⟨_, e⟩ | e) <;> cases e
    exact ⟨⟨by simp only []; omega, hn⟩, ⟨by simp, by simp only []; omega⟩, ⟨by simp, by simp only []; omega⟩, h5, h6, by simp only [h4]; exact hn⟩
  split at e
  · simp only [Option.bind_eq_some_iff] at e
    obtain ⟨d, hd, x, hx, e⟩ := e
    obtain ⟨h1, h2, h3, h4, h5, h6⟩ := resizeMemory_eq (L := L) hn h.actual h.data hd
    cases e
    rintro c (⟨_, e⟩ | e) <;> cases e
    exact .relocate (by rw [h3]; exact h.count.1) h5 h6 (by rw [h4]; exact hn) ⟨by omega, hn⟩ hx
  split at e
  · cases e
    rintro c (⟨_, e⟩ | e) <;> cases e
    exact h
  · simp only [Option.bind_eq_some_iff] at e
    obtain ⟨x, hx, e⟩ := e
    cases e
    rintro c (⟨_, e⟩ | e) <;> cases e
    have := Buf.Small.relocate h.count.1 h.actual h.data h.stated ⟨by omega, hn⟩ hx
    exact ⟨this.cap, this.count, this.next, this.actual, this.data, hn⟩

theorem Buf.Small.setRaw {L : Int} {b : Buf} (h : b.Small L) {r : Raw} (hc : r.cap = b.cap) (hn : 0 ≤ r.count ∧ 8 * r.count ≤ b.cap)
    (hx : 0 ≤ r.next ∧ r.next ≤ b.cap) (hm : r.mem.size = b.raw.mem.size) : (b.setRaw r).Small L := by
  refine ⟨by simpa [Buf.setRaw, hc] using h.cap, by simpa [Buf.setRaw, hc] using hn, by simpa [Buf.setRaw, hc] using hx, h.actual, ?_, h.stated⟩
  intro m e
  simp only [Buf.setRaw] at e
  split at e
  · rename_i ho
    cases hb : b.data with
    | none => rw [hb] at e; cases e
    | some m0 =>
      rw [hb] at e; cases e
      rw [hm]
      simp only [Buf.raw, ho, if_true, Buf.dmem, hb, Option.getD_some]
      exact h.data m0 hb
  · exact h.data m e

theorem push_small {b r : Raw} {d : List UInt8} {ok : Bool} (hc : 0 ≤ b.count ∧ 8 * b.count ≤ b.cap) (hx : 0 ≤ b.next ∧ b.next ≤ b.cap)
    (e : b.push (some d) d.length = some (ok, r)) :
    r.cap = b.cap ∧ (0 ≤ r.count ∧ 8 * r.count ≤ b.cap) ∧ (0 ≤ r.next ∧ r.next ≤ b.cap) ∧ r.mem.size = b.mem.size := by
  unfold Raw.push at e
  simp only [] at e
  split at e
  · cases e; exact ⟨rfl, hc, hx, rfl⟩
  split at e
  · cases e; exact ⟨rfl, hc, hx, rfl⟩
  rename_i hs
  simp only [Raw.isSpaceAvailable, ge_iff_le, decide_eq_false_iff_not, Int.not_le, Int.not_lt] at hs
  split at e
  · cases e
  simp only [Option.bind_eq_some_iff] at e
  obtain ⟨m1, h1, m2, h2, m3, h3, e⟩ := e
  cases e
  refine ⟨rfl, ?_, ?_, ?_⟩
  · simp only []; omega
  · simp only []; omega
  · simp only [Mem.writeI32] at h2 h3
    rw [write_size h3, write_size h2, write_size h1]

theorem release_small {b : Raw} {off k : Int} (hc : 0 < b.count ∧ 8 * b.count ≤ b.cap) (hx : 0 ≤ b.next ∧ b.next ≤ b.cap) (ho : 0 ≤ off)
    (hk : 0 ≤ k) : (b.release off k).cap = b.cap ∧ (0 ≤ (b.release off k).count ∧ 8 * (b.release off k).count ≤ b.cap) ∧
      (0 ≤ (b.release off k).next ∧ (b.release off k).next ≤ b.cap) ∧ (b.release off k).mem = b.mem := by
  unfold Raw.release
  simp only []
  split
  · refine ⟨rfl, ?_, ?_, rfl⟩ <;> simp only [] <;> omega
  · refine ⟨rfl, ?_, ?_, rfl⟩
    · simp only []; omega
    · simp only []; split <;> omega

theorem pop_small {b r : Raw} {max ret : Int} {bytes : Option (List UInt8)} (hc : 0 ≤ b.count ∧ 8 * b.count ≤ b.cap)
    (hx : 0 ≤ b.next ∧ b.next ≤ b.cap) (e : b.pop max = some (ret, bytes, r)) :
    r.cap = b.cap ∧ (0 ≤ r.count ∧ 8 * r.count ≤ b.cap) ∧ (0 ≤ r.next ∧ r.next ≤ b.cap) ∧ r.mem.size = b.mem.size := by
  unfold Raw.pop at e
  split at e
  · rename_i hpos
    simp only [Option.bind_eq_some_iff] at e
    obtain ⟨k, -, e⟩ := e
    split at e
    · split at e
      · cases e
      · rename_i hk
        simp only [Option.bind_eq_some_iff] at e
        obtain ⟨off, -, d, hd, e⟩ := e
        cases e
        have ho : 0 ≤ off := (Mem.read_eq_some.1 hd).1
        obtain ⟨g1, g2, g3, g4⟩ := release_small (b := b) ⟨hpos, hc.2⟩ hx ho (by omega : (0:Int) ≤ ret)
        exact ⟨g1, g2, g3, by rw [g4]⟩
    · cases e; exact ⟨rfl, hc, hx, rfl⟩
  · cases e; exact ⟨rfl, hc, hx, rfl⟩

theorem Buf.Small.call {L : Int} {b c : Buf} {op : Op} {o : Obs} (h : b.Small L) (e : b.call op = some (o, c)) : c.Small L := by
  cases op with
  | push d =>
    simp only [Buf.call, Buf.push, Option.map_map, Option.map_eq_some_iff, Function.comp] at e
    obtain ⟨⟨ok, r⟩, e, e'⟩ := e
    cases e'
    obtain ⟨p1, p2, p3, p4⟩ := push_small (b := b.raw) h.count h.next e
    exact h.setRaw p1 p2 p3 p4
  | pop max =>
    simp only [Buf.call, Buf.pop, Option.map_map, Option.map_eq_some_iff, Function.comp] at e
    obtain ⟨⟨ret, bytes, r⟩, e, e'⟩ := e
    cases e'
    obtain ⟨p1, p2, p3, p4⟩ := pop_small (b := b.raw) h.count h.next e
    exact h.setRaw p1 p2 p3 p4
  | nextDataSize =>
    simp only [Buf.call, Option.map_eq_some_iff] at e
    obtain ⟨n, -, e⟩ := e
    cases e; exact h
  | count => simp only [Buf.call] at e; cases e; exact h
  | empty => simp only [Buf.call] at e; cases e; exact h
  | reverse =>
    simp only [Buf.call, Buf.reverse, Option.map_map, Option.map_eq_some_iff, Function.comp] at e
    obtain ⟨r, e, e'⟩ := e
    cases e'
    unfold Raw.reverse at e
    split at e
    · simp only [Option.bind_eq_some_iff] at e
      obtain ⟨bs, -, m, hm, e⟩ := e
      cases e
      exact h.setRaw rfl h.count h.next (write_size hm)
    · cases e; exact h.setRaw rfl h.count h.next rfl
  | clear =>
    simp only [Buf.call] at e; cases e
    have := h.cap
    exact h.setRaw rfl (by simp [Raw.clear]; omega) (by simp [Raw.clear]; omega) rfl

theorem Reached.small {L : Int} (hL : 0 ≤ L) {w : Nat → Option Buf} (h : Reached L w) : ∀ i b, w i = some b → b.Small L := by
  induction h with
  | start => intro i b e; cases e
  | @step w op o w' fresh h ha e ih =>
    have hupd : ∀ (w : Nat → Option Buf) i (c : Option Buf), (∀ i b, w i = some b → b.Small L) → (∀ x, c = some x → x.Small L) →
        ∀ k b, upd w i c k = some b → b.Small L := by
      intro w i c h1 h2 k b e
      simp only [upd] at e
      split at e
      · exact h2 b e
      · exact h1 k b e
    cases op with
    | new i size =>
      simp only [OOp.exec, Option.map_eq_some_iff] at e
      obtain ⟨b, hb, e⟩ := e
      cases e
      refine hupd _ _ _ ih ?_
      rintro x ⟨⟩
      unfold Buf.ofSize at hb
      split at hb
      · cases hb
      · rename_i hs
        cases hb
        refine ⟨⟨by simp only []; omega, ha.2⟩, ⟨by simp, by simp only []; omega⟩, ⟨by simp, by simp only []; omega⟩, ha.2, ?_, ha.2⟩
        rintro m ⟨⟩; exact ha.2
    | newDefault i =>
      simp only [OOp.exec] at e; cases e
      exact hupd _ _ _ ih (by rintro x ⟨⟩; exact .default hL)
    | copyNew i j =>
      simp only [OOp.exec, Option.bind_eq_some_iff, Option.map_eq_some_iff] at e
      obtain ⟨b, hb, c, hc, e⟩ := e
      cases e
      exact hupd _ _ _ ih (by rintro x ⟨⟩; exact (ih j b hb).copyCtor hL hc)
    | moveNew i j =>
      simp only [OOp.exec, Option.map_eq_some_iff] at e
      obtain ⟨b, hb, e⟩ := e
      cases e
      exact hupd _ _ _ (hupd _ _ _ ih (by rintro x ⟨⟩; exact ih j b hb)) (by rintro x ⟨⟩; exact .default hL)
    | copyAssign i j =>
      simp only [OOp.exec, Option.bind_eq_some_iff, Option.map_eq_some_iff] at e
      obtain ⟨a, ha', b, hb, c, hc, e⟩ := e
      cases e
      exact hupd _ _ _ ih (by rintro x ⟨⟩; exact (ih i a ha').copyAssign (ih j b hb) hc)
    | moveAssign i j =>
      simp only [OOp.exec, Option.bind_eq_some_iff, Option.map_eq_some_iff] at e
      obtain ⟨a, ha', b, hb, e⟩ := e
      cases e
      refine hupd _ _ _ (hupd _ _ _ ih (by rintro x ⟨⟩; exact ih j b hb)) ?_
      rintro x ⟨⟩
      exact ⟨⟨by simp [Buf.moveAssign], hL⟩, by simp [Buf.moveAssign], by simp [Buf.moveAssign], (ih j b hb).actual, nofun, hL⟩
    | swap i j =>
      simp only [OOp.exec, Option.bind_eq_some_iff, Option.map_eq_some_iff] at e
      obtain ⟨a, ha', b, hb, e⟩ := e
      cases e
      exact hupd _ _ _ (hupd _ _ _ ih (by rintro x ⟨⟩; exact ih j b hb)) (by rintro x ⟨⟩; exact ih i a ha')
    | resize i n =>
      simp only [OOp.exec, Option.bind_eq_some_iff, Option.map_eq_some_iff] at e
      obtain ⟨b, hb, r, hr, e⟩ := e
      have := (ih i b hb).resize ha.2 hr
      cases r with
      | ok ret c => cases e; exact hupd _ _ _ ih (by rintro x ⟨⟩; exact this c (.inl ⟨_, rfl⟩))
      | thrown c => cases e; exact hupd _ _ _ ih (by rintro x ⟨⟩; exact this c (.inr rfl))
    | capacity i =>
      simp only [OOp.exec, Option.map_eq_some_iff] at e
      obtain ⟨b, hb, e⟩ := e
      cases e; exact ih
    | call i op =>
      simp only [OOp.exec, Option.bind_eq_some_iff, Option.map_eq_some_iff] at e
      obtain ⟨b, hb, r, hr, e⟩ := e
      cases e
      exact hupd _ _ _ ih (by rintro x ⟨⟩; exact (ih i b hb).call (o := r.1) hr)
    | destroy i =>
      simp only [OOp.exec, Option.map_eq_some_iff] at e
      obtain ⟨b, hb, e⟩ := e
      cases e
      exact hupd _ _ _ ih nofun

theorem decI32_range (bs : List UInt8) : IsInt (decI32 bs) := by
  unfold decI32 IsInt
  have h := fun k => (bs.getD k 0).toNat_lt
  have h0 := h 0; have h1 := h 1; have h2 := h 2; have h3 := h 3
  simp only []
  split <;> omega

theorem readI32_range {m : Mem} {off s : Int} (e : m.readI32 off = some s) : IsInt s := by
  simp only [Mem.readI32, Option.map_eq_some_iff] at e
  obtain ⟨bs, -, rfl⟩ := e
  exact decI32_range bs

/-- The `int` values of a call that is defined are in range; those of resize are, apart from the last one. -/
theorem ints_core {L : Int} (hL : L ≤ 2147483647) {w : Nat → Option Buf} (h : ∀ i b, w i = some b → b.Small L) {op : OOp} {fresh o w'}
    (ha : op.argsInt L) (hd : op.exec fresh w = some (o, w')) :
    ∀ x ∈ op.ints w, IsInt x ∨ ∃ i n b, op = .resize i n ∧ w i = some b ∧ x = b.next + 8 * b.count := by
  cases op with
  | resize i n =>
    simp only [OOp.ints]
    cases hb : w i with
    | none => intro x hx; cases hx
    | some b =>
      obtain ⟨⟨c1, c2⟩, ⟨k1, k2⟩, ⟨n1, n2⟩, -, -, -⟩ := h i b hb
      have ha1 := ha.1
      have ha2 := ha.2
      intro x hx
      simp only [Buf.resizeInts] at hx
      by_cases e : x = b.next + 8 * b.count
      · exact .inr ⟨i, n, b, rfl, hb, e⟩
      · left
        unfold IsInt
        repeat' split at hx
        all_goals simp only [List.mem_cons, List.not_mem_nil, or_false] at hx
        · rcases hx with rfl | rfl | rfl <;> omega
        · rcases hx with rfl | rfl | rfl | rfl | rfl <;> omega
  | call i op =>
    simp only [OOp.ints]
    cases hb : w i with
    | none => intro x hx; cases hx
    | some b =>
      obtain ⟨⟨c1, c2⟩, ⟨k1, k2⟩, ⟨n1, n2⟩, -, hm, -⟩ := h i b hb
      intro x hx
      left
      cases op with
      | push d =>
        simp only [Raw.ints] at hx
        split at hx
        · cases hx
        rename_i h0
        split at hx
        · cases hx
        · rename_i hs
          simp only [Raw.isSpaceAvailable, ge_iff_le, decide_eq_false_iff_not, Int.not_le, Int.not_lt, Buf.raw] at hs
          simp only [List.mem_cons, List.not_mem_nil, or_false, Buf.raw] at hx
          unfold IsInt
          rcases hx with rfl | rfl <;> omega
      | pop max =>
        have hmax : IsInt max := ha
        simp only [OOp.exec, hb, Option.bind_some, Option.map_eq_some_iff, Buf.call, Buf.pop, Option.map_map, Function.comp] at hd
        obtain ⟨r, hr, -⟩ := hd
        simp only [Raw.ints] at hx
        split at hx
        · rename_i hpos
          split at hx
          · rename_i k off hk ho
            have hk' := readI32_range hk
            simp only [Raw.pop, if_pos hpos, hk, ho, Option.bind_some] at hr
            split at hx
            · rename_i hmk
              rw [if_pos hmk] at hr
              split at hr
              · cases hr
              · simp only [Option.bind_eq_some_iff] at hr
                obtain ⟨d, hd, -⟩ := hr
                obtain ⟨r1, r2, -⟩ := Mem.read_eq_some.1 hd
                have hsz : b.raw.mem.size ≤ L := by
                  simp only [Buf.raw, Buf.dmem]
                  split
                  · cases hbd : b.data with
                    | none => simp only [Option.getD_none, Mem.null]; omega
                    | some m => exact hm m hbd
                  · simp only [Mem.null]; omega
                simp only [Buf.raw] at hpos
                simp only [List.mem_cons, List.not_mem_nil, or_false] at hx
                unfold IsInt
                rcases hx with rfl | rfl | rfl
                · omega
                · simp only [Buf.raw]; omega
                · simp only [Buf.raw]; omega
            · simp only [List.mem_cons, List.not_mem_nil, or_false] at hx
              subst hx
              unfold IsInt at *
              omega
          · cases hx
        · cases hx
      | _ => cases hx
  | _ => intro x hx; cases hx

/-- C135 for StackBuffer (partial): in every program over any number of buffers in which all sizes are less than 2^30, whatever it
has called before, no arithmetic on `int` overflows and no conversion to `int` changes a value in a call that is otherwise defined.
Missing: larger buffers (`overflow_violation`). -/
theorem no_int_overflow_partial {w : Nat → Option Buf} (h : Reached 1073741823 w) {op : OOp} {fresh o w'} (ha : op.argsInt 1073741823)
    (hd : op.exec fresh w = some (o, w')) : ∀ x ∈ op.ints w, IsInt x := by
  have hs := h.small (by decide)
  intro x hx
  rcases ints_core (by decide) hs ha hd x hx with h1 | ⟨i, n, b, -, hb, rfl⟩
  · exact h1
  · obtain ⟨⟨c1, c2⟩, ⟨k1, k2⟩, ⟨n1, n2⟩, -, -, -⟩ := hs i b hb
    unfold IsInt
    omega

/-- C135 for StackBuffer, buffers of any size: the only value that can overflow is the sum in line 249, which resize computes when
it makes a buffer with messages smaller; it is in range if the messages and their index entries still lie side by side. -/
theorem no_int_overflow_side_by_side_partial {w : Nat → Option Buf} (h : Reached 2147483647 w) {op : OOp} {fresh o w'}
    (ha : op.argsInt 2147483647) (hd : op.exec fresh w = some (o, w'))
    (hb : ∀ i n b, op = .resize i n → w i = some b → b.next + 8 * b.count ≤ b.capacity) : ∀ x ∈ op.ints w, IsInt x := by
  have hs := h.small (by decide)
  intro x hx
  rcases ints_core (by decide) hs ha hd x hx with h1 | ⟨i, n, b, rfl, he, rfl⟩
  · exact h1
  · obtain ⟨⟨c1, c2⟩, ⟨k1, k2⟩, ⟨n1, n2⟩, -, -, -⟩ := hs i b he
    have := hb i n b rfl he
    simp only [Buf.capacity, Raw.capacity, Buf.raw] at this
    unfold IsInt
    omega

/-- a state in which making the buffer smaller computes all these values -/
example : ∃ w, Reached 1073741823 w ∧ (OOp.resize 0 32).ints w = [8, 56, 24, 1, 9] ∧ (OOp.call 0 (.pop 5)).ints w = [1, 1, 0] ∧
    ∀ i n b, OOp.resize 0 32 = .resize i n → w i = some b → b.next + 8 * b.count ≤ b.capacity :=
  ⟨_, .step (op := .call 0 (.push [7])) (o := .obs (.pushed true)) (fun _ => 0)
    (.step (op := .new 0 64) (fun _ => 0) .start (And.intro (by decide) (by decide)) rfl) (by show IsInt _; decide) rfl, by decide,
    by decide, by rintro i n b ⟨⟩ ⟨⟩; decide⟩

/-- C135 is violated: a buffer of 2147483647 bytes is made smaller while empty, gets one message, is enlarged again (which leaves
`next` at the end of the block), and is made smaller: 2147483647 + 8 is computed with type `int`. -/
theorem overflow_violation : ∃ w, Reached 2147483647 w ∧ (OOp.resize 0 2147483640).argsInt 2147483647 ∧
    ∃ x ∈ (OOp.resize 0 2147483640).ints w, ¬ IsInt x :=
  ⟨_, .step (op := .resize 0 2147483647) (o := .returned true) (fun _ => 0)
    (.step (op := .call 0 (.push [7])) (o := .obs (.pushed true)) (fun _ => 0)
      (.step (op := .resize 0 2147483640) (o := .returned true) (fun _ => 0)
        (.step (op := .new 0 2147483647) (fun _ => 0) .start (And.intro (by decide) (by decide)) rfl) (And.intro (by decide) (by decide)) rfl)
      (by show IsInt _; decide) rfl) (And.intro (by decide) (by decide)) rfl, And.intro (by decide) (by decide), 2147483655, by decide, by decide⟩

end Verif.StackBuffer
