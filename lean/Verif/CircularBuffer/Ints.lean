import Verif.CircularBuffer.OwnerSpec

/-
C135 for CircularBuffer: no overflow of `int` in any program.
-/
namespace Verif.CircularBuffer

/-- the values of the type `int` -/
def IsInt (x : Int) : Prop := -2147483648 ≤ x ∧ x ≤ 2147483647

instance (x : Int) : Decidable (IsInt x) := inferInstanceAs (Decidable (_ ∧ _))

/-- The results of arithmetic and conversions to `int` in push, pop, nextDataSize, empty, clear.  CircularBuffer.hpp:48-125: the
only one is `-size` in line 120; all other arithmetic is done on pointers and `ptrdiff_t` (64 bits). -/
def Raw.ints (b : Raw) : Op → List Int
  | .pop max =>
    if b.nw = b.nr then []
    else match b.mem.readI32 b.nr with
      | none => []
      | some s =>
        match (if s < 0 then b.mem.readI32 0 else some s) with
        | none => []
        | some size => if size ≤ max then [] else [-size]
  | _ => []

/-- The results of arithmetic and conversions to `int` in resize, in the order of execution.  CircularBuffer.hpp:226-229 (both
offsets), 236 (`capacity_ - read_offset`), 247-248, 250-251, 254 (`write_offset - read_offset`), 270-272, 273 (`readDiff +
write_offset`).  `data + newsize - readDiff` is pointer arithmetic. -/
def Buf.resizeInts (b : Buf) (newsize : Int) : List Int :=
  if newsize = b.cap then []
  else if b.nw = b.nr then []
  else if newsize > b.actualSize then
    if b.nr < b.nw then [b.nr, b.nw] else [b.nr, b.nw, b.cap - b.nr]
  else if b.nr < b.nw then
    if b.nw ≤ newsize then [b.nr, b.nw] else [b.nr, b.nw, b.nw - b.nr]
  else [b.nr, b.nw, b.cap - b.nr, b.cap - b.nr + b.nw]

/-- the `int` values that a statement computes -/
def OOp.ints (w : Nat → Option Buf) : OOp → List Int
  | .resize i n => match w i with | some b => b.resizeInts n | none => []
  | .call i op => match w i with | some b => b.raw.ints op | none => []
  | _ => []

/-- the arguments are `int` values -/
def OOp.argsInt : OOp → Prop
  | .new _ size => IsInt size
  | .resize _ n => IsInt n
  | .call _ (.push d) => IsInt d.length
  | .call _ (.pop max) => IsInt max
  | _ => True

/-- The states that programs reach, no matter what they call (as long as nothing undefined has happened). -/
inductive Reached : (Nat → Option Buf) → Prop
  | start : Reached fun _ => none
  | step {w : Nat → Option Buf} {op : OOp} {o : OObs} {w' : Nat → Option Buf} (fresh : Int → UInt8) (h : Reached w) (ha : op.argsInt)
      (e : op.exec fresh w = some (o, w')) : Reached w'

/-- invariant of all objects -/
structure Buf.Small (b : Buf) : Prop where
  cap : IsInt b.cap
  size : b.actualSize = b.cap
  nw : 0 ≤ b.nw ∧ b.nw ≤ 2147483647
  nr : 0 ≤ b.nr ∧ (b.nr ≤ b.cap ∨ b.nr = 0)
  null : b.data = .null → b.actualSize ≤ 0 ∧ b.actualCapacity ≤ 0

theorem Buf.Small.default : Buf.default.Small :=
  ⟨by decide, rfl, by decide, by decide, fun _ => by decide⟩

theorem Buf.Small.copyCtor {b c : Buf} {fresh} (h : b.Small) (e : Buf.copyCtor fresh b = some c) : c.Small := by
  unfold Buf.copyCtor at e
  split at e
  · cases e
  · rename_i hs
    split at e
    · rename_i hd
      cases e
      have := (h.null hd).1
      have := h.size
      exact ⟨h.cap, by simp only []; omega, h.nw, h.nr, nofun⟩
    · split at e
      · cases e
        have := h.size
        exact ⟨h.cap, by simp only []; omega, h.nw, h.nr, nofun⟩
      · cases e
    · simp only [Option.bind_eq_bind, Option.bind_eq_some_iff] at e
      obtain ⟨bs, -, m', -, e⟩ := e
      cases e
      exact ⟨h.cap, h.size, h.nw, h.nr, nofun⟩

theorem resizeMemory_eq {fresh} {b c : Buf} {n : Int} {cp : Bool} (e : Buf.resizeMemory fresh b n cp = some c) :
    c.cap = b.cap ∧ c.nw = b.nw ∧ c.nr = b.nr ∧ c.actualSize = n ∧
      ((b.data = .null → b.actualCapacity ≤ 0) → c.data = .null → c.actualSize ≤ 0 ∧ c.actualCapacity ≤ 0) := by
  unfold Buf.resizeMemory at e
  split at e
  · simp only [Option.bind_eq_some_iff] at e
    obtain ⟨m, -, -, -, e⟩ := e
    cases e
    exact ⟨rfl, rfl, rfl, rfl, nofun⟩
  · rename_i hn
    cases e
    refine ⟨rfl, rfl, rfl, rfl, fun h1 h2 => ?_⟩
    have := h1 h2
    simp only []
    omega

theorem moveBytes_eq {b c : Buf} {d s n : Int} (e : b.moveBytes d s n = some c) :
    c.cap = b.cap ∧ c.nw = b.nw ∧ c.nr = b.nr ∧ c.actualSize = b.actualSize ∧ c.data ≠ .null := by
  unfold Buf.moveBytes at e
  split at e
  · simp only [Option.map_eq_some_iff] at e
    obtain ⟨m, -, e⟩ := e
    subst e
    exact ⟨rfl, rfl, rfl, rfl, nofun⟩
  · cases e

theorem Buf.Small.copyAssign {a b c : Buf} {fresh} (ha : a.Small) (h : b.Small) (e : Buf.copyAssign fresh a b = some c) : c.Small := by
  unfold Buf.copyAssign at e
  simp only [Option.bind_eq_bind, Option.bind_eq_some_iff] at e
  obtain ⟨d, hd, e⟩ := e
  obtain ⟨h1, h2, h3, h4, h5⟩ := resizeMemory_eq hd
  simp only [] at h1 h2 h3
  have hd' : d.Small :=
    ⟨by rw [h1]; exact h.cap, by rw [h4, h1, h.size], by rw [h2]; exact h.nw, by rw [h3, h1]; exact h.nr,
      h5 fun x => (ha.null x).2⟩
  split at e
  · cases e
  · split at e
    · cases e; exact hd'
    · simp only [Option.bind_eq_some_iff] at e
      obtain ⟨bs, -, m, -, e⟩ := e
      split at e
      · cases e
        exact ⟨hd'.cap, hd'.size, hd'.nw, hd'.nr, nofun⟩
      · cases e

theorem Buf.Small.moved {b : Buf} (h : b.Small) :
    Buf.Small ⟨b.data, b.actualSize, b.actualCapacity, b.cap, b.nw, b.nr⟩ := ⟨h.cap, h.size, h.nw, h.nr, h.null⟩

theorem Buf.Small.resize {b : Buf} {fresh} {n : Int} {r : Outcome Buf} (h : b.Small) (hn : IsInt n) (e : b.resize fresh n = some r) :
    ∀ c, (r = .ok c ∨ r = .thrown c) → c.Small := by
  obtain ⟨⟨c1, c2⟩, hsz, ⟨w1, w2⟩, ⟨r1, r2⟩, hnull⟩ := h
  obtain ⟨n1, n2⟩ := hn
  have h : b.Small := ⟨⟨c1, c2⟩, hsz, ⟨w1, w2⟩, ⟨r1, r2⟩, hnull⟩
  unfold Buf.resize at e
  split at e
  · cases e
    rintro c (e | e) <;> cases e
    exact h
  split at e
  · simp only [Option.bind_eq_bind, Option.bind_eq_some_iff] at e
    obtain ⟨d, hd, e⟩ := e
    obtain ⟨h1, h2, h3, h4, h5⟩ := resizeMemory_eq hd
    cases e
    rintro c (e | e) <;> cases e
    exact ⟨⟨n1, n2⟩, h4, by simp, ⟨Int.le_refl _, .inr rfl⟩, h5 fun x => (hnull x).2⟩
  split at e
  · simp only [Option.bind_eq_bind, Option.bind_eq_some_iff] at e
    obtain ⟨d, hd, e⟩ := e
    obtain ⟨h1, h2, h3, h4, h5⟩ := resizeMemory_eq hd
    split at e
    · cases e
      rintro c (e | e) <;> cases e
      refine ⟨⟨n1, n2⟩, h4, ?_, ?_, h5 fun x => (hnull x).2⟩ <;> simp only [] <;> omega
    · simp only [Option.bind_eq_some_iff] at e
      obtain ⟨d', hd', e⟩ := e
      obtain ⟨g1, g2, g3, g4, g5⟩ := moveBytes_eq hd'
      cases e
      rintro c (e | e) <;> cases e
      refine ⟨⟨n1, n2⟩, ?_, ?_, ?_, fun x => absurd x g5⟩ <;> simp only [] <;> omega
  split at e
  · split at e
    · cases e
      rintro c (e | e) <;> cases e
      refine ⟨⟨n1, n2⟩, rfl, ⟨w1, w2⟩, ?_, fun x => ?_⟩
      · simp only []; omega
      · have := hnull x; simp only []; omega
    · split at e
      · simp only [Option.bind_eq_bind, Option.bind_eq_some_iff] at e
        obtain ⟨d', hd', e⟩ := e
        obtain ⟨g1, g2, g3, g4, g5⟩ := moveBytes_eq hd'
        cases e
        rintro c (e | e) <;> cases e
        refine ⟨⟨n1, n2⟩, rfl, ?_, ?_, fun x => absurd x g5⟩ <;> simp only [] <;> omega
      · cases e
        rintro c (e | e) <;> cases e
        exact h
  · dsimp only at e
    split at e
    · simp only [Option.bind_eq_bind, Option.bind_eq_some_iff] at e
      obtain ⟨d', hd', e⟩ := e
      obtain ⟨g1, g2, g3, g4, g5⟩ := moveBytes_eq hd'
      cases e
      rintro c (e | e) <;> cases e
      refine ⟨⟨n1, n2⟩, rfl, ?_, ?_, fun x => absurd x g5⟩ <;> simp only [] <;> omega
    · cases e
      rintro c (e | e) <;> cases e
      exact h

/-- operations on the member `buffer` -/
theorem Buf.Small.setRaw {b : Buf} (h : b.Small) {r : Raw} (hc : r.cap = b.cap) (hw : 0 ≤ r.nw ∧ r.nw ≤ 2147483647)
    (hr : 0 ≤ r.nr ∧ (r.nr ≤ b.cap ∨ r.nr = 0)) : (b.setRaw r).Small := by
  refine ⟨by simpa [Buf.setRaw, hc] using h.cap, by simpa [Buf.setRaw, hc] using h.size, hw, by simpa [Buf.setRaw, hc] using hr, fun x => ?_⟩
  apply h.null
  simp only [Buf.setRaw] at x
  split at x
  · cases x
  · exact x

theorem push_small {b r : Raw} {d : List UInt8} {ok : Bool} (hc : b.cap ≤ 2147483647) (hw : 0 ≤ b.nw ∧ b.nw ≤ 2147483647)
    (hr : 0 ≤ b.nr ∧ b.nr ≤ 2147483647) (e : b.push (some d) d.length = some (ok, r)) :
    r.cap = b.cap ∧ r.nr = b.nr ∧ 0 ≤ r.nw ∧ r.nw ≤ 2147483647 := by
  unfold Raw.push at e
  simp only [] at e
  split at e
  · cases e; exact ⟨rfl, rfl, hw⟩
  split at e
  · split at e
    · simp only [Option.bind_eq_bind, Option.bind_eq_some_iff] at e
      obtain ⟨m, -, e⟩ := e
      cases e
      refine ⟨rfl, rfl, ?_⟩
      simp only []
      split <;> omega
    · split at e
      · simp only [Option.bind_eq_bind, Option.bind_eq_some_iff] at e
        obtain ⟨m, -, m', -, e⟩ := e
        cases e
        refine ⟨rfl, rfl, ?_⟩
        simp only []
        omega
      · cases e; exact ⟨rfl, rfl, hw⟩
  · split at e
    · simp only [Option.bind_eq_bind, Option.bind_eq_some_iff] at e
      obtain ⟨m, -, e⟩ := e
      cases e
      refine ⟨rfl, rfl, ?_⟩
      simp only []
      omega
    · cases e; exact ⟨rfl, rfl, hw⟩

theorem pop_small {b r : Raw} {max ret : Int} {bytes : Option (List UInt8)} (hr : 0 ≤ b.nr ∧ (b.nr ≤ b.cap ∨ b.nr = 0))
    (e : b.pop max = some (ret, bytes, r)) : r.cap = b.cap ∧ r.nw = b.nw ∧ 0 ≤ r.nr ∧ (r.nr ≤ b.cap ∨ r.nr = 0) := by
  unfold Raw.pop at e
  have key : ∀ nr size : Int, 0 ≤ nr → (nr ≤ b.cap ∨ nr = 0) → (if size ≤ max then
        if size < 0 then none
        else (b.mem.read (nr + 4) size.toNat).bind fun d =>
          some (size, some d, ({ b with nr := if b.cap - (nr + (size + 4)) < 8 then 0 else nr + (size + 4) } : Raw))
      else some (-size, none, { b with nr := nr })) = some (ret, bytes, r) →
      r.cap = b.cap ∧ r.nw = b.nw ∧ 0 ≤ r.nr ∧ (r.nr ≤ b.cap ∨ r.nr = 0) := by
    intro nr size h1 h2 e
    split at e
    · split at e
      · cases e
      · simp only [Option.bind_eq_some_iff] at e
        obtain ⟨d, -, e⟩ := e
        cases e
        refine ⟨rfl, rfl, ?_⟩
        simp only []
        split
        · exact ⟨Int.le_refl _, .inr rfl⟩
        · omega
    · cases e
      exact ⟨rfl, rfl, h1, h2⟩
  split at e
  · cases e; exact ⟨rfl, rfl, hr⟩
  · simp only [Option.bind_eq_bind, Option.bind_eq_some_iff] at e
    obtain ⟨s0, -, e⟩ := e
    by_cases hs : s0 < 0
    · simp only [if_pos hs, Option.bind_eq_some_iff] at e
      obtain ⟨size, -, e⟩ := e
      exact key 0 size (Int.le_refl _) (.inr rfl) e
    · simp only [if_neg hs, Option.bind_eq_some_iff] at e
      obtain ⟨size, -, e⟩ := e
      exact key b.nr size hr.1 hr.2 e

theorem Buf.Small.call {b c : Buf} {op : Op} {o : Obs} (h : b.Small) (e : b.call op = some (o, c)) : c.Small := by
  obtain ⟨⟨c1, c2⟩, hsz, ⟨w1, w2⟩, ⟨r1, r2⟩, hnull⟩ := h
  have h : b.Small := ⟨⟨c1, c2⟩, hsz, ⟨w1, w2⟩, ⟨r1, r2⟩, hnull⟩
  cases op with
  | push d =>
    simp only [Buf.call, Buf.push, Option.map_map, Option.map_eq_some_iff, Function.comp] at e
    obtain ⟨⟨ok, r⟩, e, e'⟩ := e
    cases e'
    obtain ⟨p1, p2, p3⟩ := push_small (b := b.raw) c2 ⟨w1, w2⟩ ⟨r1, by simp only [Buf.raw]; omega⟩ e
    exact h.setRaw p1 p3 (by rw [p2]; exact ⟨r1, r2⟩)
  | pop max =>
    simp only [Buf.call, Buf.pop, Option.map_map, Option.map_eq_some_iff, Function.comp] at e
    obtain ⟨⟨ret, bytes, r⟩, e, e'⟩ := e
    cases e'
    obtain ⟨p1, p2, p3⟩ := pop_small (b := b.raw) ⟨r1, r2⟩ e
    exact h.setRaw p1 (by rw [p2]; exact ⟨w1, w2⟩) p3
  | nextDataSize =>
    simp only [Buf.call, Option.map_eq_some_iff] at e
    obtain ⟨n, -, e⟩ := e
    cases e; exact h
  | empty => simp only [Buf.call] at e; cases e; exact h
  | clear =>
    simp only [Buf.call] at e; cases e
    exact h.setRaw rfl (by simp [Raw.clear]) (by simp [Raw.clear])

theorem Reached.small {w : Nat → Option Buf} (h : Reached w) : ∀ i b, w i = some b → b.Small := by
  induction h with
  | start => intro i b e; cases e
  | @step w op o w' fresh h ha e ih =>
    have hupd : ∀ (w : Nat → Option Buf) i (c : Option Buf), (∀ i b, w i = some b → b.Small) → (∀ x, c = some x → x.Small) →
        ∀ k b, upd w i c k = some b → b.Small := by
      intro w i c h1 h2 k b e
      simp only [upd] at e
      split at e
      · exact h2 b e
      · exact h1 k b e
    cases op with
    | new i size =>
      simp only [OOp.exec, Option.map_eq_some_iff] at e
      obtain ⟨b, hb, e⟩ := e
      cases e
      refine hupd _ _ _ ih ?_
      rintro x ⟨⟩
      unfold Buf.ofSize at hb
      split at hb
      · cases hb
      · rename_i hs
        cases hb
        refine ⟨ha, rfl, by simp, by simp, nofun⟩
    | newDefault i =>
      simp only [OOp.exec] at e; cases e
      exact hupd _ _ _ ih (by rintro x ⟨⟩; exact .default)
    | copyNew i j =>
      simp only [OOp.exec, Option.bind_eq_some_iff, Option.map_eq_some_iff] at e
      obtain ⟨b, hb, c, hc, e⟩ := e
      cases e
      exact hupd _ _ _ ih (by rintro x ⟨⟩; exact (ih j b hb).copyCtor hc)
    | moveNew i j =>
      simp only [OOp.exec, Option.map_eq_some_iff] at e
      obtain ⟨b, hb, e⟩ := e
      cases e
      exact hupd _ _ _ (hupd _ _ _ ih (by rintro x ⟨⟩; exact (ih j b hb).moved)) (by rintro x ⟨⟩; exact .default)
    | copyAssign i j =>
      simp only [OOp.exec, Option.bind_eq_some_iff, Option.map_eq_some_iff] at e
      obtain ⟨a, ha', b, hb, c, hc, e⟩ := e
      cases e
      exact hupd _ _ _ ih (by rintro x ⟨⟩; exact (ih i a ha').copyAssign (ih j b hb) hc)
    | moveAssign i j =>
      simp only [OOp.exec, Option.bind_eq_some_iff, Option.map_eq_some_iff] at e
      obtain ⟨a, ha', b, hb, c, hc, e⟩ := e
      cases e
      simp only [Buf.moveAssign, Option.bind_eq_bind, Option.bind_eq_some_iff] at hc
      obtain ⟨-, -, hc⟩ := hc
      cases hc
      exact hupd _ _ _ (hupd _ _ _ ih (by rintro x ⟨⟩; exact (ih j b hb).moved)) (by rintro x ⟨⟩; exact .default)
    | resize i n =>
      simp only [OOp.exec, Option.bind_eq_some_iff, Option.map_eq_some_iff] at e
      obtain ⟨b, hb, r, hr, e⟩ := e
      have := (ih i b hb).resize ha hr
      cases r with
      | ok c => cases e; exact hupd _ _ _ ih (by rintro x ⟨⟩; exact this c (.inl rfl))
      | thrown c => cases e; exact hupd _ _ _ ih (by rintro x ⟨⟩; exact this c (.inr rfl))
    | capacity i =>
      simp only [OOp.exec, Option.map_eq_some_iff] at e
      obtain ⟨b, hb, e⟩ := e
      cases e; exact ih
    | call i op =>
      simp only [OOp.exec, Option.bind_eq_some_iff, Option.map_eq_some_iff] at e
      obtain ⟨b, hb, r, hr, e⟩ := e
      cases e
      exact hupd _ _ _ ih (by rintro x ⟨⟩; exact (ih i b hb).call (o := r.1) hr)
    | destroy i =>
      simp only [OOp.exec, Option.bind_eq_some_iff, Option.map_eq_some_iff] at e
      obtain ⟨b, hb, -, -, e⟩ := e
      cases e
      exact hupd _ _ _ ih nofun

theorem decI32_range (bs : List UInt8) : IsInt (decI32 bs) := by
  unfold decI32 IsInt
  have h := fun k => (bs.getD k 0).toNat_lt
  have h0 := h 0; have h1 := h 1; have h2 := h 2; have h3 := h 3
  simp only []
  split <;> omega

theorem readI32_range {m : Mem} {off s : Int} (e : m.readI32 off = some s) : IsInt s := by
  simp only [Mem.readI32, Option.map_eq_some_iff] at e
  obtain ⟨bs, -, rfl⟩ := e
  exact decI32_range bs

/-- C135 for CircularBuffer: in every program over any number of buffers, with any arguments of type `int` and whatever it has
called before, no arithmetic on `int` overflows and no conversion to `int` changes a value. -/
theorem no_int_overflow {w : Nat → Option Buf} (h : Reached w) (op : OOp) (ha : op.argsInt) : ∀ x ∈ op.ints w, IsInt x := by
  have hs := h.small
  cases op with
  | resize i n =>
    simp only [OOp.ints]
    cases hb : w i with
    | none => intro x hx; cases hx
    | some b =>
      obtain ⟨⟨c1, c2⟩, hsz, ⟨w1, w2⟩, ⟨r1, r2⟩, hnull⟩ := hs i b hb
      have hnr : b.nr ≤ 2147483647 := by omega
      intro x hx
      simp only [Buf.resizeInts] at hx
      unfold IsInt
      repeat' split at hx
      all_goals simp only [List.mem_cons, List.not_mem_nil, or_false] at hx
      all_goals rcases hx with rfl | rfl | rfl | rfl <;> omega
  | call i op =>
    simp only [OOp.ints]
    cases hb : w i with
    | none => intro x hx; cases hx
    | some b =>
      intro x hx
      cases op with
      | pop max =>
        simp only [Raw.ints] at hx
        split at hx
        · cases hx
        split at hx
        · cases hx
        rename_i s hsr
        split at hx
        · cases hx
        rename_i size hsz
        have hi : IsInt size := by
          split at hsz
          · exact readI32_range hsz
          · cases hsz; exact readI32_range hsr
        split at hx
        · cases hx
        · simp only [List.mem_cons, List.not_mem_nil, or_false] at hx
          subst hx
          have : IsInt max := ha
          unfold IsInt at *
          omega
      | _ => cases hx
  | _ => intro x hx; cases hx

/-- A state in which resizing computes all these values: a message that goes round the end of a buffer of the largest size. -/
def bigDemo : Nat → Option Buf := fun i => if i = 0 then some ⟨.owned ⟨2147483647, fun _ => 0⟩, 2147483647, 2147483647, 2147483647, 5, 2147483000⟩ else none

example : (OOp.resize 0 2147483646).ints bigDemo = [2147483000, 5, 647, 652] := by decide

/-- such states are reached: a message of 8 bytes, the first of two removed -/
example : ∃ w, Reached w ∧ (OOp.resize 0 15).ints w = [12, 17, 5] :=
  ⟨_, .step (op := .call 0 (.pop 8)) (o := .obs (.popped 8 (some [1, 2, 3, 4, 5, 6, 7, 8]))) (fun _ => 0)
    (.step (op := .call 0 (.push [9])) (o := .obs (.pushed true)) (fun _ => 0)
      (.step (op := .call 0 (.push [1, 2, 3, 4, 5, 6, 7, 8])) (o := .obs (.pushed true)) (fun _ => 0)
        (.step (op := .new 0 40) (fun _ => 0) .start (by show IsInt _; decide) rfl) (by show IsInt _; decide) rfl)
      (by show IsInt _; decide) rfl) (by show IsInt _; decide) rfl, by decide⟩

end Verif.CircularBuffer
