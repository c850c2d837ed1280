import Verif.Common.HeapLemmas
import Verif.CircularBuffer.HeapSpec
import Verif.CircularBuffer.World

/- The class with pointers behaves as the class with blocks as values. -/
namespace Verif.CircularBuffer

/-- no memory of size 0 -/
def Obj.Tight (o : Obj) : Prop := 0 ≤ o.actualCapacity ∧ (o.actualCapacity = 0 → o.data = none)

/-- a changed object in a changed heap, the other objects being left alone -/
structure Change (c : Prop) (h : Heap) (o : Obj) (h' : Heap) (o' : Obj) : Prop where
  mono : h.next ≤ h'.next
  frame : ∀ q, o.data ≠ some q → q < h.next → h'.blk q = h.blk q
  data : o'.data = o.data ∨ o'.data = none ∨ ∃ q, o'.data = some q ∧ h.next ≤ q
  fresh : (∀ q, h.next ≤ q → h.blk q = none) → ∀ q, h'.next ≤ q → h'.blk q = none
  tight : c → o.Tight → o'.Tight ∧ ∀ q, (h'.blk q).isSome → o'.data = some q ∨ ((h.blk q).isSome ∧ o.data ≠ some q)

variable {c : Prop}

theorem Change.trans {h o h1 o1 h2 o2} (a : Change c h o h1 o1) (b : Change c h1 o1 h2 o2) : Change c h o h2 o2 := by
  refine ⟨Nat.le_trans a.mono b.mono, fun q hq hn => ?_, ?_, fun hf => b.fresh (a.fresh hf), fun hy hc => ?_⟩
  · rw [b.frame q ?_ (Nat.lt_of_lt_of_le hn a.mono), a.frame q hq hn]
    rcases a.data with e | e | ⟨p, e, hp⟩
    · rw [e]; exact hq
    · rw [e]; simp
    · rw [e]; intro e'; cases e'; omega
  · rcases b.data with e | e | ⟨p, e, hp⟩
    · rw [e]; exact a.data
    · exact .inr (.inl e)
    · exact .inr (.inr ⟨p, e, Nat.le_trans a.mono hp⟩)
  · obtain ⟨a1, a2⟩ := a.tight hy hc
    obtain ⟨b1, b2⟩ := b.tight hy a1
    refine ⟨b1, fun q hq => ?_⟩
    rcases b2 q hq with h | ⟨h3, h4⟩
    · exact .inl h
    · exact .inr ((a2 q h3).resolve_left h4)

/-- an object changes, not its memory -/
theorem Change.same {h : Heap} {o o' : Obj} (hd : o'.data = o.data) (hc : o'.actualCapacity = o.actualCapacity) : Change c h o h o' := by
  refine ⟨Nat.le_refl _, fun _ _ _ => rfl, .inl hd, fun hf => hf, fun _ hc' => ⟨by unfold Obj.Tight; rw [hd, hc]; exact hc', fun q hq => ?_⟩⟩
  by_cases e : o.data = some q
  · exact .inl (hd.trans e)
  · exact .inr ⟨hq, e⟩

/-- an object writes to its own memory -/
theorem Change.write {h : Heap} {o o' : Obj} (m : Mem) (hd : o'.data = o.data) (hc : o'.actualCapacity = o.actualCapacity) :
    Change c h o (h.set o.data m) o' := by
  refine ⟨by rw [Heap.set_next]; exact Nat.le_refl _, fun q hq _ => Heap.set_ne h m hq, .inl hd, fun hf q hq => ?_,
    fun _ hc' => ⟨by unfold Obj.Tight; rw [hd, hc]; exact hc', fun q hq => ?_⟩⟩
  · rw [Heap.set_next] at hq
    have := Heap.set_isSome h o.data m q
    rw [hf q hq] at this
    simpa using this
  · rw [Heap.set_isSome] at hq
    by_cases e : o.data = some q
    · exact .inl (hd.trans e)
    · exact .inr ⟨hq, e⟩

/-! ### One object -/

/-- `b` is the object `o` with its memory as a value; `buffer` may point elsewhere -/
structure SeesD (h : Heap) (o : Obj) (b : Buf) : Prop where
  buf : b = o.buf h
  live : ∀ p, o.data = some p → (h.blk p).isSome

/-- `b` is the object `o` with its memory as a value -/
structure Sees (h : Heap) (o : Obj) (b : Buf) : Prop extends SeesD h o b where
  org : o.origin = o.data

theorem buf_eq {h h' : Heap} {o o' : Obj} (hb : ∀ p, o.data = some p → h'.blk p = h.blk p) (hd : o'.data = o.data)
    (h1 : o'.actualSize = o.actualSize) (h2 : o'.actualCapacity = o.actualCapacity) (h3 : o'.cap = o.cap) (h4 : o'.nw = o.nw)
    (h5 : o'.nr = o.nr) : o'.buf h' = o.buf h := by
  simp only [Obj.buf, hd, h1, h2, h3, h4, h5, Buf.mk.injEq, and_true]
  cases he : o.data with
  | none => rfl
  | some p => simp [hb p he]

theorem Sees.frame {h h' : Heap} {o b} (k : Sees h o b) (hf : ∀ p, o.data = some p → h'.blk p = h.blk p) : Sees h' o b := by
  refine ⟨⟨?_, fun p hp => by rw [hf p hp]; exact k.live p hp⟩, k.org⟩
  rw [k.buf]
  exact (buf_eq hf rfl rfl rfl rfl rfl rfl).symm

theorem SeesD.fields {h : Heap} {o b} (k : SeesD h o b) : b.actualSize = o.actualSize ∧
    b.actualCapacity = o.actualCapacity ∧ b.cap = o.cap ∧ b.nw = o.nw ∧ b.nr = o.nr := by
  rw [k.buf]; exact ⟨rfl, rfl, rfl, rfl, rfl⟩

/-- the memory of an object -/
theorem SeesD.cases {h : Heap} {o b} (k : SeesD h o b) : (o.data = none ∧ b.data = .null) ∨
    ∃ p m, o.data = some p ∧ h.blk p = some m ∧ b.data = .owned m := by
  rw [k.buf]
  cases hd : o.data with
  | none => left; simp [Obj.buf, hd]
  | some p =>
    right
    obtain ⟨m, hm⟩ := Option.isSome_iff_exists.1 (k.live p hd)
    exact ⟨p, m, rfl, hm, by simp [Obj.buf, hd, hm]⟩

theorem SeesD.dmem {h : Heap} {o b} (k : SeesD h o b) : h.get o.data = b.data.mem := by
  rcases k.cases with ⟨h1, h2⟩ | ⟨p, m, h1, h2, h3⟩
  · rw [h1, h2]; rfl
  · rw [h1, h3]; simp [Heap.get, h2, Blk.mem]

theorem Buf.call_eq (b : Buf) (op : Op) : b.call op = (b.raw.call op).map fun r => (r.1, b.setRaw r.2) := by
  have hs : b.setRaw b.raw = b := by
    cases b with
    | mk d s a c w r => cases d <;> rfl
  cases op with
  | push d => simp only [Buf.call, Buf.push, Raw.call, Option.map_map]; rfl
  | pop m => simp only [Buf.call, Buf.pop, Raw.call, Option.map_map]; rfl
  | nextDataSize => simp only [Buf.call, Buf.nextDataSize, Raw.call, Option.map_map]; congr 1; funext n; simp [hs]
  | empty => simp [Buf.call, Buf.empty, Raw.call, hs]
  | clear => simp [Buf.call, Buf.clear, Raw.call]

/-- the block with new content -/
def Blk.put (x : Blk) (m : Mem) : Blk := match x with | .owned _ => .owned m | x => x

/-- writing to the memory of an object -/
theorem SeesD.write {h : Heap} {o b} (k : SeesD h o b) (m : Mem) {o' : Obj} (hd : o'.data = o.data) :
    SeesD (h.set o.data m) o' ⟨b.data.put m, o'.actualSize, o'.actualCapacity, o'.cap, o'.nw, o'.nr⟩ := by
  refine ⟨?_, fun p hp => by rw [Heap.set_isSome]; exact k.live p (hd ▸ hp)⟩
  simp only [Obj.buf, hd, Buf.mk.injEq, and_true]
  rcases k.cases with ⟨h1, h2⟩ | ⟨p, m0, h1, h2, h3⟩
  · rw [h1, h2]; rfl
  · rw [h1, h3]; simp [Heap.set, h2, Blk.put]

theorem Sees.call {h : Heap} {o b} (k : Sees h o b) {op : Op} {ob : Obs} {b' : Buf} (e : b.call op = some (ob, b')) :
    ∃ h' o', o.call h op = some (ob, h', o') ∧ Sees h' o' b' ∧ Change c h o h' o' := by
  rw [Buf.call_eq, Option.map_eq_some_iff] at e
  obtain ⟨⟨ob1, r⟩, e1, e2⟩ := e
  simp only [Prod.mk.injEq] at e2
  obtain ⟨rfl, rfl⟩ := e2
  obtain ⟨f1, f2, f3, f4, f5⟩ := k.fields
  have hraw : b.raw = o.raw h := by
    simp only [Buf.raw, Obj.raw, k.org, k.dmem, f3, f4, f5]
  rw [hraw] at e1
  refine ⟨h.set o.origin r.mem, { o with cap := r.cap, nw := r.nw, nr := r.nr }, by rw [Obj.call, e1]; rfl, ⟨?_, k.org⟩, ?_⟩
  · rw [k.org]
    have := k.write r.mem (o' := { o with origin := o.data, cap := r.cap, nw := r.nw, nr := r.nr }) rfl
    have hput : b.setRaw r = ⟨b.data.put r.mem, b.actualSize, b.actualCapacity, r.cap, r.nw, r.nr⟩ := by
      cases b with
      | mk d s a c w r => cases d <;> rfl
    rw [hput, f1, f2]
    exact this
  · rw [k.org]; exact .write _ rfl rfl

theorem SeesD.lt {h : Heap} {o b} (k : SeesD h o b) (hf : Heap.Fresh h) {p : Nat} (hp : o.data = some p) : p < h.next := by
  refine Nat.lt_of_not_le fun c => ?_
  have := k.live p hp
  rw [hf p c] at this; cases this

/-- deleting the memory of an object -/
theorem SeesD.free {h : Heap} {o b} (k : SeesD h o b) : ∃ h', h.free o.data = some h' ∧ h'.next = h.next ∧
    ∀ q, h'.blk q = if o.data = some q then none else h.blk q := by
  cases hd : o.data with
  | none => exact ⟨h, rfl, rfl, fun q => by simp⟩
  | some p =>
    refine ⟨{ h with blk := fun q => if q = p then none else h.blk q }, by rw [Heap.free, if_pos (k.live p hd)], rfl, fun q => ?_⟩
    simp only [Option.some.injEq]
    by_cases e : q = p
    · simp [e]
    · rw [if_neg e, if_neg (Ne.symm e)]

theorem SeesD.resizeMemory {h : Heap} {o b b'} (k : SeesD h o b) (hf : Heap.Fresh h) {fresh : Int → UInt8} {n : Int} {cp : Bool}
    (e : b.resizeMemory fresh n cp = some b') :
    ∃ h' o', o.resizeMemory fresh h n cp = some (h', o') ∧ SeesD h' o' b' ∧ o'.cap = o.cap ∧ o'.nw = o.nw ∧ o'.nr = o.nr ∧ Change c h o h' o' := by
  obtain ⟨f2, f3, f4, f5, f6⟩ := k.fields
  simp only [Buf.resizeMemory, f3] at e
  simp only [Obj.resizeMemory]
  by_cases h2 : n > o.actualCapacity
  rotate_left
  · rw [if_neg h2] at e ⊢
    cases e
    refine ⟨_, _, rfl, ⟨?_, k.live⟩, rfl, rfl, rfl, .same rfl rfl⟩
    rw [k.buf]; rfl
  rw [if_pos h2] at e ⊢
  simp only [Option.bind_eq_some_iff] at e
  obtain ⟨m, e1, _, _, e⟩ := e
  cases e
  have hlt : ∀ p, o.data = some p → p ≠ h.next := fun p hp => Nat.ne_of_lt (k.lt hf hp)
  have hget : (h.alloc ⟨n, fresh⟩).get o.data = h.get o.data := by
    cases hd : o.data with
    | none => rfl
    | some p => simp only [Heap.get, alloc_ne _ _ (hlt p hd)]
  -- the heap after copying
  have hcopy : ∃ h2, (if o.actualCapacity > 0 then
        (if cp = true then
          if o.actualSize < 0 then none
          else (((h.alloc ⟨n, fresh⟩).get o.data).read 0 o.actualSize.toNat).bind fun bs =>
            (((h.alloc ⟨n, fresh⟩).get (some h.next)).write 0 bs).map fun m => (h.alloc ⟨n, fresh⟩).set (some h.next) m
        else some (h.alloc ⟨n, fresh⟩)).bind fun h => h.free o.data
      else some (h.alloc ⟨n, fresh⟩)) = some h2 ∧ h2.next = h.next + 1 ∧
      ∀ q, h2.blk q = if q = h.next then some m else if o.actualCapacity > 0 ∧ o.data = some q then none else h.blk q := by
    simp only [Buf.copyOld, f2, f3] at e1
    by_cases hc : o.actualCapacity > 0
    rotate_left
    · rw [if_neg hc]
      rw [if_neg fun c => hc c.1] at e1
      cases e1
      refine ⟨_, rfl, rfl, fun q => ?_⟩
      simp only [Heap.alloc, hc, false_and, if_false]
    · rw [if_pos hc]
      have key : ∃ h1, (if cp = true then
          if o.actualSize < 0 then none
          else (((h.alloc ⟨n, fresh⟩).get o.data).read 0 o.actualSize.toNat).bind fun bs =>
            (((h.alloc ⟨n, fresh⟩).get (some h.next)).write 0 bs).map fun m => (h.alloc ⟨n, fresh⟩).set (some h.next) m
        else some (h.alloc ⟨n, fresh⟩)) = some h1 ∧ h1.next = h.next + 1 ∧
          ∀ q, h1.blk q = if q = h.next then some m else h.blk q := by
        by_cases hcp : cp = true
        · rw [if_pos hcp]
          rw [if_pos ⟨hc, hcp⟩] at e1
          by_cases hs : o.actualSize < 0
          · rw [if_pos hs] at e1; cases e1
          · rw [if_neg hs] at e1 ⊢
            simp only [Option.bind_eq_some_iff] at e1
            obtain ⟨bs, e2, e3⟩ := e1
            rw [hget, k.dmem, e2]
            simp only [Option.bind_some]
            have : (h.alloc ⟨n, fresh⟩).get (some h.next) = ⟨n, fresh⟩ := by simp [Heap.get, alloc_next]
            rw [this, e3]
            refine ⟨_, rfl, rfl, fun q => ?_⟩
            simp only [Heap.set, alloc_next, Option.map_some]
            split
            · rfl
            · next hq => exact alloc_ne _ _ hq
        · rw [if_neg hcp]
          rw [if_neg fun c => hcp c.2] at e1
          cases e1
          exact ⟨_, rfl, rfl, fun q => rfl⟩
      obtain ⟨h1, e4, e5, e6⟩ := key
      rw [e4]
      simp only [Option.bind_some]
      cases hd : o.data with
      | none => exact ⟨h1, rfl, e5, fun q => by rw [e6]; simp⟩
      | some p =>
        have hp : (h1.blk p).isSome := by rw [e6, if_neg (hlt p hd)]; exact k.live p hd
        refine ⟨{ h1 with blk := fun q => if q = p then none else h1.blk q }, by rw [Heap.free, if_pos hp], e5, fun q => ?_⟩
        simp only [hc, true_and, Option.some.injEq]
        by_cases e : q = p
        · subst e; rw [if_pos rfl, if_neg (hlt q hd), if_pos rfl]
        · rw [if_neg e, e6, if_neg (Ne.symm e)]
  obtain ⟨h2, e2, e3, e4⟩ := hcopy
  refine ⟨h2, { o with data := some h.next, actualCapacity := n, actualSize := n }, ?_, ⟨?_, ?_⟩, rfl, rfl, rfl, ?_⟩
  · rw [e2]; rfl
  · simp only [Obj.buf, Buf.mk.injEq, e4, if_true]
    exact ⟨trivial, trivial, trivial, f4, f5, f6⟩
  · intro p hp
    cases hp
    rw [e4, if_pos rfl]; rfl
  · refine ⟨by omega, fun q hq hn => ?_, .inr (.inr ⟨_, rfl, Nat.le_refl _⟩), fun _ q hq => ?_, fun _ hc => ⟨⟨?_, ?_⟩, fun q hq => ?_⟩⟩
    · rw [e4, if_neg (by omega), if_neg fun c => hq c.2]
    · rw [e4, if_neg (by omega)]
      split
      · rfl
      · exact hf q (by omega)
    · have := hc.1
      show 0 ≤ n; omega
    · intro hn
      have := hc.1
      have hn : n = 0 := hn
      omega
    · rw [e4] at hq
      by_cases hq1 : q = h.next
      · exact .inl (by rw [hq1])
      · rw [if_neg hq1] at hq
        split at hq
        · cases hq
        · next hx =>
          refine .inr ⟨hq, fun hd => hx ⟨?_, hd⟩⟩
          refine Int.not_le.1 fun hle => ?_
          rw [hc.2 (Int.le_antisymm hle hc.1)] at hd; cases hd

theorem SeesD.moveBytes {h : Heap} {o b b'} (k : SeesD h o b) {dst src n : Int} (e : b.moveBytes dst src n = some b') :
    ∃ m, (h.get o.data).move dst src n = some m ∧ o.moveBytes h dst src n = some (h.set o.data m) ∧ b' = { b with data := b.data.put m } := by
  simp only [Buf.moveBytes] at e
  rcases k.cases with ⟨h1, h2⟩ | ⟨p, m0, h1, h2, h3⟩
  · rw [h2] at e; cases e
  · rw [h3] at e
    simp only [Option.map_eq_some_iff] at e
    obtain ⟨m, e1, e2⟩ := e
    have hg : h.get o.data = m0 := by rw [h1]; simp [Heap.get, h2]
    refine ⟨m, by rw [hg, e1], ?_, ?_⟩
    · simp only [Obj.moveBytes, hg, e1, Option.map_some]
    · rw [← e2, h3]; rfl

/-- results that agree up to the memory -/
inductive OutSees (c : Prop) (h : Heap) (o : Obj) : Outcome Buf → Outcome (Heap × Obj) → Prop
  | ok {b' h' o'} : Sees h' o' b' → Change c h o h' o' → OutSees c h o (.ok b') (.ok (h', o'))
  | thrown {b' h' o'} : Sees h' o' b' → Change c h o h' o' → OutSees c h o (.thrown b') (.thrown (h', o'))

theorem Sees.resize {h : Heap} {o b r} (k : Sees h o b) (hf : Heap.Fresh h) {fresh : Int → UInt8} {n : Int}
    (e : b.resize fresh n = some r) : ∃ r', o.resize fresh false h n = some r' ∧ OutSees c h o r r' := by
  obtain ⟨f2, f3, f4, f5, f6⟩ := k.fields
  simp only [Buf.resize, f2, f4, f5, f6, Option.bind_eq_bind] at e
  simp only [Obj.resize, Bool.and_false, Bool.false_eq_true, if_false]
  split at e
  · next c1 => cases e; exact ⟨_, by rw [if_pos c1], .ok k (.same rfl rfl)⟩
  next c1 =>
  rw [if_neg c1]
  split at e
  · next c2 =>
    rw [if_pos c2]
    simp only [Option.bind_eq_some_iff] at e
    obtain ⟨b1, e1, e⟩ := e
    cases e
    obtain ⟨h1, o1, e2, k1, _, _, _, ch⟩ := k.toSeesD.resizeMemory (c := c) hf e1
    rw [e2]
    refine ⟨_, rfl, .ok ⟨⟨?_, k1.live⟩, rfl⟩ (ch.trans (.same rfl rfl))⟩
    rw [k1.buf]; rfl
  next c2 =>
  rw [if_neg c2]
  split at e
  · next c3 =>
    rw [if_pos c3]
    simp only [Option.bind_eq_some_iff] at e
    obtain ⟨b1, e1, e⟩ := e
    obtain ⟨h1, o1, e2, k1, _, _, _, ch⟩ := k.toSeesD.resizeMemory (c := c) hf e1
    rw [e2]
    obtain ⟨g2, g3, g4, g5, g6⟩ := k1.fields
    simp only [Option.bind_some]
    rw [g5, g6] at e
    split at e
    · next c4 =>
      rw [if_pos c4]
      cases e
      refine ⟨_, rfl, .ok ⟨⟨?_, k1.live⟩, rfl⟩ (ch.trans (.same rfl rfl))⟩
      rw [k1.buf]; rfl
    · next c4 =>
      rw [if_neg c4]
      simp only [Option.bind_eq_some_iff] at e
      obtain ⟨b2, e3, e⟩ := e
      cases e
      rw [g4] at e3
      obtain ⟨m, e4, e5, rfl⟩ := k1.moveBytes e3
      rw [e5]
      refine ⟨_, rfl, .ok ⟨?_, rfl⟩ (ch.trans (.write m rfl rfl))⟩
      have := k1.write m (o' := { o1 with origin := o1.data, nr := n - (o1.cap - o1.nr), cap := n }) rfl
      simp only [g2, g3, g4, g5] at this ⊢
      exact this
  next c3 =>
  rw [if_neg c3]
  split at e
  · next c4 =>
    rw [if_pos c4]
    split at e
    · next c5 =>
      cases e
      refine ⟨.ok (h, { o with cap := n, actualSize := n }), by rw [if_pos c5], .ok ⟨⟨?_, k.live⟩, k.org⟩ (.same rfl rfl)⟩
      rw [k.buf]; rfl
    next c5 =>
    rw [if_neg c5]
    split at e
    · next c6 =>
      rw [if_pos c6]
      simp only [Option.bind_eq_some_iff] at e
      obtain ⟨b2, e3, e⟩ := e
      cases e
      obtain ⟨m, e4, e5, rfl⟩ := k.moveBytes e3
      rw [k.org, e4]
      refine ⟨_, rfl, .ok ⟨?_, rfl⟩ (.write m rfl rfl)⟩
      have := k.write m (o' := { o with origin := o.data, nr := 0, nw := o.nw - o.nr, cap := n, actualSize := n }) rfl
      simp only [f3] at this ⊢
      exact this
    · next c6 =>
      rw [if_neg c6]
      cases e
      exact ⟨_, rfl, .thrown k (.same rfl rfl)⟩
  next c4 =>
  rw [if_neg c4]
  split at e
  · next c5 =>
    rw [if_pos c5]
    simp only [Option.bind_eq_some_iff] at e
    obtain ⟨b2, e3, e⟩ := e
    cases e
    obtain ⟨m, e4, e5, rfl⟩ := k.moveBytes e3
    rw [e5]
    refine ⟨_, rfl, .ok ⟨?_, rfl⟩ (.write m rfl rfl)⟩
    have := k.write m (o' := { o with origin := o.data, nr := n - (o.cap - o.nr), cap := n, actualSize := n }) rfl
    simp only [f3, f5] at this ⊢
    exact this
  · next c5 =>
    rw [if_neg c5]
    cases e
    exact ⟨_, rfl, .thrown k (.same rfl rfl)⟩

/-- Running out of memory, a resize has no effect. -/
theorem Sees.resize_fails {h : Heap} {o b r} (k : Sees h o b) (hf : Heap.Fresh h) {fresh : Int → UInt8} {n : Int}
    (e : b.resize fresh n = some r) : o.resize fresh true h n = some (.thrown (h, o)) ∧ n > o.actualCapacity ∨
      ∃ r', o.resize fresh true h n = some r' ∧ OutSees c h o r r' := by
  obtain ⟨r', e1, hr⟩ := k.resize (c := c) hf e
  simp only [Obj.resize, Bool.and_false, Bool.false_eq_true, if_false] at e1
  simp only [Obj.resize, Bool.and_true]
  by_cases ha : o.allocates n = true
  rotate_left
  · simp only [ha, if_false]
    exact .inr ⟨r', e1, hr⟩
  · simp only [ha, if_true]
    have ha2 : n > o.actualCapacity := by simpa [Obj.allocates] using ha
    split at e1
    · next c1 => right; exact ⟨r', by rw [if_pos c1, e1], hr⟩
    next c1 =>
    rw [if_neg c1]
    split at e1
    · next c3 => left; exact ⟨by rw [if_pos c3], ha2⟩
    next c3 =>
    rw [if_neg c3]
    split at e1
    · next c4 => left; exact ⟨by rw [if_pos c4], ha2⟩
    next c4 =>
    rw [if_neg c4]
    right; exact ⟨r', e1, hr⟩

theorem Sees.copyAssign {h : Heap} {o b o2 b2 b'} (k : Sees h o b) (k2 : Sees h o2 b2) (hf : Heap.Fresh h)
    (hne : ∀ p, o.data = some p → o2.data ≠ some p) {fresh : Int → UInt8} (e : b.copyAssign fresh b2 = some b') :
    ∃ h' o', o.copyAssign fresh false h o2 = some (.ok (h', o')) ∧ Sees h' o' b' ∧ Change c h o h' o' := by
  obtain ⟨f2, f3, f4, f5, f6⟩ := k.fields
  obtain ⟨g2, g3, g4, g5, g6⟩ := k2.fields
  simp only [Buf.copyAssign, g2, Option.bind_eq_bind, Option.bind_eq_some_iff] at e
  obtain ⟨b1, e1, e⟩ := e
  have k0 : SeesD h { o with origin := o2.origin, cap := o2.cap, nw := o2.nw, nr := o2.nr }
      { b with cap := b2.cap, nw := b2.nw, nr := b2.nr } := by
    refine ⟨?_, k.live⟩
    rw [g4, g5, g6, k.buf]; rfl
  obtain ⟨h1, o1, e2, k1, _, _, _, ch⟩ := k0.resizeMemory (c := c) hf e1
  have ch0 : Change c h o h1 o1 :=
    .trans (.same (o' := { o with origin := o2.origin, cap := o2.cap, nw := o2.nw, nr := o2.nr }) rfl rfl) ch
  split at e
  · cases e
  next hs =>
  split at e
  · next h0 =>
    cases e
    refine ⟨h1, { o1 with origin := o1.data }, ?_, ⟨⟨?_, k1.live⟩, rfl⟩, ch0.trans (.same rfl rfl)⟩
    · simp only [Obj.copyAssign, Bool.and_false, Bool.false_eq_true, if_false, e2, Option.bind_some, if_neg hs, if_pos h0]
    · rw [k1.buf]; rfl
  next h0 =>
  simp only [Option.bind_eq_some_iff] at e
  obtain ⟨bs, e3, m, e5, e⟩ := e
  have hfr : Sees h1 o2 b2 := k2.frame fun p hp => ch.frame p (fun c => hne p c hp) (k2.lt hf hp)
  rw [← hfr.dmem] at e3
  rw [← k1.dmem] at e5
  refine ⟨h1.set o1.data m, { o1 with origin := o1.data }, ?_, ⟨?_, rfl⟩, ch0.trans (.write m rfl rfl)⟩
  · simp only [Obj.copyAssign, Bool.and_false, Bool.false_eq_true, if_false, e2, Option.bind_some, if_neg hs, if_neg h0, e3, e5]
  · have hk := k1.write m (o' := { o1 with origin := o1.data }) rfl
    rcases k1.cases with ⟨x1, x2⟩ | ⟨p, m0, x1, x2, x3⟩
    · rw [x2] at e; cases e
    · rw [x3] at e
      cases e
      rw [x3] at hk
      obtain ⟨q1, q2, q3, q4, q5⟩ := k1.fields
      rw [q1, q2, q3, q4, q5]
      exact hk

theorem Sees.copyCtor {h : Heap} {o2 b2 b'} (k2 : Sees h o2 b2) (hf : Heap.Fresh h) (hpos : 0 < o2.actualSize)
    {fresh : Int → UInt8} (e : Buf.copyCtor fresh b2 = some b') (hd : b'.data ≠ .dangling) :
    ∃ h' o', Obj.copyCtor fresh h o2 = some (h', o') ∧ Sees h' o' b' ∧ Change c h Obj.default h' o' := by
  obtain ⟨g2, g3, g4, g5, g6⟩ := k2.fields
  have hlt : ∀ p, o2.data = some p → p ≠ h.next := fun p hp => Nat.ne_of_lt (k2.lt hf hp)
  simp only [Buf.copyCtor, g2, Option.bind_eq_bind] at e
  simp only [Obj.copyCtor]
  split at e
  · cases e
  next hs =>
  rw [if_neg hs]
  rcases k2.cases with ⟨x1, x2⟩ | ⟨p, m, x1, x2, x3⟩
  · rw [x2] at e
    cases e
    exact absurd rfl hd
  · rw [x3] at e
    simp only [Option.bind_eq_some_iff] at e
    obtain ⟨bs, e1, m', e2, e⟩ := e
    cases e
    rw [if_pos (by rw [x1]; rfl)]
    have hget : (h.alloc ⟨o2.actualSize, fresh⟩).get o2.data = m := by
      rw [x1]; simp only [Heap.get, alloc_ne _ _ (hlt p x1), x2]; rfl
    have hget2 : (h.alloc ⟨o2.actualSize, fresh⟩).get (some h.next) = ⟨o2.actualSize, fresh⟩ := by simp [Heap.get, alloc_next]
    rw [hget, e1, hget2]
    simp only [Option.bind_some, e2]
    have hblk : ∀ q, ((h.alloc ⟨o2.actualSize, fresh⟩).set (some h.next) m').blk q = if q = h.next then some m' else h.blk q := by
      intro q
      simp only [Heap.set, alloc_next, Option.map_some]
      split
      · rfl
      · next hq => exact alloc_ne _ _ hq
    refine ⟨_, _, rfl, ⟨⟨?_, ?_⟩, rfl⟩, ⟨?_, fun q _ hq => ?_, .inr (.inr ⟨_, rfl, Nat.le_refl _⟩), fun hf q hq => ?_, fun _ _ => ⟨⟨?_, ?_⟩, fun q hq => ?_⟩⟩⟩
    · simp only [Obj.buf, Buf.mk.injEq, hblk, if_true, g4, g5, g6, and_self]
    · intro p hp; cases hp; rw [hblk, if_pos rfl]; rfl
    · simp [Heap.set, Heap.alloc]
    · rw [hblk, if_neg (by omega)]
    · simp only [Heap.set, Heap.alloc] at hq
      rw [hblk, if_neg (by omega)]; exact hf q (by omega)
    · show 0 ≤ o2.actualSize; omega
    · intro h0; exact absurd h0 (by show ¬ o2.actualSize = 0; omega)
    · rw [hblk] at hq
      split at hq
      · next e => left; rw [e]
      · exact .inr ⟨hq, by simp [Obj.default]⟩

theorem Sees.ofSize {h : Heap} {fresh : Int → UInt8} {n : Int} {b'} (e : Buf.ofSize fresh n = some b') (hc : c → n ≠ 0) :
    ∃ h' o', Obj.ofSize fresh h n = some (h', o') ∧ Sees h' o' b' ∧ Change c h Obj.default h' o' := by
  simp only [Buf.ofSize] at e
  simp only [Obj.ofSize]
  split at e
  · cases e
  next hs =>
  cases e
  rw [if_neg hs]
  refine ⟨_, _, rfl, ⟨⟨?_, ?_⟩, rfl⟩, ⟨?_, fun q _ hq => ?_, .inr (.inr ⟨_, rfl, Nat.le_refl _⟩), fun hf q hq => ?_, fun hy _ => ⟨⟨?_, ?_⟩, fun q hq => ?_⟩⟩⟩
  · simp only [Obj.buf, alloc_next]
  · intro p hp; cases hp; rw [alloc_next]; rfl
  · simp [Heap.alloc]
  · rw [alloc_ne _ _ (by omega)]
  · simp only [Heap.alloc] at hq
    rw [alloc_ne _ _ (by omega)]; exact hf q (by omega)
  · show 0 ≤ n; omega
  · intro h0; exact absurd h0 (hc hy)
  · by_cases e : q = h.next
    · left; rw [e]
    · rw [alloc_ne _ _ e] at hq; exact .inr ⟨hq, by simp [Obj.default]⟩

/-- an object gives up its memory -/
theorem SeesD.release {h : Heap} {o b} (k : SeesD h o b) {o' : Obj} (hd : o'.data = none) (h0 : 0 ≤ o'.actualCapacity) :
    ∃ h', h.free o.data = some h' ∧ Change c h o h' o' := by
  obtain ⟨h', e1, e2, e3⟩ := k.free
  refine ⟨h', e1, ⟨by omega, fun q hq _ => ?_, .inr (.inl hd), fun hf q hq => ?_, fun _ _ => ⟨⟨h0, fun _ => hd⟩, fun q hq => ?_⟩⟩⟩
  · rw [e3, if_neg hq]
  · rw [e3]; split
    · rfl
    · exact hf q (by omega)
  · rw [e3] at hq
    split at hq
    · cases hq
    · next hn => exact .inr ⟨hq, hn⟩

/-! ### All objects -/

/-- the objects `v` are those of the store with their memory as values; with `c` every block belongs to an object -/
structure Holds (c : Prop) (s : Store) (v : Nat → Option Buf) : Prop where
  dom : ∀ i, (v i).isSome = (s.objs i).isSome
  sees : ∀ i o b, s.objs i = some o → v i = some b → Sees s.heap o b
  inj : ∀ i j a b p, s.objs i = some a → s.objs j = some b → a.data = some p → b.data = some p → i = j
  fresh : Heap.Fresh s.heap
  tight : c → (∀ i o, s.objs i = some o → o.Tight) ∧ ∀ q, (s.heap.blk q).isSome → ∃ i o, s.objs i = some o ∧ o.data = some q

theorem Holds.init : Holds c Store.init fun _ => none :=
  ⟨fun _ => rfl, (fun _ _ _ h => by cases h), (fun _ _ _ _ _ h => by cases h), fun _ _ => rfl,
    fun _ => ⟨(fun _ _ h => by cases h), (fun _ h => by cases h)⟩⟩

theorem Holds.get {s v} (k : Holds c s v) {i o} (hi : s.objs i = some o) : ∃ b, v i = some b ∧ Sees s.heap o b := by
  have := k.dom i
  rw [hi] at this
  obtain ⟨b, hb⟩ := Option.isSome_iff_exists.1 (this.trans rfl)
  exact ⟨b, hb, k.sees i o b hi hb⟩

theorem Holds.getNone {s v} (k : Holds c s v) {i} (hi : s.objs i = none) : v i = none := by
  have := k.dom i
  rw [hi] at this
  simpa using this

theorem Holds.set {s v} (k : Holds c s v) {i o h' o' b'} (hi : (s.objs i).getD Obj.default = o) (ch : Change c s.heap o h' o')
    (ks : Sees h' o' b') : Holds c ⟨h', upd s.objs i (some o')⟩ (upd v i (some b')) := by
  have hother : ∀ j a p, j ≠ i → s.objs j = some a → a.data = some p → o.data ≠ some p ∧ p < s.heap.next := by
    intro j a p hj ha hp
    obtain ⟨b, _, kb⟩ := k.get ha
    refine ⟨fun ho => ?_, kb.lt k.fresh hp⟩
    cases hx : s.objs i with
    | none => rw [hx] at hi; subst hi; cases ho
    | some a' => rw [hx] at hi; subst hi; exact hj (k.inj j i a _ p ha hx hp ho)
  have hdiff : ∀ j a p, j ≠ i → s.objs j = some a → a.data = some p → o'.data ≠ some p := by
    intro j a p hj ha hp ho
    obtain ⟨h1, h2⟩ := hother j a p hj ha hp
    rcases ch.data with e | e | ⟨q, e, hq⟩
    · exact h1 (by rw [← e, ho])
    · rw [e] at ho; cases ho
    · rw [e] at ho; cases ho; omega
  refine ⟨fun j => ?_, fun j a b ha hb => ?_, fun j1 j2 a b p h1 h2 p1 p2 => ?_, ch.fresh k.fresh, fun hc => ?_⟩
  · unfold upd; dsimp only; split
    · rfl
    · exact k.dom j
  · unfold upd at ha hb; dsimp only at ha hb
    split at ha
    · next e => rw [if_pos e] at hb; cases ha; cases hb; exact ks
    · next e =>
      rw [if_neg e] at hb
      exact (k.sees j a b ha hb).frame fun p hp => ch.frame p (hother j a p e ha hp).1 (hother j a p e ha hp).2
  · unfold upd at h1 h2; dsimp only at h1 h2
    split at h1 <;> split at h2
    · next e1 e2 => rw [e1, e2]
    · next e1 e2 => cases h1; exact absurd p1 (hdiff j2 b p e2 h2 p2)
    · next e1 e2 => cases h2; exact absurd p2 (hdiff j1 a p e1 h1 p1)
    · exact k.inj j1 j2 a b p h1 h2 p1 p2
  · obtain ⟨t1, t2⟩ := k.tight hc
    have ht : o.Tight := by
      cases hx : s.objs i with
      | none => rw [hx] at hi; subst hi; exact ⟨Int.le_refl _, fun _ => rfl⟩
      | some a' => rw [hx] at hi; subst hi; exact t1 i _ hx
    obtain ⟨t3, t4⟩ := ch.tight hc ht
    refine ⟨fun j a ha => ?_, fun q hq => ?_⟩
    · unfold upd at ha; dsimp only at ha
      split at ha
      · cases ha; exact t3
      · exact t1 j a ha
    · rcases t4 q hq with h | ⟨h1, h2⟩
      · exact ⟨i, o', by simp [upd], h⟩
      · obtain ⟨j, a, h3, h4⟩ := t2 q h1
        refine ⟨j, a, ?_, h4⟩
        have : j ≠ i := by
          rintro rfl
          rw [h3] at hi; subst hi; exact h2 h4
        simp only [upd, if_neg this]; exact h3

/-- an object without memory goes away -/
theorem Holds.drop {s v} (k : Holds c s v) {i o} (hi : s.objs i = some o) (hd : c → o.data = none) :
    Holds c ⟨s.heap, upd s.objs i none⟩ (upd v i none) := by
  refine ⟨fun j => ?_, fun j a b ha hb => ?_, fun j1 j2 a b p h1 h2 p1 p2 => ?_, k.fresh, fun hc => ?_⟩
  · unfold upd; dsimp only; split
    · rfl
    · exact k.dom j
  · unfold upd at ha hb; dsimp only at ha hb
    split at ha
    · cases ha
    · next e => rw [if_neg e] at hb; exact k.sees j a b ha hb
  · unfold upd at h1 h2; dsimp only at h1 h2
    split at h1
    · cases h1
    split at h2
    · cases h2
    exact k.inj j1 j2 a b p h1 h2 p1 p2
  · obtain ⟨t1, t2⟩ := k.tight hc
    refine ⟨fun j a ha => ?_, fun q hq => ?_⟩
    · unfold upd at ha; dsimp only at ha
      split at ha
      · cases ha
      · exact t1 j a ha
    · obtain ⟨j, a, h1, h2⟩ := t2 q hq
      refine ⟨j, a, ?_, h2⟩
      have : j ≠ i := by
        rintro rfl
        rw [h1] at hi; cases hi; rw [hd hc] at h2; cases h2
      simp only [upd, if_neg this]; exact h1

/-- the memory of the object `j` goes to the object `i`, which had none -/
theorem Holds.hand {s v} (k : Holds c s v) {i j a' b' b} (hne : i ≠ j) (hi : ((s.objs i).getD Obj.default).data = none)
    (hj : s.objs j = some a') (hb : v j = some b) {bj : Buf}
    (hd : b'.data = none) (h0 : 0 ≤ b'.actualCapacity) (ks : Sees s.heap b' bj) :
    Holds c ⟨s.heap, upd (upd s.objs i (some a')) j (some b')⟩ (upd (upd v i (some b)) j (some bj)) := by
  have look : ∀ n x, (upd (upd s.objs i (some a')) j (some b')) n = some x →
      (n = j ∧ x = b') ∨ (n = i ∧ n ≠ j ∧ x = a') ∨ (n ≠ i ∧ n ≠ j ∧ s.objs n = some x) := by
    intro n x hx
    unfold upd at hx
    split at hx
    · next e => cases hx; exact .inl ⟨e, rfl⟩
    · next e =>
      split at hx
      · next e' => cases hx; exact .inr (.inl ⟨e', e, rfl⟩)
      · next e' => exact .inr (.inr ⟨e', e, hx⟩)
  refine ⟨fun n => ?_, fun n x y hx hy => ?_, fun n1 n2 x y p h1 h2 p1 p2 => ?_, k.fresh, fun hc => ?_⟩
  · unfold upd; dsimp only; split
    · rfl
    · split
      · rfl
      · exact k.dom n
  · rcases look n x hx with ⟨rfl, rfl⟩ | ⟨rfl, hn, rfl⟩ | ⟨h1, h2, h3⟩
    · simp only [upd, if_true] at hy; cases hy; exact ks
    · simp only [upd, if_neg hn, if_true] at hy; cases hy; exact k.sees j _ _ hj hb
    · simp only [upd, if_neg h1, if_neg h2] at hy; exact k.sees n _ _ h3 hy
  · rcases look n1 x h1 with ⟨rfl, rfl⟩ | ⟨rfl, hn1, rfl⟩ | ⟨g1, g2, g3⟩
    · rw [hd] at p1; cases p1
    · rcases look n2 y h2 with ⟨rfl, rfl⟩ | ⟨rfl, hn2, rfl⟩ | ⟨f1, f2, f3⟩
      · rw [hd] at p2; cases p2
      · rfl
      · exact absurd (k.inj n2 j _ _ p f3 hj p2 p1) f2
    · rcases look n2 y h2 with ⟨rfl, rfl⟩ | ⟨rfl, hn2, rfl⟩ | ⟨f1, f2, f3⟩
      · rw [hd] at p2; cases p2
      · exact absurd (k.inj n1 j _ _ p g3 hj p1 p2) g2
      · exact k.inj n1 n2 _ _ p g3 f3 p1 p2
  · obtain ⟨t1, t2⟩ := k.tight hc
    refine ⟨fun n x hx => ?_, fun q hq => ?_⟩
    · rcases look n x hx with ⟨rfl, rfl⟩ | ⟨rfl, hn, rfl⟩ | ⟨h1, h2, h3⟩
      · exact ⟨h0, fun _ => hd⟩
      · exact t1 j _ hj
      · exact t1 n _ h3
    · obtain ⟨n, x, h1, h2⟩ := t2 q hq
      by_cases e : n = j
      · subst e
        rw [hj] at h1; cases h1
        exact ⟨i, _, by simp [upd, hne], h2⟩
      · by_cases e' : n = i
        · subst e'
          rw [h1] at hi
          rw [Option.getD_some] at hi
          rw [hi] at h2; cases h2
        · exact ⟨n, x, by simp [upd, e, e', h1], h2⟩

end Verif.CircularBuffer
