import Verif.Common.HeapLemmas
import Verif.StackBuffer.HeapSpec
import Verif.StackBuffer.OwnerLemmas

/- The class with pointers behaves as the class with blocks as values. -/
namespace Verif.StackBuffer

/-- no memory of size 0 -/
def Obj.Tight (o : Obj) : Prop := 0 ≤ o.actualCapacity ∧ (o.actualCapacity = 0 → o.data = none)

/-- a changed object in a changed heap, the other objects being left alone -/
structure Change (c : Prop) (h : Heap) (o : Obj) (h' : Heap) (o' : Obj) : Prop where
  mono : h.next ≤ h'.next
  frame : ∀ q, o.data ≠ some q → q < h.next → h'.blk q = h.blk q
  data : o'.data = o.data ∨ o'.data = none ∨ ∃ q, o'.data = some q ∧ h.next ≤ q
  fresh : (∀ q, h.next ≤ q → h.blk q = none) → ∀ q, h'.next ≤ q → h'.blk q = none
  tight : c → o.Tight → o'.Tight ∧ ∀ q, (h'.blk q).isSome → o'.data = some q ∨ ((h.blk q).isSome ∧ o.data ≠ some q)

variable {c : Prop}

theorem Change.trans {h o h1 o1 h2 o2} (a : Change c h o h1 o1) (b : Change c h1 o1 h2 o2) : Change c h o h2 o2 := by
  refine ⟨Nat.le_trans a.mono b.mono, fun q hq hn => ?_, ?_, fun hf => b.fresh (a.fresh hf), fun hy hc => ?_⟩
  · rw [b.frame q ?_ (Nat.lt_of_lt_of_le hn a.mono), a.frame q hq hn]
    rcases a.data with e | e | ⟨p, e, hp⟩
    · rw [e]; exact hq
    · rw [e]; simp
    · rw [e]; intro e'; cases e'; omega
  · rcases b.data with e | e | ⟨p, e, hp⟩
    · rw [e]; exact a.data
    · exact .inr (.inl e)
    · exact .inr (.inr ⟨p, e, Nat.le_trans a.mono hp⟩)
  · obtain ⟨a1, a2⟩ := a.tight hy hc
    obtain ⟨b1, b2⟩ := b.tight hy a1
    refine ⟨b1, fun q hq => ?_⟩
    rcases b2 q hq with h | ⟨h3, h4⟩
    · exact .inl h
    · exact .inr ((a2 q h3).resolve_left h4)

/-- an object changes, not its memory -/
theorem Change.same {h : Heap} {o o' : Obj} (hd : o'.data = o.data) (hc : o'.actualCapacity = o.actualCapacity) : Change c h o h o' := by
  refine ⟨Nat.le_refl _, fun _ _ _ => rfl, .inl hd, fun hf => hf, fun _ hc' => ⟨by unfold Obj.Tight; rw [hd, hc]; exact hc', fun q hq => ?_⟩⟩
  by_cases e : o.data = some q
  · exact .inl (hd.trans e)
  · exact .inr ⟨hq, e⟩

/-- an object writes to its own memory -/
theorem Change.write {h : Heap} {o o' : Obj} (m : Mem) (hd : o'.data = o.data) (hc : o'.actualCapacity = o.actualCapacity) :
    Change c h o (h.set o.data m) o' := by
  refine ⟨by rw [Heap.set_next]; exact Nat.le_refl _, fun q hq _ => Heap.set_ne h m hq, .inl hd, fun hf q hq => ?_,
    fun _ hc' => ⟨by unfold Obj.Tight; rw [hd, hc]; exact hc', fun q hq => ?_⟩⟩
  · rw [Heap.set_next] at hq
    have := Heap.set_isSome h o.data m q
    rw [hf q hq] at this
    simpa using this
  · rw [Heap.set_isSome] at hq
    by_cases e : o.data = some q
    · exact .inl (hd.trans e)
    · exact .inr ⟨hq, e⟩

/-! ### One object -/

/-- the object with its memory as a value -/
def Obj.buf (h : Heap) (own : Bool) (o : Obj) : Buf := ⟨o.data.bind h.blk, own, o.statedSize, o.actualCapacity, o.next, o.ni, o.cap, o.count⟩

/-- `b` is the object `o` with its memory as a value -/
structure Sees (h : Heap) (o : Obj) (b : Buf) : Prop where
  buf : b = o.buf h b.own
  own : b.own = true → o.origin = o.data
  live : ∀ p, o.data = some p → (h.blk p).isSome

theorem Sees.frame {h h' : Heap} {o b} (k : Sees h o b) (hf : ∀ p, o.data = some p → h'.blk p = h.blk p) : Sees h' o b := by
  refine ⟨?_, k.own, fun p hp => by rw [hf p hp]; exact k.live p hp⟩
  rw [k.buf]
  simp only [Obj.buf, Buf.mk.injEq, and_true, true_and]
  cases hd : o.data with
  | none => rfl
  | some p => simp [hf p hd]

theorem Sees.fields {h : Heap} {o b} (k : Sees h o b) : b.data = o.data.bind h.blk ∧ b.statedSize = o.statedSize ∧
    b.actualCapacity = o.actualCapacity ∧ b.next = o.next ∧ b.ni = o.ni ∧ b.cap = o.cap ∧ b.count = o.count := by
  rw [k.buf]; exact ⟨rfl, rfl, rfl, rfl, rfl, rfl, rfl⟩

theorem Sees.dmem {h : Heap} {o b} (k : Sees h o b) : h.get o.data = b.dmem := by
  rw [k.buf, Heap.get_eq]; rfl

/-- operations that succeed without memory do not use it -/
theorem Raw.call_null {r r' : Raw} {op : Op} {ob : Obs} (hr : r.mem = Mem.null) (e : r.call op = some (ob, r')) (m : Mem) :
    { r with mem := m }.call op = some (ob, { r' with mem := m }) ∧ r'.mem = Mem.null := by
  have hw : ∀ (k : Int) (bs : List UInt8), 0 < bs.length → Mem.null.write k bs = none := by
    intro k bs hb
    unfold Mem.write Mem.null
    rw [if_neg (by simp only; omega)]
  have hrd : ∀ k, Mem.null.readI32 k = none := by
    intro k
    unfold Mem.readI32 Mem.read Mem.null
    rw [if_neg (by simp only; omega)]; rfl
  cases r with
  | mk mem next ni cap count =>
  simp only at hr
  subst hr
  cases op with
  | push d =>
    simp only [Raw.call, Option.map_eq_some_iff] at e ⊢
    obtain ⟨⟨b, r1⟩, e1, e2⟩ := e
    cases e2
    simp only [Raw.push] at e1 ⊢
    split at e1
    · next hd => cases e1; exact ⟨⟨_, by rw [if_pos hd], rfl⟩, rfl⟩
    · next hd =>
      split at e1
      · next hs => cases e1; exact ⟨⟨_, by rw [if_neg hd, if_pos (by exact hs)], rfl⟩, rfl⟩
      · split at e1
        · cases e1
        · rw [hw _ _ (by simp only [List.length_take]; omega)] at e1; cases e1
  | pop max =>
    simp only [Raw.call, Option.map_eq_some_iff] at e ⊢
    obtain ⟨⟨b, x, r1⟩, e1, e2⟩ := e
    cases e2
    simp only [Raw.pop] at e1 ⊢
    split at e1
    · rw [hrd] at e1; cases e1
    · next hc => cases e1; exact ⟨⟨_, by rw [if_neg hc], rfl⟩, rfl⟩
  | nextDataSize =>
    simp only [Raw.call, Option.map_eq_some_iff] at e ⊢
    obtain ⟨b, e1, e2⟩ := e
    cases e2
    simp only [Raw.nextDataSize] at e1 ⊢
    split at e1
    · rw [hrd] at e1; cases e1
    · next hc => cases e1; exact ⟨⟨0, by rw [if_neg hc], by simp⟩, trivial⟩
  | count => cases e; exact ⟨rfl, rfl⟩
  | empty => cases e; exact ⟨rfl, rfl⟩
  | reverse =>
    simp only [Raw.call, Option.map_eq_some_iff] at e ⊢
    obtain ⟨b, e1, e2⟩ := e
    cases e2
    simp only [Raw.reverse] at e1 ⊢
    split at e1
    · next hc =>
      have : Mem.null.read (ni + 8) (8 * count.toNat) = none := by
        unfold Mem.read Mem.null
        rw [if_neg (by simp only; omega)]
      rw [this] at e1; cases e1
    · next hc => cases e1; exact ⟨⟨_, by rw [if_neg hc], rfl⟩, rfl⟩
  | clear => cases e; exact ⟨rfl, rfl⟩

theorem Buf.call_eq (b : Buf) (op : Op) : b.call op = (b.raw.call op).map fun r => (r.1, b.setRaw r.2) := by
  have hs : b.setRaw b.raw = b := by
    cases b with
    | mk d o s a n i c k => cases d <;> cases o <;> rfl
  cases op with
  | push d => simp only [Buf.call, Buf.push, Raw.call, Option.map_map]; rfl
  | pop m => simp only [Buf.call, Buf.pop, Raw.call, Option.map_map]; rfl
  | nextDataSize => simp only [Buf.call, Buf.nextDataSize, Raw.call, Option.map_map]; congr 1; funext n; simp [hs]
  | count => simp [Buf.call, Buf.getCurrentCount, Raw.call, hs]
  | empty => simp [Buf.call, Buf.empty, Raw.call, hs]
  | reverse => simp only [Buf.call, Buf.reverse, Raw.call, Option.map_map]; rfl
  | clear => simp [Buf.call, Buf.clear, Raw.call]

theorem Sees.call {h : Heap} {o b} (k : Sees h o b) {op : Op} {ob : Obs} {b' : Buf} (e : b.call op = some (ob, b')) :
    ∃ h' o', o.call h op = some (ob, h', o') ∧ Sees h' o' b' ∧ Change c h o h' o' := by
  rw [Buf.call_eq, Option.map_eq_some_iff] at e
  obtain ⟨⟨ob1, r⟩, e1, e2⟩ := e
  simp only [Prod.mk.injEq] at e2
  obtain ⟨rfl, rfl⟩ := e2
  cases hown : b.own with
  | true =>
    have ho := k.own hown
    have hraw : b.raw = o.raw h := by
      simp only [Buf.raw, hown, if_true, Obj.raw, ho, k.dmem]
      rw [k.buf]; rfl
    rw [hraw] at e1
    obtain ⟨f1, f2, f3, _⟩ := k.fields
    refine ⟨h.set o.origin r.mem, { o with next := r.next, ni := r.ni, cap := r.cap, count := r.count }, by rw [Obj.call, e1]; rfl,
      ⟨?_, fun _ => ho, fun p hp => ?_⟩, ?_⟩
    · simp only [Buf.setRaw, hown, if_true, Obj.buf, Buf.mk.injEq, true_and, and_true]
      rw [ho, Heap.set_blk, f1]
      exact ⟨rfl, f2, f3⟩
    · rw [Heap.set_isSome]; exact k.live p hp
    · rw [ho]; exact .write _ rfl rfl
  | false =>
    have hn : b.raw.mem = Mem.null := by simp [Buf.raw, hown]
    obtain ⟨e3, e4⟩ := Raw.call_null hn e1 (h.get o.origin)
    have hraw : { b.raw with mem := h.get o.origin } = o.raw h := by
      simp only [Buf.raw, Obj.raw]
      rw [k.buf]; rfl
    rw [hraw] at e3
    obtain ⟨f1, f2, f3, _⟩ := k.fields
    refine ⟨h.set o.origin (h.get o.origin), { o with next := r.next, ni := r.ni, cap := r.cap, count := r.count },
      by rw [Obj.call, e3]; rfl, ⟨?_, ?_, ?_⟩, ?_⟩
    · simp only [Buf.setRaw, hown, Obj.buf, Buf.mk.injEq, true_and, and_true]
      rw [Heap.set_get]
      exact ⟨f1, f2, f3⟩
    · simp [Buf.setRaw, hown]
    · simp only [Heap.set_get]; exact k.live
    · simp only [Heap.set_get]; exact .same rfl rfl

theorem Sees.lt {h : Heap} {o b} (k : Sees h o b) (hf : Heap.Fresh h) {p : Nat} (hp : o.data = some p) : p < h.next := by
  refine Nat.lt_of_not_le fun c => ?_
  have := k.live p hp
  rw [hf p c] at this; cases this

/-- deleting the memory of an object -/
theorem Sees.free {h : Heap} {o b} (k : Sees h o b) : ∃ h', h.free o.data = some h' ∧ h'.next = h.next ∧
    ∀ q, h'.blk q = if o.data = some q then none else h.blk q := by
  cases hd : o.data with
  | none => exact ⟨h, rfl, rfl, fun q => by simp⟩
  | some p =>
    refine ⟨{ h with blk := fun q => if q = p then none else h.blk q }, by rw [Heap.free, if_pos (k.live p hd)], rfl, fun q => ?_⟩
    simp only [Option.some.injEq]
    by_cases e : q = p
    · simp [e]
    · rw [if_neg e, if_neg (Ne.symm e)]

theorem Sees.resizeMemory {h : Heap} {o b b'} (k : Sees h o b) (hf : Heap.Fresh h) {fresh : Int → UInt8} {n : Int} {cp : Bool}
    (e : b.resizeMemory fresh n cp = some b') :
    ∃ h' o', o.resizeMemory fresh h n cp = some (h', o') ∧ Sees h' o' b' ∧ Change c h o h' o' := by
  obtain ⟨f1, f2, f3, f4, f5, f6, f7⟩ := k.fields
  simp only [Buf.resizeMemory, f2, f3] at e
  simp only [Obj.resizeMemory]
  by_cases h1 : n = o.statedSize
  · rw [if_pos h1] at e ⊢
    cases e
    exact ⟨h, o, rfl, k, .same rfl rfl⟩
  rw [if_neg h1] at e ⊢
  by_cases h2 : n > o.actualCapacity
  rotate_left
  · rw [if_neg h2] at e ⊢
    cases e
    refine ⟨_, _, rfl, ⟨?_, k.own, k.live⟩, .same rfl rfl⟩
    simp only [Obj.buf, Buf.mk.injEq]
    exact ⟨f1, trivial, trivial, trivial, f4, f5, f6, f7⟩
  rw [if_pos h2] at e ⊢
  simp only [Option.bind_eq_some_iff] at e
  obtain ⟨m, e1, e⟩ := e
  cases e
  have hlt : ∀ p, o.data = some p → p ≠ h.next := fun p hp => Nat.ne_of_lt (k.lt hf hp)
  have hget : (h.alloc ⟨n, fresh⟩).get o.data = h.get o.data := by
    cases hd : o.data with
    | none => rfl
    | some p => simp only [Heap.get, alloc_ne _ _ (hlt p hd)]
  -- the heap after copying
  have hcopy : ∃ h2, (if o.actualCapacity > 0 then
        (if cp = true then
          if o.statedSize < 0 then none
          else (((h.alloc ⟨n, fresh⟩).get o.data).read 0 o.statedSize.toNat).bind fun bs =>
            (((h.alloc ⟨n, fresh⟩).get (some h.next)).write 0 bs).map fun m => (h.alloc ⟨n, fresh⟩).set (some h.next) m
        else some (h.alloc ⟨n, fresh⟩)).bind fun h => h.free o.data
      else some (h.alloc ⟨n, fresh⟩)) = some h2 ∧ h2.next = h.next + 1 ∧
      ∀ q, h2.blk q = if q = h.next then some m else if o.actualCapacity > 0 ∧ o.data = some q then none else h.blk q := by
    simp only [Buf.copyOld, f2, f3] at e1
    by_cases hc : o.actualCapacity > 0
    rotate_left
    · rw [if_neg hc]
      rw [if_neg fun c => hc c.1] at e1
      cases e1
      refine ⟨_, rfl, rfl, fun q => ?_⟩
      simp only [Heap.alloc, hc, false_and, if_false]
    · rw [if_pos hc]
      have key : ∃ h1, (if cp = true then
          if o.statedSize < 0 then none
          else (((h.alloc ⟨n, fresh⟩).get o.data).read 0 o.statedSize.toNat).bind fun bs =>
            (((h.alloc ⟨n, fresh⟩).get (some h.next)).write 0 bs).map fun m => (h.alloc ⟨n, fresh⟩).set (some h.next) m
        else some (h.alloc ⟨n, fresh⟩)) = some h1 ∧ h1.next = h.next + 1 ∧
          ∀ q, h1.blk q = if q = h.next then some m else h.blk q := by
        by_cases hcp : cp = true
        · rw [if_pos hcp]
          rw [if_pos ⟨hc, hcp⟩] at e1
          by_cases hs : o.statedSize < 0
          · rw [if_pos hs] at e1; cases e1
          · rw [if_neg hs] at e1 ⊢
            simp only [Option.bind_eq_some_iff] at e1
            obtain ⟨bs, e2, e3⟩ := e1
            rw [hget, k.dmem, e2]
            simp only [Option.bind_some]
            have : (h.alloc ⟨n, fresh⟩).get (some h.next) = ⟨n, fresh⟩ := by simp [Heap.get, alloc_next]
            rw [this, e3]
            refine ⟨_, rfl, rfl, fun q => ?_⟩
            simp only [Heap.set, alloc_next, Option.map_some]
            split
            · rfl
            · next hq => exact alloc_ne _ _ hq
        · rw [if_neg hcp]
          rw [if_neg fun c => hcp c.2] at e1
          cases e1
          exact ⟨_, rfl, rfl, fun q => rfl⟩
      obtain ⟨h1, e4, e5, e6⟩ := key
      rw [e4]
      simp only [Option.bind_some]
      cases hd : o.data with
      | none => exact ⟨h1, rfl, e5, fun q => by rw [e6]; simp⟩
      | some p =>
        have hp : (h1.blk p).isSome := by rw [e6, if_neg (hlt p hd)]; exact k.live p hd
        refine ⟨{ h1 with blk := fun q => if q = p then none else h1.blk q }, by rw [Heap.free, if_pos hp], e5, fun q => ?_⟩
        simp only [hc, true_and, Option.some.injEq]
        by_cases e : q = p
        · subst e; rw [if_pos rfl, if_neg (hlt q hd), if_pos rfl]
        · rw [if_neg e, e6, if_neg (Ne.symm e)]
  obtain ⟨h2, e2, e3, e4⟩ := hcopy
  refine ⟨h2, { o with data := some h.next, actualCapacity := n, statedSize := n }, ?_, ⟨?_, ?_, ?_⟩, ?_⟩
  · rw [e2]; rfl
  · simp only [Obj.buf, Buf.mk.injEq, Option.bind_some, e4, if_true]
    exact ⟨trivial, trivial, trivial, trivial, f4, f5, f6, f7⟩
  · intro h; cases h
  · intro p hp
    cases hp
    rw [e4, if_pos rfl]; rfl
  · refine ⟨by omega, fun q hq hn => ?_, .inr (.inr ⟨_, rfl, Nat.le_refl _⟩), fun _ q hq => ?_, fun _ hc => ⟨⟨?_, ?_⟩, fun q hq => ?_⟩⟩
    · rw [e4, if_neg (by omega), if_neg fun c => hq c.2]
    · rw [e4, if_neg (by omega)]
      split
      · rfl
      · exact hf q (by omega)
    · have := hc.1
      show 0 ≤ n; omega
    · intro hn
      have := hc.1
      have hn : n = 0 := hn
      omega
    · rw [e4] at hq
      by_cases hq1 : q = h.next
      · exact .inl (by rw [hq1])
      · rw [if_neg hq1] at hq
        split at hq
        · cases hq
        · next hx =>
          refine .inr ⟨hq, fun hd => hx ⟨?_, hd⟩⟩
          refine Int.not_le.1 fun hle => ?_
          rw [hc.2 (Int.le_antisymm hle hc.1)] at hd; cases hd

theorem Sees.withData {h : Heap} {o b b'} (k : Sees h o b) {f : Mem → Option Mem} (e : b.withData f = some b') :
    ∃ m, f (h.get o.data) = some m ∧ b' = { b with data := o.data.bind (h.set o.data m).blk } := by
  obtain ⟨f1, _⟩ := k.fields
  have hd := k.dmem
  simp only [Buf.withData] at e
  cases hb : b.data with
  | none =>
    rw [hb] at e
    simp only [Option.map_eq_some_iff] at e
    obtain ⟨m, e1, e2⟩ := e
    refine ⟨m, ?_, ?_⟩
    · rw [hd]; simp only [Buf.dmem, hb]; exact e1
    · rw [Heap.set_blk, ← f1, hb, ← e2]; cases b; cases hb; rfl
  | some m0 =>
    rw [hb] at e
    simp only [Option.map_eq_some_iff] at e
    obtain ⟨m, e1, e2⟩ := e
    refine ⟨m, ?_, ?_⟩
    · rw [hd]; simp only [Buf.dmem, hb]; exact e1
    · rw [Heap.set_blk, ← f1, hb, ← e2]; rfl

theorem Sees.relocate {h : Heap} {o b b'} (k : Sees h o b) {n : Int} (e : b.relocate n = some b') :
    ∃ h' o', o.relocate h n = some (h', o') ∧ Sees h' o' b' ∧ Change c h o h' o' := by
  obtain ⟨f1, f2, f3, f4, f5, f6, f7⟩ := k.fields
  simp only [Buf.relocate, Option.bind_eq_some_iff] at e
  obtain ⟨b1, e1, e⟩ := e
  cases e
  obtain ⟨m, e2, rfl⟩ := k.withData e1
  rw [f6, f7] at e2
  refine ⟨h.set o.data m, { o with cap := n, origin := o.data, next := n, ni := n - 8 - 8 * o.count }, ?_, ⟨?_, fun _ => rfl, fun p hp => ?_⟩,
    .write m rfl rfl⟩
  · simp only [Obj.relocate, e2]; rfl
  · simp only [Obj.buf, Buf.mk.injEq, f2, f3, f7, and_self]
  · rw [Heap.set_isSome]; exact k.live p hp

/-- results that agree up to the memory -/
inductive OutSees (c : Prop) (h : Heap) (o : Obj) : Outcome Buf → Outcome (Heap × Obj) → Prop
  | ok {r b' h' o'} : Sees h' o' b' → Change c h o h' o' → OutSees c h o (.ok r b') (.ok r (h', o'))
  | thrown {b' h' o'} : Sees h' o' b' → Change c h o h' o' → OutSees c h o (.thrown b') (.thrown (h', o'))

theorem Sees.resize {h : Heap} {o b r} (k : Sees h o b) (hf : Heap.Fresh h) {fresh : Int → UInt8} {n : Int}
    (e : b.resize fresh n = some r) : ∃ r', o.resize fresh false h n = some r' ∧ OutSees c h o r r' := by
  obtain ⟨f1, f2, f3, f4, f5, f6, f7⟩ := k.fields
  simp only [Buf.resize, f2, f4, f6, f7] at e
  simp only [Obj.resize, Bool.and_false, Bool.false_eq_true, if_false]
  split at e
  · next c1 => cases e; exact ⟨_, by rw [if_pos c1], .ok k (.same rfl rfl)⟩
  next c1 =>
  rw [if_neg c1]
  split at e
  · next c2 => cases e; exact ⟨_, by rw [if_pos c2], .ok k (.same rfl rfl)⟩
  next c2 =>
  rw [if_neg c2]
  split at e
  · next c3 =>
    rw [if_pos c3]
    simp only [Option.bind_eq_some_iff] at e
    obtain ⟨b1, e1, e⟩ := e
    cases e
    obtain ⟨h1, o1, e2, k1, ch⟩ := k.resizeMemory hf e1
    rw [e2]
    obtain ⟨g1, g2, g3, g4, g5, g6, g7⟩ := k1.fields
    refine ⟨_, rfl, ?_⟩
    simp only
    rw [← g2]
    refine .ok ⟨?_, fun _ => rfl, k1.live⟩ (ch.trans (.same rfl rfl))
    simp only [Obj.buf, Buf.mk.injEq, g1, g2, g3, and_self]
  next c3 =>
  rw [if_neg c3]
  split at e
  · next c4 =>
    rw [if_pos c4]
    simp only [Option.bind_eq_some_iff] at e
    obtain ⟨b1, e1, b2, e2, e⟩ := e
    cases e
    obtain ⟨h1, o1, e3, k1, ch⟩ := k.resizeMemory hf e1
    obtain ⟨h2, o2, e4, k2, ch2⟩ := k1.relocate e2
    rw [e3]
    simp only [Option.bind_some, e4]
    refine ⟨_, rfl, ?_⟩
    rw [← k2.fields.2.1]
    exact .ok k2 (ch.trans ch2)
  next c4 =>
  rw [if_neg c4]
  split at e
  · next c5 => cases e; exact ⟨_, by rw [if_pos c5], .thrown k (.same rfl rfl)⟩
  next c5 =>
  rw [if_neg c5]
  simp only [Option.bind_eq_some_iff] at e
  obtain ⟨b1, e1, e⟩ := e
  cases e
  obtain ⟨h1, o1, e2, k1, ch⟩ := k.relocate e1
  obtain ⟨g1, g2, g3, g4, g5, g6, g7⟩ := k1.fields
  rw [e2]
  refine ⟨_, rfl, .ok ⟨?_, k1.own, k1.live⟩ (ch.trans (.same rfl rfl))⟩
  simp only [Obj.buf, Buf.mk.injEq]
  exact ⟨g1, trivial, trivial, g3, g4, g5, g6, g7⟩

/-- Running out of memory, a resize has no effect. -/
theorem Sees.resize_fails {h : Heap} {o b r} (k : Sees h o b) (hf : Heap.Fresh h) {fresh : Int → UInt8} {n : Int}
    (e : b.resize fresh n = some r) : o.resize fresh true h n = some (.thrown (h, o)) ∧ 0 ≤ n ∧ n ≠ o.cap ∧ n > o.actualCapacity ∨
      ∃ r', o.resize fresh true h n = some r' ∧ OutSees c h o r r' := by
  obtain ⟨r', e1, hr⟩ := k.resize hf e
  simp only [Obj.resize, Bool.and_false, Bool.false_eq_true, if_false] at e1
  simp only [Obj.resize, Bool.and_true]
  by_cases ha : o.allocates n = true
  rotate_left
  · simp only [ha, if_false]
    exact .inr ⟨r', e1, hr⟩
  · simp only [ha, if_true]
    have ha2 : n ≠ o.statedSize ∧ n > o.actualCapacity := by simpa [Obj.allocates] using ha
    split at e1
    · next c1 => right; exact ⟨r', by rw [if_pos c1, e1], hr⟩
    next c1 =>
    rw [if_neg c1]
    split at e1
    · next c1 => right; exact ⟨r', by rw [if_pos c1, e1], hr⟩
    next c2 =>
    rw [if_neg c2]
    split at e1
    · next c3 => left; exact ⟨by rw [if_pos c3], by omega, c2, ha2.2⟩
    next c3 =>
    rw [if_neg c3]
    split at e1
    · next c4 => left; exact ⟨by rw [if_pos c4], by omega, c2, ha2.2⟩
    next c4 =>
    rw [if_neg c4]
    right; exact ⟨r', e1, hr⟩

theorem Sees.copyAssign {h : Heap} {o b o2 b2 b'} (k : Sees h o b) (k2 : Sees h o2 b2) (hf : Heap.Fresh h)
    (hne : ∀ p, o.data = some p → o2.data ≠ some p) {fresh : Int → UInt8} (e : b.copyAssign fresh b2 = some b') :
    ∃ h' o', o.copyAssign fresh false h o2 = some (.ok true (h', o')) ∧ Sees h' o' b' ∧ Change c h o h' o' := by
  obtain ⟨f1, f2, f3, f4, f5, f6, f7⟩ := k.fields
  obtain ⟨g1, g2, g3, g4, g5, g6, g7⟩ := k2.fields
  simp only [Buf.copyAssign, g2, Option.bind_eq_some_iff] at e
  obtain ⟨b1, e1, e⟩ := e
  have k0 : Sees h { o with origin := o2.origin, next := o2.next, ni := o2.ni, cap := o2.cap, count := o2.count }
      { b with own := false, next := b2.next, ni := b2.ni, cap := b2.cap, count := b2.count } := by
    refine ⟨?_, (fun h => by cases h), k.live⟩
    simp only [Obj.buf, Buf.mk.injEq]
    exact ⟨f1, trivial, f2, f3, g4, g5, g6, g7⟩
  obtain ⟨h1, o1, e2, k1, ch⟩ := k0.resizeMemory hf e1
  split at e
  · cases e
  next hs =>
  simp only [Option.bind_eq_some_iff] at e
  obtain ⟨bs, e3, b3, e4, e⟩ := e
  cases e
  obtain ⟨m, e5, rfl⟩ := k1.withData e4
  have hfr : Sees h1 o2 b2 := k2.frame fun p hp => ch.frame p (fun c => hne p c hp) (k2.lt hf hp)
  obtain ⟨q1, q2, q3, q4, q5, q6, q7⟩ := k1.fields
  refine ⟨h1.set o1.data m, { o1 with origin := o1.data, ni := o1.cap - 8 - 8 * o1.count }, ?_, ⟨?_, fun _ => rfl, fun p hp => ?_⟩,
    .trans (.trans (.same (o' := { o with origin := o2.origin, next := o2.next, ni := o2.ni, cap := o2.cap, count := o2.count }) rfl rfl) ch)
      (.write m rfl rfl)⟩
  · simp only [Obj.copyAssign, Bool.and_false, Bool.false_eq_true, if_false, e2, Option.bind_some, if_neg hs, hfr.dmem, e3, e5]
  · simp only [Obj.buf, Buf.mk.injEq, q2, q3, q4, q6, q7, and_self]
  · rw [Heap.set_isSome]; exact k1.live p hp

theorem Sees.copyCtor {h : Heap} {o2 b2 b'} (k2 : Sees h o2 b2) (hf : Heap.Fresh h)
    {fresh : Int → UInt8} (e : Buf.copyCtor fresh b2 = some b') :
    ∃ h' o', Obj.copyCtor fresh h o2 = some (h', o') ∧ Sees h' o' b' ∧ Change c h Obj.default h' o' := by
  obtain ⟨g1, g2, g3, g4, g5, g6, g7⟩ := k2.fields
  have hlt : ∀ p, o2.data = some p → p ≠ h.next := fun p hp => Nat.ne_of_lt (k2.lt hf hp)
  simp only [Buf.copyCtor, g2] at e
  simp only [Obj.copyCtor]
  split at e
  · cases e
  next hs =>
  rw [if_neg hs]
  have hempty : b' = ⟨none, false, 0, 0, b2.next, b2.ni, b2.cap, b2.count⟩ → ¬ (o2.data.isSome = true ∧ o2.statedSize > 0) →
      ∃ h' o', (if o2.data.isSome = true ∧ o2.statedSize > 0 then
          (((h.alloc ⟨o2.statedSize, fresh⟩).get o2.data).read 0 o2.statedSize.toNat).bind fun bs =>
          (((h.alloc ⟨o2.statedSize, fresh⟩).get (some h.next)).write 0 bs).bind fun m =>
          some ((h.alloc ⟨o2.statedSize, fresh⟩).set (some h.next) m,
            (⟨some h.next, o2.statedSize, o2.statedSize, some h.next, o2.next, o2.cap - 8 - 8 * o2.count, o2.cap, o2.count⟩ : Obj))
        else
          ((h.alloc ⟨o2.statedSize, fresh⟩).free (some h.next)).bind fun h2 =>
            some (h2, ⟨none, 0, 0, o2.origin, o2.next, o2.ni, o2.cap, o2.count⟩)) = some (h', o') ∧
        Sees h' o' b' ∧ Change c h Obj.default h' o' := by
    intro hb hc
    rw [if_neg hc, Heap.free, if_pos (by simp [alloc_next])]
    refine ⟨_, _, rfl, ⟨?_, ?_, ?_⟩, ⟨by simp [Heap.alloc], fun q _ hq => ?_, .inr (.inl rfl), fun hf q hq => ?_, fun _ _ => ⟨⟨Int.le_refl _, fun _ => rfl⟩, fun q hq => ?_⟩⟩⟩
    · rw [hb]
      simp only [Obj.buf, Buf.mk.injEq, g4, g5, g6, g7]; simp
    · rw [hb]; intro h; cases h
    · intro p hp; cases hp
    · simp only
      rw [if_neg (by omega), alloc_ne _ _ (by omega)]
    · simp only [Heap.alloc] at hq ⊢
      rw [if_neg (by omega), if_neg (by omega)]; exact hf q (by omega)
    · simp only at hq
      split at hq
      · cases hq
      · next hn => rw [alloc_ne _ _ hn] at hq; exact .inr ⟨hq, by simp [Obj.default]⟩
  split at e
  · next hd =>
    refine hempty (by cases e; rfl) fun c => ?_
    cases hdo : o2.data with
    | none => rw [hdo] at c; cases c.1
    | some p =>
      rw [g1, hdo] at hd
      have := k2.live p hdo
      simp only [Option.bind_some] at hd
      rw [hd] at this; cases this
  · next m hd =>
    split at e
    rotate_left
    · next hn => exact hempty (by cases e; rfl) fun c => hn c.2
    next hpos =>
    simp only [Option.bind_eq_some_iff] at e
    obtain ⟨bs, e1, m', e2, e⟩ := e
    cases e
    have hso : o2.data.isSome = true := by
      cases hdo : o2.data with
      | none => rw [g1, hdo] at hd; cases hd
      | some p => rfl
    rw [if_pos ⟨hso, hpos⟩]
    have hget : (h.alloc ⟨o2.statedSize, fresh⟩).get o2.data = m := by
      have hm := k2.dmem
      rw [Buf.dmem, hd] at hm
      cases hdo : o2.data with
      | none => rw [hdo] at hso; cases hso
      | some p => rw [hdo] at hm; simp only [Heap.get, alloc_ne _ _ (hlt p hdo)]; exact hm
    have hget2 : (h.alloc ⟨o2.statedSize, fresh⟩).get (some h.next) = ⟨o2.statedSize, fresh⟩ := by simp [Heap.get, alloc_next]
    rw [hget, e1, hget2]
    simp only [Option.bind_some, e2]
    have hblk : ∀ q, ((h.alloc ⟨o2.statedSize, fresh⟩).set (some h.next) m').blk q = if q = h.next then some m' else h.blk q := by
      intro q
      simp only [Heap.set, alloc_next, Option.map_some]
      split
      · rfl
      · next hq => exact alloc_ne _ _ hq
    refine ⟨_, _, rfl, ⟨?_, fun _ => rfl, ?_⟩, ⟨?_, fun q _ hq => ?_, .inr (.inr ⟨_, rfl, Nat.le_refl _⟩), fun hf q hq => ?_, fun _ _ => ⟨⟨?_, ?_⟩, fun q hq => ?_⟩⟩⟩
    · simp only [Obj.buf, Buf.mk.injEq, Option.bind_some, hblk, if_true, g4, g6, g7, and_self]
    · intro p hp; cases hp; rw [hblk, if_pos rfl]; rfl
    · simp [Heap.set, Heap.alloc]
    · rw [hblk, if_neg (by omega)]
    · simp only [Heap.set, Heap.alloc] at hq
      rw [hblk, if_neg (by omega)]; exact hf q (by omega)
    · show 0 ≤ o2.statedSize; omega
    · intro h0; exact absurd h0 (by show ¬ o2.statedSize = 0; omega)
    · rw [hblk] at hq
      split at hq
      · next e => left; rw [e]
      · exact .inr ⟨hq, by simp [Obj.default]⟩

theorem Sees.ofSize {h : Heap} {fresh : Int → UInt8} {n : Int} {b'} (e : Buf.ofSize fresh n = some b') (hc : c → n ≠ 0) :
    ∃ h' o', Obj.ofSize fresh h n = some (h', o') ∧ Sees h' o' b' ∧ Change c h Obj.default h' o' := by
  simp only [Buf.ofSize] at e
  simp only [Obj.ofSize]
  split at e
  · cases e
  next hs =>
  cases e
  rw [if_neg hs]
  refine ⟨_, _, rfl, ⟨?_, fun _ => rfl, ?_⟩, ⟨?_, fun q _ hq => ?_, .inr (.inr ⟨_, rfl, Nat.le_refl _⟩), fun hf q hq => ?_, fun hy _ => ⟨⟨?_, ?_⟩, fun q hq => ?_⟩⟩⟩
  · simp only [Obj.buf, Option.bind_some, alloc_next]
  · intro p hp; cases hp; rw [alloc_next]; rfl
  · simp [Heap.alloc]
  · rw [alloc_ne _ _ (by omega)]
  · simp only [Heap.alloc] at hq
    rw [alloc_ne _ _ (by omega)]; exact hf q (by omega)
  · show 0 ≤ n; omega
  · intro h0; exact absurd h0 (hc hy)
  · by_cases e : q = h.next
    · left; rw [e]
    · rw [alloc_ne _ _ e] at hq; exact .inr ⟨hq, by simp [Obj.default]⟩

/-- an object gives up its memory -/
theorem Sees.release {h : Heap} {o b} (k : Sees h o b) {o' : Obj} (hd : o'.data = none) (h0 : 0 ≤ o'.actualCapacity) :
    ∃ h', h.free o.data = some h' ∧ Change c h o h' o' := by
  obtain ⟨h', e1, e2, e3⟩ := k.free
  refine ⟨h', e1, ⟨by omega, fun q hq _ => ?_, .inr (.inl hd), fun hf q hq => ?_, fun _ _ => ⟨⟨h0, fun _ => hd⟩, fun q hq => ?_⟩⟩⟩
  · rw [e3, if_neg hq]
  · rw [e3]; split
    · rfl
    · exact hf q (by omega)
  · rw [e3] at hq
    split at hq
    · cases hq
    · next hn => exact .inr ⟨hq, hn⟩

/-! ### All objects -/

/-- the objects `v` are those of the store with their memory as values; with `c` every block belongs to an object -/
structure Holds (c : Prop) (s : Store) (v : Nat → Option Buf) : Prop where
  dom : ∀ i, (v i).isSome = (s.objs i).isSome
  sees : ∀ i o b, s.objs i = some o → v i = some b → Sees s.heap o b
  inj : ∀ i j a b p, s.objs i = some a → s.objs j = some b → a.data = some p → b.data = some p → i = j
  fresh : Heap.Fresh s.heap
  tight : c → (∀ i o, s.objs i = some o → o.Tight) ∧ ∀ q, (s.heap.blk q).isSome → ∃ i o, s.objs i = some o ∧ o.data = some q

theorem Holds.init : Holds c Store.init fun _ => none :=
  ⟨fun _ => rfl, (fun _ _ _ h => by cases h), (fun _ _ _ _ _ h => by cases h), fun _ _ => rfl,
    fun _ => ⟨(fun _ _ h => by cases h), (fun _ h => by cases h)⟩⟩

theorem Holds.get {s v} (k : Holds c s v) {i o} (hi : s.objs i = some o) : ∃ b, v i = some b ∧ Sees s.heap o b := by
  have := k.dom i
  rw [hi] at this
  obtain ⟨b, hb⟩ := Option.isSome_iff_exists.1 (this.trans rfl)
  exact ⟨b, hb, k.sees i o b hi hb⟩

theorem Holds.getNone {s v} (k : Holds c s v) {i} (hi : s.objs i = none) : v i = none := by
  have := k.dom i
  rw [hi] at this
  simpa using this

theorem Holds.set {s v} (k : Holds c s v) {i o h' o' b'} (hi : (s.objs i).getD Obj.default = o) (ch : Change c s.heap o h' o')
    (ks : Sees h' o' b') : Holds c ⟨h', upd s.objs i (some o')⟩ (upd v i (some b')) := by
  have hother : ∀ j a p, j ≠ i → s.objs j = some a → a.data = some p → o.data ≠ some p ∧ p < s.heap.next := by
    intro j a p hj ha hp
    obtain ⟨b, _, kb⟩ := k.get ha
    refine ⟨fun ho => ?_, kb.lt k.fresh hp⟩
    cases hx : s.objs i with
    | none => rw [hx] at hi; subst hi; cases ho
    | some a' => rw [hx] at hi; subst hi; exact hj (k.inj j i a _ p ha hx hp ho)
  have hdiff : ∀ j a p, j ≠ i → s.objs j = some a → a.data = some p → o'.data ≠ some p := by
    intro j a p hj ha hp ho
    obtain ⟨h1, h2⟩ := hother j a p hj ha hp
    rcases ch.data with e | e | ⟨q, e, hq⟩
    · exact h1 (by rw [← e, ho])
    · rw [e] at ho; cases ho
    · rw [e] at ho; cases ho; omega
  refine ⟨fun j => ?_, fun j a b ha hb => ?_, fun j1 j2 a b p h1 h2 p1 p2 => ?_, ch.fresh k.fresh, fun hc => ?_⟩
  · unfold upd; dsimp only; split
    · rfl
    · exact k.dom j
  · unfold upd at ha hb; dsimp only at ha hb
    split at ha
    · next e => rw [if_pos e] at hb; cases ha; cases hb; exact ks
    · next e =>
      rw [if_neg e] at hb
      exact (k.sees j a b ha hb).frame fun p hp => ch.frame p (hother j a p e ha hp).1 (hother j a p e ha hp).2
  · unfold upd at h1 h2; dsimp only at h1 h2
    split at h1 <;> split at h2
    · next e1 e2 => rw [e1, e2]
    · next e1 e2 => cases h1; exact absurd p1 (hdiff j2 b p e2 h2 p2)
    · next e1 e2 => cases h2; exact absurd p2 (hdiff j1 a p e1 h1 p1)
    · exact k.inj j1 j2 a b p h1 h2 p1 p2
  · obtain ⟨t1, t2⟩ := k.tight hc
    have ht : o.Tight := by
      cases hx : s.objs i with
      | none => rw [hx] at hi; subst hi; exact ⟨Int.le_refl _, fun _ => rfl⟩
      | some a' => rw [hx] at hi; subst hi; exact t1 i _ hx
    obtain ⟨t3, t4⟩ := ch.tight hc ht
    refine ⟨fun j a ha => ?_, fun q hq => ?_⟩
    · unfold upd at ha; dsimp only at ha
      split at ha
      · cases ha; exact t3
      · exact t1 j a ha
    · rcases t4 q hq with h | ⟨h1, h2⟩
      · exact ⟨i, o', by simp [upd], h⟩
      · obtain ⟨j, a, h3, h4⟩ := t2 q h1
        refine ⟨j, a, ?_, h4⟩
        have : j ≠ i := by
          rintro rfl
          rw [h3] at hi; subst hi; exact h2 h4
        simp only [upd, if_neg this]; exact h3

/-- an object without memory goes away -/
theorem Holds.drop {s v} (k : Holds c s v) {i o} (hi : s.objs i = some o) (hd : o.data = none) :
    Holds c ⟨s.heap, upd s.objs i none⟩ (upd v i none) := by
  refine ⟨fun j => ?_, fun j a b ha hb => ?_, fun j1 j2 a b p h1 h2 p1 p2 => ?_, k.fresh, fun hc => ?_⟩
  · unfold upd; dsimp only; split
    · rfl
    · exact k.dom j
  · unfold upd at ha hb; dsimp only at ha hb
    split at ha
    · cases ha
    · next e => rw [if_neg e] at hb; exact k.sees j a b ha hb
  · unfold upd at h1 h2; dsimp only at h1 h2
    split at h1
    · cases h1
    split at h2
    · cases h2
    exact k.inj j1 j2 a b p h1 h2 p1 p2
  · obtain ⟨t1, t2⟩ := k.tight hc
    refine ⟨fun j a ha => ?_, fun q hq => ?_⟩
    · unfold upd at ha; dsimp only at ha
      split at ha
      · cases ha
      · exact t1 j a ha
    · obtain ⟨j, a, h1, h2⟩ := t2 q hq
      refine ⟨j, a, ?_, h2⟩
      have : j ≠ i := by
        rintro rfl
        rw [h1] at hi; cases hi; rw [hd] at h2; cases h2
      simp only [upd, if_neg this]; exact h1

/-- the memory of the object `j` goes to the object `i`, which had none -/
theorem Holds.hand {s v} (k : Holds c s v) {i j a' b' b} (hne : i ≠ j) (hi : ((s.objs i).getD Obj.default).data = none)
    (hj : s.objs j = some a') (hb : v j = some b) {bj : Buf}
    (hd : b'.data = none) (h0 : 0 ≤ b'.actualCapacity) (ks : Sees s.heap b' bj) :
    Holds c ⟨s.heap, upd (upd s.objs i (some a')) j (some b')⟩ (upd (upd v i (some b)) j (some bj)) := by
  have look : ∀ n x, (upd (upd s.objs i (some a')) j (some b')) n = some x →
      (n = j ∧ x = b') ∨ (n = i ∧ n ≠ j ∧ x = a') ∨ (n ≠ i ∧ n ≠ j ∧ s.objs n = some x) := by
    intro n x hx
    unfold upd at hx
    split at hx
    · next e => cases hx; exact .inl ⟨e, rfl⟩
    · next e =>
      split at hx
      · next e' => cases hx; exact .inr (.inl ⟨e', e, rfl⟩)
      · next e' => exact .inr (.inr ⟨e', e, hx⟩)
  refine ⟨fun n => ?_, fun n x y hx hy => ?_, fun n1 n2 x y p h1 h2 p1 p2 => ?_, k.fresh, fun hc => ?_⟩
  · unfold upd; dsimp only; split
    · rfl
    · split
      · rfl
      · exact k.dom n
  · rcases look n x hx with ⟨rfl, rfl⟩ | ⟨rfl, hn, rfl⟩ | ⟨h1, h2, h3⟩
    · simp only [upd, if_true] at hy; cases hy; exact ks
    · simp only [upd, if_neg hn, if_true] at hy; cases hy; exact k.sees j _ _ hj hb
    · simp only [upd, if_neg h1, if_neg h2] at hy; exact k.sees n _ _ h3 hy
  · rcases look n1 x h1 with ⟨rfl, rfl⟩ | ⟨rfl, hn1, rfl⟩ | ⟨g1, g2, g3⟩
    · rw [hd] at p1; cases p1
    · rcases look n2 y h2 with ⟨rfl, rfl⟩ | ⟨rfl, hn2, rfl⟩ | ⟨f1, f2, f3⟩
      · rw [hd] at p2; cases p2
      · rfl
      · exact absurd (k.inj n2 j _ _ p f3 hj p2 p1) f2
    · rcases look n2 y h2 with ⟨rfl, rfl⟩ | ⟨rfl, hn2, rfl⟩ | ⟨f1, f2, f3⟩
      · rw [hd] at p2; cases p2
      · exact absurd (k.inj n1 j _ _ p g3 hj p1 p2) g2
      · exact k.inj n1 n2 _ _ p g3 f3 p1 p2
  · obtain ⟨t1, t2⟩ := k.tight hc
    refine ⟨fun n x hx => ?_, fun q hq => ?_⟩
    · rcases look n x hx with ⟨rfl, rfl⟩ | ⟨rfl, hn, rfl⟩ | ⟨h1, h2, h3⟩
      · exact ⟨h0, fun _ => hd⟩
      · exact t1 j _ hj
      · exact t1 n _ h3
    · obtain ⟨n, x, h1, h2⟩ := t2 q hq
      by_cases e : n = j
      · subst e
        rw [hj] at h1; cases h1
        exact ⟨i, _, by simp [upd, hne], h2⟩
      · by_cases e' : n = i
        · subst e'
          rw [h1] at hi
          rw [Option.getD_some] at hi
          rw [hi] at h2; cases h2
        · exact ⟨n, x, by simp [upd, e, e', h1], h2⟩

theorem Holds.swap {s v} (k : Holds c s v) {i j a b x y} (hi : s.objs i = some a) (hj : s.objs j = some b) (vi : v i = some x) (vj : v j = some y) :
    Holds c ⟨s.heap, upd (upd s.objs i (some b)) j (some a)⟩ (upd (upd v i (some y)) j (some x)) := by
  have look : ∀ n z, (upd (upd s.objs i (some b)) j (some a)) n = some z →
      ∃ m w, s.objs m = some z ∧ v m = some w ∧ (upd (upd v i (some y)) j (some x)) n = some w ∧
        ((n = j ∧ m = i) ∨ (n = i ∧ n ≠ j ∧ m = j) ∨ (n ≠ i ∧ n ≠ j ∧ m = n)) := by
    intro n z hz
    unfold upd at hz ⊢
    split at hz
    · next e => cases hz; exact ⟨i, x, hi, vi, by rw [if_pos e], .inl ⟨e, rfl⟩⟩
    · next e =>
      rw [if_neg e]
      split at hz
      · next e' => cases hz; exact ⟨j, y, hj, vj, by rw [if_pos e'], .inr (.inl ⟨e', e, rfl⟩)⟩
      · next e' =>
        obtain ⟨w, hw, _⟩ := k.get hz
        exact ⟨n, w, hz, hw, by rw [if_neg e', hw], .inr (.inr ⟨e', e, rfl⟩)⟩
  refine ⟨fun n => ?_, fun n z w hz hw => ?_, fun n1 n2 z w p h1 h2 p1 p2 => ?_, k.fresh, fun hc => ?_⟩
  · unfold upd; dsimp only; split
    · rfl
    · split
      · rfl
      · exact k.dom n
  · obtain ⟨m, w', h1, h2, h3, _⟩ := look n z hz
    rw [h3] at hw; cases hw
    exact k.sees m _ _ h1 h2
  · obtain ⟨m1, _, g1, _, _, g2⟩ := look n1 z h1
    obtain ⟨m2, _, f1, _, _, f2⟩ := look n2 w h2
    have := k.inj m1 m2 _ _ p g1 f1 p1 p2
    omega
  · obtain ⟨t1, t2⟩ := k.tight hc
    refine ⟨fun n z hz => ?_, fun q hq => ?_⟩
    · obtain ⟨m, _, h1, _⟩ := look n z hz
      exact t1 m z h1
    · obtain ⟨n, z, h1, h2⟩ := t2 q hq
      by_cases e : n = i
      · subst e
        rw [hi] at h1; cases h1
        exact ⟨j, _, by simp [upd], h2⟩
      · by_cases e' : n = j
        · subst e'
          rw [hj] at h1; cases h1
          exact ⟨i, _, by simp [upd, Ne.symm e], h2⟩
        · exact ⟨n, z, by simp [upd, e, e', h1], h2⟩

end Verif.StackBuffer
