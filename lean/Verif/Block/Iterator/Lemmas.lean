import Verif.Block.HeapLemmas

namespace Verif.Block.Iter

/-- `it` is the iterator the constructor makes for element `n` of a block sequence: block
`n / bs`, offset `n % bs` (BlockIterator.hpp:33). -/
def Denotes (bs : Nat) (arr : SlotPtr) (it : Iter) (n : Nat) : Prop :=
  Iter.make arr (.slot ((n / bs : Nat) : Int)) ((n % bs : Nat) : Int) = some it

theorem Denotes.eqs {bs arr it n} (d : Denotes bs arr it n) :
    it.vec = .slot ((n / bs : Nat) : Int) ∧ it.offset = ((n % bs : Nat) : Int) ∧ it.pos = it.offset ∧
      derefVec arr it.vec = some it.blk := by
  simp only [Denotes, Iter.make, Option.map_eq_some_iff] at d
  obtain ⟨b, hb, rfl⟩ := d
  exact ⟨rfl, rfl, rfl, hb⟩

theorem Denotes.of {bs arr} {it : Iter} {n : Nat} (h1 : it.vec = .slot ((n / bs : Nat) : Int))
    (h2 : it.offset = ((n % bs : Nat) : Int)) (h3 : it.pos = it.offset)
    (h4 : derefVec arr it.vec = some it.blk) : Denotes bs arr it n := by
  rw [Denotes, Iter.make, ← h1, h4]
  cases it; simp_all

theorem Denotes.unique {bs arr it it' n} (d : Denotes bs arr it n) (d' : Denotes bs arr it' n) :
    it = it' := Option.some.inj (d.symm.trans d')

theorem derefVec_isSome (arr : SlotPtr) (k : Nat) :
    (derefVec arr (.slot (k : Int))).isSome = decide (k < (arr.getD []).length) := by
  cases arr with
  | none => simp [derefVec]
  | some l =>
    simp only [derefVec, Option.getD_some]
    rw [if_pos (by omega), Int.toNat_natCast]
    by_cases h : k < l.length
    · simp [h]
    · simp [h]

theorem denotes_iff (bs : Nat) (arr : SlotPtr) (n : Nat) :
    (∃ it, Denotes bs arr it n) ↔ n / bs < (arr.getD []).length := by
  have := derefVec_isSome arr (n / bs)
  simp only [Denotes, Iter.make, Option.map_eq_some_iff]
  constructor
  · rintro ⟨it, b, hb, _⟩
    rw [hb] at this; simpa using this.symm
  · intro h
    rw [decide_eq_true h] at this
    obtain ⟨b, hb⟩ := Option.isSome_iff_exists.1 this
    exact ⟨_, b, hb, rfl⟩

theorem Denotes.mono {bs arr it n m} (d : Denotes bs arr it n) (h : m ≤ n) :
    ∃ it', Denotes bs arr it' m := by
  rw [denotes_iff]
  exact Nat.lt_of_le_of_lt (Nat.div_le_div_right h) ((denotes_iff ..).1 ⟨it, d⟩)

theorem add_div_mod {bs n m : Nat} (hb : 0 < bs) :
    n / bs + (1 + (n % bs + m - bs) / bs) = (n + m) / bs ∧ (n % bs + m - bs) % bs = (n + m) % bs ∨
    n % bs + m < bs := by
  by_cases h : n % bs + m < bs
  · exact .inr h
  · left
    have h1 : n + m = bs * (n / bs + 1) + (n % bs + m - bs) := by
      have := Nat.div_add_mod n bs
      rw [Nat.mul_add]; omega
    constructor
    · rw [h1, Nat.mul_add_div hb]; omega
    · conv => rhs; rw [h1]
      rw [Nat.mul_add_mod]

theorem Denotes.add {bs arr it it' n m} (hb : 0 < bs) (d : Denotes bs arr it n)
    (d' : Denotes bs arr it' (n + m)) : it.addAssign bs arr m = some it' := by
  obtain ⟨v1, o1, p1, r1⟩ := d.eqs
  rw [addAssign, check]
  simp only [p1, o1]
  split
  · rename_i hge
    have hge' : bs ≤ n % bs + m := by omega
    rcases add_div_mod (n := n) (m := m) hb with ⟨e1, e2⟩ | h
    · have c1 : ((n % bs : Nat) : Int) + (m : Int) - (bs : Int) = ((n % bs + m - bs : Nat) : Int) := by
        omega
      have hv : moveVec it.vec (1 + ((n % bs + m - bs : Nat) : Int) / (bs : Int)) =
          .slot (((n + m) / bs : Nat) : Int) := by
        rw [v1, moveVec, ← e1]
        simp [Int.natCast_ediv]
      have ho : ((n % bs + m - bs : Nat) : Int) % (bs : Int) = (((n + m) % bs : Nat) : Int) := by
        rw [← e2]; simp
      rw [c1, hv, ho]
      exact d'
    · omega
  · rename_i hlt
    have hlt' : n % bs + m < bs := by omega
    have e1 : (n + m) / bs = n / bs := by
      have h1 : n + m = bs * (n / bs) + (n % bs + m) := by
        have := Nat.div_add_mod n bs; omega
      rw [h1, Nat.mul_add_div hb, Nat.div_eq_of_lt hlt']; rfl
    have e2 : (n + m) % bs = n % bs + m := by
      have h1 : n + m = bs * (n / bs) + (n % bs + m) := by
        have := Nat.div_add_mod n bs; omega
      rw [h1, Nat.mul_add_mod, Nat.mod_eq_of_lt hlt']
    refine congrArg some (Denotes.unique (Denotes.of ?_ ?_ rfl ?_) d')
    · simp only [e1, v1]
    · simp [e2]
    · simpa using r1

theorem incr_eq (bs : Int) (arr : SlotPtr) (it : Iter) : it.incr bs arr = it.addAssign bs arr 1 := rfl
theorem decr_eq (bs : Int) (arr : SlotPtr) (it : Iter) : it.decr bs arr = it.subAssign bs arr 1 := rfl

theorem sub_div_mod {bs n m : Nat} (hb : 0 < bs) (hm : m ≤ n) :
    (n / bs = (n - m) / bs + (1 + (m - n % bs - 1) / bs) ∧
      bs - 1 - (m - n % bs - 1) % bs = (n - m) % bs) ∨ m ≤ n % bs := by
  by_cases h : m ≤ n % bs
  · exact .inr h
  · left
    have hn := Nat.div_add_mod n bs
    have hd := Nat.div_add_mod (m - n % bs - 1) bs
    have hr := Nat.mod_lt (m - n % bs - 1) hb
    generalize hq : (m - n % bs - 1) / bs = q at *
    generalize hrr : (m - n % bs - 1) % bs = r at *
    -- n - m = bs * (n/bs - 1 - q) + (bs - 1 - r)
    have hle : bs * (q + 1) ≤ bs * (n / bs) + (bs - 1 - r) := by
      rw [Nat.mul_add]; omega
    have hq' : q + 1 ≤ n / bs := by
      rcases Nat.lt_or_ge (n / bs) (q + 1) with hlt | hge
      · have : bs * (n / bs + 1) ≤ bs * (q + 1) := Nat.mul_le_mul_left _ hlt
        rw [Nat.mul_add] at this; omega
      · exact hge
    have h1 : n - m = bs * (n / bs - 1 - q) + (bs - 1 - r) := by
      have e : bs * (n / bs) = bs * (n / bs - 1 - q) + bs * (q + 1) := by
        rw [← Nat.mul_add]; congr 1; omega
      rw [Nat.mul_add] at e; omega
    constructor
    · rw [h1, Nat.mul_add_div hb, Nat.div_eq_of_lt (show bs - 1 - r < bs by omega)]; omega
    · rw [h1, Nat.mul_add_mod, Nat.mod_eq_of_lt (by omega)]

/-- moving behind the slot array is undefined -/
theorem Denotes.add_none {bs arr it n m} (hb : 0 < bs) (d : Denotes bs arr it n)
    (h : (arr.getD []).length ≤ (n + m) / bs) : it.addAssign bs arr m = none := by
  have hn := (denotes_iff bs arr n).1 ⟨it, d⟩
  obtain ⟨v1, o1, p1, r1⟩ := d.eqs
  rw [addAssign, check]
  simp only [p1, o1]
  have hge' : bs ≤ n % bs + m := by
    refine Nat.le_of_not_lt fun hlt => ?_
    have h1 : n + m = bs * (n / bs) + (n % bs + m) := by
      have := Nat.div_add_mod n bs; omega
    rw [h1, Nat.mul_add_div hb, Nat.div_eq_of_lt hlt] at h
    omega
  rw [if_pos (by omega)]
  rcases add_div_mod (n := n) (m := m) hb with ⟨e1, e2⟩ | h
  · have c1 : ((n % bs : Nat) : Int) + (m : Int) - (bs : Int) = ((n % bs + m - bs : Nat) : Int) := by
      omega
    have hv : moveVec it.vec (1 + ((n % bs + m - bs : Nat) : Int) / (bs : Int)) =
        .slot (((n + m) / bs : Nat) : Int) := by
      rw [v1, moveVec, ← e1]
      simp [Int.natCast_ediv]
    rw [c1, hv]
    have : derefVec arr (.slot (((n + m) / bs : Nat) : Int)) = none := by
      cases arr with
      | none => rfl
      | some l =>
        simp only [derefVec]
        rw [if_pos (Int.natCast_nonneg _), List.getElem?_eq_none]
        exact h
    rw [this]; rfl
  · omega

theorem Denotes.sub {bs arr it it' n m} (hb : 0 < bs) (d : Denotes bs arr it n) (hm : m ≤ n)
    (d' : Denotes bs arr it' (n - m)) : it.subAssign bs arr m = some it' := by
  obtain ⟨v1, o1, p1, r1⟩ := d.eqs
  rw [subAssign, checkNeg]
  simp only [p1, o1]
  split
  · rename_i hlt
    have hlt' : n % bs < m := by omega
    rcases sub_div_mod hb hm with ⟨e1, e2⟩ | h
    · have c1 : -(((n % bs : Nat) : Int) - (m : Int)) - 1 = ((m - n % bs - 1 : Nat) : Int) := by omega
      have hv : moveVec it.vec (-(1 + ((m - n % bs - 1 : Nat) : Int) / (bs : Int))) =
          .slot (((n - m) / bs : Nat) : Int) := by
        rw [v1, moveVec]
        have : (((m - n % bs - 1 : Nat) : Int) / (bs : Int)) = (((m - n % bs - 1) / bs : Nat) : Int) := rfl
        rw [this]
        congr 1; omega
      have ho : (bs : Int) - 1 - ((m - n % bs - 1 : Nat) : Int) % (bs : Int) = (((n - m) % bs : Nat) : Int) := by
        have hr := Nat.mod_lt (m - n % bs - 1) hb
        have : ((m - n % bs - 1 : Nat) : Int) % (bs : Int) = (((m - n % bs - 1) % bs : Nat) : Int) := rfl
        rw [this]; omega
      rw [c1, hv, ho]
      exact d'
    · omega
  · rename_i hge
    have hge' : m ≤ n % bs := by omega
    have h1 : n - m = bs * (n / bs) + (n % bs - m) := by
      have := Nat.div_add_mod n bs; omega
    have hml := Nat.mod_lt n hb
    have e1 : (n - m) / bs = n / bs := by
      rw [h1, Nat.mul_add_div hb, Nat.div_eq_of_lt (show n % bs - m < bs by omega)]; rfl
    have e2 : (n - m) % bs = n % bs - m := by
      rw [h1, Nat.mul_add_mod, Nat.mod_eq_of_lt (by omega)]
    refine congrArg some (Denotes.unique (Denotes.of ?_ ?_ rfl ?_) d')
    · simp only [e1, v1]
    · simp only [e2]; omega
    · simpa using r1

theorem Denotes.eq_iff {bs arr it it' n n'} (d : Denotes bs arr it n)
    (d' : Denotes bs arr it' n') : it.eq it' = true ↔ n = n' := by
  obtain ⟨v1, o1, _, _⟩ := d.eqs
  obtain ⟨v2, o2, _, _⟩ := d'.eqs
  rw [Iter.eq, v1, v2, o1, o2]
  simp only [VecPtr.slot.injEq, Bool.and_eq_true, decide_eq_true_eq]
  constructor
  · rintro ⟨h1, h2⟩
    have a1 := Nat.div_add_mod n bs
    have a2 := Nat.div_add_mod n' bs
    have e1 : n / bs = n' / bs := by exact_mod_cast h1
    have e2 : n % bs = n' % bs := by exact_mod_cast h2
    rw [e1, e2] at a1; omega
  · rintro rfl; exact ⟨rfl, rfl⟩

theorem ne_eq_not_eq (a b : Iter) : a.ne b = !a.eq b := by
  rw [Iter.ne, Iter.eq]
  by_cases h1 : a.vec = b.vec <;> by_cases h2 : a.offset = b.offset <;> simp [h1, h2]

theorem Denotes.deref_eq {X : Type} {bs arr it n} (h : Heap X) (d : Denotes bs arr it n)
    {b : Nat} (hs : slotGet arr ((n / bs : Nat) : Int) = some b) :
    it.deref bs h = h.read bs b (n % bs) := by
  obtain ⟨v1, o1, p1, r1⟩ := d.eqs
  have hbk : it.blk = some b := by
    rw [v1] at r1
    cases arr with
    | none => simp [slotGet] at hs
    | some l =>
      simp only [slotGet, derefVec] at hs r1
      rw [if_pos (Int.natCast_nonneg _)] at hs r1
      rw [r1] at hs; simpa using hs
  rw [Iter.deref, hbk]
  simp only
  rw [p1, o1, if_pos (by omega)]
  rfl

/-- A loop from position `n` to position `n + k` sees the elements of those positions. -/
theorem Denotes.collect {X : Type} {bs arr} (hb : 0 < bs) (h : Heap X) {last : Iter} :
    ∀ (ys : List X) {it : Iter} {n fuel : Nat}, Denotes bs arr it n →
      Denotes bs arr last (n + ys.length) → ys.length ≤ fuel →
      (∀ i (hi : i < ys.length), ∃ b, slotGet arr (((n + i) / bs : Nat) : Int) = some b ∧
        h.read bs b ((n + i) % bs) = some ys[i]) →
      Iter.collect bs arr h last fuel it = some ys := by
  intro ys
  induction ys with
  | nil =>
    intro it n fuel d dl _ _
    have : it.ne last = false := by
      rw [ne_eq_not_eq, (Denotes.eq_iff d dl).2 (by simp)]; rfl
    cases fuel <;> simp [Iter.collect, this]
  | cons y ys ih =>
    intro it n fuel d dl hf hr
    have hne : it.ne last = true := by
      rw [ne_eq_not_eq]
      have : it.eq last ≠ true := fun h => by
        have := (Denotes.eq_iff d dl).1 h
        simp at this
      simpa using this
    obtain ⟨fuel, rfl⟩ : ∃ f, fuel = f + 1 := ⟨fuel - 1, by simp at hf; omega⟩
    obtain ⟨b, hb1, hb2⟩ := hr 0 (by simp)
    obtain ⟨it', d'⟩ := dl.mono (m := n + 1) (by simp only [List.length_cons]; omega)
    have hi : it.incr bs arr = some it' := by
      rw [incr_eq]; exact d.add hb d'
    rw [Iter.collect, if_pos hne, d.deref_eq h hb1]
    simp only [Nat.add_zero, List.getElem_cons_zero] at hb2
    rw [hb2]
    simp only [Option.bind_some]
    rw [hi]
    simp only [Option.bind_some]
    rw [ih d' (by simpa [Nat.add_assoc, Nat.add_comm 1] using dl) (by simpa using hf) ?_]
    · rfl
    · intro i hi
      have := hr (i + 1) (by simpa using hi)
      simpa [Nat.add_assoc, Nat.add_comm 1] using this

/-- the block pointer of the iterator is the one its `vec` points to -/
def Loaded (arr : SlotPtr) (it : Iter) : Prop := derefVec arr it.vec = some it.blk

theorem make_loaded {arr : SlotPtr} {v : VecPtr} {o : Int} {it : Iter} (e : make arr v o = some it) : Loaded arr it := by
  simp only [make, Option.map_eq_some_iff] at e
  obtain ⟨b, hb, rfl⟩ := e
  exact hb

theorem incr_loaded {bs : Int} {arr : SlotPtr} {it it' : Iter} (l : Loaded arr it) (e : it.incr bs arr = some it') :
    Loaded arr it' := by
  simp only [incr, check] at e
  split at e
  · simp only [Option.map_eq_some_iff] at e
    obtain ⟨b, hb, rfl⟩ := e
    exact hb
  · cases e; exact l

/-- comparisons of different constness in a loop agree with the ordinary one -/
theorem neMixed_eq {X : Type} {bs : Nat} {arr : SlotPtr} {h : Heap X} {it last : Iter} (junk : Bool) (l : Loaded arr it)
    (ll : Loaded arr last) (hd : it.ne last = true → ∃ x, it.deref bs h = some x) :
    ∀ swap, goOn arr junk swap it last = some (it.ne last) := by
  suffices it.neMixed arr junk last = some (it.ne last) ∧ last.neMixed arr junk it = some (it.ne last) by
    intro swap; cases swap
    · exact this.1
    · exact this.2
  by_cases hv : it.vec = last.vec
  · have h1 : it.ne last = !decide (it.offset = last.offset) := by simp [ne, hv]
    have h2 : decide (it.offset = last.offset) = decide (last.offset = it.offset) := by simp [eq_comm]
    refine ⟨?_, ?_⟩
    · rw [neMixed, eqMixed, checkEquivalence, if_pos hv, h1]; simp
    · rw [neMixed, eqMixed, checkEquivalence, if_pos hv.symm, h1, h2]; simp
  · have hne : it.ne last = true := by simp [ne, hv]
    obtain ⟨x, hx⟩ := hd hne
    have hn : nullAt arr junk it.vec = some false := by
      rw [Loaded] at l
      cases e : it.vec with
      | static =>
        rw [e] at l
        have hb : it.blk = none := (Option.some.inj l).symm
        rw [deref, hb] at hx; cases hx
      | slot i =>
        rw [e] at l
        rw [nullAt, l]
        cases hb : it.blk with
        | none => rw [deref, hb] at hx; cases hx
        | some b => rfl
    have hl : ∃ z, nullAt arr junk last.vec = some z := by
      rw [Loaded] at ll
      cases e : last.vec with
      | static => exact ⟨true, rfl⟩
      | slot i => rw [e] at ll; rw [nullAt, ll]; exact ⟨_, rfl⟩
    obtain ⟨z, hz⟩ := hl
    refine ⟨?_, ?_⟩
    · rw [neMixed, eqMixed, checkEquivalence, if_neg hv, hn, hne]; rfl
    · rw [neMixed, eqMixed, checkEquivalence, if_neg (fun e => hv e.symm), hz, hne]
      cases z <;> simp [hn]

theorem collectMixed_eq {X : Type} {bs : Nat} {arr : SlotPtr} {h : Heap X} {last : Iter} (junk swap : Bool)
    (ll : Loaded arr last) : ∀ {fuel : Nat} {it : Iter} {xs : List X}, Loaded arr it →
    collect bs arr h last fuel it = some xs → collectMixed bs arr h junk swap last fuel it = some xs := by
  intro fuel
  induction fuel with
  | zero =>
    intro it xs l e
    simp only [collect] at e
    split at e
    · cases e
    · rename_i hne
      have := neMixed_eq (bs := bs) (h := h) junk l ll fun hn => absurd hn hne
      rw [collectMixed, this swap]
      simp [hne, e]
  | succ fuel ih =>
    intro it xs l e
    simp only [collect] at e
    split at e
    · rename_i hne
      simp only [Option.bind_eq_some_iff, Option.map_eq_some_iff] at e
      obtain ⟨x, hx, it', hi, ys, hy, rfl⟩ := e
      have := neMixed_eq (bs := bs) (h := h) junk l ll fun _ => ⟨x, hx⟩
      rw [collectMixed, this swap]
      simp [hne, hx, hi, ih (incr_loaded l hi) hy]
    · rename_i hne
      have := neMixed_eq (bs := bs) (h := h) junk l ll fun hn => absurd hn hne
      rw [collectMixed, this swap]
      simp [hne, e]

end Verif.Block.Iter
