import Verif.Block.Iter

namespace Verif.Block

theorem pair_inj {B k j k' j' : Nat} (hj : j < B) (hj' : j' < B) (e : k * B + j = k' * B + j') :
    k = k' ∧ j = j' := by
  have h1 : (k * B + j) / B = k := by
    rw [Nat.mul_comm, Nat.mul_add_div (by omega), Nat.div_eq_of_lt hj]; rfl
  have h2 : (k' * B + j') / B = k' := by
    rw [Nat.mul_comm, Nat.mul_add_div (by omega), Nat.div_eq_of_lt hj']; rfl
  have : k = k' := by rw [← h1, ← h2, e]
  subst this
  exact ⟨rfl, by omega⟩

theorem mul_succ_le {B k L : Nat} (h : k < L) : k * B + B ≤ L * B := by
  have : (k + 1) * B ≤ L * B := Nat.mul_le_mul_right B h
  rw [Nat.add_mul] at this; omega

namespace Heap
variable {X : Type}

/-- never-allocated blocks are not live and contain nothing -/
structure Wf (h : Heap X) : Prop where
  live : ∀ b, h.live b = true → b < h.next
  cells : ∀ b, h.next ≤ b → ∀ j, h.cells b j = none

theorem Wf.empty : Wf (Heap.empty : Heap X) :=
  ⟨by simp [Heap.empty], by simp [Heap.empty]⟩

/-- Effect of an operation that may use the blocks `old` and ends up with the blocks `new`. -/
structure Frame (h h' : Heap X) (old new : List Nat) : Prop where
  wf : Wf h'
  next_le : h.next ≤ h'.next
  keep : ∀ b, b < h.next → b ∉ old → h'.live b = h.live b ∧ ∀ j, h'.cells b j = h.cells b j
  fresh : ∀ b, b ∈ new → b ∈ old ∨ h.next ≤ b
  noleak : ∀ b, h'.live b = true → b ∈ new ∨ (b < h.next ∧ b ∉ old)

theorem Frame.refl {h : Heap X} {l : List Nat} (w : Wf h) : Frame h h l l :=
  ⟨w, Nat.le_refl _, fun _ _ _ => ⟨rfl, fun _ => rfl⟩, fun _ hb => .inl hb, fun b hl => by
    by_cases hb : b ∈ l
    · exact .inl hb
    · exact .inr ⟨w.live b hl, hb⟩⟩

theorem Frame.trans {h h' h'' : Heap X} {o m n : List Nat} (f : Frame h h' o m)
    (g : Frame h' h'' m n) : Frame h h'' o n := by
  have hm : ∀ b, b < h.next → b ∉ o → b ∉ m := fun b hb ho hmem => by
    rcases f.fresh b hmem with h1 | h1
    · exact ho h1
    · omega
  refine ⟨g.wf, Nat.le_trans f.next_le g.next_le, ?_, ?_, ?_⟩
  · intro b hb ho
    obtain ⟨a1, a2⟩ := f.keep b hb ho
    obtain ⟨b1, b2⟩ := g.keep b (Nat.lt_of_lt_of_le hb f.next_le) (hm b hb ho)
    exact ⟨b1.trans a1, fun j => (b2 j).trans (a2 j)⟩
  · intro b hb
    rcases g.fresh b hb with h1 | h1
    · exact f.fresh b h1
    · exact .inr (Nat.le_trans f.next_le h1)
  · intro b hl
    rcases g.noleak b hl with h1 | ⟨h1, h2⟩
    · exact .inl h1
    · obtain ⟨a1, _⟩ := g.keep b h1 h2
      rcases f.noleak b (a1 ▸ hl) with h3 | h3
      · exact absurd h3 h2
      · exact .inr h3

/-- same blocks, in another order or list shape -/
theorem Frame.congr {h h' : Heap X} {o o' n n' : List Nat} (f : Frame h h' o n)
    (ho : ∀ b, b ∈ o ↔ b ∈ o') (hn : ∀ b, b ∈ n ↔ b ∈ n') : Frame h h' o' n' :=
  ⟨f.wf, f.next_le, fun b hb hb' => f.keep b hb (fun x => hb' ((ho b).1 x)),
    fun b hb => (f.fresh b ((hn b).2 hb)).imp_left (ho b).1,
    fun b hl => (f.noleak b hl).imp (hn b).1 (fun ⟨x, y⟩ => ⟨x, fun z => y ((ho b).2 z)⟩)⟩

theorem Frame.extend {h h' : Heap X} {o n : List Nat} (f : Frame h h' o n) (l : List Nat) :
    Frame h h' (l ++ o) (l ++ n) := by
  refine ⟨f.wf, f.next_le, fun b hb hn => f.keep b hb (fun x => hn (List.mem_append_right _ x)), ?_, ?_⟩
  · intro b hb
    rcases List.mem_append.1 hb with h1 | h1
    · exact .inl (List.mem_append_left _ h1)
    · exact (f.fresh b h1).imp_left (List.mem_append_right _)
  · intro b hb
    by_cases hl : b ∈ l
    · exact .inl (List.mem_append_left _ hl)
    · rcases f.noleak b hb with h1 | ⟨h1, h2⟩
      · exact .inl (List.mem_append_right _ h1)
      · exact .inr ⟨h1, fun hm => (List.mem_append.1 hm).elim hl h2⟩

theorem setCell_cells (h : Heap X) (b j : Nat) (x : Option X) (b' j' : Nat) :
    (h.setCell b j x).cells b' j' = if b' = b ∧ j' = j then x else h.cells b' j' := rfl

theorem setCell_live (h : Heap X) (b j : Nat) (x : Option X) : (h.setCell b j x).live = h.live := rfl
theorem setCell_next (h : Heap X) (b j : Nat) (x : Option X) : (h.setCell b j x).next = h.next := rfl

theorem Frame.setCell {h : Heap X} (w : Wf h) {l : List Nat} {b : Nat} (hb : b ∈ l)
    (hl : h.live b = true) (j : Nat) (x : Option X) : Frame h (h.setCell b j x) l l := by
  refine ⟨⟨w.live, ?_⟩, Nat.le_refl _, ?_, fun _ hb => .inl hb, ?_⟩
  · intro b' hb' j'
    rw [setCell_cells, if_neg, w.cells b' hb' j']
    rintro ⟨rfl, _⟩
    exact absurd (w.live _ hl) (by simp only [setCell_next] at hb'; omega)
  · intro b' _ hn
    refine ⟨rfl, fun j' => ?_⟩
    rw [setCell_cells, if_neg]
    rintro ⟨rfl, _⟩
    exact hn hb
  · intro b' hl'
    by_cases hb' : b' ∈ l
    · exact .inl hb'
    · exact .inr ⟨w.live b' hl', hb'⟩

theorem Frame.alloc {h : Heap X} (w : Wf h) (l : List Nat) :
    Frame h h.alloc.2 l (h.next :: l) := by
  refine ⟨⟨?_, ?_⟩, Nat.le_succ _, ?_, ?_, ?_⟩
  · intro b hb
    simp only [Heap.alloc] at hb ⊢
    split at hb
    · omega
    · have := w.live b hb; omega
  · intro b hb j
    exact w.cells b (by simp only [Heap.alloc] at hb; omega) j
  · intro b hb _
    refine ⟨?_, fun j => rfl⟩
    simp only [Heap.alloc]
    rw [if_neg (by omega)]
  · intro b hb
    rcases List.mem_cons.1 hb with rfl | hb
    · exact .inr (Nat.le_refl _)
    · exact .inl hb
  · intro b hb
    simp only [Heap.alloc] at hb
    split at hb
    · subst b; exact .inl (List.mem_cons_self ..)
    · by_cases hbl : b ∈ l
      · exact .inl (List.mem_cons_of_mem _ hbl)
      · exact .inr ⟨w.live b hb, hbl⟩

theorem alloc_fst (h : Heap X) : h.alloc.1 = h.next := rfl
theorem alloc_cells (h : Heap X) : h.alloc.2.cells = h.cells := rfl
theorem alloc_live (h : Heap X) (b : Nat) :
    h.alloc.2.live b = if b = h.next then true else h.live b := rfl

theorem dealloc_eq {h : Heap X} {bs b : Nat} (hl : h.live b = true)
    (hc : ∀ j, j < bs → h.cells b j = none) :
    h.dealloc bs b = some { h with live := fun b' => if b' = b then false else h.live b' } := by
  rw [Heap.dealloc, if_pos]
  refine ⟨hl, ?_⟩
  simp only [List.all_eq_true, List.mem_range, Option.isNone_iff_eq_none]
  exact hc

theorem Frame.dealloc {h : Heap X} (w : Wf h) {l l' : List Nat} {b : Nat}
    (hl : ∀ b', b' ∈ l ↔ b' = b ∨ b' ∈ l') (hb : b ∉ l') :
    Frame h { h with live := fun b' => if b' = b then false else h.live b' } l l' := by
  refine ⟨⟨?_, w.cells⟩, Nat.le_refl _, ?_, fun b' h' => .inl ((hl b').2 (.inr h')), ?_⟩
  · intro b' hb'
    simp only at hb'
    split at hb'
    · cases hb'
    · exact w.live _ hb'
  · intro b' _ hn
    refine ⟨?_, fun _ => rfl⟩
    simp only
    rw [if_neg]
    rintro rfl
    exact hn ((hl b').2 (.inl rfl))
  · intro b' hb'
    simp only at hb'
    split at hb'
    · cases hb'
    · rename_i hne
      by_cases h' : b' ∈ l'
      · exact .inl h'
      · refine .inr ⟨w.live _ hb', fun hm => ?_⟩
        rcases (hl b').1 hm with h1 | h1
        · exact hne h1
        · exact h' h1

theorem construct_eq {h : Heap X} {bs b j : Nat} (x : X) (hl : h.live b = true) (hj : j < bs)
    (hc : h.cells b j = none) : h.construct bs b j x = some (h.setCell b j (some x)) := by
  rw [Heap.construct, if_pos ⟨hl, hj, by rw [hc]; rfl⟩]

theorem destroy_eq {h : Heap X} {bs b j : Nat} {x : X} (hl : h.live b = true) (hj : j < bs)
    (hc : h.cells b j = some x) : h.destroy bs b j = some (h.setCell b j none) := by
  rw [Heap.destroy, if_pos ⟨hl, hj, by rw [hc]; rfl⟩]

theorem assign_eq {h : Heap X} {bs b j : Nat} {x : X} (y : X) (hl : h.live b = true) (hj : j < bs)
    (hc : h.cells b j = some x) : h.assign bs b j y = some (h.setCell b j (some y)) := by
  rw [Heap.assign, if_pos ⟨hl, hj, by rw [hc]; rfl⟩]

theorem read_eq {h : Heap X} {bs b j : Nat} (hl : h.live b = true) (hj : j < bs) :
    h.read bs b j = h.cells b j := by
  rw [Heap.read, if_pos ⟨hl, hj⟩]

end Heap

/-- The first entries of an array of block pointers are the given blocks. -/
structure ArrOK (p : SlotPtr) (avail : Nat) (us : List Nat) : Prop where
  len : (p.getD []).length = avail
  take : (p.getD []).take us.length = us.map some

theorem ArrOK.le {p avail us} (a : ArrOK p avail us) : us.length ≤ avail := by
  have := congrArg List.length a.take
  rw [List.length_take, List.length_map, a.len] at this
  omega

theorem ArrOK.entry {p avail us} (a : ArrOK p avail us) {k b : Nat} (h : us[k]? = some b) :
    (p.getD [])[k]? = some (some b) := by
  obtain ⟨hk, he⟩ := List.getElem?_eq_some_iff.1 h
  have : ((p.getD []).take us.length)[k]? = some (some b) := by
    rw [a.take, List.getElem?_map, h]; rfl
  rwa [List.getElem?_take, if_pos hk] at this

theorem slotGet_nat (p : SlotPtr) (k : Nat) : slotGet p (k : Int) = ((p.getD [])[k]?).join := by
  cases p <;> simp [slotGet]

theorem ArrOK.slotGet {p avail us} (a : ArrOK p avail us) {k : Nat} {b : Nat} (h : us[k]? = some b) :
    slotGet p (k : Int) = some b := by
  rw [slotGet_nat, a.entry h]; rfl

theorem ArrOK.getD {p : SlotPtr} {avail us} (a : ArrOK p avail us) (h : 0 < avail) :
    ∃ l, p = some l ∧ l.length = avail ∧ l.take us.length = us.map some := by
  cases p with
  | none => have := a.len; simp at this; omega
  | some l => exact ⟨l, rfl, a.len, a.take⟩

theorem ArrOK.snoc {p avail us} (a : ArrOK p avail us) (h : us.length < avail) (b : Nat) :
    ∃ p', slotSet p (us.length : Int) b = some p' ∧ ArrOK p' avail (us ++ [b]) ∧ p' ≠ some [] := by
  obtain ⟨l, rfl, hl, ht⟩ := a.getD (by omega)
  refine ⟨some (l.set us.length (some b)), ?_, ⟨?_, ?_⟩, ?_⟩
  · rw [slotSet, if_pos ⟨by omega, by omega⟩]; simp
  · simpa using hl
  · simp only [Option.getD_some, List.length_append, List.length_singleton, List.map_append,
      List.map_cons, List.map_nil]
    rw [List.take_add_one, List.take_set_of_le (Nat.le_refl _), ht,
      List.getElem?_set_self (by omega)]
    rfl
  · intro h; have := congrArg (fun p => (Option.getD p []).length) h; simp at this
    subst this; simp at hl; omega

theorem ArrOK.init {p avail us b} (a : ArrOK p avail (us ++ [b])) : ArrOK p avail us := by
  refine ⟨a.len, ?_⟩
  have := a.take
  rw [List.length_append, List.length_singleton] at this
  have h := congrArg (List.take us.length) this
  rw [List.take_take, Nat.min_eq_left (by omega), List.map_append,
    List.take_append_of_le_length (by simp)] at h
  rw [h]
  exact List.take_of_length_le (by simp)

theorem ArrOK.double {p : SlotPtr} {avail us} (a : ArrOK p avail us) :
    ArrOK (p.map fun l => l.take avail ++ List.replicate avail none) (if p.isNone then 0 else avail * 2) us := by
  cases p with
  | none => exact ⟨rfl, by have := a.take; simpa using this⟩
  | some l =>
    have hl : l.length = avail := a.len
    refine ⟨by simp [hl]; omega, ?_⟩
    simp only [Option.map_some, Option.getD_some]
    have := a.le
    rw [List.take_append_of_le_length (by simp; omega), List.take_take, Nat.min_eq_left (by omega)]
    exact a.take

theorem ArrOK.nil (n : Nat) : ArrOK (some (List.replicate n none)) n [] := ⟨by simp, by simp⟩

end Verif.Block
