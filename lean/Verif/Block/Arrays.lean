import Verif.Block.Heap

/-
The arrays of block pointers of StableBlockVector and StableBlockDeque (`new X*[n]` and `delete[]`): which of them
exist.  The contents of the arrays are in the models of the containers; here an array is a number.
-/
namespace Verif.Block

/-- The arrays made by `new X*[n]` and not deleted yet.  `next` is a number no array has had so far. -/
structure Ledger where
  next : Nat
  live : List Nat

namespace Ledger

def empty : Ledger := ⟨0, []⟩

/-- `new X*[n]` -/
def alloc (L : Ledger) : Nat × Ledger := (L.next, ⟨L.next + 1, L.next :: L.live⟩)

/-- `delete[] p`; a null pointer is allowed, a pointer that is not to a live array is undefined. -/
def delete (L : Ledger) : Option Nat → Option Ledger
  | none => some L
  | some a => if a ∈ L.live then some ⟨L.next, L.live.filter (· ≠ a)⟩ else none

/-- Numbers handed out are below `next`. -/
def Wf (L : Ledger) : Prop := ∀ a, a ∈ L.live → a < L.next

theorem Wf.empty : Wf Ledger.empty := by intro a h; cases h

/-- A step that replaces the arrays `old` by the arrays `new` and touches no others. -/
structure Frame (L L' : Ledger) (old new : List Nat) : Prop where
  wf : L'.Wf
  next : L.next ≤ L'.next
  mem : ∀ a, a ∈ L'.live ↔ a ∈ new ∨ (a ∈ L.live ∧ a ∉ old)
  nodup : new.Nodup
  fresh : ∀ a, a ∈ new → a ∈ old ∨ L.next ≤ a

theorem Frame.refl {L : Ledger} (wf : L.Wf) {o : List Nat} (nd : o.Nodup) (ho : ∀ a, a ∈ o → a ∈ L.live) :
    Frame L L o o :=
  ⟨wf, Nat.le_refl _, fun a => ⟨fun h => by by_cases ha : a ∈ o <;> simp [ha, h],
    fun h => h.elim (ho a) (·.1)⟩, nd, fun _ h => .inl h⟩

theorem Frame.trans {L L1 L2 : Ledger} {o m n : List Nat} (wf : L.Wf) (f : Frame L L1 o m) (g : Frame L1 L2 m n) :
    Frame L L2 o n := by
  refine ⟨g.wf, Nat.le_trans f.next g.next, fun a => ?_, g.nodup, fun a h => ?_⟩
  · rw [g.mem, f.mem]
    constructor
    · rintro (h | ⟨h | h, h'⟩)
      · exact .inl h
      · exact absurd h h'
      · exact .inr h
    · rintro (h | h)
      · exact .inl h
      · refine .inr ⟨.inr h, fun hm => ?_⟩
        rcases f.fresh a hm with h1 | h1
        · exact h.2 h1
        · have := wf a h.1; omega
  · rcases g.fresh a h with h1 | h1
    · exact f.fresh a h1
    · exact .inr (Nat.le_trans f.next h1)

theorem Frame.live {L L' : Ledger} {o n : List Nat} (f : Frame L L' o n) : ∀ a, a ∈ n → a ∈ L'.live :=
  fun a h => (f.mem a).2 (.inl h)

/-- A step on part of the arrays. -/
theorem Frame.more {L L' : Ledger} {o n : List Nat} (wf : L.Wf) (f : Frame L L' o n) {r : List Nat} (nd : r.Nodup)
    (hr : ∀ a, a ∈ r → a ∈ L.live) (d : ∀ a, a ∈ r → a ∉ o) : Frame L L' (o ++ r) (n ++ r) := by
  refine ⟨f.wf, f.next, fun a => ?_, ?_, fun a h => ?_⟩
  · rw [f.mem]
    simp only [List.mem_append, not_or]
    constructor
    · rintro (h | h)
      · exact .inl (.inl h)
      · by_cases ha : a ∈ r
        · exact .inl (.inr ha)
        · exact .inr ⟨h.1, h.2, ha⟩
    · rintro ((h | h) | h)
      · exact .inl h
      · exact .inr ⟨hr a h, d a h⟩
      · exact .inr ⟨h.1, h.2.1⟩
  · rw [List.nodup_append]
    refine ⟨f.nodup, nd, fun a h b hb e => ?_⟩
    subst e
    rcases f.fresh a h with h1 | h1
    · exact d a hb h1
    · have := wf a (hr a hb); omega
  · rcases List.mem_append.1 h with h | h
    · rcases f.fresh a h with h1 | h1
      · exact .inl (List.mem_append_left _ h1)
      · exact .inr h1
    · exact .inl (List.mem_append_right _ h)

theorem Frame.perm {L L' : Ledger} {o o' n n' : List Nat} (f : Frame L L' o n) (ho : o.Perm o') (hn : n.Perm n') :
    Frame L L' o' n' :=
  ⟨f.wf, f.next, fun a => by rw [f.mem, hn.mem_iff, ho.mem_iff], hn.nodup_iff.1 f.nodup,
    fun a h => by rw [← ho.mem_iff]; exact f.fresh a (hn.mem_iff.2 h)⟩

theorem Frame.alloc {L : Ledger} (wf : L.Wf) : Frame L L.alloc.2 [] [L.alloc.1] := by
  refine ⟨?_, Nat.le_succ _, fun a => by simp [Ledger.alloc], by simp, fun a h => ?_⟩
  · intro a h
    simp only [Ledger.alloc, List.mem_cons] at h ⊢
    rcases h with rfl | h
    · omega
    · have := wf a h; omega
  · simp only [List.mem_singleton] at h
    subst h; exact .inr (Nat.le_refl _)

theorem delete_eq {L : Ledger} {p : Option Nat} (h : ∀ a, a ∈ p.toList → a ∈ L.live) :
    ∃ L', L.delete p = some L' ∧ (L.Wf → Frame L L' p.toList []) := by
  cases p with
  | none => exact ⟨L, rfl, fun wf => .refl wf (by simp) (by simp)⟩
  | some a =>
    have ha : a ∈ L.live := h a (by simp)
    refine ⟨⟨L.next, L.live.filter (· ≠ a)⟩, by rw [Ledger.delete, if_pos ha],
      fun wf => ⟨fun b hb => wf b (List.mem_filter.1 hb).1, Nat.le_refl _, fun b => by simp, by simp, by simp⟩⟩

/-- A new array in place of the old one. -/
theorem replace {L : Ledger} {p : Option Nat} {r : List Nat} (wf : L.Wf) (nd : (p.toList ++ r).Nodup)
    (hl : ∀ x, x ∈ p.toList ++ r → x ∈ L.live) :
    ∃ L', L.alloc.2.delete p = some L' ∧ L.Frame L' (p.toList ++ r) (L.alloc.1 :: r) := by
  have fa := Ledger.Frame.alloc wf
  have nd' := List.nodup_append.1 nd
  have hp : ∀ x, x ∈ p.toList → x ∈ L.live := fun x h => hl x (List.mem_append_left _ h)
  have hr : ∀ x, x ∈ r → x ∈ L.live := fun x h => hl x (List.mem_append_right _ h)
  have f1 := fa.more (r := p.toList ++ r) wf nd hl (by simp)
  obtain ⟨L', e, fd⟩ := Ledger.delete_eq (L := L.alloc.2) (p := p)
    fun x h => f1.live x (by simp [h])
  have f2 := (fd f1.wf).more (r := L.alloc.1 :: r) f1.wf
    (by
      refine List.nodup_cons.2 ⟨fun h => ?_, nd'.2.1⟩
      have := wf _ (hr _ h); exact Nat.lt_irrefl _ this)
    (fun x h => f1.live x (by
      rcases List.mem_cons.1 h with rfl | h
      · simp
      · simp [h]))
    (fun x h hx => by
      rcases List.mem_cons.1 h with rfl | h
      · have := wf _ (hp _ hx); exact Nat.lt_irrefl _ this
      · exact nd'.2.2 x hx x h rfl)
  refine ⟨L', e, f1.trans wf (f2.perm ?_ (by simp))⟩
  simp only [List.cons_append, List.nil_append]
  exact List.perm_middle

end Ledger

theorem slotSet_isSome {p q : SlotPtr} {i : Int} {b : Nat} (h : slotSet p i b = some q) :
    q.isSome = true ∧ p.isSome = true := by
  cases p with
  | none => cases h
  | some l =>
    simp only [slotSet] at h
    split at h <;> cases h
    simp

theorem slotGet_isSome {p : SlotPtr} {i : Int} {b : Nat} (h : slotGet p i = some b) : p.isSome = true := by
  cases p with
  | none => cases h
  | some l => rfl

/-- A container with numbers for its arrays: what it is without them, which arrays it owns, and what is always true
of it. -/
structure Tagged (V A : Type) where
  erase : A → V
  owned : A → List Nat
  ok : A → Prop

variable {V A X : Type}

/-- The step `y` that also keeps track of arrays does the same as the step `x` that does not, and replaces the arrays
of object `a` by those of the new object. -/
def Same (T : Tagged V A) (L : Ledger) (a : A) (x : Option (V × Heap X)) (y : Option (A × Heap X × Ledger)) : Prop :=
  match x with
  | none => y = none
  | some (v, h) => ∃ a' L', y = some (a', h, L') ∧ T.erase a' = v ∧ T.ok a' ∧ L.Frame L' (T.owned a) (T.owned a')

/-- The state of one object before a step. -/
structure Owns (T : Tagged V A) (L : Ledger) (a : A) : Prop where
  ok : T.ok a
  wf : L.Wf
  nodup : (T.owned a).Nodup
  live : ∀ x, x ∈ T.owned a → x ∈ L.live

theorem Owns.after {T : Tagged V A} {L L' : Ledger} {o : List Nat} {a' : A} (ok : T.ok a')
    (f : L.Frame L' o (T.owned a')) : Owns T L' a' := ⟨ok, f.wf, f.nodup, f.live⟩

theorem Owns.refl {T : Tagged V A} {L : Ledger} {a : A} (O : Owns T L a) : L.Frame L (T.owned a) (T.owned a) :=
  .refl O.wf O.nodup O.live

theorem Same.pure {T : Tagged V A} {L : Ledger} {a a' : A} {h : Heap X} (O : Owns T L a) (ok : T.ok a')
    (ho : T.owned a' = T.owned a) : Same T L a (some (T.erase a', h)) (some (a', h, L)) :=
  ⟨a', L, rfl, rfl, ok, ho ▸ O.refl⟩

theorem Same.bind {T : Tagged V A} {L : Ledger} {a : A} {x : Option (V × Heap X)} {y : Option (A × Heap X × Ledger)}
    {f : V × Heap X → Option (V × Heap X)} {g : A × Heap X × Ledger → Option (A × Heap X × Ledger)} (wf : L.Wf)
    (s : Same T L a x y)
    (k : ∀ a' h L', Owns T L' a' → Same T L' a' (f (T.erase a', h)) (g (a', h, L'))) :
    Same T L a (x.bind f) (y.bind g) := by
  cases x with
  | none => simp only [Same] at s; subst s; exact rfl
  | some r =>
    obtain ⟨v, h⟩ := r
    obtain ⟨a', L', rfl, rfl, ok, fr⟩ := s
    have := k a' h L' (.after ok fr)
    simp only [Option.bind_some]
    revert this
    cases hf : f (T.erase a', h) with
    | none => exact id
    | some r =>
      rintro ⟨a2, L2, e, e2, ok2, fr2⟩
      exact ⟨a2, L2, e, e2, ok2, fr.trans wf fr2⟩

/-- A step on a part of an object. -/
theorem Same.bindVia {V' A' : Type} {T : Tagged V A} {T' : Tagged V' A'} (m : A' → A)
    (hm : ∀ q, T.owned (m q) = T'.owned q) {L : Ledger} {q : A'} {x : Option (V' × Heap X)}
    {y : Option (A' × Heap X × Ledger)} {f : V' × Heap X → Option (V × Heap X)}
    {g : A' × Heap X × Ledger → Option (A × Heap X × Ledger)} (wf : L.Wf) (s : Same T' L q x y)
    (k : ∀ q' h L', Owns T' L' q' → Same T L' (m q') (f (T'.erase q', h)) (g (q', h, L'))) :
    Same T L (m q) (x.bind f) (y.bind g) := by
  cases x with
  | none => simp only [Same] at s; subst s; exact rfl
  | some r =>
    obtain ⟨v, h⟩ := r
    obtain ⟨a', L', rfl, rfl, ok, fr⟩ := s
    have := k a' h L' (.after ok fr)
    simp only [Option.bind_some]
    revert this
    cases hf : f (T'.erase a', h) with
    | none => exact id
    | some r =>
      rintro ⟨a2, L2, e, e2, ok2, fr2⟩
      refine ⟨a2, L2, e, e2, ok2, ?_⟩
      rw [hm] at fr2 ⊢
      exact fr.trans wf fr2

/-- A step that does not depend on the arrays comes first. -/
theorem Same.bind' {T : Tagged V A} {L : Ledger} {a : A} {β : Type} {x : Option β}
    {f : β → Option (V × Heap X)} {g : β → Option (A × Heap X × Ledger)}
    (k : ∀ b, x = some b → Same T L a (f b) (g b)) : Same T L a (x.bind f) (x.bind g) := by
  cases x with
  | none => exact rfl
  | some b => exact k b rfl

/-- The account of all objects: `own i` are the arrays of object `i`. -/
structure Account (L : Ledger) (own : Nat → List Nat) : Prop where
  wf : L.Wf
  nodup : ∀ i, (own i).Nodup
  disj : ∀ i j, i ≠ j → ∀ x, x ∈ own i → x ∉ own j
  live : ∀ x, x ∈ L.live ↔ ∃ i, x ∈ own i

theorem Account.empty : Account .empty fun _ => [] :=
  ⟨.empty, by simp, by simp, by simp [Ledger.empty]⟩

/-- One object changes. -/
theorem Account.update {L L' : Ledger} {own own' : Nat → List Nat} (C : Account L own) (i : Nat)
    (f : L.Frame L' (own i) (own' i)) (h : ∀ k, k ≠ i → own' k = own k) : Account L' own' := by
  have old : ∀ k, k ≠ i → ∀ x, x ∈ own k → x ∉ own' i := by
    intro k hk x hx hx'
    rcases f.fresh x hx' with h1 | h1
    · exact C.disj k i hk x hx h1
    · have := C.wf x ((C.live x).2 ⟨k, hx⟩); omega
  refine ⟨f.wf, fun k => ?_, fun k l hkl x hx => ?_, fun x => ?_⟩
  · by_cases hk : k = i
    · subst hk; exact f.nodup
    · rw [h k hk]; exact C.nodup k
  · by_cases hk : k = i
    · subst hk
      rw [h l (Ne.symm hkl)]
      exact fun hl => old l (Ne.symm hkl) x hl hx
    · rw [h k hk] at hx
      by_cases hl : l = i
      · subst hl; exact old k hk x hx
      · rw [h l hl]; exact C.disj k l hkl x hx
  · rw [f.mem]
    constructor
    · rintro (hx | ⟨hx, hn⟩)
      · exact ⟨i, hx⟩
      · obtain ⟨k, hk⟩ := (C.live x).1 hx
        have : k ≠ i := by rintro rfl; exact hn hk
        exact ⟨k, by rw [h k this]; exact hk⟩
    · rintro ⟨k, hk⟩
      by_cases hki : k = i
      · subst hki; exact .inl hk
      · rw [h k hki] at hk
        exact .inr ⟨(C.live x).2 ⟨k, hk⟩, C.disj k i hki x hk⟩

/-- An object with no arrays takes over those of another one. -/
theorem Account.move {L : Ledger} {own own' : Nat → List Nat} (C : Account L own) {i j : Nat} (hij : i ≠ j)
    (hi : own i = []) (hi' : own' i = own j) (hj' : own' j = []) (h : ∀ k, k ≠ i → k ≠ j → own' k = own k) :
    Account L own' := by
  -- where the arrays of `k` were before
  have back : ∀ k, own' k = [] ∨ ∃ m, own' k = own m ∧ m = if k = i then j else k := by
    intro k
    by_cases hk : k = i
    · subst hk; exact .inr ⟨j, hi', by simp⟩
    · by_cases hk' : k = j
      · subst hk'; exact .inl hj'
      · exact .inr ⟨k, h k hk hk', by simp [hk]⟩
  refine ⟨C.wf, fun k => ?_, fun k l hkl x hx => ?_, fun x => ?_⟩
  · rcases back k with e | ⟨m, e, _⟩
    · simp [e]
    · rw [e]; exact C.nodup m
  · rcases back l with e | ⟨m, e, em⟩
    · simp [e]
    · rcases back k with e2 | ⟨m2, e2, em2⟩
      · simp [e2] at hx
      · rw [e]; rw [e2] at hx
        by_cases hm : m2 = m
        · exfalso
          by_cases h1 : k = i <;> by_cases h2 : l = i <;> simp only [h1, h2, if_true, if_false] at em em2
          · exact hkl (h1.trans h2.symm)
          · have hl : l = j := by omega
            rw [hm, ← e, hl, hj'] at hx; cases hx
          · have hk : k = j := by omega
            rw [← e2, hk, hj'] at hx; cases hx
          · exact hkl (by rw [← em, ← em2, hm])
        · exact C.disj m2 m hm x hx
  · rw [C.live]
    constructor
    · rintro ⟨k, hk⟩
      by_cases hki : k = i
      · subst hki; rw [hi] at hk; cases hk
      · by_cases hkj : k = j
        · subst hkj; exact ⟨i, by rw [hi']; exact hk⟩
        · exact ⟨k, by rw [h k hki hkj]; exact hk⟩
    · rintro ⟨k, hk⟩
      rcases back k with e | ⟨m, e, _⟩
      · rw [e] at hk; cases hk
      · exact ⟨m, by rw [← e]; exact hk⟩

end Verif.Block
