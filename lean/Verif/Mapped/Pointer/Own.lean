import Verif.Mapped.Pointer.Spec

/-
Helper lemmas: which objects exist.
-/
namespace Verif.Mapped.Pointer
variable {V : Type}

/-- The heap holds exactly the objects listed, each listed once. -/
structure Own (h : Objs V) (os : List (Option (Nat × V))) : Prop where
  val : ∀ p x, h.val p = some x ↔ some (p, x) ∈ os
  uniq : ∀ (i j : Nat) (p : Nat) (x y : V), os[i]? = some (some (p, x)) → os[j]? = some (some (p, y)) → i = j
  fresh : ∀ p x, some (p, x) ∈ os → p < h.next

namespace Own
variable {h : Objs V} {os : List (Option (Nat × V))}

theorem nil : Own (Objs.empty : Objs V) [] := ⟨by simp [Objs.empty], by simp, by simp⟩

theorem val_fresh (w : Own h os) : h.val h.next = none := by
  cases e : h.val h.next with
  | none => rfl
  | some x => exact absurd (w.fresh _ _ ((w.val _ _).1 e)) (Nat.lt_irrefl _)

theorem nameOf (w : Own h os) {i : Nat} {p : Nat} {x : V} (hi : os[i]? = some (some (p, x))) : h.val p = some x :=
  (w.val p x).2 (List.mem_of_getElem? hi)

theorem makeOpt_next (x : Option V) : (h.makeOpt x).1.next = h.next + count x := by cases x <;> rfl

theorem makeOpt_name (x : Option V) : (h.makeOpt x).2 = (x.map fun x => (h.next, x)).map (·.1) := by cases x <;> rfl

theorem append (w : Own h os) (x : Option V) : Own (h.makeOpt x).1 (os ++ [x.map fun x => (h.next, x)]) := by
  cases x with
  | none =>
    refine ⟨?_, ?_, ?_⟩
    · intro p x; simp [Objs.makeOpt, w.val]
    · intro i j p x y hi hj
      have : ∀ (i : Nat) (x : V), (os ++ [none])[i]? = some (some (p, x)) → os[i]? = some (some (p, x)) := by
        intro i x h
        rw [List.getElem?_append] at h
        split at h
        · exact h
        · have := List.mem_of_getElem? h; simp at this
      exact w.uniq i j p x y (this i x hi) (this j y hj)
    · intro p x hm; exact w.fresh p x (by simpa using hm)
  | some v =>
    have hv := w.val_fresh
    refine ⟨?_, ?_, ?_⟩
    · intro p x
      show (if p = h.next then some v else h.val p) = some x ↔ _
      simp only [Option.map_some, List.mem_append, List.mem_singleton, Option.some.injEq, Prod.mk.injEq]
      split
      · rename_i hp; subst hp
        constructor
        · intro e; exact .inr ⟨rfl, (Option.some.inj e).symm⟩
        · rintro (e | ⟨_, e⟩)
          · exact absurd (w.fresh _ _ e) (Nat.lt_irrefl _)
          · rw [e]
      · rename_i hp
        rw [w.val]
        constructor
        · exact .inl
        · rintro (e | ⟨e, _⟩)
          · exact e
          · exact absurd e hp
    · have key : ∀ (i : Nat) (p : Nat) (x : V), (os ++ [some (h.next, v)])[i]? = some (some (p, x)) →
          (os[i]? = some (some (p, x)) ∧ p < h.next) ∨ (i = os.length ∧ p = h.next) := by
        intro i p x e
        rw [List.getElem?_append] at e
        split at e
        · exact .inl ⟨e, w.fresh _ _ (List.mem_of_getElem? e)⟩
        · rename_i hi
          right
          have hb := (List.getElem?_eq_some_iff.1 e).1
          simp at hb
          have : i - os.length = 0 := by omega
          rw [this] at e; simp at e
          exact ⟨by omega, e.1.symm⟩
      intro i j p x y hi hj
      rcases key i p x hi with ⟨h1, h2⟩ | ⟨h1, h2⟩ <;> rcases key j p y hj with ⟨h3, h4⟩ | ⟨h3, h4⟩
      · exact w.uniq i j p x y h1 h3
      · omega
      · omega
      · omega
    · intro p x hm
      show p < h.next + 1
      simp only [Option.map_some, List.mem_append, List.mem_singleton, Option.some.injEq, Prod.mk.injEq] at hm
      rcases hm with e | ⟨e, _⟩
      · have := w.fresh p x e; omega
      · omega

/-- an object made and deleted again -/
theorem makeDelete (w : Own h os) (x : Option V) :
    ∃ h', (h.makeOpt x).1.delete (h.makeOpt x).2 = some h' ∧ Own h' os ∧ h'.next = h.next + count x := by
  cases x with
  | none => exact ⟨h, rfl, w, rfl⟩
  | some v =>
    have hv := w.val_fresh
    refine ⟨⟨fun q => if q = h.next then none else if q = h.next then some v else h.val q, h.next + 1⟩,
      by simp [Objs.makeOpt, Objs.make, Objs.delete], ?_, rfl⟩
    refine ⟨?_, w.uniq, fun p x hm => Nat.lt_succ_of_lt (w.fresh p x hm)⟩
    intro p x
    show (if p = h.next then none else if p = h.next then some v else h.val p) = some x ↔ _
    split
    · rename_i hp; subst hp
      rw [← w.val, hv]
    · exact w.val p x

theorem read (w : Own h os) {o : Option (Nat × V)} (hm : o ∈ os) : h.read (o.map (·.1)) = some o := by
  cases o with
  | none => rfl
  | some e => obtain ⟨p, x⟩ := e; simp [Objs.read, (w.val p x).2 hm]

theorem readAll (w : Own h os) : Pointer.readAll h (os.map fun o => o.map (·.1)) = some os := by
  have : ∀ l : List (Option (Nat × V)), (∀ o ∈ l, o ∈ os) → Pointer.readAll h (l.map fun o => o.map (·.1)) = some l := by
    intro l
    induction l with
    | nil => intro _; rfl
    | cons o l ih =>
      intro hl
      simp only [List.map_cons, Pointer.readAll, w.read (hl o (by simp)), Option.bind_some,
        ih (fun o h => hl o (List.mem_cons_of_mem _ h)), Option.map_some]
  exact this os fun _ h => h

theorem delete_next {p : Option Nat} {h' : Objs V} (e : h.delete p = some h') : h'.next = h.next := by
  cases p with
  | none => cases e; rfl
  | some p =>
    simp only [Objs.delete] at e
    split at e
    · cases e; rfl
    · cases e

theorem erase (w : Own h os) {i : Nat} {o : Option (Nat × V)} (hi : os[i]? = some o) :
    ∃ h', h.delete (o.map (·.1)) = some h' ∧ Own h' (os.eraseIdx i) := by
  have un : ∀ (j l : Nat) (p : Nat) (x y : V), (os.eraseIdx i)[j]? = some (some (p, x)) →
      (os.eraseIdx i)[l]? = some (some (p, y)) → j = l := by
    intro j l p x y h1 h2
    rw [List.getElem?_eraseIdx] at h1 h2
    split at h1 <;> split at h2
    · exact w.uniq _ _ _ _ _ h1 h2
    · have := w.uniq _ _ _ _ _ h1 h2; omega
    · have := w.uniq _ _ _ _ _ h1 h2; omega
    · have := w.uniq _ _ _ _ _ h1 h2; omega
  cases o with
  | none =>
    refine ⟨h, rfl, ?_, un, fun p x hm => w.fresh p x (List.mem_of_mem_eraseIdx hm)⟩
    intro p x
    rw [w.val, List.mem_eraseIdx_iff_getElem?]
    constructor
    · intro hm
      obtain ⟨j, hj⟩ := List.mem_iff_getElem?.1 hm
      refine ⟨j, ?_, hj⟩
      rintro rfl
      rw [hi] at hj; cases hj
    · rintro ⟨j, _, hj⟩; exact List.mem_of_getElem? hj
  | some e =>
    obtain ⟨p, x⟩ := e
    have hp := w.nameOf hi
    refine ⟨⟨fun q => if q = p then none else h.val q, h.next⟩, by simp [Objs.delete, hp], ?_, un, fun p x hm => w.fresh p x (List.mem_of_mem_eraseIdx hm)⟩
    intro q y
    show (if q = p then none else h.val q) = some y ↔ _
    rw [List.mem_eraseIdx_iff_getElem?]
    split
    · rename_i hq; subst hq
      simp only [reduceCtorEq, false_iff, not_exists, not_and]
      intro j hj e
      exact hj (w.uniq _ _ _ _ _ e hi)
    · rename_i hq
      rw [w.val]
      constructor
      · intro hm
        obtain ⟨j, hj⟩ := List.mem_iff_getElem?.1 hm
        refine ⟨j, ?_, hj⟩
        rintro rfl
        rw [hi] at hj; cases hj; exact hq rfl
      · rintro ⟨j, _, hj⟩; exact List.mem_of_getElem? hj

theorem set_of_append {i : Nat} {o n : Option (Nat × V)} (hi : os[i]? = some o) (w : Own h (os ++ [n])) :
    ∃ h', h.delete (o.map (·.1)) = some h' ∧ Own h' (os.set i n) := by
  have hl := (List.getElem?_eq_some_iff.1 hi).1
  obtain ⟨h', e, w'⟩ := w.erase (i := i) (o := o) (by rw [List.getElem?_append_left hl]; exact hi)
  refine ⟨h', e, ?_⟩
  have hs : (os ++ [n]).eraseIdx i = os.eraseIdx i ++ [n] := List.eraseIdx_append_of_lt_length hl _
  rw [hs] at w'
  have hmem : ∀ o', o' ∈ os.set i n ↔ o' ∈ os.eraseIdx i ++ [n] := by
    intro o'
    rw [List.mem_append, List.mem_eraseIdx_iff_getElem?, List.mem_iff_getElem?]
    constructor
    · rintro ⟨j, hj⟩
      rw [List.getElem?_set] at hj
      split at hj
      · right; cases hj; simp
      · rename_i hij; exact .inl ⟨j, fun e => hij e.symm, hj⟩
    · rintro (⟨j, hij, hj⟩ | hm)
      · exact ⟨j, by rw [List.getElem?_set, if_neg (fun e => hij e.symm)]; exact hj⟩
      · refine ⟨i, ?_⟩
        simp only [List.mem_singleton] at hm
        rw [List.getElem?_set, if_pos rfl, if_pos hl, hm]
  refine ⟨fun p x => (w'.val p x).trans (hmem _).symm, ?_, fun p x hm => w'.fresh p x ((hmem _).1 hm)⟩
  intro j l p x y hj hk
  rw [List.getElem?_set] at hj hk
  have hn : (os ++ [n])[os.length]? = some n := by simp
  have ha : ∀ (j : Nat) (x : V), os[j]? = some (some (p, x)) → (os ++ [n])[j]? = some (some (p, x)) ∧ j < os.length := by
    intro j x hj
    have := (List.getElem?_eq_some_iff.1 hj).1
    exact ⟨by rw [List.getElem?_append_left this]; exact hj, this⟩
  split at hj <;> split at hk
  · omega
  · obtain ⟨h1, h2⟩ := ha _ _ hk
    have := w.uniq _ _ _ _ _ (by rw [hn, Option.some.inj hj]) h1; omega
  · obtain ⟨h1, h2⟩ := ha _ _ hj
    have := w.uniq _ _ _ _ _ h1 (by rw [hn, Option.some.inj hk]); omega
  · exact w.uniq _ _ _ _ _ (ha _ _ hj).1 (ha _ _ hk).1

theorem write (w : Own h os) {i : Nat} {p : Nat} {x : V} (hi : os[i]? = some (some (p, x))) (y : V) :
    ∃ h', h.write p y = some h' ∧ Own h' (os.set i (some (p, y))) ∧ h'.next = h.next := by
  have hp := w.nameOf hi
  have hl := (List.getElem?_eq_some_iff.1 hi).1
  have un : ∀ (j : Nat) (q : Nat) (z : V), (os.set i (some (p, y)))[j]? = some (some (q, z)) →
      ∃ z', os[j]? = some (some (q, z')) := by
    intro j q z h1
    rw [List.getElem?_set] at h1
    split at h1
    · rename_i hij
      cases h1; exact ⟨x, hij ▸ hi⟩
    · exact ⟨z, h1⟩
  refine ⟨⟨fun q => if q = p then some y else h.val q, h.next⟩, by simp [Objs.write, hp], ⟨?_, ?_, ?_⟩, rfl⟩
  · intro q z
    show (if q = p then some y else h.val q) = some z ↔ _
    rw [List.mem_iff_getElem?]
    split
    · rename_i hq; subst hq
      constructor
      · intro e; cases e
        exact ⟨i, by rw [List.getElem?_set, if_pos rfl, if_pos hl]⟩
      · rintro ⟨j, hj⟩
        obtain ⟨z', hz⟩ := un j q z hj
        have := w.uniq _ _ _ _ _ hz hi
        subst this
        rw [List.getElem?_set, if_pos rfl, if_pos hl] at hj
        cases hj; rfl
    · rename_i hq
      rw [w.val, List.mem_iff_getElem?]
      constructor
      · rintro ⟨j, hj⟩
        refine ⟨j, ?_⟩
        rw [List.getElem?_set, if_neg]; exact hj
        rintro rfl; rw [hi] at hj; cases hj; exact hq rfl
      · rintro ⟨j, hj⟩
        refine ⟨j, ?_⟩
        rw [List.getElem?_set] at hj
        split at hj
        · cases hj; exact absurd rfl hq
        · exact hj
  · intro j l q z z' h1 h2
    obtain ⟨_, h3⟩ := un _ _ _ h1
    obtain ⟨_, h4⟩ := un _ _ _ h2
    exact w.uniq _ _ _ _ _ h3 h4
  · intro q z hm
    obtain ⟨j, hj⟩ := List.mem_iff_getElem?.1 hm
    obtain ⟨_, h3⟩ := un _ _ _ hj
    exact w.fresh _ _ (List.mem_of_getElem? h3)

theorem deleteAll : ∀ {os : List (Option (Nat × V))} {h : Objs V}, Own h os →
    ∃ h', h.deleteAll (os.map fun o => o.map (·.1)) = some h' ∧ Own h' [] ∧ h'.next = h.next
  | [], h, w => ⟨h, rfl, w, rfl⟩
  | o :: os, h, w => by
    obtain ⟨h1, e1, w1⟩ := w.erase (i := 0) (o := o) rfl
    obtain ⟨h2, e2, w2, n2⟩ := deleteAll (os := os) (h := h1) w1
    exact ⟨h2, by simp only [List.map_cons, Objs.deleteAll, e1, Option.bind_some, e2], w2, n2.trans (delete_next e1)⟩

end Own
end Verif.Mapped.Pointer
