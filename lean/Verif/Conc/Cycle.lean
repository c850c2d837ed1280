import Verif.Conc.Extend

/-
Infinite executions that repeat themselves, independently of any container.
-/
namespace Verif.Conc
variable {S Op Out : Type} {M : Sys S Op Out}

/-- the action at time `i` when `as` is followed by `bs` again and again -/
def again (as bs : List (Act Op)) (i : Nat) : Option (Act Op) := if i < as.length then as[i]? else bs[(i - as.length) % bs.length]?

/-- If a finite execution `as` leads to a state and `bs` leads from there back to the same state, `bs` can be repeated for
ever. -/
theorem Infinite.cycle {as bs : List (Act Op)} {s : S} {h h' : List (Event Op Out)} (e : M.run M.init as = some (s, h))
    (e' : M.run s bs = some (s, h')) (hb : bs ≠ []) : ∃ E : Infinite M, (∀ i, some (E.act i) = again as bs i) ∧
      (∀ k, E.st (as.length + k * bs.length) = s) ∧ ∀ i, ∀ x ∈ E.out i, x ∈ h ∨ x ∈ h' := by
  have hpos : 0 < bs.length := List.length_pos_iff.2 hb
  let st : Nat → S := fun i => if i ≤ as.length then (((M.run M.init (as.take i)).map Prod.fst).getD s)
    else (((M.run s (bs.take ((i - as.length) % bs.length))).map Prod.fst).getD s)
  have run_take : ∀ {cs : List (Act Op)} {s0 s1 : S} {h1 : List (Event Op Out)}, M.run s0 cs = some (s1, h1) → ∀ i (hi : i < cs.length),
      ∃ x y ox oy, M.run s0 (cs.take i) = some (x, ox) ∧ M.exec x cs[i] = some (y, oy) ∧ M.run s0 (cs.take (i + 1)) = some (y, ox ++ oy) ∧
        ∀ z ∈ oy, z ∈ h1 := by
    intro cs s0 s1 h1 ec i hi
    rw [← List.take_append_drop i cs, List.drop_eq_getElem_cons hi] at ec
    obtain ⟨x, ox, h2, e1, e2, e4⟩ := Sys.run_before _ ec
    simp only [Sys.run, Option.bind_eq_some_iff, Option.map_eq_some_iff] at e2
    obtain ⟨⟨y, oy⟩, e3, r, _, e5⟩ := e2
    refine ⟨x, y, ox, oy, e1, e3, ?_, fun z hz => ?_⟩
    rotate_left
    · rw [e4, ← (Prod.mk.inj e5).2]; simp [hz]
    rw [List.take_succ_eq_append_getElem hi]
    refine Sys.run_append _ e1 ?_
    simp only [Sys.run, e3, Option.bind_some, Option.map_some, List.append_nil]
  have stAt : ∀ k, st (as.length + k) = ((M.run s (bs.take (k % bs.length))).map Prod.fst).getD s := by
    intro k
    simp only [st]
    by_cases hk : k = 0
    · subst hk; simp [e, Sys.run]
    · rw [if_neg (by omega), show as.length + k - as.length = k by omega]
  have hact : ∀ i, ∃ a, again as bs i = some a := by
    intro i
    simp only [again]
    split
    · rename_i hi; exact ⟨_, List.getElem?_eq_getElem hi⟩
    · exact ⟨_, List.getElem?_eq_getElem (Nat.mod_lt _ hpos)⟩
  have hstep : ∀ i, ∃ a o, again as bs i = some a ∧ M.exec (st i) a = some (st (i + 1), o) ∧ ∀ x ∈ o, x ∈ h ∨ x ∈ h' := by
    intro i
    by_cases hi : i < as.length
    · obtain ⟨x, y, ox, oy, e1, e2, e3, e4⟩ := run_take e i hi
      refine ⟨as[i], oy, ?_, ?_, fun z hz => .inl (e4 z hz)⟩
      · simp [again, hi]
      · have h1 : st i = x := by simp only [st]; rw [if_pos (by omega), e1]; rfl
        have h2 : st (i + 1) = y := by simp only [st]; rw [if_pos (by omega), e3]; rfl
        rw [h1, h2]; exact e2
    · obtain ⟨k, rfl⟩ : ∃ k, i = as.length + k := ⟨i - as.length, by omega⟩
      have hk := Nat.mod_lt k hpos
      obtain ⟨x, y, ox, oy, e1, e2, e3, e4⟩ := run_take e' (k % bs.length) hk
      refine ⟨bs[k % bs.length], oy, ?_, ?_, fun z hz => .inr (e4 z hz)⟩
      · simp only [again, if_neg hi, show as.length + k - as.length = k by omega]
        exact List.getElem?_eq_getElem hk
      · have h1 : st (as.length + k) = x := by rw [stAt, e1]; rfl
        have h2 : st (as.length + k + 1) = y := by
          rw [show as.length + k + 1 = as.length + (k + 1) from rfl, stAt]
          by_cases hl : k % bs.length + 1 = bs.length
          · have h0 : (k + 1) % bs.length = 0 := by rw [← Nat.mod_add_mod, hl, Nat.mod_self]
            rw [h0]
            simp only [List.take_zero, Sys.run, Option.map_some, Option.getD_some]
            rw [hl, List.take_length, e'] at e3
            cases e3; rfl
          · have h0 : (k + 1) % bs.length = k % bs.length + 1 := by
              rw [Nat.add_mod]
              by_cases h1 : bs.length = 1
              · omega
              · rw [Nat.mod_eq_of_lt (a := 1) (by omega), Nat.mod_eq_of_lt (by omega)]
            rw [h0, e3]; rfl
        rw [h1, h2]; exact e2
  let act : Nat → Act Op := fun i => (hact i).choose
  have hact' : ∀ i, again as bs i = some (act i) := fun i => (hact i).choose_spec
  have hs : ∀ i, ∃ o, M.exec (st i) (act i) = some (st (i + 1), o) ∧ ∀ x ∈ o, x ∈ h ∨ x ∈ h' := by
    intro i
    obtain ⟨a, o, h1, h2, h3⟩ := hstep i
    rw [hact' i] at h1; cases h1
    exact ⟨o, h2, h3⟩
  refine ⟨⟨act, st, fun i => (hs i).choose, by simp [st, Sys.run], fun i => (hs i).choose_spec.1⟩, fun i => (hact' i).symm, fun k => ?_,
    fun i => (hs i).choose_spec.2⟩
  show st _ = s
  rw [stAt, Nat.mul_mod_left]
  simp [Sys.run]

/-- the actions of `bs` happen again and again -/
theorem Infinite.recurs {as bs : List (Act Op)} {E : Infinite M} (h : ∀ i, some (E.act i) = again as bs i) {a : Act Op} (ha : a ∈ bs) (i : Nat) :
    ∃ j, i ≤ j ∧ E.act j = a := by
  obtain ⟨n, hn, rfl⟩ := List.getElem_of_mem ha
  refine ⟨as.length + (i * bs.length + n), ?_, ?_⟩
  · have : i ≤ i * bs.length := Nat.le_mul_of_pos_right i (by omega)
    omega
  · apply Option.some.inj
    rw [h, again, if_neg (by omega), show as.length + (i * bs.length + n) - as.length = i * bs.length + n by omega, Nat.mul_add_mod_self_right,
      Nat.mod_eq_of_lt hn]
    exact List.getElem?_eq_getElem hn

/-- no other actions happen -/
theorem Infinite.among {as bs : List (Act Op)} {E : Infinite M} (h : ∀ i, some (E.act i) = again as bs i) (i : Nat) : E.act i ∈ as ∨ E.act i ∈ bs := by
  have := h i
  simp only [again] at this
  split at this
  · exact .inl (List.mem_of_getElem? this.symm)
  · exact .inr (List.mem_of_getElem? this.symm)

end Verif.Conc
