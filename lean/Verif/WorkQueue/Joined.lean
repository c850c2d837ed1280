import Verif.WorkQueue.Close

/-
A call of closeWorkerQueue returns only when all workers have exited, however many clients close the queue at the same time.
-/
namespace Verif.WorkQueue
open Verif.Conc State

variable {n t c : Nat} {s s' : State} {h : List (Event Op Out)} {l : Loc} {o : Option Out}

/-- positions of closeWorkerQueue called by a client -/
def inside : Loc → Bool
  | .dTest => false
  | .aCheck (some (.task _)) _ _ => false
  | l => closing l

theorem step_inside (h : stepAt n s t c l = some (s', o)) (hl : closing l = true) :
    (inside l = true → inside (s'.loc t) = true ∨ l = .cJoin n false ∨ l = .cOut) ∧ (s'.loc t = .cOut → l = .cJoin n true) := by
  have go : ∀ {s1 : State} {l'}, (s1.goto t l').loc t = l' := by intro s1 l'; rw [loc_goto, upd_same]
  have back : ∀ {s1 : State} {k}, (s1.back t (.close k)).loc t = .cLoop k := by intro s1 k; simp only [State.back]; rw [go]
  cases l with
  | aCheck b p r =>
    cases r with
    | client => cases hl
    | close k =>
      cases b with
      | none =>
        obtain ⟨rfl, rfl⟩ := Prod.mk.inj (Option.some.inj h)
        rw [back]; simp [inside, closing, Ret.isClose]
      | some b =>
        simp only [stepAt] at h
        split at h
        · obtain ⟨rfl, rfl⟩ := Prod.mk.inj (Option.some.inj h)
          rw [back]; simp [inside, closing, Ret.isClose]
        · split at h
          · obtain ⟨rfl, rfl⟩ := Prod.mk.inj (Option.some.inj h)
            rw [go]; simp [inside, closing, Ret.isClose]
          · split at h
            · obtain ⟨rfl, rfl⟩ := Prod.mk.inj (Option.some.inj h)
              rw [back]; simp [inside, closing, Ret.isClose]
            · obtain ⟨rfl, rfl⟩ := Prod.mk.inj (Option.some.inj h)
              rw [go]; simp [inside, closing, Ret.isClose]
  | aSize b p r =>
    cases r with
    | client => cases hl
    | close k => obtain ⟨rfl, rfl⟩ := Prod.mk.inj (Option.some.inj h); rw [go]; simp [inside, closing, Ret.isClose]
  | aPush b p r m =>
    cases r with
    | client => cases hl
    | close k => obtain ⟨rfl, rfl⟩ := Prod.mk.inj (Option.some.inj h); rw [go]; simp [inside, closing, Ret.isClose]
  | aNotify r m =>
    cases r with
    | client => cases hl
    | close k => obtain ⟨rfl, rfl⟩ := Prod.mk.inj (Option.some.inj h); rw [back]; simp [inside, closing, Ret.isClose]
  | dTest =>
    obtain ⟨rfl, rfl⟩ := Prod.mk.inj (Option.some.inj h); rw [go]
    cases hh : s.halt <;> simp [inside, closing, Ret.isClose]
  | cLock =>
    simp only [stepAt, State.lock] at h
    split at h
    · obtain ⟨rfl, rfl⟩ := Prod.mk.inj (Option.some.inj h); rw [go]; simp [inside, closing, Ret.isClose]
    · cases h
  | cTest =>
    obtain ⟨rfl, rfl⟩ := Prod.mk.inj (Option.some.inj h); rw [go]
    cases hh : s.halt <;> simp [inside, closing, Ret.isClose]
  | cUnlock =>
    obtain ⟨rfl, rfl⟩ := Prod.mk.inj (Option.some.inj h); rw [unlock, go]
    simp [inside, closing, Ret.isClose]
  | cClear q => cases q <;> obtain ⟨rfl, rfl⟩ := Prod.mk.inj (Option.some.inj h) <;> rw [go] <;> simp [inside, closing, Ret.isClose]
  | cLoop k => cases k <;> obtain ⟨rfl, rfl⟩ := Prod.mk.inj (Option.some.inj h) <;> rw [go] <;> simp [inside, closing, Ret.isClose]
  | cHalt | cNotify1 | cNotify2 => obtain ⟨rfl, rfl⟩ := Prod.mk.inj (Option.some.inj h); rw [go]; simp [inside, closing, Ret.isClose]
  | cJoin k b =>
    simp only [stepAt] at h
    split at h
    · next hk =>
      subst hk
      obtain ⟨rfl, rfl⟩ := Prod.mk.inj (Option.some.inj h); rw [go]
      cases b <;> simp [inside, closing, Ret.isClose]
    · split at h
      · obtain ⟨rfl, rfl⟩ := Prod.mk.inj (Option.some.inj h); rw [go]
        cases b <;> simp [inside, closing, Ret.isClose]
      · split at h
        · obtain ⟨rfl, rfl⟩ := Prod.mk.inj (Option.some.inj h); rw [go]
          cases b <;> simp [inside, closing, Ret.isClose]
        · cases h
  | cOut => obtain ⟨rfl, rfl⟩ := Prod.mk.inj (Option.some.inj h); rw [unlock, go]; simp
  | _ => cases hl

/-- what is always true, whoever closes the queue -/
structure Joins (n : Nat) (s : State) (h : List (Event Op Out)) : Prop where
  inv : Inv n s
  low : ∀ t k b, s.loc t = .cJoin k b → ∀ j, j < k → s.joined j = true
  out : ∀ t, s.loc t = .cOut → ∀ j, j < n → s.joined j = true
  done : ∀ t, .call t .close ∈ h → (∀ j, j < n → s.joined j = true) ∨ inside (s.loc t) = true
  early : ∀ t, .call t .close ∈ h → s.halt = true ∨ beforeHalt (s.loc t) = true

theorem joins_init (n : Nat) : Joins n (State.init n) [] := by
  have hl : ∀ t, closing ((State.init n).loc t) = false := by
    intro t
    simp only [State.init]
    split <;> simp [closing]
  exact ⟨inv_init n, fun t k b h => (by have := hl t; rw [h] at this; cases this), fun t h => (by have := hl t; rw [h] at this; cases this),
    fun t h => (by cases h), fun t h => (by cases h)⟩

theorem joins_call {op : Op} (k : Joins n s h) (hc : s.call n t op = some s') : Joins n s' (h ++ [.call t op]) := by
  have hi := inv_call k.inv hc
  obtain ⟨hid, rfl⟩ := call_eq hc
  obtain ⟨h1, h2, h3, h4⟩ := closing_start n op
  have hmem : ∀ u, .call u .close ∈ h ++ [.call t op] → .call u .close ∈ h ∨ (u = t ∧ op = .close) := by
    intro u hm
    rcases List.mem_append.1 hm with hm | hm
    · exact .inl hm
    · simp only [List.mem_singleton, Event.call.injEq] at hm
      exact .inr ⟨hm.1, hm.2.symm⟩
  have hout : start n op ≠ .cOut := by
    cases op with
    | addVector bs p => simp only [start]; split <;> simp
    | _ => simp [start]
  refine ⟨hi, fun u k' b e => ?_, fun u e => ?_, fun u hm => ?_, fun u hm => ?_⟩
  · by_cases eu : u = t
    · subst eu; rw [loc_goto, upd_same] at e; exact absurd e (h3 _ _)
    · rw [loc_goto, upd_ne _ _ eu] at e; exact k.low u k' b e
  · by_cases eu : u = t
    · subst eu; rw [loc_goto, upd_same] at e; exact absurd e hout
    · rw [loc_goto, upd_ne _ _ eu] at e; exact k.out u e
  · by_cases eu : u = t
    · subst eu
      rw [loc_goto, upd_same]
      rcases hmem u hm with hm | ⟨_, rfl⟩
      · rcases k.done u hm with h | h
        · exact .inl h
        · rw [hid] at h; cases h
      · exact .inr rfl
    · rw [loc_goto, upd_ne _ _ eu]
      exact k.done u ((hmem u hm).resolve_right fun h => eu h.1)
  · by_cases eu : u = t
    · subst eu
      rw [loc_goto, upd_same]
      rcases hmem u hm with hm | ⟨_, rfl⟩
      · rcases k.early u hm with h | h
        · exact .inl h
        · rw [hid] at h; cases h
      · exact .inr rfl
    · rw [loc_goto, upd_ne _ _ eu]
      exact k.early u ((hmem u hm).resolve_right fun h => eu h.1)

theorem joins_move (k : Joins n s h) (hm : stepAt n s t c (s.loc t) = some (s', o)) : Joins n s' (h ++ retEvents t o) := by
  have hi := inv_move k.inv hm
  have hcall : ∀ u op, .call u op ∈ h ++ retEvents t o → .call u op ∈ h := by
    intro u op hm
    rcases List.mem_append.1 hm with hm | hm
    · exact hm
    · cases o <;> simp [retEvents] at hm
  have hmono : ∀ j, s.joined j = true → s'.joined j = true := by
    intro j hj
    rcases step_joined hm with h | ⟨k', b, _, h, _⟩ <;> rw [h]
    · exact hj
    · by_cases e : j = k'
      · subst e; rw [upd_same]
      · rw [upd_ne _ _ e]; exact hj
  obtain ⟨a, l', e1, w⟩ := step_loc hm
  have ne : ∀ u, u ≠ t → s'.loc u = s.loc u ∨ (s.loc u = .wSleep ∧ s'.loc u = .wRelock) := by
    intro u hu; rw [e1, upd_ne _ _ hu]; exact w.all u
  have hhalt : s.halt = true → s'.halt = true := by
    intro hh
    rcases (step_halt hm).1 with h | ⟨_, h, _⟩
    · rw [h]; exact hh
    · exact h
  refine ⟨hi, fun u k' b e j hj => ?_, fun u e j hj => ?_, fun u hu => ?_, fun u hu => ?_⟩
  · by_cases eu : u = t
    · subst eu
      cases hcl : closing (s.loc u) with
      | false => have := step_closing hm hcl; rw [e] at this; cases this
      | true =>
        rcases (step_close hm hcl).2.1 k' b e with h | ⟨k2, rfl, h, hj2⟩
        · omega
        · by_cases e : j = k2
          · subst e; exact hj2
          · exact hmono j (k.low u _ _ h j (by omega))
    · rcases ne u eu with h | ⟨_, h⟩ <;> rw [h] at e
      · exact hmono j (k.low u k' b e j hj)
      · cases e
  · by_cases eu : u = t
    · subst eu
      cases hcl : closing (s.loc u) with
      | false => have := step_closing hm hcl; rw [e] at this; cases this
      | true => exact hmono j (k.low u _ _ ((step_inside hm hcl).2 e) j hj)
    · rcases ne u eu with h | ⟨_, h⟩ <;> rw [h] at e
      · exact hmono j (k.out u e j hj)
      · cases e
  · rcases k.done u (hcall _ _ hu) with h | h
    · exact .inl fun j hj => hmono j (h j hj)
    · have hcl : closing (s.loc u) = true := by
        unfold inside at h
        split at h
        · cases h
        · cases h
        · exact h
      by_cases eu : u = t
      · subst eu
        rcases (step_inside hm hcl).1 h with h | h | h
        · exact .inr h
        · exact .inl fun j hj => hmono j (k.low u _ _ h j hj)
        · exact .inl fun j hj => hmono j (k.out u h j hj)
      · rcases ne u eu with h' | ⟨h', _⟩
        · rw [h']; exact .inr h
        · rw [h'] at h; cases h
  · rcases k.early u (hcall _ _ hu) with h | h
    · exact .inl (hhalt h)
    · by_cases eu : u = t
      · subst eu
        have hcl : closing (s.loc u) = true := by
          generalize s.loc u = l at h
          cases l <;> first | rfl | (cases h; done)
        exact (step_close hm hcl).2.2.2 h
      · rcases ne u eu with h' | ⟨h', _⟩
        · rw [h']; exact .inr h
        · rw [h'] at h; cases h

theorem joins_run (as : List (Act Op)) (e : (sys n).run (sys n).init as = some (s, h)) : Joins n s h :=
  Sys.run_history (M := sys n) (I := fun s h => Joins n s h) (fun i hc => joins_call i hc) (fun i hm => joins_move i hm) as (h0 := [])
    (joins_init n) e

end Verif.WorkQueue
