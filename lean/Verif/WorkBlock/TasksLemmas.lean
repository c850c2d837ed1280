import Verif.WorkBlock.Tasks
import Verif.WorkBlock.Props

/-
Lemmas for TasksProps.lean: which object owns which shared state.
-/
namespace Verif.WorkBlock.Tasks

variable {V : Type} {eval : List Nat → Nat → Res V}

theorem set_length (w : World V) (i : Nat) (r : Res V) : (w.set i r).states.length = w.states.length := by
  unfold World.set; split <;> simp

theorem lt_of_some {l : List (Option (Res V))} {i : Nat} {x : Option (Res V)} (h : l[i]? = some x) : i < l.length := by
  rcases Nat.lt_or_ge i l.length with h' | h'
  · exact h'
  · rw [List.getElem?_eq_none h'] at h; cases h

/-- an object whose shared state was `x`, and is now `y`, has changed the shared states from `w` to `w'` -/
structure Tr (w w' : World V) (x y : Option Nat) : Prop where
  len : w.states.length ≤ w'.states.length
  keep : ∀ i, i < w.states.length → x ≠ some i → w'.states[i]? = w.states[i]?
  stable : ∀ (i : Nat) r, w.states[i]? = some (some r) → w'.states[i]? = some (some r)
  own : ∀ i, w'.states[i]? = some none → y = some i ∨ (i < w.states.length ∧ x ≠ some i)
  next : ∀ i, y = some i → x = some i ∨ (w.states.length ≤ i ∧ i < w'.states.length)

theorem Tr.refl (w : World V) (x : Option Nat) : Tr w w x x :=
  ⟨Nat.le_refl _, fun _ _ _ => rfl, fun _ _ h => h, fun i h => by
    by_cases e : x = some i
    · exact .inl e
    · exact .inr ⟨lt_of_some h, e⟩, fun _ h => .inl h⟩

theorem set_ready (w : World V) (i : Nat) (r : Res V) : (w.set i r).states[i]? ≠ some none := by
  unfold World.set
  split
  · rename_i h
    simp only
    rw [List.getElem?_set_self (lt_of_some h)]; simp
  · rename_i h; exact h

theorem set_stable (w : World V) (i j : Nat) (r x : Res V) (h : w.states[j]? = some (some x)) : (w.set i r).states[j]? = some (some x) := by
  by_cases e : i = j
  · subst e; simp only [World.set, h]
  · rw [set_other _ _ e]; exact h

theorem Tr.set (w : World V) (i : Nat) (r : Res V) {y : Option Nat} (hy : y = none ∨ y = some i) : Tr w (w.set i r) (some i) y := by
  refine ⟨by rw [set_length]; exact Nat.le_refl _, fun j _ h => set_other _ _ (fun e => h (by rw [e])), fun j x => set_stable _ _ _ _ _, fun j h => ?_, fun j h => ?_⟩
  · refine .inr ⟨?_, ?_⟩
    · have := lt_of_some h; rwa [set_length] at this
    · intro e; cases e; exact set_ready _ _ _ h
  · rcases hy with rfl | rfl
    · cases h
    · exact .inl h

theorem Tr.abandon (w : World V) (x : Option Nat) : Tr w (w.abandon x) x none := by
  cases x with
  | none => exact .refl w none
  | some i => exact .set w i _ (.inl rfl)

theorem alloc_old (w : World V) {i : Nat} (h : i < w.states.length) : w.alloc.1.states[i]? = w.states[i]? := by
  simp only [World.alloc]; exact List.getElem?_append_left h

theorem alloc_length (w : World V) : w.alloc.1.states.length = w.states.length + 1 := by simp [World.alloc]

theorem abandon_length (w : World V) (x : Option Nat) : (w.abandon x).states.length = w.states.length := by
  cases x with
  | none => rfl
  | some i => exact set_length _ _ _

/-- a new shared state is made and the old one given up -/
theorem Tr.fresh (w : World V) (x : Option Nat) (hx : ∀ i, x = some i → i < w.states.length) :
    Tr w (w.alloc.1.abandon x) x (some w.states.length) := by
  have a := Tr.abandon w.alloc.1 x
  have l := alloc_length w
  refine ⟨by have := a.len; omega, fun i h h' => ?_, fun i r h => ?_, fun i h => ?_, fun i h => ?_⟩
  · rw [a.keep i (by omega) h', alloc_old w h]
  · exact a.stable i r (by rw [alloc_old w (lt_of_some h)]; exact h)
  · rcases a.own i h with h1 | ⟨h1, h2⟩
    · cases h1
    · by_cases e : i = w.states.length
      · exact .inl (by rw [e])
      · exact .inr ⟨by omega, h2⟩
  · cases h; exact .inr ⟨Nat.le_refl _, by rw [abandon_length]; omega⟩

/-! ### The members of a block -/

theorem execute_tr (w : World V) (b : Block) :
    Tr w (b.execute eval w).1 b.task.state (b.execute eval w).2.1.task.state ∧ (b.execute eval w).2.1.task.state = b.task.state ∧
    (b.execute eval w).2.1.future = b.future ∧ (b.execute eval w).2.1.loaded = b.loaded ∧ (b.loaded = false → (b.execute eval w).1 = w) := by
  unfold Block.execute
  split
  · exact ⟨.refl _ _, rfl, rfl, rfl, fun _ => rfl⟩
  · split
    · rename_i hl
      unfold Task.run
      cases hs : b.task.state with
      | none => exact ⟨by simp only [hs]; exact .refl _ _, hs, rfl, rfl, fun _ => rfl⟩
      | some i =>
        simp only
        split <;> rename_i h <;> split at h <;> cases h
        · refine ⟨?_, hs, rfl, rfl, fun h => by simp [hl] at h⟩
          have := Tr.set ({ w with log := w.log ++ [b.task.fn] } : World V) i (eval w.log b.task.fn) (y := some i) (.inr rfl)
          simp only [hs]
          exact ⟨this.len, this.keep, this.stable, this.own, this.next⟩
        · exact ⟨by simp only [hs]; exact .refl _ _, hs, rfl, rfl, fun h => by simp [hl] at h⟩
    · exact ⟨.refl _ _, rfl, rfl, rfl, fun _ => rfl⟩

/-- the states that the members of a block refer to exist -/
def Block.ok (w : World V) (b : Block) : Prop :=
  (∀ i, b.task.state = some i → i < w.states.length) ∧ (∀ i, b.future = some i → i < w.states.length)

theorem reset_tr (w : World V) (b : Block) (ok : Block.ok w b) :
    Tr w (b.reset w).1 b.task.state (b.reset w).2.1.task.state ∧ Block.ok (b.reset w).1 (b.reset w).2.1 ∧ (b.reset w).2.1.loaded = b.loaded ∧
    (b.loaded = false → (b.reset w).1 = w ∧ (b.reset w).2.1.task.state = b.task.state) := by
  obtain ⟨ok1, ok2⟩ := ok
  cases hl : b.loaded with
  | true =>
    cases hs : b.task.state with
    | none =>
      have e : b.reset w = (w, b, some .noState) := by
        have : b = { b with loaded := true } := by cases b; cases hl; rfl
        simp only [Block.reset, hl, Task.reset, hs, if_true]
        rw [this]
      rw [e]
      exact ⟨by rw [hs]; exact .refl _ _, ⟨ok1, ok2⟩, hl, nofun⟩
    | some i =>
      have e : b.reset w = (w.alloc.1.abandon (some i), ⟨⟨b.task.fn, some w.alloc.2, true⟩, some w.alloc.2, false, true⟩, none) := by
        simp [Block.reset, hl, Task.reset, hs, Task.getFuture]
      have t := Tr.fresh w (some i) (fun j h => ok1 j (by rw [hs, h]))
      rw [e]
      refine ⟨t, ⟨fun j h => ?_, fun j h => ?_⟩, rfl, nofun⟩ <;>
      · cases h
        simp only [abandon_length, World.alloc, List.length_append, List.length_singleton]; omega
  | false =>
    cases hs : b.task.state with
    | none =>
      have e : b.reset w = (w, { b with finished := false }, some .noState) := by simp [Block.reset, hl, hs, Task.getFuture]
      rw [e]
      exact ⟨by simp only [hs]; exact .refl _ _, ⟨ok1, ok2⟩, hl, fun _ => ⟨rfl, hs⟩⟩
    | some i =>
      cases hr : b.task.retrieved with
      | true =>
        have e : b.reset w = (w, { b with finished := false }, some .alreadyRetrieved) := by simp [Block.reset, hl, hs, Task.getFuture, hr]
        rw [e]
        exact ⟨by simp only [hs]; exact .refl _ _, ⟨ok1, ok2⟩, hl, fun _ => ⟨rfl, hs⟩⟩
      | false =>
        have e : b.reset w = (w, ⟨{ b.task with retrieved := true }, some i, false, false⟩, none) := by
          simp [Block.reset, hl, hs, Task.getFuture, hr]
        rw [e]
        refine ⟨by simp only [hs]; exact .refl _ _, ⟨fun j h => ok1 j h, fun j h => ?_⟩, rfl, fun _ => ⟨rfl, hs⟩⟩
        cases h; exact ok1 i hs

/-- updateTask gives up the block's own state and takes that of the task -/
theorem updateTask_eq (w : World V) (b : Block) (t : Task) (ok : Block.ok w b) (ht : ∀ i, t.state = some i → i < w.states.length) :
    (b.updateTask w t).1 = w.abandon b.task.state ∧ (b.updateTask w t).2.1.task.state = t.state ∧ Block.ok (b.updateTask w t).1 (b.updateTask w t).2.1 ∧
    (t.retrieved = true → (b.updateTask w t).2.1.loaded = false) := by
  have hl := abandon_length w b.task.state
  obtain ⟨h1, h2, h3, h4⟩ := reset_tr (w.abandon b.task.state) { b with loaded := false, task := t }
    ⟨fun i h => by rw [hl]; exact ht i h, fun i h => by rw [hl]; exact ok.2 i h⟩
  obtain ⟨h5, h6⟩ := h4 rfl
  have key : ∀ r : World V × Block × Option Exc, ∀ o : Option Exc,
      (match r with | (w, b, none) => (w, { b with loaded := true }, none) | (w, b, some e) => (w, b, some e) : World V × Block × Option Exc).1 = r.1 ∧
      (match r with | (w, b, none) => (w, { b with loaded := true }, none) | (w, b, some e) => (w, b, some e) : World V × Block × Option Exc).2.1.task.state = r.2.1.task.state ∧
      (match r with | (w, b, none) => (w, { b with loaded := true }, none) | (w, b, some e) => (w, b, some e) : World V × Block × Option Exc).2.1.future = r.2.1.future := by
    rintro ⟨w, b, _ | e⟩ _ <;> exact ⟨rfl, rfl, rfl⟩
  obtain ⟨k1, k2, k3⟩ := key (Block.reset (w.abandon b.task.state) { b with loaded := false, task := t }) none
  refine ⟨k1.trans h5, k2.trans h6, ⟨fun i h => ?_, fun i h => ?_⟩, fun hr => ?_⟩
  · have h' : (b.updateTask w t).2.1.task.state = t.state := k2.trans h6
    rw [h'] at h
    show i < ((b.updateTask w t).1).states.length
    rw [show (b.updateTask w t).1 = _ from k1.trans h5, hl]; exact ht i h
  · show i < ((b.updateTask w t).1).states.length
    rw [show (b.updateTask w t).1 = _ from k1]
    exact h2.2 i (by rw [← h]; exact k3.symm)
  · unfold Block.updateTask
    cases hs : t.state with
    | none => simp [Block.reset, Task.getFuture, hs]
    | some i => simp [Block.reset, Task.getFuture, hs, hr]

/-! ### Owners -/

/-- an object: (true, v) is block `v`, (false, p) is task `p` -/
abbrev Key := Bool × Nat

def updK {α : Type} (g : Key → α) (k : Key) (x : α) : Key → α := fun y => if y = k then x else g y

theorem updK_same {α : Type} (g : Key → α) (k : Key) (x : α) : updK g k x k = x := by simp [updK]
theorem updK_ne {α : Type} (g : Key → α) {k y : Key} (x : α) (h : y ≠ k) : updK g k x y = g y := by simp [updK, h]
theorem updK_self {α : Type} (g : Key → α) (k : Key) : updK g k (g k) = g := by
  funext y; by_cases h : y = k
  · subst h; exact updK_same _ _ _
  · exact updK_ne _ _ h

/-- the shared state that an object owns -/
def ref (s : TS V) : Key → Option Nat
  | (true, v) => (s.ps.blocks v).bind (·.task.state)
  | (false, p) => (s.tasks p).bind (·.state)

structure Inv (w : World V) (r : Key → Option Nat) : Prop where
  lt : ∀ k i, r k = some i → i < w.states.length
  inj : ∀ k l i, r k = some i → r l = some i → k = l
  own : ∀ i, w.states[i]? = some none → ∃ k, r k = some i

theorem Inv.tr {w w' : World V} {r : Key → Option Nat} (h : Inv w r) {k : Key} {x y : Option Nat} (hx : r k = x) (t : Tr w w' x y) :
    Inv w' (updK r k y) := by
  subst hx
  refine ⟨fun l i e => ?_, fun l m i e1 e2 => ?_, fun i e => ?_⟩
  · by_cases hl : l = k
    · subst hl
      rw [updK_same] at e
      rcases t.next i e with h1 | h1
      · have := h.lt _ i h1; have := t.len; omega
      · exact h1.2
    · rw [updK_ne _ _ hl] at e
      have := h.lt l i e; have := t.len; omega
  · have key : ∀ l, l ≠ k → updK r k y k = some i → updK r k y l = some i → False := by
      intro l hl e1 e2
      rw [updK_same] at e1
      rw [updK_ne _ _ hl] at e2
      rcases t.next i e1 with h1 | h1
      · exact hl (h.inj l k i e2 h1)
      · have := h.lt l i e2; omega
    by_cases hl : l = k <;> by_cases hm : m = k
    · rw [hl, hm]
    · exact (key m hm (hl ▸ e1) e2).elim
    · exact (key l hl (hm ▸ e2) e1).elim
    · rw [updK_ne _ _ hl] at e1; rw [updK_ne _ _ hm] at e2
      exact h.inj l m i e1 e2
  · rcases t.own i e with h1 | ⟨h1, h2⟩
    · exact ⟨k, by rw [updK_same]; exact h1⟩
    · rw [t.keep i h1 h2] at e
      obtain ⟨l, hl⟩ := h.own i e
      have : l ≠ k := by rintro rfl; exact h2 hl
      exact ⟨l, by rw [updK_ne _ _ this]; exact hl⟩

/-- `l` takes over what `k` owns -/
theorem Inv.move {w : World V} {r : Key → Option Nat} (h : Inv w r) {k l : Key} (hl : r l = none) (hkl : k ≠ l) :
    Inv w (updK (updK r k none) l (r k)) := by
  have key : ∀ m i, updK (updK r k none) l (r k) m = some i → ∃ m', r m' = some i ∧ ((m = l ∧ m' = k) ∨ (m ≠ l ∧ m ≠ k ∧ m' = m)) := by
    intro m i e
    by_cases h1 : m = l
    · subst h1; rw [updK_same] at e; exact ⟨k, e, .inl ⟨rfl, rfl⟩⟩
    · rw [updK_ne _ _ h1] at e
      by_cases h2 : m = k
      · subst h2; rw [updK_same] at e; cases e
      · rw [updK_ne _ _ h2] at e; exact ⟨m, e, .inr ⟨h1, h2, rfl⟩⟩
  refine ⟨fun m i e => ?_, fun m n i e1 e2 => ?_, fun i e => ?_⟩
  · obtain ⟨m', h1, _⟩ := key m i e; exact h.lt m' i h1
  · obtain ⟨m', h1, h2⟩ := key m i e1
    obtain ⟨n', h3, h4⟩ := key n i e2
    have := h.inj m' n' i h1 h3
    subst this
    rcases h2 with ⟨rfl, rfl⟩ | ⟨h5, h6, rfl⟩ <;> rcases h4 with ⟨rfl, h7⟩ | ⟨h8, h9, h7⟩
    · rfl
    · exact absurd h7.symm h9
    · exact absurd h7 h6
    · exact h7
  · obtain ⟨m, hm⟩ := h.own i e
    by_cases h1 : m = k
    · subst h1; exact ⟨l, by rw [updK_same]; exact hm⟩
    · have : m ≠ l := by rintro rfl; rw [hl] at hm; cases hm
      exact ⟨m, by rw [updK_ne _ _ this, updK_ne _ _ h1]; exact hm⟩

end Verif.WorkBlock.Tasks
