import Verif.Block.Deque.Spec
import Verif.Block.Deque.Lemmas3

namespace Verif.Block.Deque
open Verif.Block
variable {X : Type} {N : Nat} {O : Others X}

theorem upd_same {α : Type} (w : Nat → Option α) (i : Nat) (a : Option α) : upd w i a i = a := by
  simp [upd]
theorem upd_ne {α : Type} (w : Nat → Option α) {i k : Nat} (a : Option α) (h : k ≠ i) :
    upd w i a k = w k := by simp [upd, h]
theorem upd_upd {α : Type} (w : Nat → Option α) (i : Nat) (a b : Option α) :
    upd (upd w i a) i b = upd w i b := by
  funext k; simp only [upd]; split <;> rfl
theorem upd_id {α : Type} {w : Nat → Option α} {i : Nat} {a : Option α} (h : w i = a) : upd w i a = w := by
  funext k; by_cases hk : k = i
  · subst hk; rw [upd_same, h]
  · rw [upd_ne _ _ hk]

/-- update of the ghost block lists -/
def updL (f : Nat → List Nat) (i : Nat) (l : List Nat) : Nat → List Nat := fun k => if k = i then l else f k
theorem updL_same (f : Nat → List Nat) (i l) : updL f i l i = l := by simp [updL]
theorem updL_ne (f : Nat → List Nat) {i k} (l) (h : k ≠ i) : updL f i l k = f k := by simp [updL, h]

/-- One live object represents one sequence. -/
def DRep (N : Nat) (h : Heap X) (v : Deq) (xs : List X) (us fs : List Nat) : Prop :=
  (∃ F f1 bz, Core N h v xs us fs F f1 bz) ∨ (Null v ∧ us = [] ∧ fs = [] ∧ xs = [])

def ORep (N : Nat) (h : Heap X) : Option Deq → Option (List X) → List Nat → List Nat → Prop
  | none, none, us, fs => us = [] ∧ fs = []
  | some v, some xs, us, fs => DRep N h v xs us fs
  | _, _, _, _ => False

theorem DRep.frame {h h' : Heap X} {v xs us fs} (r : DRep N h v xs us fs)
    (hk : ∀ b, b ∈ us ++ fs → h'.live b = h.live b ∧ ∀ j, h'.cells b j = h.cells b j) :
    DRep N h' v xs us fs := by
  rcases r with ⟨F, f1, bz, c⟩ | r
  · exact .inl ⟨F, f1, bz, c.frame hk⟩
  · exact .inr r

theorem ORep.frame {h h' : Heap X} {o oa us fs} (r : ORep N h o oa us fs)
    (hk : ∀ b, b ∈ us ++ fs → h'.live b = h.live b ∧ ∀ j, h'.cells b j = h.cells b j) :
    ORep N h' o oa us fs := by
  cases o <;> cases oa <;> simp only [ORep] at r ⊢
  · exact r
  · exact r.frame hk

theorem ORep.live {h : Heap X} {o oa us fs} (r : ORep N h o oa us fs) :
    ∀ b, b ∈ us ++ fs → h.live b = true := by
  cases o <;> cases oa <;> simp only [ORep] at r
  · simp [r.1, r.2]
  · rcases r with ⟨F, f1, bz, c⟩ | ⟨_, h1, h2, _⟩
    · exact c.grid.live
    · simp [h1, h2]

/-- World invariant; the blocks `O` belong to objects of other types. -/
structure WInvR (O : Others X) (N : Nat) (w : World X) (aw : AWorld X) (us fs : Nat → List Nat) : Prop where
  wf : w.heap.Wf
  rep : ∀ i, ORep N w.heap (w.objs i) (aw i) (us i) (fs i)
  disj : ∀ i j, i ≠ j → ∀ b, b ∈ us i ++ fs i → b ∉ us j ++ fs j
  held : ∀ b, w.heap.live b = true → O.own b ∨ ∃ i, b ∈ us i ++ fs i
  rest : ∀ b, O.own b → b < w.heap.next ∧ w.heap.live b = O.heap.live b ∧ ∀ j, w.heap.cells b j = O.heap.cells b j
  apart : ∀ b, O.own b → ∀ i, b ∉ us i ++ fs i

/-- There are no other objects. -/
abbrev WInv (N : Nat) (w : World X) (aw : AWorld X) (us fs : Nat → List Nat) : Prop := WInvR .none N w aw us fs

theorem WInvR.noleak {w : World X} {aw us fs} (W : WInv N w aw us fs) (b : Nat) (h : w.heap.live b = true) :
    ∃ i, b ∈ us i ++ fs i := (W.held b h).resolve_left id

theorem WInv.empty : WInv N (World.empty : World X) (fun _ => none) (fun _ => []) (fun _ => []) :=
  ⟨Heap.Wf.empty, fun _ => ⟨rfl, rfl⟩, by simp, by simp [World.empty, Heap.empty], fun _ h => h.elim, fun _ h => h.elim⟩

/-- An operation on object `i` alone. -/
theorem WInvR.update {w : World X} {aw us fs} (W : WInvR O N w aw us fs) (i : Nat) {h' : Heap X}
    {o : Option Deq} {oa : Option (List X)} {us' fs' : List Nat}
    (f : Heap.Frame w.heap h' (us i ++ fs i) (us' ++ fs')) (r : ORep N h' o oa us' fs') :
    WInvR O N ⟨upd w.objs i o, h'⟩ (upd aw i oa) (updL us i us') (updL fs i fs') := by
  refine ⟨f.wf, ?_, ?_, ?_, ?_, ?_⟩
  · intro k
    by_cases hk : k = i
    · subst hk; simp only [upd_same, updL_same]; exact r
    · simp only [upd_ne _ _ hk, updL_ne _ _ hk]
      refine (W.rep k).frame fun b hb => ?_
      exact f.keep b (W.wf.live b ((W.rep k).live b hb)) (W.disj k i hk b hb)
  · intro k l hkl b hb
    have old : ∀ k, k ≠ i → ∀ b, b ∈ us k ++ fs k → b ∉ us' ++ fs' := by
      intro k hk b hb hb'
      rcases f.fresh b hb' with h1 | h1
      · exact W.disj k i hk b hb h1
      · have := W.wf.live b ((W.rep k).live b hb); omega
    by_cases hk : k = i
    · subst hk
      simp only [updL_same] at hb
      simp only [updL_ne _ _ hkl.symm]
      exact fun h => old l hkl.symm b h hb
    · simp only [updL_ne _ _ hk] at hb
      by_cases hl : l = i
      · subst hl; simp only [updL_same]; exact old k hk b hb
      · simp only [updL_ne _ _ hl]; exact W.disj k l hkl b hb
  · intro b hb
    rcases f.noleak b hb with h1 | ⟨h1, h2⟩
    · exact .inr ⟨i, by simpa only [updL_same] using h1⟩
    · rcases W.held b ((f.keep b h1 h2).1 ▸ hb) with ho | ⟨k, hk⟩
      · exact .inl ho
      · have hki : k ≠ i := by rintro rfl; exact h2 hk
        exact .inr ⟨k, by simpa only [updL_ne _ _ hki] using hk⟩
  · intro b ho
    obtain ⟨h1, h2, h3⟩ := W.rest b ho
    obtain ⟨h4, h5⟩ := f.keep b h1 (W.apart b ho i)
    exact ⟨Nat.lt_of_lt_of_le h1 f.next_le, h4.trans h2, fun j => (h5 j).trans (h3 j)⟩
  · intro b ho k
    by_cases hk : k = i
    · subst hk
      simp only [updL_same]
      intro hb
      rcases f.fresh b hb with h1 | h1
      · exact W.apart b ho k h1
      · have := (W.rest b ho).1; omega
    · simp only [updL_ne _ _ hk]; exact W.apart b ho k

/-- An operation on object `i` that also changes elements of object `j`. -/
theorem WInvR.update2 {w : World X} {aw us fs} (W : WInvR O N w aw us fs) {i j : Nat} (hij : i ≠ j) {h' : Heap X}
    {o : Option Deq} {oa oa2 : Option (List X)} {us' fs' : List Nat}
    (f : Heap.Frame w.heap h' (us i ++ fs i ++ (us j ++ fs j)) (us' ++ fs' ++ (us j ++ fs j)))
    (hd : ∀ b, b ∈ us' ++ fs' → b ∉ us j ++ fs j)
    (r : ORep N h' o oa us' fs') (r2 : ORep N h' (w.objs j) oa2 (us j) (fs j)) :
    WInvR O N ⟨upd w.objs i o, h'⟩ (upd (upd aw i oa) j oa2) (updL us i us') (updL fs i fs') := by
  have old : ∀ k, k ≠ i → ∀ b, b ∈ us k ++ fs k → b ∉ us' ++ fs' := by
    intro k hk b hb hb'
    by_cases hkj : k = j
    · subst hkj; exact hd b hb' hb
    · rcases f.fresh b (List.mem_append_left _ hb') with h1 | h1
      · rcases List.mem_append.1 h1 with h1 | h1
        · exact W.disj k i hk b hb h1
        · exact W.disj k j hkj b hb h1
      · have := W.wf.live b ((W.rep k).live b hb); omega
  refine ⟨f.wf, ?_, ?_, ?_, ?_, ?_⟩
  · intro k
    by_cases hk : k = i
    · subst hk; simp only [upd_same, updL_same, upd_ne _ _ hij]; exact r
    · by_cases hkj : k = j
      · subst hkj
        simp only [upd_ne _ _ hk, upd_same, updL_ne _ _ hk]; exact r2
      · simp only [upd_ne _ _ hk, updL_ne _ _ hk, upd_ne _ _ hkj]
        refine (W.rep k).frame fun b hb => ?_
        refine f.keep b (W.wf.live b ((W.rep k).live b hb)) fun h1 => ?_
        rcases List.mem_append.1 h1 with h1 | h1
        · exact W.disj k i hk b hb h1
        · exact W.disj k j hkj b hb h1
  · intro k l hkl b hb
    by_cases hk : k = i
    · subst hk
      simp only [updL_same] at hb
      simp only [updL_ne _ _ hkl.symm]
      exact fun h => old l hkl.symm b h hb
    · simp only [updL_ne _ _ hk] at hb
      by_cases hl : l = i
      · subst hl; simp only [updL_same]; exact old k hk b hb
      · simp only [updL_ne _ _ hl]; exact W.disj k l hkl b hb
  · intro b hb
    rcases f.noleak b hb with h1 | ⟨h1, h2⟩
    · rcases List.mem_append.1 h1 with h1 | h1
      · exact .inr ⟨i, by simpa only [updL_same] using h1⟩
      · exact .inr ⟨j, by simpa only [updL_ne _ _ hij.symm] using h1⟩
    · rcases W.held b ((f.keep b h1 h2).1 ▸ hb) with ho | ⟨k, hk⟩
      · exact .inl ho
      · have hki : k ≠ i := by rintro rfl; exact h2 (List.mem_append_left _ hk)
        exact .inr ⟨k, by simpa only [updL_ne _ _ hki] using hk⟩
  · intro b ho
    obtain ⟨h1, h2, h3⟩ := W.rest b ho
    obtain ⟨h4, h5⟩ := f.keep b h1 fun hb => (List.mem_append.1 hb).elim (W.apart b ho i) (W.apart b ho j)
    exact ⟨Nat.lt_of_lt_of_le h1 f.next_le, h4.trans h2, fun j => (h5 j).trans (h3 j)⟩
  · intro b ho k
    by_cases hk : k = i
    · subst hk
      simp only [updL_same]
      intro hb
      rcases f.fresh b (List.mem_append_left _ hb) with h1 | h1
      · exact (List.mem_append.1 h1).elim (W.apart b ho k) (W.apart b ho j)
      · have := (W.rest b ho).1; omega
    · simp only [updL_ne _ _ hk]; exact W.apart b ho k

theorem husk_null (v : Deq) : Null v.husk := ⟨rfl, rfl, rfl, rfl, rfl, rfl⟩

/-- Moving object `j` into the free name `i`. -/
theorem WInvR.transfer {w : World X} {aw us fs} (W : WInvR O N w aw us fs) {i j : Nat} (hij : i ≠ j)
    (hi : us i = [] ∧ fs i = []) {v : Deq} {a : List X} (hv : w.objs j = some v) (ha : aw j = some a) :
    WInvR O N ⟨upd (upd w.objs i (some v)) j (some v.husk), w.heap⟩
      (upd (upd aw i (some a)) j (some []))
      (updL (updL us i (us j)) j []) (updL (updL fs i (fs j)) j []) := by
  refine ⟨W.wf, ?_, ?_, ?_, ?_, ?_⟩
  · intro k
    by_cases hk : k = j
    · subst hk; simp only [upd_same, updL_same]; exact Or.inr ⟨husk_null v, rfl, rfl, rfl⟩
    · by_cases hki : k = i
      · subst hki
        simp only [upd_ne _ _ hk, updL_ne _ _ hk, upd_same, updL_same]
        have := W.rep j
        rwa [hv, ha] at this
      · simp only [upd_ne _ _ hk, updL_ne _ _ hk, upd_ne _ _ hki, updL_ne _ _ hki]
        exact W.rep k
  · intro k l hkl b hb
    by_cases hk : k = j
    · subst hk; simp [updL_same] at hb
    · by_cases hl : l = j
      · subst hl; simp [updL_same]
      · simp only [updL_ne _ _ hk, updL_ne _ _ hl] at hb ⊢
        by_cases hki : k = i
        · subst hki
          simp only [updL_same] at hb
          simp only [updL_ne _ _ (Ne.symm hkl)]
          exact W.disj j l (Ne.symm hl) b hb
        · simp only [updL_ne _ _ hki] at hb
          by_cases hli : l = i
          · subst hli; simp only [updL_same]; exact W.disj k j hk b hb
          · simp only [updL_ne _ _ hli]; exact W.disj k l hkl b hb
  · intro b hb
    rcases W.held b hb with ho | ⟨k, hk⟩
    · exact .inl ho
    right
    by_cases hkj : k = j
    · subst hkj
      exact ⟨i, by simpa only [updL_ne _ _ hij, updL_same] using hk⟩
    · have hki : k ≠ i := by
        rintro rfl
        rw [hi.1, hi.2] at hk; simp at hk
      exact ⟨k, by simpa only [updL_ne _ _ hkj, updL_ne _ _ hki] using hk⟩
  · exact W.rest
  · intro b ho k
    by_cases hk : k = j
    · subst hk; simp [updL_same]
    · by_cases hki : k = i
      · subst hki
        simp only [updL_ne _ _ hk, updL_same]
        exact W.apart b ho j
      · simp only [updL_ne _ _ hk, updL_ne _ _ hki]
        exact W.apart b ho k

theorem WInvR.getNone {w : World X} {aw us fs} (W : WInvR O N w aw us fs) {i : Nat} (h : aw i = none) :
    w.objs i = none ∧ us i = [] ∧ fs i = [] := by
  have := W.rep i
  rw [h] at this
  cases ho : w.objs i with
  | none => rw [ho] at this; exact ⟨rfl, this⟩
  | some v => rw [ho] at this; exact this.elim

theorem WInvR.getSome {w : World X} {aw us fs} (W : WInvR O N w aw us fs) {i : Nat} {a : List X} (h : aw i = some a) :
    ∃ v, w.objs i = some v ∧ DRep N w.heap v a (us i) (fs i) := by
  have := W.rep i
  rw [h] at this
  cases ho : w.objs i with
  | none => rw [ho] at this; exact this.elim
  | some v => rw [ho] at this; exact ⟨v, rfl, this⟩

/-! ### addresses -/

/-- the elements keep their cells -/
theorem cell_prepend {h h' : Heap X} {v v' : Deq} {xs xs' : List X} {us pre us' fs fs' : List Nat} {F f1 bz F' f1' bz' : Nat}
    (c : Core N h v xs us fs F f1 bz) (c' : Core N h' v' xs' us' fs' F' f1' bz') (hu : us' = pre ++ us)
    {n m : Nat} (hn : n < xs.length) (hm : m < xs'.length) (he : f1' + m = f1 + n + pre.length * blockSize N) :
    v'.cell N m = v.cell N n := by
  obtain ⟨b, hb, hc⟩ := c.cell_eq hn
  obtain ⟨b', hb', hc'⟩ := c'.cell_eq hm
  rw [hc, hc', he, Nat.add_mul_mod_self_right]
  rw [he, Nat.add_mul_div_right _ _ (blockSize_pos N), hu,
    List.getElem?_append_right (Nat.le_add_left _ _), Nat.add_sub_cancel, hb] at hb'
  cases hb'; rfl

theorem cell_prefix {h h' : Heap X} {v v' : Deq} {xs xs' : List X} {us us' fs fs' : List Nat} {F f1 bz F' bz' : Nat}
    (c : Core N h v xs us fs F f1 bz) (c' : Core N h' v' xs' us' fs' F' f1 bz') (hu : us <+: us' ∨ us' <+: us)
    {n : Nat} (hn : n < xs.length) (hm : n < xs'.length) : v'.cell N n = v.cell N n := by
  obtain ⟨b, hb, hc⟩ := c.cell_eq hn
  obtain ⟨b', hb', hc'⟩ := c'.cell_eq hm
  rw [hc, hc']
  rcases hu with ⟨t, rfl⟩ | ⟨t, rfl⟩
  · rw [List.getElem?_append_left (List.getElem?_eq_some_iff.1 hb).1, hb] at hb'
    cases hb'; rfl
  · rw [List.getElem?_append_left (List.getElem?_eq_some_iff.1 hb').1, hb'] at hb
    cases hb; rfl

/-! ### one call -/

/-- calls that leave no moved-from object -/
def Op.noMove : Op X → Bool
  | .moveNew _ _ | .moveAssign _ _ => false
  | _ => true

def AllFA (N : Nat) (w : World X) : Prop := ∀ i v, w.objs i = some v → FA N v

/-- elements stay where they are -/
def Keep (N : Nat) (w w' : World X) (aw aw' : AWorld X) (op : Op X) : Prop :=
  ∀ k n m xs xs', ¬ op.rebinds k → aw k = some xs → aw' k = some xs' → op.newIdx k n = some m →
    n < xs.length → m < xs'.length → w'.addr N k m = w.addr N k n

def Good (O : Others X) (P : Pol) (N : Nat) (w : World X) (aw : AWorld X) (op : Op X) (aw' : AWorld X) (o : Obs X) : Prop :=
  ∃ w' us' fs', exec P N w op = some (w', o) ∧ WInvR O N w' aw' us' fs' ∧ Keep N w w' aw aw' op ∧
    (op.noMove = true → AllFA N w → AllFA N w')

theorem newIdx_other {op : Op X} {k n m : Nat} (h : op.newIdx k n = some m)
    (hk : ∀ x, op ≠ .pushFront k x) (hk' : op ≠ .popFront k) : m = n := by
  cases op <;> simp only [Op.newIdx, Option.some.injEq] at h <;> try exact h.symm
  · rename_i i x
    rw [if_neg (by rintro rfl; exact hk x rfl)] at h; exact h.symm
  · rename_i i
    rw [if_neg (by rintro rfl; exact hk' rfl)] at h; exact (Option.some.inj h).symm

/-- An operation that changes only object `i` and does not rebind it. -/
theorem WInvR.local {P : Pol} {w : World X} {aw us fs} (W : WInvR O N w aw us fs) {i : Nat} {op : Op X}
    (hop : (∀ k x, op = .pushFront k x → k = i) ∧ (∀ k, op = .popFront k → k = i))
    {v v' : Deq} {h' : Heap X} {us' fs' : List Nat} {xs xs' : List X} {o : Obs X}
    (hv : w.objs i = some v) (hx : aw i = some xs)
    (he : exec P N w op = some (⟨upd w.objs i (some v'), h'⟩, o))
    (hc : DRep N h' v' xs' us' fs')
    (f : Heap.Frame w.heap h' (us i ++ fs i) (us' ++ fs'))
    (ad : ∀ n m, op.newIdx i n = some m → n < xs.length → m < xs'.length → v'.cell N m = v.cell N n)
    (fa : FA N v → FA N v') :
    Good O P N w aw op (upd aw i (some xs')) o := by
  refine ⟨_, _, _, he, W.update i f (o := some v') (oa := some xs') hc, ?_, ?_⟩
  · intro k n m ys ys' _ h1 h2 h3 h4 h5
    by_cases hk : k = i
    · subst hk
      rw [upd_same] at h2
      cases h2
      rw [hx] at h1; cases h1
      simp only [World.addr, upd_same, hv, Option.bind_some]
      exact ad n m h3 h4 h5
    · have := newIdx_other h3 (fun x hx => hk (hop.1 k x hx)) (fun hx => hk (hop.2 k hx))
      subst this
      simp only [World.addr, upd_ne _ _ hk]
  · intro _ H k u hu
    simp only at hu
    by_cases hk : k = i
    · subst hk
      rw [upd_same] at hu; cases hu
      exact fa (H k v hv)
    · rw [upd_ne _ _ hk] at hu; exact H k u hu

theorem WInvR.noop {P : Pol} {w : World X} {aw us fs} (W : WInvR O N w aw us fs) {op : Op X}
    (hop : (∀ k x, op ≠ .pushFront k x) ∧ (∀ k, op ≠ .popFront k)) {o : Obs X} (he : exec P N w op = some (w, o)) :
    Good O P N w aw op aw o := by
  refine ⟨w, us, fs, he, W, ?_, fun _ h => h⟩
  intro k n m ys ys' _ h1 h2 h3 h4 h5
  rw [newIdx_other h3 (hop.1 k) (hop.2 k)]

theorem ORep.ofD {h : Heap X} {v : Deq} {xs us fs} (r : DRep N h v xs us fs) : ORep N h (some v) (some xs) us fs := r

/-- an operation that replaces object `i` -/
theorem WInvR.rebind {P : Pol} {w : World X} {aw us fs} (W : WInvR O N w aw us fs) {i : Nat} {op : Op X}
    (hop : (∀ k x, op ≠ .pushFront k x) ∧ (∀ k, op ≠ .popFront k)) (hreb : op.rebinds i)
    {v' : Option Deq} {h' : Heap X} {us' fs' : List Nat} {a' : Option (List X)} {o : Obs X}
    (he : exec P N w op = some (⟨upd w.objs i v', h'⟩, o))
    (f : Heap.Frame w.heap h' (us i ++ fs i) (us' ++ fs')) (r : ORep N h' v' a' us' fs')
    (fa : ∀ u, v' = some u → FA N u) :
    Good O P N w aw op (upd aw i a') o := by
  refine ⟨_, _, _, he, W.update i f r, ?_, ?_⟩
  · intro k n m ys ys' hr h1 h2 h3 h4 h5
    have hk : k ≠ i := by rintro rfl; exact hr hreb
    rw [newIdx_other h3 (hop.1 k) (hop.2 k)]
    simp only [World.addr, upd_ne _ _ hk]
  · intro _ H k u hu
    simp only at hu
    by_cases hk : k = i
    · subst hk
      rw [upd_same] at hu
      exact fa u hu
    · rw [upd_ne _ _ hk] at hu; exact H k u hu

theorem default_null : Null (Deq.default N) := ⟨rfl, rfl, rfl, rfl, rfl, rfl⟩
theorem default_fa : FA N (Deq.default N) := fun _ => ⟨rfl, rfl⟩

theorem usable_null {v : Deq} (nl : Null v) (h : v.usable N = true) : v.bsize = (blockSize N : Int) ∧ v.free.idx = 0 := by
  rw [Deq.usable, nl.ptr] at h
  simpa using h

theorem iterable_iff {v : Deq} : v.iterable N = true ↔ Core.Iterable N v := by
  rw [Deq.iterable, Core.Iterable]
  cases hd : v.dataptr
  · simp
  · simp [imp_iff_not_or]

theorem freeAll_drep (P : Pol) {h : Heap X} {v : Deq} {xs us fs} (r : DRep N h v xs us fs) (w : h.Wf) :
    ∃ h', Deq.freeAll P N v h = some h' ∧ Heap.Frame h h' (us ++ fs) ([] ++ []) := by
  rcases r with ⟨F, f1, bz, c⟩ | ⟨nl, h1, h2, _⟩
  · exact c.freeAll_eq P w
  · exact ⟨h, Core.freeAll_null P nl, by rw [h1, h2]; exact Heap.Frame.refl w⟩

theorem iterate_drep {h : Heap X} {v : Deq} {xs us fs} (r : DRep N h v xs us fs) (hi : v.iterable N = true) :
    v.iterate N h = some xs := by
  rcases r with ⟨F, f1, bz, c⟩ | ⟨nl, h1, h2, h3⟩
  · exact c.iterate_eq (iterable_iff.1 hi)
  · rw [h3]; exact Core.iterate_null nl ((iterable_iff.1 hi).1 nl.ptr)

theorem assignFrom_end {P : Pol} {h : Heap X} {v : Deq} {R : InRange X} {fuel : Nat} {s : R.S} (h0 : v.csize = 0)
    (he : R.atEnd s = true) : v.assignFrom P N R fuel h s = some (v, h) := by
  rw [Deq.assignFrom, Deq.assignOver, if_neg (by rw [h0]; simp)]
  exact Core.pushFrom_end fuel he

theorem assignFrom_drep (P : Pol) {h : Heap X} {v : Deq} {xs us fs} {R : InRange X} {B : List Nat} {Q : Heap X → Prop}
    {s : R.S} {fuel : Nat} (r : DRep N h v xs us fs) (w : h.Wf) (hB : ∀ b, b ∈ B → b < h.next)
    (hd : ∀ b, b ∈ us ++ fs → b ∉ B) {ys : List X} (D : Feeds R B Q ys s h) (hf : ys.length ≤ fuel)
    (hu : v.usable N = true) (hi : (v.csize == 0 || v.iterable N) = true) :
    ∃ v' h' us' fs', v.assignFrom P N R fuel h s = some (v', h') ∧ DRep N h' v' ys us' fs' ∧
      Heap.Frame h h' (us ++ fs ++ B) (us' ++ fs' ++ B) ∧ (∀ b, b ∈ us' ++ fs' → b ∉ B) ∧ Q h' ∧
      (∀ n, n < xs.length → n < ys.length → v'.cell N n = v.cell N n) ∧ (FA N v → FA N v') := by
  rcases r with ⟨F, f1, bz, c⟩ | ⟨nl, h1, h2, h3⟩
  · obtain ⟨v', h', us', fs', F', bz', e, c', f, dj, q, p⟩ := c.assignFrom_eq P w hB hd D hf (by
      simp only [Bool.or_eq_true, beq_iff_eq] at hi
      rcases hi with hi | hi
      · left; exact List.length_eq_zero_iff.1 (c.len.trans hi)
      · right; exact iterable_iff.1 hi)
    exact ⟨v', h', us', fs', e, .inl ⟨_, _, _, c'⟩, f, dj, q, fun n h1 h2 => cell_prefix c c' p h1 h2, fun _ => c'.fa⟩
  · obtain ⟨h4, h5⟩ := usable_null nl hu
    subst h3
    cases ys with
    | nil =>
      exact ⟨v, h, us, fs, assignFrom_end nl.cs D.1, .inr ⟨nl, h1, h2, rfl⟩, Heap.Frame.refl w, hd,
        D.2 h w (Agree.refl _ _), by simp, id⟩
    | cons y ys =>
      obtain ⟨v', h', us', fs', F', f1', bz', e, c', f, dj, q⟩ := Core.pushFrom_null P nl h4 h5 w hB D hf
      refine ⟨v', h', us', fs', ?_, .inl ⟨_, _, _, c'⟩, by rw [h1, h2]; exact f, dj, q, by simp, fun _ => c'.fa⟩
      rw [Deq.assignFrom, Deq.assignOver, if_neg (by rw [nl.cs]; simp)]
      exact e

theorem assign_drep (P : Pol) {h : Heap X} {v : Deq} {xs us fs} (r : DRep N h v xs us fs) (w : h.Wf) (ys : List X)
    (hu : v.usable N = true) (hi : (v.csize == 0 || v.iterable N) = true) :
    ∃ v' h' us' fs', v.assign P N h ys = some (v', h') ∧ DRep N h' v' ys us' fs' ∧
      Heap.Frame h h' (us ++ fs) (us' ++ fs') ∧
      (∀ n, n < xs.length → n < ys.length → v'.cell N n = v.cell N n) ∧ (FA N v → FA N v') := by
  obtain ⟨v', h', us', fs', e, r', f, _, _, ad, fa⟩ := assignFrom_drep P r w (B := []) (Q := fun _ => True) (by simp) (by simp)
    (Feeds.list _ (fun _ => trivial) ys h) (Nat.le_refl _) hu hi
  exact ⟨v', h', us', fs', e, r', by simpa using f, ad, fa⟩

/-- The iterators of a range, and what it feeds. -/
theorem sub_drep {h : Heap X} {v : Deq} {xs us fs} (r : DRep N h v xs us fs) (left : Nat → Option X) {lo up : Nat}
    (hl : lo ≤ up) (hle : up ≤ xs.length) (hi : (decide (up < v.csize) || v.iterable N) = true) :
    ∃ b first last, v.begin? N = some b ∧ b.add (blockSize N) v.dataptr lo = some first ∧
      b.add (blockSize N) v.dataptr up = some last ∧
      Feeds (.iter (blockSize N) v.dataptr last left) (us ++ fs)
        (fun h' => DRep N h' v (leave left 0 lo (up - lo) xs) us fs) ((xs.take up).drop lo) (0, first) h := by
  simp only [Bool.or_eq_true, decide_eq_true_eq] at hi
  rcases r with ⟨F, f1, bz, c⟩ | ⟨nl, h1, h2, h3⟩
  · obtain ⟨b, i1, i2, hb, e1, e2, d1, d2⟩ := c.sub_iters hl hle (hi.imp (by rw [c.len]; exact id) iterable_iff.1)
    refine ⟨b, i1, i2, hb, e1, e2, ?_⟩
    have D := c.feeds left (up - lo) (k := 0) d1 d2 (by omega) hle
    exact D.imp fun h' c' => .inl ⟨_, _, _, c'⟩
  · have hb : v.bsize = (blockSize N : Int) := (iterable_iff.1 (hi.resolve_left (by rw [nl.cs]; omega))).1 nl.ptr
    subst h3
    have hup : up = 0 := by simpa using hle
    have hlo : lo = 0 := by omega
    subst hup; subst hlo
    have hB := blockSize_pos N
    refine ⟨⟨.static, none, 0, 0⟩, ⟨.static, none, 0, 0⟩, ⟨.static, none, 0, 0⟩, ?_, ?_, ?_, ?_⟩
    · rw [Deq.begin?, if_pos nl.cs, Deq.end?, if_pos hb, nl.ptr]; rfl
    · rw [Iter.add, Iter.addAssign, Iter.check, if_neg (by simp; omega)]; rfl
    · rw [Iter.add, Iter.addAssign, Iter.check, if_neg (by simp; omega)]; rfl
    · exact Feeds.empty (by simp [InRange.iter, Iter.eq]) fun _ _ _ => .inr ⟨nl, h1, h2, rfl⟩

theorem all_drep {h : Heap X} {v : Deq} {xs us fs} (r : DRep N h v xs us fs) (hi : v.iterable N = true) :
    ∃ b e, v.begin? N = some b ∧ v.end? N = some e ∧
      Feeds (.iter (blockSize N) v.dataptr e fun _ => none) (us ++ fs) (fun h' => DRep N h' v xs us fs) xs (0, b) h := by
  rcases r with ⟨F, f1, bz, c⟩ | ⟨nl, h1, h2, h3⟩
  · obtain ⟨b, e, hb, he, d1, d2⟩ := c.all_iters (iterable_iff.1 hi)
    have D := c.feeds (fun _ => none) xs.length (k := 0) d1 d2 (Nat.zero_add _) (Nat.le_refl _)
    rw [leave_copy, List.take_length, List.drop_zero] at D
    exact ⟨b, e, hb, he, D.imp fun h' c' => .inl ⟨_, _, _, c'⟩⟩
  · have hb : v.bsize = (blockSize N : Int) := (iterable_iff.1 hi).1 nl.ptr
    subst h3
    have he : v.end? N = some ⟨.static, none, 0, 0⟩ := by rw [Deq.end?, if_pos hb, nl.ptr]; rfl
    exact ⟨_, _, by rw [Deq.begin?, if_pos nl.cs, he], he,
      Feeds.empty (by simp [InRange.iter, Iter.eq]) fun _ _ _ => .inr ⟨nl, h1, h2, rfl⟩⟩

/-- A range of the deque itself. -/
theorem subSelf_drep (P : Pol) {h : Heap X} {v : Deq} {xs us fs} (r : DRep N h v xs us fs) (w : h.Wf) (left : Nat → Option X)
    {lo up : Nat} (hl : lo ≤ up) (hle : up ≤ xs.length) (hi : (v.csize == 0 || v.iterable N) = true)
    (hi2 : (decide (up < v.csize) || v.iterable N) = true) (hleft : (∀ k, left k = none) ∨ 0 < lo) :
    ∃ v' h' us' fs', v.assignSub P N v h lo up left = some (v', h') ∧ DRep N h' v' ((xs.take up).drop lo) us' fs' ∧
      Heap.Frame h h' (us ++ fs) (us' ++ fs') ∧
      (∀ n, n < xs.length → n < ((xs.take up).drop lo).length → v'.cell N n = v.cell N n) ∧ (FA N v → FA N v') := by
  rcases Nat.eq_zero_or_pos xs.length with h0 | hn
  · obtain ⟨b, i1, i2, hb, e1, e2, D⟩ := sub_drep r left hl hle hi2
    have hx : xs = [] := List.length_eq_zero_iff.1 h0
    have h0' : v.csize = 0 := by
      rcases r with ⟨F, f1, bz, c⟩ | ⟨nl, _⟩
      · rw [← c.len, h0]
      · exact nl.cs
    subst hx
    simp only [List.take_nil, List.drop_nil] at D ⊢
    refine ⟨v, h, us, fs, ?_, r, Heap.Frame.refl w, by simp, id⟩
    rw [Deq.assignSub, hb]
    simp only [Option.bind_some, e1, e2]
    exact assignFrom_end h0' D.1
  · rcases r with ⟨F, f1, bz, c⟩ | ⟨nl, h1, h2, h3⟩
    · simp only [Bool.or_eq_true, decide_eq_true_eq, beq_iff_eq] at hi hi2
      have hit := hi.resolve_left (by rw [← c.len]; omega)
      obtain ⟨b, i1, i2, hb, e1, e2, d1, d2⟩ := c.sub_iters hl hle (hi2.imp (by rw [c.len]; exact id) iterable_iff.1)
      obtain ⟨v', h', us', fs', bz', e, c', f, p⟩ := c.assignFromSelf P left (k := 0) (fuel := v.csize + 1) w d1 d2 hl hle
        (by have := c.len; omega) hleft hn (iterable_iff.1 hit)
      refine ⟨v', h', us', fs', ?_, .inl ⟨_, _, _, c'⟩, f, fun n h1 h2 => cell_prefix c c' (.inr p) h1 h2, fun _ => c'.fa⟩
      rw [Deq.assignSub, hb]
      simp only [Option.bind_some, e1, e2]
      exact e
    · subst h3; simp at hn

theorem allSelf_drep (P : Pol) {h : Heap X} {v : Deq} {xs us fs} (r : DRep N h v xs us fs) (w : h.Wf)
    (hi : v.iterable N = true) :
    ∃ v' h' us' fs', v.assignAll P N v h = some (v', h') ∧ DRep N h' v' xs us' fs' ∧
      Heap.Frame h h' (us ++ fs) (us' ++ fs') ∧
      (∀ n, n < xs.length → n < xs.length → v'.cell N n = v.cell N n) ∧ (FA N v → FA N v') := by
  rcases Nat.eq_zero_or_pos xs.length with h0 | hn
  · obtain ⟨b, e, hb, he, D⟩ := all_drep r hi
    have hx : xs = [] := List.length_eq_zero_iff.1 h0
    have h0' : v.csize = 0 := by
      rcases r with ⟨F, f1, bz, c⟩ | ⟨nl, _⟩
      · rw [← c.len, h0]
      · exact nl.cs
    subst hx
    refine ⟨v, h, us, fs, ?_, r, Heap.Frame.refl w, by simp, id⟩
    rw [Deq.assignAll, hb, he]
    simp only [Option.bind_some]
    exact assignFrom_end h0' D.1
  · rcases r with ⟨F, f1, bz, c⟩ | ⟨nl, h1, h2, h3⟩
    · obtain ⟨b, e, hb, he, d1, d2⟩ := c.all_iters (iterable_iff.1 hi)
      obtain ⟨v', h', us', fs', bz', ea, c', f, p⟩ := c.assignFromSelf P (fun _ => none) (k := 0) (fuel := v.csize + 1) w d1 d2
        (Nat.zero_le _) (Nat.le_refl _) (by have := c.len; omega) (.inl fun _ => rfl) hn (iterable_iff.1 hi)
      rw [List.take_length, List.drop_zero] at c'
      refine ⟨v', h', us', fs', ?_, .inl ⟨_, _, _, c'⟩, f, fun n h1 h2 => cell_prefix c c' (.inr p) h1 h2, fun _ => c'.fa⟩
      rw [Deq.assignAll, hb, he]
      simp only [Option.bind_some]
      exact ea
    · subst h3; simp at hn

/-- An operation on object `i` that reads object `j` and may change its elements. -/
theorem WInvR.range {P : Pol} {w : World X} {aw us fs} (W : WInvR O N w aw us fs) {i j : Nat} (hij : i ≠ j) {op : Op X}
    (hop : (∀ k x, op ≠ .pushFront k x) ∧ (∀ k, op ≠ .popFront k))
    {v' : Deq} {h' : Heap X} {us' fs' : List Nat} {xs' : List X} {oa2 : Option (List X)} {o : Obs X}
    (he : exec P N w op = some (⟨upd w.objs i (some v'), h'⟩, o))
    (f : Heap.Frame w.heap h' (us i ++ fs i ++ (us j ++ fs j)) (us' ++ fs' ++ (us j ++ fs j)))
    (hd : ∀ b, b ∈ us' ++ fs' → b ∉ us j ++ fs j)
    (r : DRep N h' v' xs' us' fs') (r2 : ORep N h' (w.objs j) oa2 (us j) (fs j))
    (ad : op.rebinds i ∨ ∃ v xs, w.objs i = some v ∧ aw i = some xs ∧
      ∀ n, n < xs.length → n < xs'.length → v'.cell N n = v.cell N n)
    (fa : ∀ v, w.objs i = some v → FA N v → FA N v') (fa' : w.objs i = none → FA N v') :
    Good O P N w aw op (upd (upd aw i (some xs')) j oa2) o := by
  refine ⟨_, _, _, he, W.update2 hij f hd (o := some v') (oa := some xs') r r2, ?_, ?_⟩
  · intro k n m ys ys' hr h1 h2 h3 h4 h5
    rw [newIdx_other h3 (hop.1 k) (hop.2 k)] at h5 ⊢
    by_cases hk : k = i
    · subst hk
      obtain ⟨v, xs, hv, hx, hh⟩ := ad.resolve_left hr
      rw [upd_ne _ _ hij, upd_same] at h2
      cases h2
      rw [hx] at h1; cases h1
      simp only [World.addr, upd_same, hv, Option.bind_some]
      exact hh n h4 h5
    · simp only [World.addr, upd_ne _ _ hk]
  · intro _ H k u hu
    simp only at hu
    by_cases hk : k = i
    · subst hk
      rw [upd_same] at hu; cases hu
      cases hv : w.objs k with
      | none => exact fa' hv
      | some v => exact fa v hv (H k v hv)
    · rw [upd_ne _ _ hk] at hu; exact H k u hu

theorem upd_other {α : Type} (w : Nat → Option α) {i j : Nat} (hij : i ≠ j) {a : Option α} :
    upd (upd w i a) j (w j) = upd w i a := by
  funext k
  by_cases hk : k = j
  · subst hk; rw [upd_same, upd_ne _ _ (Ne.symm hij)]
  · rw [upd_ne _ _ hk]

theorem DRep.lt_next {h : Heap X} {v : Deq} {xs us fs} (r : DRep N h v xs us fs) (w : h.Wf) : ∀ b, b ∈ us ++ fs → b < h.next :=
  fun b hb => w.live b (ORep.live (ORep.ofD r) b hb)

theorem DRep.csize {h : Heap X} {v : Deq} {xs us fs} (r : DRep N h v xs us fs) : v.csize = xs.length := by
  rcases r with ⟨F, f1, bz, c⟩ | ⟨nl, _, _, rfl⟩
  · exact c.len.symm
  · exact nl.cs

theorem step (P : Pol) (w : World X) (aw : AWorld X) (us fs : Nat → List Nat) (W : WInvR O N w aw us fs) (op : Op X)
    (aw' : AWorld X) (o : Obs X) (hi : ideal aw op = some (aw', o)) (hc : careful P N w op = true) :
    Good O P N w aw op aw' o := by
  cases op with
  | new i =>
    simp only [ideal, Option.isNone_iff_eq_none] at hi
    split at hi <;> [skip; cases hi]
    rename_i hn
    cases hi
    obtain ⟨_, h1, h2⟩ := W.getNone hn
    refine W.rebind (op := .new i) (i := i) (by simp) rfl rfl (us' := []) (fs' := []) ?_
      (show DRep _ _ _ _ _ _ from .inr ⟨default_null, rfl, rfl, rfl⟩) (by rintro _ ⟨⟩; exact default_fa)
    rw [h1, h2]; exact Heap.Frame.refl W.wf
  | newSize i n x =>
    simp only [ideal, Option.isNone_iff_eq_none] at hi
    split at hi <;> [skip; cases hi]
    rename_i hn
    cases hi
    obtain ⟨_, h1, h2⟩ := W.getNone hn
    simp only [careful, bne_iff_ne, ne_eq] at hc
    obtain ⟨v', h', us', F, f1, bz, e, c, f⟩ := ofSize_eq (N := N) W.wf n (by omega) x
    refine W.rebind (op := .newSize i n x) (i := i) (by simp) rfl (by rw [exec, e]; rfl) (us' := us') (fs' := []) ?_
      (ORep.ofD (.inl ⟨_, _, _, c⟩)) (by rintro _ ⟨⟩; exact c.fa)
    rw [h1, h2]; exact f
  | copyNew i j =>
    simp only [ideal, Option.isNone_iff_eq_none] at hi
    split at hi <;> [skip; cases hi]
    rename_i hn
    simp only [Option.map_eq_some_iff] at hi
    obtain ⟨a, ha, hi⟩ := hi
    cases hi
    obtain ⟨v, hv, r⟩ := W.getSome ha
    simp only [careful, hv, Option.all_some, Bool.and_eq_true] at hc
    obtain ⟨_, h1, h2⟩ := W.getNone hn
    rcases r with ⟨F, f1, bz, c⟩ | ⟨nl, _⟩
    · obtain ⟨v', h', us', fs', F', f1', bz', e, c', f, dj, c2⟩ := copyCtor_eq P c W.wf (iterable_iff.1 hc.2)
      have hij : i ≠ j := by rintro rfl; rw [hn] at ha; cases ha
      have := W.range (op := .copyNew i j) (P := P) (o := .done) hij (by simp)
        (by simp only [exec, hv, Option.bind_some]; rw [e]; rfl) (us' := us') (fs' := fs') (by rw [h1, h2]; exact f) dj
        (.inl ⟨_, _, _, c'⟩) (oa2 := aw j) (by rw [hv, ha]; exact .inl ⟨_, _, _, c2⟩) (.inl rfl) (fun _ _ _ => c'.fa)
        (fun _ => c'.fa)
      rwa [upd_other _ hij] at this
    · rw [nl.ptr] at hc; simp at hc
  | moveNew i j =>
    simp only [ideal, Option.isNone_iff_eq_none] at hi
    split at hi <;> [skip; cases hi]
    rename_i hn
    simp only [Option.map_eq_some_iff] at hi
    obtain ⟨a, ha, hi⟩ := hi
    cases hi
    obtain ⟨v, hv, _⟩ := W.getSome ha
    obtain ⟨_, h1, h2⟩ := W.getNone hn
    have hij : i ≠ j := by rintro rfl; rw [hn] at ha; cases ha
    refine ⟨_, _, _, by simp only [exec, hv, Option.map_some]; rfl, W.transfer hij ⟨h1, h2⟩ hv ha, ?_, by simp [Op.noMove]⟩
    intro k n m ys ys' hr h1 h2 h3 h4 h5
    simp only [Op.rebinds, not_or] at hr
    rw [newIdx_other h3 (by simp) (by simp)]
    simp only [World.addr, upd_ne _ _ (Ne.symm hr.1), upd_ne _ _ (Ne.symm hr.2)]
  | copyAssign i j =>
    simp only [ideal, Option.bind_eq_some_iff, Option.map_eq_some_iff] at hi
    obtain ⟨a, ha, b, hb, hi⟩ := hi
    cases hi
    obtain ⟨v, hv, r⟩ := W.getSome ha
    obtain ⟨v2, hv2, r2⟩ := W.getSome hb
    simp only [careful, hv, hv2, Option.all_some] at hc
    rw [Bool.and_eq_true, Bool.and_eq_true] at hc
    by_cases hij : i = j
    · subst hij
      rw [hv] at hv2; cases hv2
      rw [ha] at hb; cases hb
      obtain ⟨v', h', us', fs', e, c', f, ad, fa⟩ := allSelf_drep P r W.wf hc.2
      refine W.local (by simp) hv ha (by simp only [exec, hv, Option.bind_some, Deq.copyAssign]; rw [e]; rfl) c' f ?_ fa
      intro n m h3 h4 h5
      have := newIdx_other h3 (by simp) (by simp)
      subst this
      exact ad _ h4 h5
    · obtain ⟨ib, ie, hib, hie, D⟩ := all_drep r2 hc.2
      obtain ⟨v', h', us', fs', e, c', f, dj, q, ad, fa⟩ := assignFrom_drep P r W.wf (r2.lt_next W.wf) (W.disj i j hij) D
        (fuel := v2.csize + 1) (by have := r2.csize; omega) hc.1.1 hc.1.2
      have := W.range (op := .copyAssign i j) (P := P) (o := .done) hij (by simp)
        (by simp only [exec, hv, hv2, Option.bind_some, Deq.copyAssign, Deq.assignAll, hib, hie]; rw [e]; rfl) f dj c' (oa2 := aw j)
        (by rw [hv2, hb]; exact q) (.inr ⟨v, a, hv, ha, ad⟩) (by rw [hv]; rintro _ ⟨⟩; exact fa) (by rw [hv]; simp)
      rwa [upd_other _ hij] at this
  | assignRange i j lo up =>
    simp only [ideal, Option.bind_eq_some_iff] at hi
    obtain ⟨a, ha, b, hb, hi⟩ := hi
    split at hi <;> [skip; cases hi]
    rename_i hlo
    obtain ⟨hlo, hhi⟩ := hlo
    cases hi
    obtain ⟨v, hv, r⟩ := W.getSome ha
    obtain ⟨v2, hv2, r2⟩ := W.getSome hb
    simp only [careful, hv, hv2, Option.all_some] at hc
    rw [Bool.and_eq_true, Bool.and_eq_true] at hc
    by_cases hij : i = j
    · subst hij
      rw [hv] at hv2; cases hv2
      rw [ha] at hb; cases hb
      obtain ⟨v', h', us', fs', e, c', f, ad, fa⟩ := subSelf_drep P r W.wf (fun _ => none) hlo hhi hc.1.2 hc.2 (.inl fun _ => rfl)
      refine W.local (by simp) hv ha (by simp only [exec, hv, Option.bind_some]; rw [e]; rfl) c' f ?_ fa
      intro n m h3 h4 h5
      have := newIdx_other h3 (by simp) (by simp)
      subst this
      exact ad _ h4 h5
    · obtain ⟨ib, i1, i2, hib, hi1, hi2, D⟩ := sub_drep r2 (fun _ => none) hlo hhi hc.2
      rw [leave_copy] at D
      obtain ⟨v', h', us', fs', e, c', f, dj, q, ad, fa⟩ := assignFrom_drep P r W.wf (r2.lt_next W.wf) (W.disj i j hij) D
        (fuel := v2.csize + 1) (by have := r2.csize; simp; omega) hc.1.1 hc.1.2
      have := W.range (op := .assignRange i j lo up) (P := P) (o := .done) hij (by simp)
        (by simp only [exec, hv, hv2, Option.bind_some, Deq.assignSub, hib, hi1, hi2]; rw [e]; rfl) f dj c' (oa2 := aw j)
        (by rw [hv2, hb]; exact q) (.inr ⟨v, a, hv, ha, ad⟩) (by rw [hv]; rintro _ ⟨⟩; exact fa) (by rw [hv]; simp)
      rwa [upd_other _ hij] at this
  | moveRange i j lo up left =>
    simp only [ideal, Option.bind_eq_some_iff] at hi
    obtain ⟨a, ha, b, hb, hi⟩ := hi
    split at hi <;> [skip; cases hi]
    rename_i hlo
    obtain ⟨hlo, hhi, hleft⟩ := hlo
    obtain ⟨v, hv, r⟩ := W.getSome ha
    obtain ⟨v2, hv2, r2⟩ := W.getSome hb
    simp only [careful, hv, hv2, Option.all_some] at hc
    rw [Bool.and_eq_true, Bool.and_eq_true] at hc
    split at hi
    · rename_i hij
      subst hij
      split at hi <;> [skip; cases hi]
      rename_i hpos
      cases hi
      rw [hv] at hv2; cases hv2
      rw [ha] at hb; cases hb
      obtain ⟨v', h', us', fs', e, c', f, ad, fa⟩ := subSelf_drep P r W.wf (fun k => left[k]?) hlo hhi hc.1.2 hc.2 (.inr hpos)
      refine W.local (by simp) hv ha (by simp only [exec, hv, Option.bind_some]; rw [e]; rfl) c' f ?_ fa
      intro n m h3 h4 h5
      have := newIdx_other h3 (by simp) (by simp)
      subst this
      exact ad _ h4 h5
    · rename_i hij
      cases hi
      obtain ⟨ib, i1, i2, hib, hi1, hi2, D⟩ := sub_drep r2 (fun k => left[k]?) hlo hhi hc.2
      rw [← hleft, leave_list left 0 lo b _ (fun t _ => by simp) (by omega), show lo + left.length = up by omega] at D
      obtain ⟨v', h', us', fs', e, c', f, dj, q, ad, fa⟩ := assignFrom_drep P r W.wf (r2.lt_next W.wf) (W.disj i j hij) D
        (fuel := v2.csize + 1) (by have := r2.csize; simp; omega) hc.1.1 hc.1.2
      exact W.range (op := .moveRange i j lo up left) (P := P) (o := .done) hij (by simp)
        (by simp only [exec, hv, hv2, Option.bind_some, Deq.assignSub, hib, hi1, hi2]; rw [e]; rfl) f dj c'
        (by rw [hv2]; exact q) (.inr ⟨v, a, hv, ha, ad⟩) (by rw [hv]; rintro _ ⟨⟩; exact fa) (by rw [hv]; simp)
  | moveAssign i j =>
    simp only [ideal] at hi
    split at hi <;> [cases hi; skip]
    rename_i hij
    simp only [Option.bind_eq_some_iff, Option.map_eq_some_iff] at hi
    obtain ⟨a, ha, b, hb, hi⟩ := hi
    cases hi
    obtain ⟨v, hv, r⟩ := W.getSome ha
    obtain ⟨v2, hv2, _⟩ := W.getSome hb
    obtain ⟨h', e, f⟩ := freeAll_drep P r W.wf
    have W' := W.update i f (o := none) (oa := none) ⟨rfl, rfl⟩
    have hv2' : upd w.objs i none j = some v2 := by rw [upd_ne _ _ (Ne.symm hij)]; exact hv2
    have hb' : upd aw i none j = some b := by rw [upd_ne _ _ (Ne.symm hij)]; exact hb
    have W2 := W'.transfer hij (by simp [updL_same]) hv2' hb'
    simp only [upd_upd] at W2
    refine ⟨_, _, _, by simp only [exec, hv, hv2, Option.bind_some, Deq.moveAssign, e, Option.map_some],
      W2, ?_, by simp [Op.noMove]⟩
    intro k n m ys ys' hr h1 h2 h3 h4 h5
    simp only [Op.rebinds, not_or] at hr
    rw [newIdx_other h3 (by simp) (by simp)]
    simp only [World.addr, upd_ne _ _ (Ne.symm hr.1), upd_ne _ _ (Ne.symm hr.2)]
  | destroy i =>
    simp only [ideal, Option.map_eq_some_iff] at hi
    obtain ⟨a, ha, hi⟩ := hi
    cases hi
    obtain ⟨v, hv, r⟩ := W.getSome ha
    obtain ⟨h', e, f⟩ := freeAll_drep P r W.wf
    exact W.rebind (op := .destroy i) (i := i) (v' := none) (by simp) rfl
      (by simp only [exec, hv, Option.bind_some, e, Option.map_some]) f ⟨rfl, rfl⟩ (by simp)
  | push i x =>
    simp only [ideal, Option.map_eq_some_iff] at hi
    obtain ⟨a, ha, hi⟩ := hi
    cases hi
    obtain ⟨v, hv, r⟩ := W.getSome ha
    simp only [careful, hv, Option.all_some] at hc
    rcases r with ⟨F, f1, bz, c⟩ | ⟨nl, h1, h2, h3⟩
    · obtain ⟨v', h', us', fs', F', bz', e, c', f, p⟩ := c.pushBack_eq P W.wf x
      refine W.local (by simp) hv ha (by simp only [exec, hv, Option.bind_some, e, Option.map_some]) (.inl ⟨_, _, _, c'⟩)
        f ?_ (fun _ => c'.fa)
      intro n m h3 h4 h5
      have := newIdx_other h3 (by simp) (by simp)
      subst this
      exact cell_prefix c c' (.inl p) h4 h5
    · obtain ⟨h4, h5⟩ := usable_null nl hc
      obtain ⟨v', h', us', bz', e, c', f⟩ := Core.pushBack_null P nl h4 h5 W.wf x
      subst h3
      refine W.local (by simp) hv ha (by simp only [exec, hv, Option.bind_some, e, Option.map_some]) (.inl ⟨_, _, _, c'⟩)
        (by rw [h1, h2]; exact f) ?_ (fun _ => c'.fa)
      intro n m _ h4 _; simp at h4
  | pushFront i x =>
    simp only [ideal, Option.map_eq_some_iff] at hi
    obtain ⟨a, ha, hi⟩ := hi
    cases hi
    obtain ⟨v, hv, r⟩ := W.getSome ha
    simp only [careful, hv, Option.all_some, Bool.and_eq_true, Bool.or_eq_true, beq_iff_eq, decide_eq_true_eq,
      Bool.not_eq_true', Deq.overlap, decide_eq_false_iff_not] at hc
    rcases r with ⟨F, f1, bz, c⟩ | ⟨nl, h1, h2, h3⟩
    · obtain ⟨v', h', us', fs', F', f1', pre, e, c', f, p1, p2⟩ := c.pushFront_eq P W.wf hc.2 x
      refine W.local (by simp) hv ha (by simp only [exec, hv, Option.bind_some, e, Option.map_some]) (.inl ⟨_, _, _, c'⟩)
        f ?_ (fun _ => c'.fa)
      intro n m h3 h4 h5
      simp only [Op.newIdx, if_true, Option.some.injEq] at h3
      subst h3
      exact cell_prepend c c' p1 h4 h5 (by omega)
    · have hc1 := hc.1
      rw [nl.ptr] at hc1
      simp only [Option.isSome_none, Bool.false_eq_true, false_or] at hc1
      obtain ⟨v', h', us', f1', e, c', f⟩ := Core.pushFront_null P nl hc1.2 hc1.1 W.wf x
      subst h3
      refine W.local (by simp) hv ha (by simp only [exec, hv, Option.bind_some, e, Option.map_some]) (.inl ⟨_, _, _, c'⟩)
        (by rw [h1, h2]; exact f) ?_ (fun _ => c'.fa)
      intro n m _ h4 _; simp at h4
  | pop i =>
    simp only [ideal, Option.map_eq_some_iff] at hi
    obtain ⟨a, ha, hi⟩ := hi
    cases hi
    obtain ⟨v, hv, r⟩ := W.getSome ha
    rcases r with ⟨F, f1, bz, c⟩ | ⟨nl, h1, h2, h3⟩
    · obtain ⟨v', h', us', fs', bz', e, c', f, p⟩ := c.popBack_eq P W.wf
      refine W.local (by simp) hv ha (by simp only [exec, hv, Option.bind_some, e, Option.map_some]) (.inl ⟨_, _, _, c'⟩)
        f ?_ (fun _ => c'.fa)
      intro n m h3 h4 h5
      have := newIdx_other h3 (by simp) (by simp)
      subst this
      exact cell_prefix c c' (.inr p) h4 h5
    · subst h3
      refine W.local (by simp) hv ha (by simp only [exec, hv, Option.bind_some, Deq.popBack, if_pos nl.cs, Option.map_some])
        (.inr ⟨nl, h1, h2, rfl⟩) (Heap.Frame.refl W.wf) (by simp) id
  | popFront i =>
    simp only [ideal, Option.map_eq_some_iff] at hi
    obtain ⟨a, ha, hi⟩ := hi
    cases hi
    obtain ⟨v, hv, r⟩ := W.getSome ha
    rcases r with ⟨F, f1, bz, c⟩ | ⟨nl, h1, h2, h3⟩
    · rcases Nat.eq_zero_or_pos a.length with h0 | hn
      · have hx : a = [] := List.length_eq_zero_iff.1 h0
        subst hx
        refine W.local (by simp) hv ha (by
          simp only [exec, hv, Option.bind_some, Deq.popFront, if_pos (show v.csize = 0 from c.len.symm), Option.map_some])
          (.inl ⟨_, _, _, c⟩) (Heap.Frame.refl W.wf) (by simp) id
      · obtain ⟨v', h', us', fs', F', f1', pre, e, c', f, p1, p2⟩ := c.popFront_eq P W.wf hn
        refine W.local (by simp) hv ha (by simp only [exec, hv, Option.bind_some, e, Option.map_some]) (.inl ⟨_, _, _, c'⟩)
          f ?_ (fun _ => c'.fa)
        intro n m h3 h4 h5
        simp only [Op.newIdx, if_true] at h3
        split at h3
        · cases h3
        · cases h3
          exact (cell_prepend c' c p1 h5 h4 (by omega)).symm
    · subst h3
      refine W.local (by simp) hv ha (by simp only [exec, hv, Option.bind_some, Deq.popFront, if_pos nl.cs, Option.map_some])
        (.inr ⟨nl, h1, h2, rfl⟩) (Heap.Frame.refl W.wf) (by simp) id
  | assign i xs =>
    simp only [ideal, Option.map_eq_some_iff] at hi
    obtain ⟨a, ha, hi⟩ := hi
    cases hi
    obtain ⟨v, hv, r⟩ := W.getSome ha
    simp only [careful, hv, Option.all_some] at hc
    rw [Bool.and_eq_true] at hc
    obtain ⟨v', h', us', fs', e, c', f, ad, fa⟩ := assign_drep P r W.wf xs hc.1 hc.2
    refine W.local (by simp) hv ha (by simp only [exec, hv, Option.bind_some]; rw [e]; rfl) c' f ?_ fa
    intro n m h3 h4 h5
    have := newIdx_other h3 (by simp) (by simp)
    subst this
    exact ad _ h4 h5
  | clear i =>
    simp only [ideal, Option.map_eq_some_iff] at hi
    obtain ⟨a, ha, hi⟩ := hi
    cases hi
    obtain ⟨v, hv, r⟩ := W.getSome ha
    simp only [careful, hv, Option.all_some, Bool.or_eq_true, beq_iff_eq, decide_eq_true_eq] at hc
    rcases r with ⟨F, f1, bz, c⟩ | ⟨nl, h1, h2, h3⟩
    · obtain ⟨v', h', us', fs', F', f1', bz', e, c', f⟩ := c.clear_eq P W.wf (by
        rcases hc with ((hc | hc) | hc) | hc
        · left; exact List.length_eq_zero_iff.1 (c.len.trans hc)
        · exact .inr (.inl hc)
        · right; right; left; rw [c.front, c.back] at hc; omega
        · right; right; right; rw [c.fsz] at hc; omega)
      exact W.local (by simp) hv ha (by simp only [exec, hv, Option.bind_some, e, Option.map_some]) (.inl ⟨_, _, _, c'⟩)
        f (by simp) (fun _ => c'.fa)
    · subst h3
      exact W.local (by simp) hv ha (by simp only [exec, hv, Option.bind_some, Core.clear_null P nl, Option.map_some])
        (.inr ⟨nl, h1, h2, rfl⟩) (Heap.Frame.refl W.wf) (by simp) id
  | shrink i =>
    simp only [ideal, Option.map_eq_some_iff] at hi
    obtain ⟨a, ha, hi⟩ := hi
    cases hi
    obtain ⟨v, hv, r⟩ := W.getSome ha
    simp only [careful, hv, Option.all_some, Bool.or_eq_true, beq_iff_eq] at hc
    rw [show aw = upd aw i (some a) from (upd_id ha).symm]
    conv => arg 5; rw [upd_id ha]
    rcases r with ⟨F, f1, bz, c⟩ | ⟨nl, h1, h2, h3⟩
    · obtain ⟨v', h', e, c', f, _⟩ := c.shrink_eq W.wf
      refine W.local (by simp) hv ha (by simp only [exec, hv, Option.bind_some, e, Option.map_some]) (.inl ⟨_, _, _, c'⟩)
        f ?_ (fun _ => c'.fa)
      intro n m h3 h4 h5
      have := newIdx_other h3 (by simp) (by simp)
      subst this
      exact cell_prefix c c' (.inl (List.prefix_refl _)) h4 h5
    · have h0 : v.free.idx = 0 := hc.resolve_left (by rw [nl.ptr]; simp)
      subst h3
      refine W.local (v' := { v with free := { v.free with idx := 0 } }) (by simp) hv ha (by
          simp only [exec, hv, Option.bind_some, Deq.shrinkToFit]; rw [h0, FreeL.freeFrom]; simp only [Option.map_some])
        (.inr ⟨⟨nl.ptr, nl.av, nl.cs, nl.fs, nl.fb, nl.fa⟩, h1, h2, rfl⟩) (Heap.Frame.refl W.wf) (by simp) ?_
      intro fa hp
      exact ⟨(fa hp).1, rfl⟩
  | set i k x =>
    simp only [ideal, Option.bind_eq_some_iff] at hi
    obtain ⟨a, ha, hi⟩ := hi
    split at hi <;> [skip; cases hi]
    rename_i hk
    cases hi
    obtain ⟨v, hv, r⟩ := W.getSome ha
    rcases r with ⟨F, f1, bz, c⟩ | ⟨nl, h1, h2, h3⟩
    · obtain ⟨h', e, c', f⟩ := c.set_eq W.wf hk x
      refine W.local (op := .set i k x) (by simp) hv ha
        (by simp only [exec, hv, Option.bind_some, e, Option.map_some, upd_id hv]) (.inl ⟨_, _, _, c'⟩) f ?_ id
      intro n m h3 h4 h5
      rw [newIdx_other h3 (by simp) (by simp)]
    · subst h3; simp at hk
  | size i =>
    simp only [ideal, Option.map_eq_some_iff] at hi
    obtain ⟨a, ha, hi⟩ := hi
    cases hi
    obtain ⟨v, hv, r⟩ := W.getSome ha
    refine W.noop (by simp) ?_
    rcases r with ⟨F, f1, bz, c⟩ | ⟨nl, h1, h2, h3⟩
    · simp only [exec, hv, Option.map_some, Deq.size, c.len]
    · simp only [exec, hv, Option.map_some, Deq.size, nl.cs, h3, List.length_nil]
  | empty i =>
    simp only [ideal, Option.map_eq_some_iff] at hi
    obtain ⟨a, ha, hi⟩ := hi
    cases hi
    obtain ⟨v, hv, r⟩ := W.getSome ha
    refine W.noop (by simp) ?_
    rcases r with ⟨F, f1, bz, c⟩ | ⟨nl, h1, h2, h3⟩
    · have hl := c.len
      simp only [exec, hv, Option.map_some, Deq.empty, ← hl]
      cases a <;> rfl
    · simp only [exec, hv, Option.map_some, Deq.empty, nl.cs, h3]; rfl
  | get i k =>
    simp only [ideal, Option.bind_eq_some_iff, Option.map_eq_some_iff] at hi
    obtain ⟨a, ha, x, hx, hi⟩ := hi
    cases hi
    obtain ⟨v, hv, r⟩ := W.getSome ha
    obtain ⟨hk, rfl⟩ := List.getElem?_eq_some_iff.1 hx
    refine W.noop (by simp) ?_
    rcases r with ⟨F, f1, bz, c⟩ | ⟨nl, h1, h2, h3⟩
    · simp only [exec, hv, Option.bind_some, c.get_eq hk, Option.map_some]
    · subst h3; simp at hk
  | «at» i k =>
    simp only [ideal, Option.map_eq_some_iff] at hi
    obtain ⟨a, ha, hi⟩ := hi
    cases hi
    obtain ⟨v, hv, r⟩ := W.getSome ha
    refine W.noop (by simp) ?_
    simp only [exec, hv, Option.bind_some, Deq.at?]
    rcases r with ⟨F, f1, bz, c⟩ | ⟨nl, h1, h2, h3⟩
    · by_cases hk : k < a.length
      · rw [if_neg (by rw [← c.len]; omega), c.get_eq hk, List.getElem?_eq_getElem hk]; rfl
      · rw [if_pos (by rw [← c.len]; omega), List.getElem?_eq_none (by omega)]; rfl
    · rw [if_pos (by rw [nl.cs]; omega), h3]; rfl
  | front i =>
    simp only [ideal, Option.bind_eq_some_iff, Option.map_eq_some_iff] at hi
    obtain ⟨a, ha, x, hx, hi⟩ := hi
    cases hi
    obtain ⟨v, hv, r⟩ := W.getSome ha
    rw [List.head?_eq_getElem?] at hx
    obtain ⟨hk, rfl⟩ := List.getElem?_eq_some_iff.1 hx
    refine W.noop (by simp) ?_
    rcases r with ⟨F, f1, bz, c⟩ | ⟨nl, h1, h2, h3⟩
    · simp only [exec, hv, Option.bind_some, c.front_eq hk, Option.map_some]
    · subst h3; simp at hk
  | back i =>
    simp only [ideal, Option.bind_eq_some_iff, Option.map_eq_some_iff] at hi
    obtain ⟨a, ha, x, hx, hi⟩ := hi
    cases hi
    obtain ⟨v, hv, r⟩ := W.getSome ha
    rw [List.getLast?_eq_getElem?] at hx
    obtain ⟨hk, rfl⟩ := List.getElem?_eq_some_iff.1 hx
    refine W.noop (by simp) ?_
    rcases r with ⟨F, f1, bz, c⟩ | ⟨nl, h1, h2, h3⟩
    · simp only [exec, hv, Option.bind_some, c.back_eq (by omega), Option.map_some]
    · subst h3; simp at hk
  | iterate i =>
    simp only [ideal, Option.map_eq_some_iff] at hi
    obtain ⟨a, ha, hi⟩ := hi
    cases hi
    obtain ⟨v, hv, r⟩ := W.getSome ha
    simp only [careful, hv, Option.all_some] at hc
    refine W.noop (by simp) ?_
    simp only [exec, hv, Option.bind_some, iterate_drep r hc, Option.map_some]

theorem runs (P : Pol) (ops : List (Op X)) : ∀ (w : World X) (aw : AWorld X) (us fs : Nat → List Nat),
    WInvR O N w aw us fs → ∀ aw' obs, idealRun aw ops = some (aw', obs) → carefulRun P N w ops = true →
    ∃ w' us' fs', run P N w ops = some (w', obs) ∧ WInvR O N w' aw' us' fs' := by
  induction ops with
  | nil =>
    intro w aw us fs W aw' obs h _
    cases h
    exact ⟨w, us, fs, rfl, W⟩
  | cons op ops ih =>
    intro w aw us fs W aw' obs h hc
    simp only [idealRun, Option.bind_eq_some_iff, Option.map_eq_some_iff] at h
    obtain ⟨⟨aw1, o⟩, h1, ⟨aw2, os⟩, h2, h3⟩ := h
    cases h3
    rw [carefulRun, Bool.and_eq_true] at hc
    obtain ⟨w1, us1, fs1, e1, W1, _, _⟩ := step P w aw us fs W op aw1 o h1 hc.1
    rw [e1] at hc
    obtain ⟨w2, us2, fs2, e2, W2⟩ := ih w1 aw1 us1 fs1 W1 aw2 os h2 hc.2
    exact ⟨w2, us2, fs2, by simp only [run, e1, Option.bind_some, e2, Option.map_some], W2⟩

end Verif.Block.Deque
