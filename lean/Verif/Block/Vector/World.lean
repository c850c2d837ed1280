import Verif.Block.Vector.Spec
import Verif.Block.Vector.Lemmas

namespace Verif.Block.Vector
open Verif.Block Vec
variable {X : Type} {N : Nat} {O : Others X}

theorem upd_same {α : Type} (w : Nat → Option α) (i : Nat) (a : Option α) : upd w i a i = a := by
  simp [upd]
theorem upd_ne {α : Type} (w : Nat → Option α) {i k : Nat} (a : Option α) (h : k ≠ i) :
    upd w i a k = w k := by simp [upd, h]
theorem upd_upd {α : Type} (w : Nat → Option α) (i : Nat) (a b : Option α) :
    upd (upd w i a) i b = upd w i b := by
  funext k; simp only [upd]; split <;> rfl

/-- update of the ghost block lists -/
def updL (f : Nat → List Nat) (i : Nat) (l : List Nat) : Nat → List Nat := fun k => if k = i then l else f k
theorem updL_same (f : Nat → List Nat) (i l) : updL f i l i = l := by simp [updL]
theorem updL_ne (f : Nat → List Nat) {i k} (l) (h : k ≠ i) : updL f i l k = f k := by simp [updL, h]

/-- One object represents one ideal object. -/
def ORep (N : Nat) (h : Heap X) : Option Vec → Option (AObj X) → List Nat → List Nat → Prop
  | none, none, us, fs => us = [] ∧ fs = []
  | some v, some a, us, fs =>
    (a.moved = true ∧ v.dataptr = none ∧ us = [] ∧ fs = []) ∨
    (a.moved = false ∧ Core N h v a.elems us fs ∧ v.avail = a.reserved ∧ (us = [] → v.avail = 0))
  | _, _, _, _ => False

theorem ORep.ofCore {h : Heap X} {v : Vec} {a : AObj X} {us fs} (hm : a.moved = false) (c : Core N h v a.elems us fs)
    (hr : v.avail = a.reserved) (hu : us = [] → v.avail = 0) : ORep N h (some v) (some a) us fs :=
  Or.inr ⟨hm, c, hr, hu⟩

theorem ORep.frame {h h' : Heap X} {o oa us fs} (r : ORep N h o oa us fs)
    (hk : ∀ b, b ∈ us ++ fs → h'.live b = h.live b ∧ ∀ j, h'.cells b j = h.cells b j) :
    ORep N h' o oa us fs := by
  cases o <;> cases oa <;> simp only [ORep] at r ⊢
  · exact r
  · rcases r with r | ⟨r1, r2, r3, r4⟩
    · exact .inl r
    · exact .inr ⟨r1, r2.frame hk, r3, r4⟩

theorem ORep.live {h : Heap X} {o oa us fs} (r : ORep N h o oa us fs) :
    ∀ b, b ∈ us ++ fs → h.live b = true := by
  cases o <;> cases oa <;> simp only [ORep] at r
  · simp [r.1, r.2]
  · rcases r with ⟨_, _, r1, r2⟩ | ⟨_, r2, _, _⟩
    · simp [r1, r2]
    · exact r2.live

/-- World invariant; the blocks `O` belong to objects of other types. -/
structure WInvR (O : Others X) (N : Nat) (w : World X) (aw : AWorld X) (us fs : Nat → List Nat) : Prop where
  wf : w.heap.Wf
  rep : ∀ i, ORep N w.heap (w.objs i) (aw i) (us i) (fs i)
  disj : ∀ i j, i ≠ j → ∀ b, b ∈ us i ++ fs i → b ∉ us j ++ fs j
  held : ∀ b, w.heap.live b = true → O.own b ∨ ∃ i, b ∈ us i ++ fs i
  rest : ∀ b, O.own b → b < w.heap.next ∧ w.heap.live b = O.heap.live b ∧ ∀ j, w.heap.cells b j = O.heap.cells b j
  apart : ∀ b, O.own b → ∀ i, b ∉ us i ++ fs i

/-- There are no other objects. -/
abbrev WInv (N : Nat) (w : World X) (aw : AWorld X) (us fs : Nat → List Nat) : Prop := WInvR .none N w aw us fs

theorem WInvR.noleak {w : World X} {aw us fs} (W : WInv N w aw us fs) (b : Nat) (h : w.heap.live b = true) :
    ∃ i, b ∈ us i ++ fs i := (W.held b h).resolve_left id

theorem WInv.empty : WInv N (World.empty : World X) (fun _ => none) (fun _ => []) (fun _ => []) :=
  ⟨Heap.Wf.empty, fun _ => ⟨rfl, rfl⟩, by simp, by simp [World.empty, Heap.empty], fun _ h => h.elim, fun _ h => h.elim⟩

/-- An operation on object `i` alone. -/
theorem WInvR.update {w : World X} {aw us fs} (W : WInvR O N w aw us fs) (i : Nat) {h' : Heap X}
    {o : Option Vec} {oa : Option (AObj X)} {us' fs' : List Nat}
    (f : Heap.Frame w.heap h' (us i ++ fs i) (us' ++ fs')) (r : ORep N h' o oa us' fs') :
    WInvR O N ⟨upd w.objs i o, h'⟩ (upd aw i oa) (updL us i us') (updL fs i fs') := by
  refine ⟨f.wf, ?_, ?_, ?_, ?_, ?_⟩
  · intro k
    by_cases hk : k = i
    · subst hk; simp only [upd_same, updL_same]; exact r
    · simp only [upd_ne _ _ hk, updL_ne _ _ hk]
      refine (W.rep k).frame fun b hb => ?_
      exact f.keep b (W.wf.live b ((W.rep k).live b hb)) (W.disj k i hk b hb)
  · intro k l hkl b hb
    have old : ∀ k, k ≠ i → ∀ b, b ∈ us k ++ fs k → b ∉ us' ++ fs' := by
      intro k hk b hb hb'
      rcases f.fresh b hb' with h1 | h1
      · exact W.disj k i hk b hb h1
      · have := W.wf.live b ((W.rep k).live b hb); omega
    by_cases hk : k = i
    · subst hk
      simp only [updL_same] at hb
      simp only [updL_ne _ _ hkl.symm]
      exact fun h => old l hkl.symm b h hb
    · simp only [updL_ne _ _ hk] at hb
      by_cases hl : l = i
      · subst hl; simp only [updL_same]; exact old k hk b hb
      · simp only [updL_ne _ _ hl]; exact W.disj k l hkl b hb
  · intro b hb
    rcases f.noleak b hb with h1 | ⟨h1, h2⟩
    · exact .inr ⟨i, by simpa only [updL_same] using h1⟩
    · rcases W.held b ((f.keep b h1 h2).1 ▸ hb) with ho | ⟨k, hk⟩
      · exact .inl ho
      · have hki : k ≠ i := by rintro rfl; exact h2 hk
        exact .inr ⟨k, by simpa only [updL_ne _ _ hki] using hk⟩
  · intro b ho
    obtain ⟨h1, h2, h3⟩ := W.rest b ho
    obtain ⟨h4, h5⟩ := f.keep b h1 (W.apart b ho i)
    exact ⟨Nat.lt_of_lt_of_le h1 f.next_le, h4.trans h2, fun j => (h5 j).trans (h3 j)⟩
  · intro b ho k
    by_cases hk : k = i
    · subst hk
      simp only [updL_same]
      intro hb
      rcases f.fresh b hb with h1 | h1
      · exact W.apart b ho k h1
      · have := (W.rest b ho).1; omega
    · simp only [updL_ne _ _ hk]; exact W.apart b ho k

/-- An operation on object `i` that also changes elements of object `j`. -/
theorem WInvR.update2 {w : World X} {aw us fs} (W : WInvR O N w aw us fs) {i j : Nat} (hij : i ≠ j) {h' : Heap X}
    {o : Option Vec} {oa oa2 : Option (AObj X)} {us' fs' : List Nat}
    (f : Heap.Frame w.heap h' (us i ++ fs i ++ (us j ++ fs j)) (us' ++ fs' ++ (us j ++ fs j)))
    (hd : ∀ b, b ∈ us' ++ fs' → b ∉ us j ++ fs j)
    (r : ORep N h' o oa us' fs') (r2 : ORep N h' (w.objs j) oa2 (us j) (fs j)) :
    WInvR O N ⟨upd w.objs i o, h'⟩ (upd (upd aw i oa) j oa2) (updL us i us') (updL fs i fs') := by
  have old : ∀ k, k ≠ i → ∀ b, b ∈ us k ++ fs k → b ∉ us' ++ fs' := by
    intro k hk b hb hb'
    by_cases hkj : k = j
    · subst hkj; exact hd b hb' hb
    · rcases f.fresh b (List.mem_append_left _ hb') with h1 | h1
      · rcases List.mem_append.1 h1 with h1 | h1
        · exact W.disj k i hk b hb h1
        · exact W.disj k j hkj b hb h1
      · have := W.wf.live b ((W.rep k).live b hb); omega
  refine ⟨f.wf, ?_, ?_, ?_, ?_, ?_⟩
  · intro k
    by_cases hk : k = i
    · subst hk; simp only [upd_same, updL_same, upd_ne _ _ hij]; exact r
    · by_cases hkj : k = j
      · subst hkj
        simp only [upd_ne _ _ hk, upd_same, updL_ne _ _ hk]; exact r2
      · simp only [upd_ne _ _ hk, updL_ne _ _ hk, upd_ne _ _ hkj]
        refine (W.rep k).frame fun b hb => ?_
        refine f.keep b (W.wf.live b ((W.rep k).live b hb)) fun h1 => ?_
        rcases List.mem_append.1 h1 with h1 | h1
        · exact W.disj k i hk b hb h1
        · exact W.disj k j hkj b hb h1
  · intro k l hkl b hb
    by_cases hk : k = i
    · subst hk
      simp only [updL_same] at hb
      simp only [updL_ne _ _ hkl.symm]
      exact fun h => old l hkl.symm b h hb
    · simp only [updL_ne _ _ hk] at hb
      by_cases hl : l = i
      · subst hl; simp only [updL_same]; exact old k hk b hb
      · simp only [updL_ne _ _ hl]; exact W.disj k l hkl b hb
  · intro b hb
    rcases f.noleak b hb with h1 | ⟨h1, h2⟩
    · rcases List.mem_append.1 h1 with h1 | h1
      · exact .inr ⟨i, by simpa only [updL_same] using h1⟩
      · exact .inr ⟨j, by simpa only [updL_ne _ _ hij.symm] using h1⟩
    · rcases W.held b ((f.keep b h1 h2).1 ▸ hb) with ho | ⟨k, hk⟩
      · exact .inl ho
      · have hki : k ≠ i := by rintro rfl; exact h2 (List.mem_append_left _ hk)
        exact .inr ⟨k, by simpa only [updL_ne _ _ hki] using hk⟩
  · intro b ho
    obtain ⟨h1, h2, h3⟩ := W.rest b ho
    obtain ⟨h4, h5⟩ := f.keep b h1 fun hb => (List.mem_append.1 hb).elim (W.apart b ho i) (W.apart b ho j)
    exact ⟨Nat.lt_of_lt_of_le h1 f.next_le, h4.trans h2, fun j => (h5 j).trans (h3 j)⟩
  · intro b ho k
    by_cases hk : k = i
    · subst hk
      simp only [updL_same]
      intro hb
      rcases f.fresh b (List.mem_append_left _ hb) with h1 | h1
      · exact (List.mem_append.1 h1).elim (W.apart b ho k) (W.apart b ho j)
      · have := (W.rest b ho).1; omega
    · simp only [updL_ne _ _ hk]; exact W.apart b ho k

/-- Moving object `j` into the free name `i`. -/
theorem WInvR.transfer {w : World X} {aw us fs} (W : WInvR O N w aw us fs) {i j : Nat} (hij : i ≠ j)
    (hi : us i = [] ∧ fs i = []) {v m : Vec} {a : AObj X} (hv : w.objs j = some v) (ha : aw j = some a)
    (hm : m.dataptr = none) :
    WInvR O N ⟨upd (upd w.objs i (some v)) j (some m), w.heap⟩
      (upd (upd aw i (some a)) j (some ⟨[], 0, true⟩))
      (updL (updL us i (us j)) j []) (updL (updL fs i (fs j)) j []) := by
  refine ⟨W.wf, ?_, ?_, ?_, ?_, ?_⟩
  · intro k
    by_cases hk : k = j
    · subst hk; simp only [upd_same, updL_same]; exact .inl ⟨rfl, hm, rfl, rfl⟩
    · by_cases hki : k = i
      · subst hki
        simp only [upd_ne _ _ hk, updL_ne _ _ hk, upd_same, updL_same]
        have := W.rep j
        rwa [hv, ha] at this
      · simp only [upd_ne _ _ hk, updL_ne _ _ hk, upd_ne _ _ hki, updL_ne _ _ hki]
        exact W.rep k
  · intro k l hkl b hb
    by_cases hk : k = j
    · subst hk; simp [updL_same] at hb
    · by_cases hl : l = j
      · subst hl; simp [updL_same]
      · simp only [updL_ne _ _ hk, updL_ne _ _ hl] at hb ⊢
        by_cases hki : k = i
        · subst hki
          simp only [updL_same] at hb
          simp only [updL_ne _ _ (Ne.symm hkl)]
          exact W.disj j l (Ne.symm hl) b hb
        · simp only [updL_ne _ _ hki] at hb
          by_cases hli : l = i
          · subst hli; simp only [updL_same]; exact W.disj k j hk b hb
          · simp only [updL_ne _ _ hli]; exact W.disj k l hkl b hb
  · intro b hb
    rcases W.held b hb with ho | ⟨k, hk⟩
    · exact .inl ho
    right
    by_cases hkj : k = j
    · subst hkj
      exact ⟨i, by simpa only [updL_ne _ _ hij, updL_same] using hk⟩
    · have hki : k ≠ i := by
        rintro rfl
        rw [hi.1, hi.2] at hk; simp at hk
      exact ⟨k, by simpa only [updL_ne _ _ hkj, updL_ne _ _ hki] using hk⟩
  · exact W.rest
  · intro b ho k
    by_cases hk : k = j
    · subst hk; simp [updL_same]
    · by_cases hki : k = i
      · subst hki
        simp only [updL_ne _ _ hk, updL_same]
        exact W.apart b ho j
      · simp only [updL_ne _ _ hk, updL_ne _ _ hki]
        exact W.apart b ho k

theorem WInvR.getNone {w : World X} {aw us fs} (W : WInvR O N w aw us fs) {i : Nat} (h : aw i = none) :
    w.objs i = none ∧ us i = [] ∧ fs i = [] := by
  have := W.rep i
  rw [h] at this
  cases ho : w.objs i with
  | none => rw [ho] at this; exact ⟨rfl, this⟩
  | some v => rw [ho] at this; exact this.elim

theorem WInvR.getSome {w : World X} {aw us fs} (W : WInvR O N w aw us fs) {i : Nat} {a : AObj X} (h : aw i = some a) :
    ∃ v, w.objs i = some v ∧ ((a.moved = true ∧ v.dataptr = none ∧ us i = [] ∧ fs i = []) ∨
    (a.moved = false ∧ Core N w.heap v a.elems (us i) (fs i) ∧ v.avail = a.reserved ∧ (us i = [] → v.avail = 0))) := by
  have := W.rep i
  rw [h] at this
  cases ho : w.objs i with
  | none => rw [ho] at this; exact this.elim
  | some v => rw [ho] at this; exact ⟨v, rfl, this⟩

theorem WInvR.getLive {w : World X} {aw us fs} (W : WInvR O N w aw us fs) {i : Nat} {a : AObj X} (h : aw i = some a)
    (hm : a.moved = false) :
    ∃ v, w.objs i = some v ∧ Core N w.heap v a.elems (us i) (fs i) ∧ v.avail = a.reserved ∧
      (us i = [] → v.avail = 0) := by
  obtain ⟨v, hv, h1 | h1⟩ := W.getSome h
  · rw [hm] at h1; exact absurd h1.1 (by simp)
  · exact ⟨v, hv, h1.2⟩

theorem capPush_eq (cap len : Nat) : capPush N cap len = reservePush N cap len := by
  rw [capPush, reservePush, blockSize_eq]

theorem capPushes_eq (n : Nat) : ∀ cap len : Nat, capPushes N cap len n = reservePushes N cap len n := by
  induction n with
  | zero => intro cap len; rfl
  | succ n ih => intro cap len; rw [capPushes, reservePushes, ih, capPush_eq]

/-- copying within the reserved slots reserves nothing more -/
theorem capPushes_fits (n : Nat) : ∀ cap len : Nat, len + n ≤ cap * blockSize N → capPushes N cap len n = cap := by
  induction n with
  | zero => intro cap len _; rfl
  | succ n ih =>
    intro cap len h
    have : capPush N cap len = cap := by rw [capPush, if_neg (by omega)]
    rw [capPushes, this, ih _ _ (by omega)]

theorem default_core (h : Heap X) : Core N h (Vec.default N) [] [] [] :=
  ⟨⟨rfl, rfl⟩, by simp [Vec.default], ⟨rfl, rfl⟩, rfl, .inr rfl, Nat.le_refl _, by simp [Vec.default],
    rfl, by simp, by simp, by simp, by simp, fun _ => rfl⟩

/-- Ops after which object `i` is a different object (created, moved or destroyed). -/
def Op.rebinds (i : Nat) : Op X → Prop
  | .new k => k = i
  | .newSize k _ _ => k = i
  | .copyNew k _ => k = i
  | .moveNew k l => k = i ∨ l = i
  | .moveAssign k l => k = i ∨ l = i
  | .destroy k => k = i
  | _ => False

/-- Ops that move object `j` into object `i`. -/
def Op.movesTo (i j : Nat) (op : Op X) : Prop := op = .moveNew i j ∨ op = .moveAssign i j

theorem iterable_core {v : Vec} {a : AObj X} (h : a.iterable N = true) (he : v.avail = a.reserved) :
    v.avail = 0 ∨ a.elems.length < v.avail * blockSize N := by
  rw [he, blockSize_eq]
  simpa [AObj.iterable] using h

/-- Shape of the result of an operation that changes only object `i` and does not rebind it. -/
theorem WInvR.local {w : World X} {aw us fs} (W : WInvR O N w aw us fs) {i : Nat} {op : Op X}
    (hop : ∀ k l, ¬ op.movesTo k l)
    {v' : Vec} {h' : Heap X} {us' fs' : List Nat} {a' : AObj X} {o : Obs X}
    (he : exec N w op = some (⟨upd w.objs i (some v'), h'⟩, o))
    (hc : Core N h' v' a'.elems us' fs') (hm : a'.moved = false) (hr : v'.avail = a'.reserved)
    (hu : us' = [] → v'.avail = 0)
    (f : Heap.Frame w.heap h' (us i ++ fs i) (us' ++ fs')) (p : us i <+: us' ∨ us' <+: us i) :
    ∃ w' us2 fs2, exec N w op = some (w', o) ∧ WInvR O N w' (upd aw i (some a')) us2 fs2 ∧
      (∀ k, ¬ op.rebinds k → us k <+: us2 k ∨ us2 k <+: us k) ∧
      (∀ k l, op.movesTo k l → us2 k = us l) := by
  refine ⟨_, _, _, he, W.update i f (.inr ⟨hm, hc, hr, hu⟩), ?_, fun k l h => absurd h (hop k l)⟩
  intro k _
  by_cases hk : k = i
  · subst hk; simpa only [updL_same] using p
  · simp only [updL_ne _ _ hk]; exact .inl (List.prefix_refl _)

theorem WInvR.noop {w : World X} {aw us fs} (W : WInvR O N w aw us fs) {op : Op X}
    (hop : ∀ k l, ¬ op.movesTo k l) {o : Obs X} (he : exec N w op = some (w, o)) :
    ∃ w' us2 fs2, exec N w op = some (w', o) ∧ WInvR O N w' aw us2 fs2 ∧
      (∀ k, ¬ op.rebinds k → us k <+: us2 k ∨ us2 k <+: us k) ∧
      (∀ k l, op.movesTo k l → us2 k = us l) :=
  ⟨w, us, fs, he, W, fun _ _ => .inl (List.prefix_refl _), fun k l h => absurd h (hop k l)⟩

/-- shape of the result of an operation that replaces object `i` -/
theorem WInvR.rebind {w : World X} {aw us fs} (W : WInvR O N w aw us fs) {i : Nat} {op : Op X}
    (hop : ∀ k l, ¬ op.movesTo k l) (hreb : op.rebinds i)
    {v' : Option Vec} {h' : Heap X} {us' fs' : List Nat} {a' : Option (AObj X)} {o : Obs X}
    (he : exec N w op = some (⟨upd w.objs i v', h'⟩, o))
    (f : Heap.Frame w.heap h' (us i ++ fs i) (us' ++ fs')) (r : ORep N h' v' a' us' fs') :
    ∃ w' us2 fs2, exec N w op = some (w', o) ∧ WInvR O N w' (upd aw i a') us2 fs2 ∧
      (∀ k, ¬ op.rebinds k → us k <+: us2 k ∨ us2 k <+: us k) ∧
      (∀ k l, op.movesTo k l → us2 k = us l) := by
  refine ⟨_, _, _, he, W.update i f r, ?_, fun k l h => absurd h (hop k l)⟩
  intro k hk
  have : k ≠ i := by rintro rfl; exact hk hreb
  simp only [updL_ne _ _ this]; exact .inl (List.prefix_refl _)

theorem upd_other {α : Type} (w : Nat → Option α) {i j : Nat} (h : i ≠ j) (a : Option α) :
    upd (upd w i a) j (w j) = upd w i a := by
  funext k
  by_cases hk : k = j
  · subst hk; rw [upd_same, upd_ne _ _ h.symm]
  · rw [upd_ne _ _ hk]

/-- shape of the result of an operation that replaces or changes object `i` and changes elements of object `j` -/
theorem WInvR.range {w : World X} {aw us fs} (W : WInvR O N w aw us fs) {i j : Nat} (hij : i ≠ j) {op : Op X}
    (hop : ∀ k l, ¬ op.movesTo k l)
    {v' : Vec} {h' : Heap X} {us' fs' : List Nat} {oa oa2 : Option (AObj X)} {o : Obs X}
    (he : exec N w op = some (⟨upd w.objs i (some v'), h'⟩, o))
    (f : Heap.Frame w.heap h' (us i ++ fs i ++ (us j ++ fs j)) (us' ++ fs' ++ (us j ++ fs j)))
    (hd : ∀ b, b ∈ us' ++ fs' → b ∉ us j ++ fs j)
    (r : ORep N h' (some v') oa us' fs') (r2 : ORep N h' (w.objs j) oa2 (us j) (fs j))
    (p : op.rebinds i ∨ us i <+: us' ∨ us' <+: us i) :
    ∃ w' us2 fs2, exec N w op = some (w', o) ∧ WInvR O N w' (upd (upd aw i oa) j oa2) us2 fs2 ∧
      (∀ k, ¬ op.rebinds k → us k <+: us2 k ∨ us2 k <+: us k) ∧
      (∀ k l, op.movesTo k l → us2 k = us l) := by
  refine ⟨_, _, _, he, W.update2 hij f hd r r2, ?_, fun k l h => absurd h (hop k l)⟩
  intro k hk
  by_cases hki : k = i
  · subst hki; simpa only [updL_same] using p.resolve_left hk
  · simp only [updL_ne _ _ hki]; exact .inl (List.prefix_refl _)

theorem avail_nil {v v' : Vec} {us us' : List Nat} {ys : List X} {n : Nat} (hu : us = [] → v.avail = 0)
    (lu : 0 < us.length ∨ ys ≠ [] → 0 < us'.length) (ha : v'.avail = capPushes N v.avail n (ys.length - n)) :
    us' = [] → v'.avail = 0 := by
  intro hu'
  have hus : us = [] := by
    rcases h : us with _ | ⟨x, t⟩
    · rfl
    · have := lu (.inl (by rw [h]; simp)); rw [hu'] at this; simp at this
  have hbe : ys = [] := by
    rcases h : ys with _ | ⟨x, t⟩
    · rfl
    · have := lu (.inr (by rw [h]; simp)); rw [hu'] at this; simp at this
  rw [ha, hbe]; simp only [List.length_nil, Nat.zero_sub, capPushes]; exact hu hus

theorem avail_nil' {v v' : Vec} {us us' : List Nat} (hu : us = [] → v.avail = 0)
    (lu : 0 < us.length → 0 < us'.length) (ha : v'.avail = v.avail) : us' = [] → v'.avail = 0 := by
  intro hu'
  rw [ha]
  apply hu
  rcases h : us with _ | ⟨x, t⟩
  · rfl
  · have := lu (by rw [h]; simp); rw [hu'] at this; simp at this

theorem step (w : World X) (aw : AWorld X) (us fs : Nat → List Nat) (W : WInvR O N w aw us fs) (op : Op X)
    (aw' : AWorld X) (o : Obs X) (hi : ideal N aw op = some (aw', o)) (hc : careful N aw op = true) :
    ∃ w' us' fs', exec N w op = some (w', o) ∧ WInvR O N w' aw' us' fs' ∧
      (∀ k, ¬ op.rebinds k → us k <+: us' k ∨ us' k <+: us k) ∧
      (∀ k l, op.movesTo k l → us' k = us l) := by
  cases op with
  | new i =>
    simp only [ideal, Option.isNone_iff_eq_none] at hi
    split at hi <;> [skip; cases hi]
    rename_i hn
    cases hi
    obtain ⟨_, h1, h2⟩ := W.getNone hn
    refine W.rebind (op := .new i) (i := i) (by simp [Op.movesTo]) rfl rfl (us' := []) (fs' := []) ?_
      (ORep.ofCore rfl (default_core _) rfl fun _ => rfl)
    rw [h1, h2]; exact Heap.Frame.refl W.wf
  | newSize i n x =>
    simp only [ideal, Option.isNone_iff_eq_none] at hi
    split at hi <;> [skip; cases hi]
    rename_i hn
    cases hi
    obtain ⟨_, h1, h2⟩ := W.getNone hn
    obtain ⟨v', h', us', e, c, f, l, ha⟩ := ofSize_core (N := N) W.wf n x
    refine W.rebind (op := .newSize i n x) (i := i) (by simp [Op.movesTo]) rfl (by rw [exec, e]; rfl) (us' := us') (fs' := []) ?_
      (ORep.ofCore rfl c ?_ fun hu => by rw [hu] at l; simp at l)
    · rw [h1, h2]; simpa using f
    · rw [ha, blockSize_eq]
  | copyNew i j =>
    simp only [ideal, Option.isNone_iff_eq_none] at hi
    split at hi <;> [skip; cases hi]
    rename_i hn
    simp only [Option.map_eq_some_iff] at hi
    obtain ⟨a, ha, hi⟩ := hi
    cases hi
    simp only [careful, ha, Option.any_some, Bool.and_eq_true, Bool.not_eq_true', Bool.or_eq_true,
      decide_eq_true_eq] at hc
    obtain ⟨⟨hm, hit⟩, hne⟩ := hc
    obtain ⟨v, hv, c, hr, hu⟩ := W.getLive ha hm
    obtain ⟨_, h1, h2⟩ := W.getNone hn
    have hij : i ≠ j := by rintro rfl; rw [hn] at ha; cases ha
    obtain ⟨ib, ie, hib, hie, hden⟩ := c.all_iters hu (iterable_core hit hr)
    cases hd : v.dataptr with
    | none =>
      have hav : v.avail = 0 := by have := c.arr.len; rw [hd] at this; simpa using this.symm
      have hue : us j = [] := List.length_eq_zero_iff.1 (by have := c.arr.le; omega)
      have hx : a.elems = [] := List.length_eq_zero_iff.1 (by
        have h1 := c.size
        have h2 := c.bsz
        rw [hue] at h1
        rw [c.len]; simp at h1; omega)
      refine W.rebind (op := .copyNew i j) (i := i) (by simp [Op.movesTo]) rfl (by simp only [exec, hv, Option.bind_some, copyCtor, hd]; rfl)
        (us' := []) (fs' := []) ?_ (ORep.ofCore rfl ?_ ?_ fun _ => rfl)
      · rw [h1, h2]; exact Heap.Frame.refl W.wf
      · simp only [hx]; exact default_core _
      · simp only; rw [← hr, hav]; rfl
    | some l =>
      have hav : v.avail ≠ 0 := by
        intro h0
        have h1 := c.arr.len
        rw [hd] at h1; simp only [Option.getD_some] at h1
        exact c.ne (by rw [hd, List.length_eq_zero_iff.1 (show l.length = 0 by omega)])
      have hx : a.elems ≠ [] := hne.resolve_right (by omega)
      have c0 : Core N w.heap { Vec.default N with
          dataptr := some (List.replicate v.avail none), avail := v.avail, slotIdx := -1 } [] [] [] := by
        refine ⟨ArrOK.nil v.avail, ?_, ⟨rfl, rfl⟩, rfl, .inl rfl, Nat.le_refl _, by simp [Vec.default],
          rfl, by simp, by simp, by simp, by simp, fun _ => rfl⟩
        simp [hav]
      obtain ⟨v', h', us', fs', e, c', c2', f, dj, _, lu, ha'⟩ := c0.assignIter (lo := 0) (hi := a.elems.length)
        (fuel := v.csize + 1) (fun _ => none) c W.wf (by simp) (Nat.zero_le _) (Nat.le_refl _) (by have := c.len; omega)
        (hden.imp (fun h => ⟨by rw [h.1]; rfl, h.2⟩) id)
      rw [leave_copy] at c2'
      simp only [List.take_length, List.drop_zero] at c' lu ha'
      have := W.range (op := .copyNew i j) hij (by simp [Op.movesTo]) (v' := v') (o := .done)
        (oa := some { a with moved := false }) (oa2 := aw j)
        (by
          simp only [exec, hv, Option.bind_some, copyCtor, hd, assignAll, hib, hie]
          erw [e]; rfl)
        (by rw [h1, h2]; simpa using f) dj (.inr ⟨rfl, c', ?_, ?_⟩) (by
          rw [hv, ha]; exact .inr ⟨hm, c2', hr, hu⟩) (.inl rfl)
      · rwa [upd_other _ hij] at this
      · rw [ha', capPushes_fits]
        · exact hr
        · simp only [List.length_nil, Nat.zero_add, Nat.sub_zero]
          have := c.csize_le
          rw [c.len]
          exact Nat.le_trans this (Nat.mul_le_mul_right _ c.arr.le)
      · intro hu'
        have := lu (.inr hx); rw [hu'] at this; simp at this
  | moveNew i j =>
    simp only [ideal, Option.isNone_iff_eq_none] at hi
    split at hi <;> [skip; cases hi]
    rename_i hn
    simp only [Option.map_eq_some_iff] at hi
    obtain ⟨a, ha, hi⟩ := hi
    cases hi
    obtain ⟨v, hv, _⟩ := W.getSome ha
    obtain ⟨_, h1, h2⟩ := W.getNone hn
    have hij : i ≠ j := by rintro rfl; rw [hn] at ha; cases ha
    refine ⟨_, _, _, by simp only [exec, hv, Option.map_some]; rfl,
      W.transfer hij ⟨h1, h2⟩ hv ha rfl, ?_, ?_⟩
    · intro k hk
      simp only [Op.rebinds, not_or] at hk
      simp only [updL_ne _ _ (Ne.symm hk.1), updL_ne _ _ (Ne.symm hk.2)]
      exact .inl (List.prefix_refl _)
    · rintro k l (h | h)
      · cases h; simp only [updL_ne _ _ hij, updL_same]
      · cases h
  | copyAssign i j =>
    simp only [ideal, Option.bind_eq_some_iff, Option.map_eq_some_iff] at hi
    obtain ⟨a, ha, b, hb, hi⟩ := hi
    cases hi
    simp only [careful, ha, hb, Option.any_some, Bool.and_eq_true, Bool.not_eq_true'] at hc
    obtain ⟨v, hv, c, hr, hu⟩ := W.getLive ha hc.1
    obtain ⟨v2, hv2, c2, hr2, hu2⟩ := W.getLive hb hc.2.1
    obtain ⟨ib, ie, hib, hie, hden⟩ := c2.all_iters hu2 (iterable_core hc.2.2 hr2)
    have hden' := hden.imp (fun (h : b.elems = [] ∧ ib.eq ie = true) => (⟨by rw [h.1]; rfl, h.2⟩ : 0 = b.elems.length ∧ _)) id
    have hf : b.elems.length - 0 ≤ v2.csize + 1 := by have := c2.len; omega
    by_cases hij : i = j
    · subst hij
      rw [hv] at hv2; cases hv2
      rw [ha] at hb; cases hb
      obtain ⟨v', h', us', fs', e, c', f, p, lu, ha'⟩ := c.assignIterSelf (fun _ => none) W.wf (Nat.zero_le _) (Nat.le_refl _)
        hf (.inl fun _ => rfl) hden'
      simp only [List.take_length, List.drop_zero] at c'
      refine W.local (by simp [Op.movesTo])
        (by simp only [exec, hv, Option.bind_some, Vec.copyAssign, assignAll, hib, hie]; rw [e]; rfl) c' hc.1 ?_
        (avail_nil' hu lu ha') f (.inr p)
      rw [ha', hr]; simp [reservePushes]
    · obtain ⟨v', h', us', fs', e, c', c2', f, dj, p, lu, ha'⟩ := c.assignIter (fun _ => none) c2 W.wf (W.disj i j hij)
        (Nat.zero_le _) (Nat.le_refl _) hf hden'
      rw [leave_copy] at c2'
      simp only [List.take_length, List.drop_zero] at c' lu ha'
      have := W.range (op := .copyAssign i j) hij (by simp [Op.movesTo]) (v' := v') (o := .done)
        (oa := some ⟨b.elems, reservePushes N a.reserved a.elems.length (b.elems.length - a.elems.length), a.moved⟩)
        (oa2 := aw j)
        (by simp only [exec, hv, hv2, Option.bind_some, Vec.copyAssign, assignAll, hib, hie]; rw [e]; rfl)
        f dj (.inr ⟨hc.1, c', ?_, avail_nil hu lu ha'⟩) (by rw [hv2, hb]; exact .inr ⟨hc.2.1, c2', hr2, hu2⟩) (.inr p)
      · rwa [upd_other _ hij] at this
      · rw [ha', capPushes_eq, hr]
  | assignRange i j lo hi =>
    simp only [ideal, Option.bind_eq_some_iff] at hi
    obtain ⟨a, ha, b, hb, hi⟩ := hi
    split at hi <;> [skip; cases hi]
    rename_i hlo
    obtain ⟨hlo, hhi⟩ := hlo
    cases hi
    simp only [careful, ha, hb, Option.any_some, Bool.and_eq_true, Bool.not_eq_true', decide_eq_true_eq] at hc
    obtain ⟨v, hv, c, hr, hu⟩ := W.getLive ha hc.1
    obtain ⟨v2, hv2, c2, hr2, hu2⟩ := W.getLive hb hc.2.1
    obtain ⟨ib, i1, i2, hib, hi1, hi2, hden⟩ := c2.sub_iters hu2 hlo hhi (by rw [hr2, blockSize_eq]; exact hc.2.2)
    have hf : hi - lo ≤ v2.csize + 1 := by have := c2.len; omega
    have hlen : ((b.elems.take hi).drop lo).length = hi - lo := by simp; omega
    by_cases hij : i = j
    · subst hij
      rw [hv] at hv2; cases hv2
      rw [ha] at hb; cases hb
      obtain ⟨v', h', us', fs', e, c', f, p, lu, ha'⟩ := c.assignIterSelf (fun _ => none) W.wf hlo hhi hf
        (.inl fun _ => rfl) hden
      refine W.local (by simp [Op.movesTo])
        (by simp only [exec, hv, Option.bind_some, assignSub, hib, hi1, hi2]; rw [e]; rfl) c' hc.1 ?_
        (avail_nil' hu lu ha') f (.inr p)
      rw [ha', hr]; simp only; rw [show hi - lo - a.elems.length = 0 by omega]; rfl
    · obtain ⟨v', h', us', fs', e, c', c2', f, dj, p, lu, ha'⟩ := c.assignIter (fun _ => none) c2 W.wf (W.disj i j hij)
        hlo hhi hf hden
      rw [leave_copy] at c2'
      have := W.range (op := .assignRange i j lo hi) hij (by simp [Op.movesTo]) (v' := v') (o := .done)
        (oa := some ⟨(b.elems.take hi).drop lo, reservePushes N a.reserved a.elems.length (hi - lo - a.elems.length), a.moved⟩)
        (oa2 := aw j)
        (by simp only [exec, hv, hv2, Option.bind_some, assignSub, hib, hi1, hi2]; rw [e]; rfl)
        f dj (.inr ⟨hc.1, c', ?_, avail_nil hu lu ha'⟩) (by rw [hv2, hb]; exact .inr ⟨hc.2.1, c2', hr2, hu2⟩) (.inr p)
      · rwa [upd_other _ hij] at this
      · rw [ha', capPushes_eq, hr, hlen]
  | moveRange i j lo up left =>
    simp only [ideal, Option.bind_eq_some_iff] at hi
    obtain ⟨a, ha, b, hb, hi⟩ := hi
    split at hi <;> [skip; cases hi]
    rename_i hlo
    obtain ⟨hlo, hhi, hleft⟩ := hlo
    simp only [careful, ha, hb, Option.any_some, Bool.and_eq_true, Bool.not_eq_true', decide_eq_true_eq] at hc
    obtain ⟨v, hv, c, hr, hu⟩ := W.getLive ha hc.1
    obtain ⟨v2, hv2, c2, hr2, hu2⟩ := W.getLive hb hc.2.1
    obtain ⟨ib, i1, i2, hib, hi1, hi2, hden⟩ := c2.sub_iters hu2 hlo hhi (by rw [hr2, blockSize_eq]; exact hc.2.2)
    have hf : up - lo ≤ v2.csize + 1 := by have := c2.len; omega
    have hlen : ((b.elems.take up).drop lo).length = up - lo := by simp; omega
    split at hi
    · rename_i hij
      subst hij
      split at hi <;> [skip; cases hi]
      rename_i hpos
      cases hi
      rw [hv] at hv2; cases hv2
      rw [ha] at hb; cases hb
      obtain ⟨v', h', us', fs', e, c', f, p, lu, ha'⟩ := c.assignIterSelf (fun k => left[k]?) W.wf hlo hhi hf
        (.inr hpos) hden
      refine W.local (by simp [Op.movesTo])
        (by simp only [exec, hv, Option.bind_some, assignSub, hib, hi1, hi2]; rw [e]; rfl) c' hc.1 ?_
        (avail_nil' hu lu ha') f (.inr p)
      rw [ha', hr]
    · rename_i hij
      cases hi
      obtain ⟨v', h', us', fs', e, c', c2', f, dj, p, lu, ha'⟩ := c.assignIter (fun k => left[k]?) c2 W.wf (W.disj i j hij)
        hlo hhi hf hden
      rw [← hleft, leave_list left 0 lo b.elems _ (fun t _ => by simp) (by omega), show lo + left.length = up by omega] at c2'
      refine W.range (op := .moveRange i j lo up left) hij (by simp [Op.movesTo]) (v' := v') (o := .done)
        (by simp only [exec, hv, hv2, Option.bind_some, assignSub, hib, hi1, hi2]; rw [e]; rfl)
        f dj (.inr ⟨hc.1, c', ?_, avail_nil hu lu ha'⟩) (by rw [hv2]; exact .inr ⟨hc.2.1, c2', hr2, hu2⟩) (.inr p)
      rw [ha', capPushes_eq, hr, hlen]
  | moveAssign i j =>
    simp only [ideal] at hi
    split at hi <;> [cases hi; skip]
    rename_i hij
    simp only [Option.bind_eq_some_iff, Option.map_eq_some_iff] at hi
    obtain ⟨a, ha, b, hb, hi⟩ := hi
    cases hi
    obtain ⟨v, hv, hcase⟩ := W.getSome ha
    obtain ⟨v2, hv2, _⟩ := W.getSome hb
    obtain ⟨h', e, f⟩ : ∃ h', Vec.freeAll N v w.heap = some h' ∧ Heap.Frame w.heap h' (us i ++ fs i) ([] ++ []) := by
      rcases hcase with ⟨_, h1, h2, h3⟩ | ⟨_, c, hr, hu⟩
      · refine ⟨w.heap, by rw [Vec.freeAll, h1], ?_⟩
        rw [h2, h3]; exact Heap.Frame.refl W.wf
      · exact c.freeAll W.wf hu
    have W' := W.update i f (o := none) (oa := none) ⟨rfl, rfl⟩
    have hv2' : upd w.objs i none j = some v2 := by rw [upd_ne _ _ (Ne.symm hij)]; exact hv2
    have hb' : upd aw i none j = some b := by rw [upd_ne _ _ (Ne.symm hij)]; exact hb
    have W2 := W'.transfer hij (by simp [updL_same]) hv2' hb'
      (m := { v2 with freeblocks := none, freeAvail := 0, avail := 0, dataptr := none }) rfl
    simp only [upd_upd] at W2
    refine ⟨_, _, _, by simp only [exec, hv, hv2, Option.bind_some, Vec.moveAssign, e, Option.map_some],
      W2, ?_, ?_⟩
    · intro k hk
      simp only [Op.rebinds, not_or] at hk
      simp only [updL_ne _ _ (Ne.symm hk.1), updL_ne _ _ (Ne.symm hk.2)]
      exact .inl (List.prefix_refl _)
    · rintro k l (h | h)
      · cases h
      · cases h; simp only [updL_ne _ _ hij, updL_ne _ _ (Ne.symm hij), updL_same]
  | destroy i =>
    simp only [ideal, Option.map_eq_some_iff] at hi
    obtain ⟨a, ha, hi⟩ := hi
    cases hi
    obtain ⟨v, hv, hcase⟩ := W.getSome ha
    obtain ⟨h', e, f⟩ : ∃ h', Vec.freeAll N v w.heap = some h' ∧ Heap.Frame w.heap h' (us i ++ fs i) ([] ++ []) := by
      rcases hcase with ⟨_, h1, h2, h3⟩ | ⟨_, c, hr, hu⟩
      · refine ⟨w.heap, by rw [Vec.freeAll, h1], ?_⟩
        rw [h2, h3]; exact Heap.Frame.refl W.wf
      · exact c.freeAll W.wf hu
    exact W.rebind (op := .destroy i) (i := i) (v' := none) (by simp [Op.movesTo]) rfl (by simp only [exec, hv, Option.bind_some, e, Option.map_some]) f
      ⟨rfl, rfl⟩
  | push i x =>
    simp only [ideal, Option.map_eq_some_iff] at hi
    obtain ⟨a, ha, hi⟩ := hi
    cases hi
    simp only [careful, ha, Option.any_some, Bool.not_eq_true'] at hc
    obtain ⟨v, hv, c, hr, hu⟩ := W.getLive ha hc
    obtain ⟨v', h', us', fs', e, c', f, p, l, ha'⟩ := c.pushBack W.wf x
    refine W.local (by simp [Op.movesTo]) (by simp only [exec, hv, Option.bind_some, e, Option.map_some]) c' hc
      ?_ (fun hu' => by rw [hu'] at l; simp at l) f (.inl p)
    rw [ha', capPush_eq, hr, c.len]
  | pop i =>
    simp only [ideal, Option.map_eq_some_iff] at hi
    obtain ⟨a, ha, hi⟩ := hi
    cases hi
    simp only [careful, ha, Option.any_some, Bool.not_eq_true'] at hc
    obtain ⟨v, hv, c, hr, hu⟩ := W.getLive ha hc
    obtain ⟨v', h', us', fs', e, c', f, p, l, ha'⟩ := c.popBack W.wf
    refine W.local (by simp [Op.movesTo]) (by simp only [exec, hv, Option.bind_some, e, Option.map_some]) c' hc
      (by rw [ha', hr]) ?_ f (.inr p)
    intro hu'
    rw [ha']
    apply hu
    rcases h : us i with _ | ⟨x, t⟩
    · rfl
    · have := l (by rw [h]; simp); rw [hu'] at this; simp at this
  | assign i xs =>
    simp only [ideal, Option.map_eq_some_iff] at hi
    obtain ⟨a, ha, hi⟩ := hi
    cases hi
    simp only [careful, ha, Option.any_some, Bool.not_eq_true'] at hc
    obtain ⟨v, hv, c, hr, hu⟩ := W.getLive ha hc
    obtain ⟨v', h', us', fs', e, c', f, p, lu, ha'⟩ := c.assign W.wf xs
    refine W.local (by simp [Op.movesTo]) (by simp only [exec, hv, Option.bind_some, e, Option.map_some]) c' hc
      (by rw [ha', capPushes_eq, hr]) ?_ f p
    intro hu'
    have hus : us i = [] := by
      rcases h : us i with _ | ⟨x, t⟩
      · rfl
      · have := lu (.inl (by rw [h]; simp)); rw [hu'] at this; simp at this
    have hbe : xs = [] := by
      rcases xs with _ | ⟨x, t⟩
      · rfl
      · have := lu (.inr (by simp)); rw [hu'] at this; simp at this
    rw [ha', hbe]; simp only [List.length_nil, Nat.zero_sub, capPushes]; exact hu hus
  | clear i =>
    simp only [ideal, Option.map_eq_some_iff] at hi
    obtain ⟨a, ha, hi⟩ := hi
    cases hi
    simp only [careful, ha, Option.any_some, Bool.not_eq_true'] at hc
    obtain ⟨v, hv, c, hr, hu⟩ := W.getLive ha hc
    obtain ⟨v', h', us', fs', e, c', f, p, l, ha'⟩ := c.clear W.wf hu
    exact W.local (by simp [Op.movesTo]) (by simp only [exec, hv, Option.bind_some, e, Option.map_some]) c' hc
      (by rw [ha', hr]) (fun hu' => by rw [ha']; exact hu (l hu')) f (.inr p)
  | shrink i =>
    simp only [ideal, Option.map_eq_some_iff] at hi
    obtain ⟨a, ha, hi⟩ := hi
    cases hi
    simp only [careful, ha, Option.any_some, Bool.not_eq_true'] at hc
    obtain ⟨v, hv, c, hr, hu⟩ := W.getLive ha hc
    obtain ⟨h', e, c', f⟩ := c.shrinkToFit W.wf
    have := W.local (op := .shrink i) (by simp [Op.movesTo])
      (by simp only [exec, hv, Option.bind_some, e, Option.map_some]; rfl) c' (a' := a) hc
      hr hu f (.inl (List.prefix_refl _))
    have hw : upd aw i (some a) = aw := by
      funext k; by_cases hk : k = i
      · subst hk; rw [upd_same, ha]
      · rw [upd_ne _ _ hk]
    rwa [hw] at this
  | set i k x =>
    simp only [ideal, Option.bind_eq_some_iff] at hi
    obtain ⟨a, ha, hi⟩ := hi
    split at hi <;> [skip; cases hi]
    rename_i hk
    cases hi
    simp only [careful, ha, Option.any_some, Bool.not_eq_true'] at hc
    obtain ⟨v, hv, c, hr, hu⟩ := W.getLive ha hc
    obtain ⟨h', e, c', f⟩ := c.set_eq W.wf hk x
    have hw : upd w.objs i (some v) = w.objs := by
      funext k; by_cases hk : k = i
      · subst hk; rw [upd_same, hv]
      · rw [upd_ne _ _ hk]
    exact W.local (op := .set i k x) (by simp [Op.movesTo])
      (by simp only [exec, hv, Option.bind_some, e, Option.map_some, hw]) c' hc hr hu f (.inl (List.prefix_refl _))
  | size i =>
    simp only [ideal, Option.map_eq_some_iff] at hi
    obtain ⟨a, ha, hi⟩ := hi
    cases hi
    simp only [careful, ha, Option.any_some, Bool.not_eq_true'] at hc
    obtain ⟨v, hv, c, hr, hu⟩ := W.getLive ha hc
    refine W.noop (by simp [Op.movesTo]) ?_
    simp only [exec, hv, Option.map_some, Vec.size, c.len]
  | empty i =>
    simp only [ideal, Option.map_eq_some_iff] at hi
    obtain ⟨a, ha, hi⟩ := hi
    cases hi
    simp only [careful, ha, Option.any_some, Bool.not_eq_true'] at hc
    obtain ⟨v, hv, c, hr, hu⟩ := W.getLive ha hc
    refine W.noop (by simp [Op.movesTo]) ?_
    have hl := c.len
    simp only [exec, hv, Option.map_some, Vec.empty, ← hl]
    cases a.elems <;> rfl
  | get i k =>
    simp only [ideal, Option.bind_eq_some_iff, Option.map_eq_some_iff] at hi
    obtain ⟨a, ha, x, hx, hi⟩ := hi
    cases hi
    simp only [careful, ha, Option.any_some, Bool.not_eq_true'] at hc
    obtain ⟨v, hv, c, hr, hu⟩ := W.getLive ha hc
    obtain ⟨hk, rfl⟩ := List.getElem?_eq_some_iff.1 hx
    refine W.noop (by simp [Op.movesTo]) ?_
    simp only [exec, hv, Option.bind_some, c.get_eq hk, Option.map_some]
  | «at» i k =>
    simp only [ideal, Option.map_eq_some_iff] at hi
    obtain ⟨a, ha, hi⟩ := hi
    cases hi
    simp only [careful, ha, Option.any_some, Bool.not_eq_true'] at hc
    obtain ⟨v, hv, c, hr, hu⟩ := W.getLive ha hc
    refine W.noop (by simp [Op.movesTo]) ?_
    simp only [exec, hv, Option.bind_some, at?]
    by_cases hk : k < a.elems.length
    · rw [if_neg (by rw [← c.len]; omega), c.get_eq hk, List.getElem?_eq_getElem hk]; rfl
    · rw [if_pos (by rw [← c.len]; omega), List.getElem?_eq_none (by omega)]; rfl
  | front i =>
    simp only [ideal, Option.bind_eq_some_iff, Option.map_eq_some_iff] at hi
    obtain ⟨a, ha, x, hx, hi⟩ := hi
    cases hi
    simp only [careful, ha, Option.any_some, Bool.not_eq_true'] at hc
    obtain ⟨v, hv, c, hr, hu⟩ := W.getLive ha hc
    rw [List.head?_eq_getElem?] at hx
    obtain ⟨hk, rfl⟩ := List.getElem?_eq_some_iff.1 hx
    refine W.noop (by simp [Op.movesTo]) ?_
    simp only [exec, hv, Option.bind_some, c.front_eq hk, Option.map_some]
  | back i =>
    simp only [ideal, Option.bind_eq_some_iff, Option.map_eq_some_iff] at hi
    obtain ⟨a, ha, x, hx, hi⟩ := hi
    cases hi
    simp only [careful, ha, Option.any_some, Bool.not_eq_true'] at hc
    obtain ⟨v, hv, c, hr, hu⟩ := W.getLive ha hc
    rw [List.getLast?_eq_getElem?] at hx
    obtain ⟨hk, rfl⟩ := List.getElem?_eq_some_iff.1 hx
    refine W.noop (by simp [Op.movesTo]) ?_
    simp only [exec, hv, Option.bind_some, c.back_eq (by omega), Option.map_some]
  | iterate i =>
    simp only [ideal, Option.map_eq_some_iff] at hi
    obtain ⟨a, ha, hi⟩ := hi
    cases hi
    simp only [careful, ha, Option.any_some, Bool.and_eq_true, Bool.not_eq_true'] at hc
    obtain ⟨v, hv, c, hr, hu⟩ := W.getLive ha hc.1
    refine W.noop (by simp [Op.movesTo]) ?_
    simp only [exec, hv, Option.bind_some, c.iterate hu (iterable_core hc.2 hr), Option.map_some]

theorem runs (ops : List (Op X)) : ∀ (w : World X) (aw : AWorld X) (us fs : Nat → List Nat),
    WInvR O N w aw us fs → ∀ aw' obs, idealRun N aw ops = some (aw', obs) → carefulRun N aw ops = true →
    ∃ w' us' fs', run N w ops = some (w', obs) ∧ WInvR O N w' aw' us' fs' := by
  induction ops with
  | nil =>
    intro w aw us fs W aw' obs h _
    cases h
    exact ⟨w, us, fs, rfl, W⟩
  | cons op ops ih =>
    intro w aw us fs W aw' obs h hc
    simp only [idealRun, Option.bind_eq_some_iff, Option.map_eq_some_iff] at h
    obtain ⟨⟨aw1, o⟩, h1, ⟨aw2, os⟩, h2, h3⟩ := h
    cases h3
    simp only [carefulRun, h1, Bool.and_eq_true] at hc
    obtain ⟨w1, us1, fs1, e1, W1, _, _⟩ := step w aw us fs W op aw1 o h1 hc.1
    obtain ⟨w2, us2, fs2, e2, W2⟩ := ih w1 aw1 us1 fs1 W1 aw2 os h2 hc.2
    exact ⟨w2, us2, fs2, by simp only [run, e1, Option.bind_some, e2, Option.map_some], W2⟩

end Verif.Block.Vector
