import Verif.Mapped.Several.Model
import Verif.Mapped.Vector.Lemmas
import Verif.Mapped.Dual.Lemmas
import Verif.Block.Vector.World

/-
Helper lemmas: element storages of several objects stay separate, so each object can be treated on its own.
-/
namespace Verif.Mapped.Several
open Verif.Mapped
open Verif.Mapped.Vector (Ideal Obs)
open Verif.Block
open Verif.Block.Vector (Vec upd WInv ORep reservePushes)

/-- What the proofs use of the storages of several objects. -/
structure Laws {S T H V : Type} (μ : Multi S T H) (st : Store S V) (kind : Kind) where
  WI : (Nat → Option T) → H → Block.Vector.AWorld V → Prop
  init : WI (fun _ => none) μ.memory (fun _ => none)
  new : ∀ {o h b i}, WI o h b → b i = none → WI (upd o i (some μ.fresh)) h (upd b i (some ⟨[], 0, false⟩))
  copy : ∀ {o h b i j a}, WI o h b → b i = none → b j = some a → a.moved = false →
    kind.iterable a.reserved a.elems.length = true → (a.elems ≠ [] ∨ a.reserved = 0) →
    ∃ t, o j = some t ∧ ∃ r, μ.copy t h = some r ∧ WI (upd o i (some r.1)) r.2 (upd b i (some a))
  move : ∀ {o h b i j a}, WI o h b → b i = none → b j = some a → a.moved = false →
    ∃ t, o j = some t ∧ WI (upd (upd o i (some (μ.move t).1)) j (some (μ.move t).2)) h
      (upd (upd b i (some a)) j (some ⟨[], 0, true⟩))
  copyAssign : ∀ {o h b i j a a'}, WI o h b → b i = some a → b j = some a' →
    (kind.isStable = true → a.moved = false) → a'.moved = false → kind.iterable a'.reserved a'.elems.length = true →
    ∃ t, o i = some t ∧ ∃ t', o j = some t' ∧ ∃ r, μ.copyAssign t t' h = some r ∧ WI (upd o i (some r.1)) r.2
      (upd b i (some ⟨a'.elems, reserves kind a.reserved a.elems.length (a'.elems.length - a.elems.length), false⟩))
  moveAssign : ∀ {o h b i j a a'}, WI o h b → i ≠ j → b i = some a → b j = some a' → a'.moved = false →
    ∃ t, o i = some t ∧ ∃ t', o j = some t' ∧ ∃ r, μ.moveAssign t t' h = some r ∧
      WI (upd (upd o i (some r.1)) j (some r.2.1)) r.2.2 (upd (upd b i (some a')) j (some ⟨[], 0, true⟩))
  destroy : ∀ {o h b i a}, WI o h b → b i = some a →
    ∃ t, o i = some t ∧ ∃ h', μ.destroy t h = some h' ∧ WI (upd o i none) h' (upd b i none)
  call : ∀ {o h b i a}, WI o h b → b i = some a → a.moved = false →
    ∃ t, o i = some t ∧ ∃ L : Lawful st kind, L.Rep (μ.join t h) a.elems a.reserved ∧
      ∀ s xs r, L.Rep s xs r → WI (upd o i (some (μ.split s).1)) (μ.split s).2 (upd b i (some ⟨xs, r, false⟩))

/-! ### std::vector -/

/-- the elements of each object -/
def VRep {V : Type} (o : Nat → Option (List V)) (b : Block.Vector.AWorld V) : Prop :=
  ∀ i, o i = (b i).map (·.elems) ∧ ∀ a, b i = some a → a.reserved = 0

theorem VRep.upd {V : Type} {o : Nat → Option (List V)} {b : Block.Vector.AWorld V} (r : VRep o b) (i : Nat)
    {x : Option (List V)} {y : Option (Block.Vector.AObj V)} (h : x = y.map (·.elems)) (h0 : ∀ a, y = some a → a.reserved = 0) :
    VRep (upd o i x) (upd b i y) := by
  intro k
  simp only [Block.Vector.upd]
  split
  · exact ⟨h, h0⟩
  · exact r k

theorem reserves_unstable (r len : Nat) : ∀ n, r = 0 → reserves .unstable r len n = 0
  | 0, h => h
  | n + 1, _ => reserves_unstable _ _ n rfl

def vectorsLaws (V : Type) : Laws (vectors V) (vectorStore V) .unstable where
  WI o _ b := VRep o b
  init := by intro i; simp
  new := by intro o h b i w _; exact w.upd i rfl (by rintro a ⟨⟩; rfl)
  copy := by
    intro o h b i j a w _ hj _ _ _
    refine ⟨_, by rw [(w j).1, hj]; rfl, _, rfl, w.upd i rfl ?_⟩
    rintro a' ⟨⟩; exact (w j).2 _ hj
  move := by
    intro o h b i j a w _ hj _
    refine ⟨a.elems, by rw [(w j).1, hj]; rfl, (w.upd i (y := some a) rfl ?_).upd j (y := some ⟨[], 0, true⟩) rfl
      (by rintro a ⟨⟩; rfl)⟩
    rintro a' ⟨⟩; exact (w j).2 _ hj
  copyAssign := by
    intro o h b i j a a' w hi hj _ _ _
    refine ⟨_, by rw [(w i).1, hi]; rfl, _, by rw [(w j).1, hj]; rfl, _, rfl, w.upd i rfl ?_⟩
    rintro a'' ⟨⟩; exact reserves_unstable _ _ _ ((w i).2 _ hi)
  moveAssign := by
    intro o h b i j a a' w _ hi hj _
    refine ⟨a.elems, by rw [(w i).1, hi]; rfl, a'.elems, by rw [(w j).1, hj]; rfl, _, rfl,
      (w.upd i (y := some a') rfl ?_).upd j (y := some ⟨[], 0, true⟩) rfl (by rintro a ⟨⟩; rfl)⟩
    rintro a'' ⟨⟩; exact (w j).2 _ hj
  destroy := by
    intro o h b i a w hi
    exact ⟨_, by rw [(w i).1, hi]; rfl, (), rfl, w.upd i rfl (by rintro a ⟨⟩)⟩
  call := by
    intro o h b i a w hi _
    refine ⟨_, by rw [(w i).1, hi]; rfl, vectorLawful V, ⟨rfl, (w i).2 _ hi⟩, ?_⟩
    rintro s xs r ⟨rfl, rfl⟩
    exact w.upd i rfl (by rintro a ⟨⟩; rfl)

/-! ### StableBlockVector -/

theorem reserves_stable (N r len : Nat) : ∀ n, reserves (.stable N) r len n = reservePushes N r len n := by
  intro n
  induction n generalizing r len with
  | zero => rfl
  | succ n ih => exact ih _ _

/-- the frame from the memory `h0`, in which an object owned the blocks `l0` -/
theorem frame_closed {V : Type} (h0 : Heap V) (l0 : List Nat) : StableLaws.Closed fun h l => Heap.Frame h0 h l0 l :=
  ⟨fun f => f.wf, fun f g => f.trans g⟩

def stablesLaws (N : Nat) (V : Type) : Laws (stables N V) (stableStore N V) (.stable N) where
  WI o h b := ∃ us fs, WInv N ⟨o, h⟩ b us fs
  init := ⟨_, _, WInv.empty⟩
  new := by
    rintro o h b i ⟨us, fs, w⟩ hi
    obtain ⟨w', us', fs', e, w1, _⟩ := Block.Vector.step _ _ us fs w (.new i) _ _ (by simp only [Block.Vector.ideal, hi]; rfl) rfl
    cases e
    exact ⟨us', fs', w1⟩
  copy := by
    rintro o h b i j a ⟨us, fs, w⟩ hi hj hm hit hne
    obtain ⟨v, hv, _⟩ := w.getLive hj hm
    have hv : o j = some v := hv
    obtain ⟨w', us', fs', e, w1, _⟩ := Block.Vector.step _ _ us fs w (.copyNew i j) _ _
      (by simp only [Block.Vector.ideal, hi, hj]; rfl)
      (by simp only [Block.Vector.careful, hj, Option.any_some, hm, Block.Vector.AObj.iterable]
          simp only [Kind.iterable] at hit
          rw [hit]; simpa using hne)
    simp only [Block.Vector.exec, hv, Option.bind_some, Option.map_eq_some_iff] at e
    obtain ⟨r, h1, h2⟩ := e
    cases h2
    refine ⟨v, hv, r, h1, us', fs', ?_⟩
    have : ({ a with moved := false } : Block.Vector.AObj V) = a := by rw [← hm]
    rwa [this] at w1
  move := by
    rintro o h b i j a ⟨us, fs, w⟩ hi hj hm
    obtain ⟨v, hv, _⟩ := w.getLive hj hm
    have hv : o j = some v := hv
    obtain ⟨w', us', fs', e, w1, _⟩ := Block.Vector.step _ _ us fs w (.moveNew i j) _ _
      (by simp only [Block.Vector.ideal, hi, hj]; rfl)
      (by simp [Block.Vector.careful, hj, hm])
    simp only [Block.Vector.exec, hv, Option.map_some] at e
    cases e
    exact ⟨v, hv, us', fs', w1⟩
  copyAssign := by
    rintro o h b i j a a' ⟨us, fs, w⟩ hi hj hm hm' hit
    have hm := hm rfl
    obtain ⟨v, hv, _⟩ := w.getLive hi hm
    obtain ⟨v', hv', _⟩ := w.getLive hj hm'
    have hv : o i = some v := hv
    have hv' : o j = some v' := hv'
    obtain ⟨w', us', fs', e, w1, _⟩ := Block.Vector.step _ _ us fs w (.copyAssign i j) _ _
      (by simp only [Block.Vector.ideal, hi, hj]; rfl)
      (by simp only [Block.Vector.careful, hi, hj, Option.any_some, hm, hm', Block.Vector.AObj.iterable]
          simp only [Kind.iterable] at hit
          rw [hit]; rfl)
    simp only [Block.Vector.exec, hv, hv', Option.bind_some, Option.map_eq_some_iff] at e
    obtain ⟨r, h1, h2⟩ := e
    cases h2
    refine ⟨v, hv, v', hv', r, h1, us', fs', ?_⟩
    rw [reserves_stable]
    rwa [hm] at w1
  moveAssign := by
    rintro o h b i j a a' ⟨us, fs, w⟩ hij hi hj hm'
    obtain ⟨v, hv, _⟩ := w.getSome hi
    obtain ⟨v', hv', _⟩ := w.getLive hj hm'
    have hv : o i = some v := hv
    have hv' : o j = some v' := hv'
    obtain ⟨w', us', fs', e, w1, _⟩ := Block.Vector.step _ _ us fs w (.moveAssign i j) _ _
      (by simp only [Block.Vector.ideal, hi, hj, if_neg hij]; rfl)
      (by simp [Block.Vector.careful, hj, hm'])
    simp only [Block.Vector.exec, hv, hv', Option.bind_some, Option.map_eq_some_iff] at e
    obtain ⟨r, h1, h2⟩ := e
    cases h2
    exact ⟨v, hv, v', hv', r, h1, us', fs', w1⟩
  destroy := by
    rintro o h b i a ⟨us, fs, w⟩ hi
    obtain ⟨v, hv, _⟩ := w.getSome hi
    have hv : o i = some v := hv
    obtain ⟨w', us', fs', e, w1, _⟩ := Block.Vector.step _ _ us fs w (.destroy i) _ _
      (by simp only [Block.Vector.ideal, hi]; rfl) rfl
    simp only [Block.Vector.exec, hv, Option.bind_some, Option.map_eq_some_iff] at e
    obtain ⟨r, h1, h2⟩ := e
    cases h2
    exact ⟨v, hv, r, h1, us', fs', w1⟩
  call := by
    rintro o h b i a ⟨us, fs, w⟩ hi hm
    obtain ⟨v, hv, c, hr, hu⟩ := w.getLive hi hm
    refine ⟨v, hv, stableLawfulG N (frame_closed h (us i ++ fs i)), ⟨us i, fs i, c, Heap.Frame.refl w.wf, hu, hr⟩, ?_⟩
    rintro s xs r ⟨us', fs', c', f, hu', hr'⟩
    exact ⟨_, _, w.update i f (ORep.ofCore rfl c' hr' hu')⟩

/-! ### The containers -/

/-- What the proofs use of the calls on one object; `Bind` relates the maps to the search terms. -/
structure Calls {S K V M C : Type} (st : Store S V) (kind : Kind) (code : Code S M C V) (sp : Spec K V C) where
  Bind : M → List (List K) → Prop
  start : Bind code.none []
  step : ∀ (L : Lawful st kind) {s m a c a' o}, L.Rep s (a.entries.map (·.value)) a.reserved →
    Bind m (a.entries.map (·.keys)) → sp.careful a c = true → sp.ideal a c = some (a', o) →
    ∃ s' m', code.exec s m c = some ((s', m'), o) ∧ L.Rep s' (a'.entries.map (·.value)) a'.reserved ∧
      Bind m' (a'.entries.map (·.keys))

def mappedCalls {S K V : Type} [DecidableEq K] (E : Vector.Env S K V) (kind : Kind) :
    Calls E.st kind (Code.mapped E) (Spec.mapped kind E.unset) where
  Bind m kss := Binds m kss
  start := .nil
  step := by
    intro L s m a c a' o hr hb hc hi
    obtain ⟨m', e, v, _⟩ := Vector.step (E := E) (L := L) (m := ⟨s, m⟩) ⟨hr, hb⟩ hc hi
    exact ⟨m'.data, m'.lookup, by simp only [Code.mapped, e, Option.map_some], v.rep, v.binds⟩

def dualCalls {S K1 K2 V : Type} [DecidableEq K1] [DecidableEq K2] (E : Dual.Env S K1 K2 V) (kind : Kind) :
    Calls E.st kind (Code.dual E) (Spec.dual kind) where
  Bind m kss := Binds (Dual.join m.1 m.2) kss
  start := .nil
  step := by
    intro L s m a c a' o hr hb hc hi
    obtain ⟨m', e, v, _⟩ := Dual.step (E := E) (L := L) (m := ⟨s, m.1, m.2⟩) ⟨hr, hb⟩ hc hi
    exact ⟨m'.data, (m'.lookup1, m'.lookup2), by simp only [Code.dual, e, Option.map_some], v.rep, v.binds⟩

section
variable {S T H K V M C : Type} {μ : Multi S T H} {st : Store S V} {kind : Kind} {code : Code S M C V} {sp : Spec K V C}
  (Λ : Laws μ st kind) (Γ : Calls st kind code sp)

/-- the storage view of an ideal object -/
def view (a : AObj K V) : Block.Vector.AObj V := ⟨a.val.entries.map (·.value), a.val.reserved, a.moved⟩

/-- the objects of the program represent the ideal ones -/
structure Inv (w : World T M H) (aw : AWorld K V) : Prop where
  store : Λ.WI w.objs w.mem fun i => (aw i).map view
  maps : ∀ i a, aw i = some a → a.moved = false → Γ.Bind (w.maps i) (a.val.entries.map (·.keys))

theorem view_upd (aw : AWorld K V) (i : Nat) (x : Option (AObj K V)) :
    (fun k => (upd aw i x k).map view) = upd (fun k => (aw k).map view) i (x.map view) := by
  funext k; simp only [upd]; split <;> rfl

theorem Inv.empty : Inv Λ Γ (World.empty μ code) (fun _ => none) := ⟨Λ.init, by intro i a h; cases h⟩

variable {Λ Γ} {w : World T M H} {aw : AWorld K V}

theorem put_upd {maps : Nat → M} {aw : AWorld K V} (v : ∀ i a, aw i = some a → a.moved = false → Γ.Bind (maps i) (a.val.entries.map (·.keys)))
    (i : Nat) {m : M} {x : Option (AObj K V)} (h : ∀ a, x = some a → a.moved = false → Γ.Bind m (a.val.entries.map (·.keys))) :
    ∀ k a, upd aw i x k = some a → a.moved = false → Γ.Bind (put maps i m k) (a.val.entries.map (·.keys)) := by
  intro k a ha hm
  simp only [upd] at ha
  simp only [put]
  split at ha
  · rename_i hk; rw [if_pos hk]; exact h a ha hm
  · rename_i hk; rw [if_neg hk]; exact v k a ha hm

theorem moved_upd {maps : Nat → M} {aw : AWorld K V} (v : ∀ i a, aw i = some a → a.moved = false → Γ.Bind (maps i) (a.val.entries.map (·.keys)))
    (i : Nat) {x : Option (AObj K V)} (h : ∀ a, x = some a → a.moved = true) :
    ∀ k a, upd aw i x k = some a → a.moved = false → Γ.Bind (maps k) (a.val.entries.map (·.keys)) := by
  intro k a ha hm
  simp only [upd] at ha
  split at ha
  · rw [h a ha] at hm; cases hm
  · exact v k a ha hm

theorem step (v : Inv Λ Γ w aw) (left : M → M) {op : Op C} (hc : careful kind sp aw op = true) {aw' : AWorld K V} {o : Obs V}
    (hi : ideal kind sp aw op = some (aw', o)) : ∃ w', exec μ code left w op = some (w', o) ∧ Inv Λ Γ w' aw' := by
  cases op with
  | new i =>
    simp only [ideal, Option.isNone_iff_eq_none] at hi
    split at hi <;> [skip; cases hi]
    rename_i hn
    cases hi
    refine ⟨_, rfl, ?_, ?_⟩
    · rw [view_upd]; exact Λ.new v.store (by simp [hn])
    · exact put_upd v.maps i (by rintro a ⟨⟩ _; exact Γ.start)
  | copyNew i j =>
    simp only [ideal, Option.isNone_iff_eq_none] at hi
    split at hi <;> [skip; cases hi]
    rename_i hn
    simp only [Option.map_eq_some_iff] at hi
    obtain ⟨a, ha, hi⟩ := hi
    cases hi
    simp only [careful, ha, Option.any_some, Bool.and_eq_true, Bool.not_eq_true', Bool.or_eq_true,
      decide_eq_true_eq] at hc
    obtain ⟨⟨hm, hit⟩, hne⟩ := hc
    obtain ⟨t, ht, r, hr, w1⟩ := Λ.copy (i := i) (j := j) (a := view a) v.store (by simp [hn]) (by simp [ha]) hm
      (by simpa [view] using hit) (by simpa [view] using hne)
    refine ⟨_, by simp only [exec, ht, Option.bind_some, hr, Option.map_some]; rfl, ?_, ?_⟩
    · rw [view_upd]
      have : view (⟨a.val, false⟩ : AObj K V) = view a := by simp [view, hm]
      simp only [Option.map_some, this]; exact w1
    · exact put_upd v.maps i (by rintro a' ⟨⟩ _; exact v.maps j a ha hm)
  | moveNew i j =>
    simp only [ideal, Option.isNone_iff_eq_none] at hi
    split at hi <;> [skip; cases hi]
    rename_i hn
    simp only [Option.map_eq_some_iff] at hi
    obtain ⟨a, ha, hi⟩ := hi
    cases hi
    simp only [careful, ha, Option.any_some, Bool.not_eq_true'] at hc
    obtain ⟨t, ht, w1⟩ := Λ.move (i := i) (j := j) (a := view a) v.store (by simp [hn]) (by simp [ha]) hc
    refine ⟨_, by simp only [exec, ht, Option.map_some]; rfl, ?_, ?_⟩
    · rw [view_upd, view_upd]; exact w1
    · exact put_upd (put_upd v.maps i (by rintro a' ⟨⟩ _; exact v.maps j _ ha hc)) j (by rintro a' ⟨⟩ h; cases h)
  | copyAssign i j =>
    simp only [ideal, Option.bind_eq_some_iff, Option.map_eq_some_iff] at hi
    obtain ⟨a, ha, b, hb, hi⟩ := hi
    cases hi
    simp only [careful, ha, hb, Option.any_some, Bool.and_eq_true, Bool.not_eq_true', Bool.or_eq_true] at hc
    obtain ⟨hs, hm, hit⟩ := hc
    obtain ⟨t, ht, t', ht', r, hr, w1⟩ := Λ.copyAssign (i := i) (j := j) (a := view a) (a' := view b) v.store (by simp [ha]) (by simp [hb])
      (by intro h; rcases hs with hs | hs
          · rw [h] at hs; cases hs
          · exact hs) hm (by simpa [view] using hit)
    refine ⟨_, by simp only [exec, ht, ht', Option.bind_some, hr, Option.map_some]; rfl, ?_, ?_⟩
    · rw [view_upd]
      simpa [view] using w1
    · exact put_upd v.maps i (by rintro a' ⟨⟩ _; exact v.maps j b hb hm)
  | moveAssign i j =>
    simp only [ideal] at hi
    split at hi <;> [cases hi; skip]
    rename_i hij
    simp only [Option.bind_eq_some_iff, Option.map_eq_some_iff] at hi
    obtain ⟨a, ha, b, hb, hi⟩ := hi
    cases hi
    simp only [careful, hb, Option.any_some, Bool.not_eq_true'] at hc
    obtain ⟨t, ht, t', ht', r, hr, w1⟩ := Λ.moveAssign (i := i) (j := j) (a := view a) (a' := view b) v.store hij (by simp [ha]) (by simp [hb]) hc
    refine ⟨_, by simp only [exec, ht, ht', Option.bind_some, hr, Option.map_some]; rfl, ?_, ?_⟩
    · rw [view_upd, view_upd]; exact w1
    · exact put_upd (put_upd v.maps i (by rintro a' ⟨⟩ _; exact v.maps j _ hb hc)) j (by rintro a' ⟨⟩ h; cases h)
  | destroy i =>
    simp only [ideal, Option.map_eq_some_iff] at hi
    obtain ⟨a, ha, hi⟩ := hi
    cases hi
    obtain ⟨t, ht, h', hh, w1⟩ := Λ.destroy (i := i) (a := view a) v.store (by simp [ha])
    refine ⟨_, by simp only [exec, ht, Option.bind_some, hh, Option.map_some]; rfl, ?_, ?_⟩
    · rw [view_upd]; exact w1
    · exact moved_upd v.maps i (by rintro a ⟨⟩)
  | call i c =>
    simp only [ideal, Option.bind_eq_some_iff, Option.map_eq_some_iff] at hi
    obtain ⟨a, ha, ⟨a', o'⟩, hr, hi⟩ := hi
    cases hi
    simp only [careful, ha, Option.any_some, Bool.and_eq_true, Bool.not_eq_true'] at hc
    obtain ⟨hm, hc⟩ := hc
    obtain ⟨t, ht, L, hR, hL⟩ := Λ.call (i := i) (a := view a) v.store (by simp [ha]) hm
    obtain ⟨s', m', e, hR', hB'⟩ := Γ.step L hR (v.maps i a ha hm) hc hr
    refine ⟨_, by simp only [exec, ht, Option.bind_some, e, Option.map_some]; rfl, ?_, ?_⟩
    · rw [view_upd]
      have : view (⟨a', a.moved⟩ : AObj K V) = ⟨a'.entries.map (·.value), a'.reserved, false⟩ := by simp [view, hm]
      simp only [Option.map_some, this]; exact hL _ _ _ hR'
    · exact put_upd v.maps i (by rintro a ⟨⟩ _; exact hB')

theorem simulate (left : M → M) : ∀ (ops : List (Op C)) {w : World T M H} {aw : AWorld K V}, Inv Λ Γ w aw → carefulRun kind sp aw ops = true →
    ∀ {aw' os}, idealRun kind sp aw ops = some (aw', os) → ∃ w', run μ code left w ops = some (w', os) ∧ Inv Λ Γ w' aw' := by
  intro ops
  induction ops with
  | nil =>
    intro w aw v _ aw' os h
    cases h
    exact ⟨w, rfl, v⟩
  | cons op ops ih =>
    intro w aw v hc aw' os h
    simp only [idealRun, Option.bind_eq_some_iff, Option.map_eq_some_iff] at h
    obtain ⟨⟨aw1, o⟩, h1, ⟨aw2, os1⟩, h2, h3⟩ := h
    cases h3
    simp only [carefulRun, h1, Bool.and_eq_true] at hc
    obtain ⟨w1, e1, v1⟩ := step v left hc.1 h1
    obtain ⟨w2, e2, v2⟩ := ih v1 hc.2 h2
    exact ⟨w2, by simp only [run, e1, Option.bind_some, e2, Option.map_some], v2⟩

end
end Verif.Mapped.Several
