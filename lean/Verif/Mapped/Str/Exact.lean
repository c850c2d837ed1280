import Verif.Mapped.Vector.Exact
import Verif.Mapped.Str.Lemmas

/-
StringMappedVector in every history: property C131.
-/
namespace Verif.Mapped.Str
open Verif.Mapped Verif.Block Verif.Block.Vector
open Verif.Mapped.Vector (Obs Actual Step safe beyond Runs Corner Undef)

/-- Every known term refers to an element, and no two terms refer to the same one. -/
def One {V : Type} (a : Actual String V) : Prop :=
  (∀ k i, a.index k = some i → i < a.values.length) ∧ ∀ k k' i, a.index k = some i → a.index k' = some i → k = k'

variable {S V : Type} {E : Env S V} {kind : Kind}

theorem One.append {a : Actual String V} (h : One a) (x : V) : One (a.append kind x) :=
  ⟨fun k i hk => by have := h.1 k i hk; simp only [Actual.append, List.length_append]; omega, h.2⟩

theorem One.new {a : Actual String V} (h : One a) (k : String) (x : V) : One ((a.append kind x).bind k a.values.length) := by
  refine ⟨fun k' i hk => ?_, fun k1 k2 i h1 h2 => ?_⟩
  · simp only [Actual.bind, Actual.append, List.length_append, List.length_singleton] at hk ⊢
    split at hk
    · cases hk; omega
    · have := h.1 k' i hk; omega
  · simp only [Actual.bind, Actual.append] at h1 h2
    split at h1 <;> split at h2
    · simp_all
    · cases h1; have := h.1 _ _ h2; omega
    · cases h2; have := h.1 _ _ h1; omega
    · exact h.2 _ _ _ h1 h2

theorem One.takeOut {a : Actual String V} (h : One a) {i : Nat} {k : String} (hi : i < a.values.length)
    (hk : ∀ k', k' ≠ k → a.index k' ≠ some i) : One ((a.takeOut kind i).forget k) := by
  have key : ∀ k' j, ((a.takeOut kind i).forget k).index k' = some j → k' ≠ k ∧ ∃ j0, a.index k' = some j0 ∧ j0 ≠ i ∧
      j = (if a.takes kind i = true then (if j0 > i then j0 - 1 else j0) else j0) := by
    intro k' j h1
    simp only [Actual.forget, Actual.takeOut] at h1
    split at h1
    · cases h1
    · rename_i hne
      refine ⟨hne, ?_⟩
      by_cases ht : a.takes kind i = true
      · simp only [if_pos ht, Option.map_eq_some_iff] at h1
        obtain ⟨j0, h2, h3⟩ := h1
        exact ⟨j0, h2, fun h4 => hk k' hne (h4 ▸ h2), by rw [if_pos ht, h3]⟩
      · simp only [if_neg ht] at h1
        exact ⟨j, h1, fun h4 => hk k' hne (h4 ▸ h1), by rw [if_neg ht]⟩
  refine ⟨fun k' j h1 => ?_, fun k1 k2 j h1 h2 => ?_⟩
  · obtain ⟨_, j0, h2, h3, h4⟩ := key _ _ h1
    have := h.1 _ _ h2
    simp only [Actual.forget, Actual.takeOut]
    split at h4
    · rename_i ht
      simp only [if_pos ht, List.length_eraseIdx_of_lt hi]
      split at h4 <;> omega
    · rename_i ht
      simp only [if_neg ht]; omega
  · obtain ⟨_, j1, e1, n1, f1⟩ := key _ _ h1
    obtain ⟨_, j2, e2, n2, f2⟩ := key _ _ h2
    have : j1 = j2 := by
      rw [f1] at f2
      by_cases ht : a.takes kind i = true
      · simp only [if_pos ht] at f2
        split at f2 <;> split at f2 <;> omega
      · simpa only [if_neg ht] using f2
    exact h.2 _ _ _ (this ▸ e1) e2

/-- every call keeps the terms at different positions -/
theorem One.step {a a' : Actual String V} {op : Op V} {o : Obs V} (h : One a)
    (hs : Step kind (some "") a op.base a' o) : One a' := by
  have hv : ∀ {xs : List V}, xs.length = a.values.length → One { a with values := xs } :=
    fun e => ⟨fun k i hk => e ▸ h.1 k i hk, h.2⟩
  cases op with
  | insert k x =>
    simp only [Op.base, Step] at hs
    split at hs
    · exact hs.1 ▸ h
    · exact hs.1 ▸ h.new k x
  | insertNoKey x => exact hs.1 ▸ h.append x
  | insertOrAssign k x =>
    simp only [Op.base, Step] at hs
    split at hs
    · exact hs.1 ▸ hv (by simp)
    · exact hs.1 ▸ h.new k x
  | removeIndex i =>
    simp only [Op.base, Step] at hs
    split at hs
    · rename_i hi
      obtain ⟨k, h1, _, h3, _⟩ := hs
      exact h3 ▸ h.takeOut hi fun k' hne hk' => hne (h.2 _ _ _ hk' (h1 ⟨k', hk'⟩))
    · exact hs.1 ▸ h
  | remove k =>
    simp only [Op.base, Step] at hs
    split at hs
    · rename_i i hk
      exact hs.1 ▸ h.takeOut (h.1 _ _ hk) fun k' hne hk' => hne (h.2 _ _ _ hk' hk)
    · exact hs.1 ▸ h
  | set i x => exact hs.1 ▸ hv (by simp)
  | modify f => exact hs.1 ▸ hv (by simp)
  | transform f => exact hs.1 ▸ hv (by simp)
  | clear =>
    have : One (⟨[], fun _ => none, a.reserved⟩ : Actual String V) := ⟨fun _ _ hk => (nomatch hk), fun _ _ _ hk => (nomatch hk)⟩
    exact hs.1 ▸ this
  | _ => exact hs.1 ▸ h

variable (L : Lawful E.st kind)

/-- the container is the described one -/
structure Abs (m : SMV S) (h : Heap String) (a : Actual String V) : Prop where
  ok : m.Ok E h
  base : Vector.Abs (E := E.base MapImpl.atEnd) L (m.base E h) a
  one : One a

variable {L} {m : SMV S} {h : Heap String} {a : Actual String V}

/-- every safe call does what the description says -/
theorem exact_step (h0 : Corner E.st kind) (v : Abs L m h a) {op : Op V} (hs : safe kind (some "") a op.base) :
    ∃ m' h' a' o, exec E m h op = some (m', h', o) ∧ Step kind (some "") a op.base a' o ∧ Abs L m' h' a' := by
  obtain ⟨J, hJ⟩ := lift v.ok v.base.wf op
  have vb : Vector.Abs (E := E.base J) L (m.base E h) a := ⟨v.base.rep, v.base.wf, v.base.index, v.base.le⟩
  obtain ⟨m1, a1, o, e1, s1, w1⟩ := Vector.exact_step (E := E.base J) h0 vb hs
  obtain ⟨n, h', e2, ok, rfl⟩ := hJ m1 o e1
  exact ⟨n, h', a1, o, e2, s1, ok, ⟨w1.rep, w1.wf, w1.index, w1.le⟩, v.one.step s1⟩

/-- a call that is not safe is undefined, or an unchecked access beyond the end -/
theorem unsafe_step (hu : Undef L) (hst : kind.isStable = true) (v : Abs L m h a) {op : Op V}
    (hs : ¬ safe kind (some "") a op.base) : beyond a op.base ∨ exec E m h op = none := by
  cases op with
  | get i => exact .inl (Nat.not_lt.1 hs)
  | set i x => exact .inl (Nat.not_lt.1 hs)
  | insertOrAssign k x => exact absurd (fun i hk => v.one.1 k i hk) hs
  | back =>
    simp only [Op.base, safe, ne_eq, Decidable.not_not] at hs
    have := hs ▸ v.base.rep
    exact .inr (by simp only [exec, SMV.back, hu.back this, Option.map_none])
  | remove k => exact absurd (fun _ _ => .inr hst) hs
  | removeIndex i => exact absurd (fun _ => .inr (by simp)) hs
  | find k =>
    simp only [Op.base, safe, not_or, not_exists, not_and, Nat.not_lt, Bool.not_eq_true] at hs
    have hn : a.index k = none := by
      cases hk : a.index k with
      | none => rfl
      | some i => exact absurd (v.one.1 _ _ hk) (Nat.not_lt.2 (hs.1 i hk))
    have hf := SRepC.find_eq v.ok k
    have hk := v.base.index k
    rw [hn, find_strings, Option.map_eq_none_iff] at hk
    rw [hk] at hf
    exact .inr (by simp only [exec, SMV.find, hf, Option.bind_some, hu.endOk v.base.rep hs.2, Option.map_none])
  | apply => exact .inr (by simp only [exec, SMV.apply, hu.all v.base.rep (Bool.not_eq_true _ ▸ hs), Option.map_none])
  | modify f => exact .inr (by simp only [exec, SMV.modify, hu.visit _ _ v.base.rep (Bool.not_eq_true _ ▸ hs), Option.map_none])
  | transform f => exact .inr (by simp only [exec, SMV.transform, hu.visit _ _ v.base.rep (Bool.not_eq_true _ ▸ hs), Option.map_none])
  | _ => exact absurd trivial hs

end Verif.Mapped.Str
