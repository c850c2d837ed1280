import Verif.Block.Range
import Verif.Block.HeapLemmas
import Verif.Block.Iterator.Lemmas

namespace Verif.Block
variable {X : Type}

/-- `h1` and `h` have the same content in the blocks `B`. -/
def Agree (B : List Nat) (h h1 : Heap X) : Prop :=
  ∀ b, b ∈ B → h1.live b = h.live b ∧ ∀ j, h1.cells b j = h.cells b j

theorem Agree.refl (B : List Nat) (h : Heap X) : Agree B h h := fun _ _ => ⟨rfl, fun _ => rfl⟩

theorem Agree.trans {B : List Nat} {h h1 h2 : Heap X} (a : Agree B h h1) (a' : Agree B h1 h2) : Agree B h h2 :=
  fun b hb => ⟨(a' b hb).1.trans (a b hb).1, fun j => ((a' b hb).2 j).trans ((a b hb).2 j)⟩

theorem Heap.Frame.agree {h h' : Heap X} {A A' B : List Nat} (f : Heap.Frame h h' A A')
    (hB : ∀ b, b ∈ B → b < h.next) (hd : ∀ b, b ∈ B → b ∉ A) : Agree B h h' :=
  fun b hb => f.keep b (hB b hb) (hd b hb)

theorem Heap.Frame.disjoint {h h' : Heap X} {A A' B : List Nat} (f : Heap.Frame h h' A A')
    (hB : ∀ b, b ∈ B → b < h.next) (hd : ∀ b, b ∈ A → b ∉ B) : ∀ b, b ∈ A' → b ∉ B := by
  intro b hb hb'
  rcases f.fresh b hb with hh | hh
  · exact hd b hh hb'
  · have := hB b hb'; omega

theorem frame_left {h h' : Heap X} {o n : List Nat} (f : Heap.Frame h h' o n) (B : List Nat) :
    Heap.Frame h h' (o ++ B) (n ++ B) :=
  (f.extend B).congr (fun b => by simp [or_comm]) (fun b => by simp [or_comm])

/-- Blocks `own` that belong to other objects, and what is in them. -/
structure Others (X : Type) where
  own : Nat → Prop
  heap : Heap X

def Others.none : Others X := ⟨fun _ => False, Heap.empty⟩

/-- The range `R` in state `s` yields the values `zs`, touches only the blocks `B`, depends only on them, and when it is
used up `Q` holds. -/
def Feeds (R : InRange X) (B : List Nat) (Q : Heap X → Prop) : List X → R.S → Heap X → Prop
  | [], s, h => R.atEnd s = true ∧ ∀ h1, h1.Wf → Agree B h h1 → Q h1
  | z :: zs, s, h => R.atEnd s = false ∧ ∃ s', R.next s = some s' ∧
      ∀ h1, h1.Wf → Agree B h h1 → ∃ h2, R.fetch s h1 = some (z, h2) ∧ Heap.Frame h1 h2 B B ∧ Feeds R B Q zs s' h2

theorem Feeds.agree {R : InRange X} {B : List Nat} {Q : Heap X → Prop} {zs : List X} {s : R.S} {h h1 : Heap X}
    (F : Feeds R B Q zs s h) (a : Agree B h h1) : Feeds R B Q zs s h1 := by
  cases zs with
  | nil => exact ⟨F.1, fun h2 w a' => F.2 h2 w (a.trans a')⟩
  | cons z zs =>
    obtain ⟨h0, s', hs, hh⟩ := F
    exact ⟨h0, s', hs, fun h2 w a' => hh h2 w (a.trans a')⟩

theorem Feeds.atEnd {R : InRange X} {B : List Nat} {Q : Heap X → Prop} {zs : List X} {s : R.S} {h : Heap X}
    (F : Feeds R B Q zs s h) : R.atEnd s = zs.isEmpty := by
  cases zs with
  | nil => exact F.1
  | cons z zs => exact F.1

theorem Feeds.list (Q : Heap X → Prop) (hQ : ∀ h, Q h) : ∀ (zs : List X) (h : Heap X),
    Feeds InRange.list [] Q zs zs h := by
  intro zs
  induction zs with
  | nil => intro h; exact ⟨rfl, fun h1 _ _ => hQ h1⟩
  | cons z zs ih =>
    intro h
    exact ⟨rfl, zs, rfl, fun h1 w _ => ⟨h1, rfl, Heap.Frame.refl w, ih h1⟩⟩

theorem Feeds.imp {R : InRange X} {B : List Nat} {Q Q' : Heap X → Prop} {zs : List X} {s : R.S} {h : Heap X}
    (F : Feeds R B Q zs s h) (hq : ∀ h, Q h → Q' h) : Feeds R B Q' zs s h := by
  induction zs generalizing s h with
  | nil => exact ⟨F.1, fun h1 w a => hq _ (F.2 h1 w a)⟩
  | cons z zs ih =>
    obtain ⟨h0, s', hs, hh⟩ := F
    refine ⟨h0, s', hs, fun h1 w a => ?_⟩
    obtain ⟨h2, e2, f2, F2⟩ := hh h1 w a
    exact ⟨h2, e2, f2, ih F2⟩

theorem Feeds.empty {R : InRange X} {B : List Nat} {Q : Heap X → Prop} {s : R.S} {h : Heap X} (he : R.atEnd s = true)
    (hQ : ∀ h1, h1.Wf → Agree B h h1 → Q h1) : Feeds R B Q [] s h := ⟨he, hQ⟩

theorem put_denotes {bs : Nat} {arr : SlotPtr} {it : Iter} {n : Nat} (h : Heap X) (d : Iter.Denotes bs arr it n)
    {b : Nat} (hs : slotGet arr ((n / bs : Nat) : Int) = some b) (y : X) :
    InRange.put bs h it y = h.assign bs b (n % bs) y := by
  obtain ⟨v1, o1, p1, r1⟩ := d.eqs
  have hbk : it.blk = some b := by
    rw [v1] at r1
    cases arr with
    | none => simp [slotGet] at hs
    | some l =>
      simp only [slotGet, derefVec] at hs r1
      rw [if_pos (Int.natCast_nonneg _)] at hs r1
      rw [r1] at hs; simpa using hs
  rw [InRange.put, hbk]
  simp only
  rw [p1, o1, if_pos (by omega)]
  rfl

theorem eq_denotes {bs : Nat} {arr : SlotPtr} {a b : Iter} {n m : Nat} (d : Iter.Denotes bs arr a n)
    (d' : Iter.Denotes bs arr b m) : a.eq b = decide (n = m) := by
  by_cases e : n = m
  · rw [(Iter.Denotes.eq_iff d d').2 e]; simp [e]
  · cases hq : a.eq b with
    | false => simp [e]
    | true => exact absurd ((Iter.Denotes.eq_iff d d').1 hq) e

/-- What moving from `n` elements from position `p` on leaves of `ys`; `k` counts the elements moved before. -/
def leave (left : Nat → Option X) : Nat → Nat → Nat → List X → List X
  | _, _, 0, ys => ys
  | k, p, n + 1, ys => leave left (k + 1) (p + 1) n (match left k with | none => ys | some y => ys.set p y)

theorem leave_copy (n : Nat) : ∀ (k p : Nat) (ys : List X), leave (fun _ => none) k p n ys = ys := by
  induction n with
  | zero => intros; rfl
  | succ n ih => intro k p ys; exact ih _ _ _

theorem leave_length (left : Nat → Option X) (n : Nat) : ∀ (k p : Nat) (ys : List X),
    (leave left k p n ys).length = ys.length := by
  induction n with
  | zero => intros; rfl
  | succ n ih =>
    intro k p ys
    rw [leave, ih]
    cases left k <;> simp

theorem leave_list (ls : List X) : ∀ (k p : Nat) (ys : List X) (left : Nat → Option X),
    (∀ t, t < ls.length → left (k + t) = ls[t]?) → p + ls.length ≤ ys.length →
    leave left k p ls.length ys = ys.take p ++ ls ++ ys.drop (p + ls.length) := by
  induction ls with
  | nil => intro k p ys left _ _; simp [leave]
  | cons l ls ih =>
    intro k p ys left hl hp
    have h0 : left k = some l := by simpa using hl 0 (by simp)
    simp only [List.length_cons] at hp
    rw [List.length_cons, leave, h0]
    simp only
    rw [ih (k + 1) (p + 1) _ left ?_ (by simp; omega)]
    · rw [List.take_add_one, List.take_set_of_le (Nat.le_refl _), List.getElem?_set_self (by omega),
        List.drop_set_of_lt (by omega)]
      simp [Nat.add_assoc, Nat.add_comm 1]
    · intro t ht
      have := hl (t + 1) (by simpa using ht)
      simpa [Nat.add_assoc, Nat.add_comm 1] using this

end Verif.Block
