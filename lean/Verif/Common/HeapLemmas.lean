import Verif.Common.Heap

/- Lemmas about heaps. -/
namespace Verif

theorem Heap.set_get (h : Heap) (p : Option Nat) : h.set p (h.get p) = h := by
  cases p with
  | none => rfl
  | some p =>
    simp only [Heap.set, Heap.get]
    cases h with
    | mk blk next =>
      simp only [Heap.mk.injEq, and_true]
      funext q
      split
      · next e => subst e; cases blk q <;> rfl
      · rfl

theorem Heap.set_blk (h : Heap) (p : Option Nat) (m : Mem) : p.bind (h.set p m).blk = (p.bind h.blk).map fun _ => m := by
  cases p with
  | none => rfl
  | some p => simp [Heap.set]

theorem Heap.set_ne (h : Heap) {p : Option Nat} {q : Nat} (m : Mem) (hq : p ≠ some q) : (h.set p m).blk q = h.blk q := by
  cases p with
  | none => rfl
  | some p => simp only [Heap.set]; rw [if_neg fun e => hq (by rw [e])]

theorem Heap.set_isSome (h : Heap) (p : Option Nat) (m : Mem) (q : Nat) : ((h.set p m).blk q).isSome = (h.blk q).isSome := by
  cases p with
  | none => rfl
  | some p =>
    simp only [Heap.set]
    split
    · next e => subst e; simp
    · rfl

theorem Heap.set_next (h : Heap) (p : Option Nat) (m : Mem) : (h.set p m).next = h.next := by
  cases p <;> rfl

theorem Heap.get_eq (h : Heap) (p : Option Nat) : h.get p = (p.bind h.blk).getD Mem.null := by
  cases p <;> rfl

/-- blocks not allocated yet -/
def Heap.Fresh (h : Heap) : Prop := ∀ q, h.next ≤ q → h.blk q = none

theorem alloc_next (h : Heap) (m : Mem) : (h.alloc m).blk h.next = some m := by simp [Heap.alloc]

theorem alloc_ne (h : Heap) (m : Mem) {q : Nat} (hq : q ≠ h.next) : (h.alloc m).blk q = h.blk q := by simp [Heap.alloc, hq]

end Verif
