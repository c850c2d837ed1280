import Verif.Block.Vector.Arrays
import Verif.Block.Vector.World

/-
Lemmas for ArraysProps.lean: the functions of Arrays.lean do what those of Model.lean do, and keep account.
-/
namespace Verif.Block.Vector
open Verif.Block
variable {X : Type} {N : Nat}

namespace AVec

/-- What is true of the members at any time. -/
structure Ok (a : AVec) : Prop where
  d : a.d.isSome = a.v.dataptr.isSome
  f : a.f.isSome = a.v.freeblocks.isSome
  avail : a.v.avail = 0 ↔ a.v.dataptr = none
  freeAvail : a.v.freeAvail = 0 ↔ a.v.freeblocks = none
  both : a.v.dataptr = none → a.v.freeblocks = none

def T : Tagged Vec AVec := ⟨AVec.v, AVec.owned, AVec.Ok⟩

theorem Ok.keep {a : AVec} (O : Ok a) {v : Vec} (h1 : v.dataptr.isSome = a.v.dataptr.isSome)
    (h2 : v.avail = a.v.avail) (h3 : v.freeblocks.isSome = a.v.freeblocks.isSome)
    (h4 : v.freeAvail = a.v.freeAvail) : Ok ⟨v, a.d, a.f⟩ := by
  have e1 : v.dataptr = none ↔ a.v.dataptr = none := by
    rw [← Option.not_isSome_iff_eq_none, ← Option.not_isSome_iff_eq_none, h1]
  have e3 : v.freeblocks = none ↔ a.v.freeblocks = none := by
    rw [← Option.not_isSome_iff_eq_none, ← Option.not_isSome_iff_eq_none, h3]
  exact ⟨by simp [O.d, h1], by simp [O.f, h3], by rw [h2, O.avail, e1], by rw [h4, O.freeAvail, e3],
    fun h => e3.2 (O.both (e1.1 h))⟩

theorem growSlots_same {a : AVec} {L : Ledger} (O : Owns T L a) :
    ∃ a' L', growSlots a L = some (a', L') ∧ a'.v = a.v.growSlots ∧ a'.f = a.f ∧ Ok a' ∧
      L.Frame L' a.owned a'.owned := by
  have ok : Ok a := O.ok
  unfold growSlots
  by_cases h0 : a.v.avail = 0
  · rw [if_pos h0]
    refine ⟨_, _, rfl, rfl, rfl, ?_, ?_⟩
    · have e : a.v.growSlots = { a.v with dataptr := some (List.replicate 64 none), avail := 64, slotIdx := -1 } := by
        rw [Vec.growSlots, if_pos h0]
      rw [e]
      exact ⟨rfl, ok.f, by simp, ok.freeAvail, by simp⟩
    · have hd : a.v.dataptr = none := ok.avail.1 h0
      have h1 : a.d = none := by have := ok.d; rw [hd] at this; simpa using this
      have h2 : a.f = none := by have := ok.f; rw [ok.both hd] at this; simpa using this
      simpa [owned, h1, h2] using Ledger.Frame.alloc O.wf
  · rw [if_neg h0]
    by_cases h1 : a.v.slotIdx ≥ (a.v.avail : Int) - 1
    · rw [if_pos h1]
      obtain ⟨L', e, f⟩ := Ledger.replace (p := a.d) (r := a.f.toList) O.wf O.nodup O.live
      rw [e]
      refine ⟨_, _, rfl, rfl, rfl, ?_, by simpa [owned] using f⟩
      have e : a.v.growSlots = { a.v with
          dataptr := a.v.dataptr.map (fun l => l.take a.v.avail ++ List.replicate a.v.avail none),
          avail := a.v.avail * 2 } := by
        rw [Vec.growSlots, if_neg h0, if_pos h1]
      have hd : a.v.dataptr ≠ none := fun h => h0 (ok.avail.2 h)
      rw [e]
      refine ⟨?_, ok.f, ?_, ok.freeAvail, ?_⟩
      · cases hp : a.v.dataptr with
        | none => exact absurd hp hd
        | some l => rfl
      · exact ⟨fun h => absurd (show a.v.avail * 2 = 0 from h) (by omega), fun h => absurd (by simpa using h) hd⟩
      · simp [hd]
    · rw [if_neg h1]
      exact ⟨_, _, rfl, by rw [Vec.growSlots, if_neg h0, if_neg h1], rfl, ok, O.refl⟩

theorem growFree_same {a : AVec} {L : Ledger} (O : Owns T L a) (hd : a.v.dataptr.isSome = true) :
    ∃ a' L', growFree a L = some (a', L') ∧ a'.v = a.v.growFree ∧ a'.d = a.d ∧ Ok a' ∧
      L.Frame L' a.owned a'.owned := by
  have ok : Ok a := O.ok
  have hd' : a.v.dataptr ≠ none := by intro h; rw [h] at hd; cases hd
  unfold growFree
  by_cases h0 : a.v.freeIdx ≥ a.v.freeAvail
  · rw [if_pos h0]
    by_cases h1 : a.v.freeAvail = 0
    · rw [if_pos h1]
      have e : a.v.growFree = { a.v with freeblocks := some (List.replicate 64 none), freeAvail := 64 } := by
        rw [Vec.growFree, if_pos h0, if_pos h1]
      refine ⟨_, _, rfl, rfl, rfl, ?_, ?_⟩
      · rw [e]
        exact ⟨ok.d, rfl, ok.avail, by simp, fun h => absurd h hd'⟩
      · have h2 : a.f = none := by have := ok.f; rw [ok.freeAvail.1 h1] at this; simpa using this
        have := (Ledger.Frame.alloc O.wf).more (r := a.owned) O.wf O.nodup O.live (by simp)
        refine this.perm (by simp [owned, h2]) ?_
        simp only [owned, h2, Option.toList_none, List.append_nil, Option.toList_some]
        exact List.perm_append_comm
    · rw [if_neg h1]
      have ho : a.owned.Perm (a.f.toList ++ a.d.toList) := List.perm_append_comm
      obtain ⟨L', e, f⟩ := Ledger.replace (p := a.f) (r := a.d.toList) O.wf (ho.nodup_iff.1 O.nodup)
        (fun x h => O.live x (ho.mem_iff.2 h))
      rw [e]
      refine ⟨_, _, rfl, rfl, rfl, ?_, ?_⟩
      · have e : a.v.growFree = { a.v with
            freeblocks := a.v.freeblocks.map (fun l => l.take a.v.freeAvail ++ List.replicate a.v.freeAvail none),
            freeAvail := a.v.freeAvail * 2 } := by
          rw [Vec.growFree, if_pos h0, if_neg h1]
        have hf : a.v.freeblocks ≠ none := fun h => h1 (ok.freeAvail.2 h)
        rw [e]
        refine ⟨ok.d, ?_, ok.avail, ?_, fun h => absurd h hd'⟩
        · cases hp : a.v.freeblocks with
          | none => exact absurd hp hf
          | some l => rfl
        · exact ⟨fun h => absurd (show a.v.freeAvail * 2 = 0 from h) (by omega), fun h => absurd (by simpa using h) hf⟩
      · refine f.perm ho.symm ?_
        simp only [owned, Option.toList_some]
        exact (List.perm_append_comm (l₁ := [L.alloc.1]))
  · rw [if_neg h0]
    exact ⟨_, _, rfl, by rw [Vec.growFree, if_neg h0], rfl, ok, O.refl⟩

theorem getNewBlock_keep {v v' : Vec} {h h' : Heap X} {b : Nat} (e : Vec.getNewBlock v h = some (b, v', h')) :
    v'.dataptr = v.dataptr ∧ v'.avail = v.avail ∧ v'.freeblocks = v.freeblocks ∧ v'.freeAvail = v.freeAvail := by
  unfold Vec.getNewBlock at e
  split at e
  · cases e; exact ⟨rfl, rfl, rfl, rfl⟩
  · simp only [Option.map_eq_some_iff] at e
    obtain ⟨_, _, e⟩ := e
    cases e; exact ⟨rfl, rfl, rfl, rfl⟩

theorem blockCheck_same {a : AVec} {L : Ledger} (h : Heap X) (O : Owns T L a) :
    Same T L a (Vec.blockCheck N a.v h) (blockCheck N a h L) := by
  unfold Vec.blockCheck blockCheck
  split
  · obtain ⟨g, L', e, ev, ef, ok, fr⟩ := growSlots_same O
    rw [e, ← ev]
    simp only [Option.bind_some]
    cases hb : Vec.getNewBlock g.v h with
    | none => exact rfl
    | some r =>
      obtain ⟨b, v', h'⟩ := r
      obtain ⟨k1, k2, k3, k4⟩ := getNewBlock_keep hb
      simp only [Option.bind_some]
      cases hs : slotSet v'.dataptr (v'.slotIdx + 1) b with
      | none => exact rfl
      | some arr =>
        have hs' := slotSet_isSome hs
        exact ⟨_, _, rfl, rfl, ok.keep (by simp [hs'.1, ← k1, hs'.2]) (by simp [k2]) (by simp [k3]) (by simp [k4]),
          fr⟩
  · exact .pure O O.ok rfl

theorem pushBack_same {a : AVec} {L : Ledger} (h : Heap X) (x : X) (O : Owns T L a) :
    Same T L a (Vec.pushBack N a.v h x) (pushBack N a h L x) := by
  refine Same.bind O.wf (blockCheck_same h O) fun a h L O => ?_
  refine Same.bind' fun b hb => ?_
  show Same T L a (Option.map _ _) (Option.map _ _)
  cases hc : h.construct (Vec.blockSize N) b a.v.bsize x with
  | none => simp only [T, hc]; exact rfl
  | some h' =>
    simp only [T, hc]
    exact ⟨_, _, rfl, rfl, (show Ok a from O.ok).keep rfl rfl rfl rfl, O.refl⟩

theorem moveBlock_same {a : AVec} {L : Ledger} (b : Nat) (O : Owns T L a) (hd : a.v.dataptr.isSome = true) :
    (Vec.moveBlocktoAvailable a.v b = none ∧ moveBlocktoAvailable a L b = none) ∨
    ∃ a' L', moveBlocktoAvailable a L b = some (a', L') ∧ Vec.moveBlocktoAvailable a.v b = some a'.v ∧ Ok a' ∧
      L.Frame L' a.owned a'.owned := by
  unfold Vec.moveBlocktoAvailable moveBlocktoAvailable
  obtain ⟨g, L', e, ev, ef, ok, fr⟩ := growFree_same O hd
  rw [e, ← ev]
  simp only [Option.bind_some]
  cases hs : slotSet g.v.freeblocks g.v.freeIdx b with
  | none => exact .inl ⟨rfl, rfl⟩
  | some arr =>
    have hs' := slotSet_isSome hs
    exact .inr ⟨_, _, rfl, rfl, ok.keep rfl rfl (by simp [hs'.1, hs'.2]) rfl, fr⟩

theorem popStep_same {a : AVec} {L : Ledger} (O : Owns T L a) :
    (Vec.popStep N a.v = none ∧ popStep N a L = none) ∨
    ∃ a' L', popStep N a L = some (a', L') ∧ Vec.popStep N a.v = some a'.v ∧ Ok a' ∧ L.Frame L' a.owned a'.owned := by
  unfold Vec.popStep popStep
  split
  · exact .inr ⟨_, _, rfl, rfl, (show Ok a from O.ok).keep rfl rfl rfl rfl, O.refl⟩
  · cases hg : slotGet a.v.dataptr a.v.slotIdx with
    | none => exact .inl ⟨rfl, rfl⟩
    | some b =>
      have hd := slotGet_isSome hg
      have O' : Owns T L ⟨{ a.v with slotIdx := a.v.slotIdx - 1 }, a.d, a.f⟩ :=
        ⟨(show Ok a from O.ok).keep rfl rfl rfl rfl, O.wf, O.nodup, O.live⟩
      simp only [Option.bind_some]
      rcases moveBlock_same b O' hd with ⟨e1, e2⟩ | ⟨a', L', e1, e2, ok, fr⟩
      · exact .inl ⟨by rw [e1]; rfl, by rw [e2]; rfl⟩
      · rw [e1, e2]
        exact .inr ⟨_, _, rfl, rfl, ok.keep rfl rfl rfl rfl, fr⟩

theorem popBack_same {a : AVec} {L : Ledger} (h : Heap X) (O : Owns T L a) :
    Same T L a (Vec.popBack N a.v h) (popBack N a h L) := by
  unfold Vec.popBack popBack
  split
  · exact .pure O O.ok rfl
  · have O' : Owns T L ⟨{ a.v with csize := a.v.csize - 1 }, a.d, a.f⟩ :=
      ⟨(show Ok a from O.ok).keep rfl rfl rfl rfl, O.wf, O.nodup, O.live⟩
    rcases popStep_same (N := N) O' with ⟨e1, e2⟩ | ⟨a', L', e1, e2, ok, fr⟩
    · rw [e1, e2]; exact rfl
    · rw [e1, e2]
      simp only [Option.bind_some]
      cases hg : slotGet a'.v.dataptr a'.v.slotIdx with
      | none => exact rfl
      | some b =>
        simp only [Option.bind_some]
        cases hc : h.destroy (Vec.blockSize N) b a'.v.bsize with
        | none => exact rfl
        | some h' => exact ⟨_, _, rfl, rfl, ok, fr⟩

theorem popN_same (n : Nat) : ∀ {a : AVec} {L : Ledger} (h : Heap X), Owns T L a →
    Same T L a (Vec.popN N n a.v h) (popN N n a h L) := by
  induction n with
  | zero => intro a L h O; exact .pure O O.ok rfl
  | succ n ih =>
    intro a L h O
    exact Same.bind O.wf (popBack_same h O) fun a h L O => ih h O

theorem pushFrom_same (R : InRange X) (n : Nat) : ∀ (s : R.S) {a : AVec} {L : Ledger} (h : Heap X), Owns T L a →
    Same T L a (Vec.pushFrom N R n s a.v h) (pushFrom N R n s a h L) := by
  induction n with
  | zero =>
    intro s a L h O
    unfold Vec.pushFrom pushFrom
    split
    · exact rfl
    · exact .pure O O.ok rfl
  | succ n ih =>
    intro s a L h O
    unfold Vec.pushFrom pushFrom
    split
    · refine Same.bind' fun q _ => ?_
      refine Same.bind O.wf (pushBack_same q.2 q.1 O) fun a h L O => ?_
      exact Same.bind' fun s _ => ih s h O
    · exact .pure O O.ok rfl

theorem assignFrom_same (R : InRange X) (fuel : Nat) {a : AVec} {L : Ledger} (h : Heap X) (s : R.S) (O : Owns T L a) :
    Same T L a (Vec.assignFrom N R fuel a.v h s) (assignFrom N R fuel a h L s) := by
  refine Same.bind' fun r _ => ?_
  split
  · exact popN_same _ _ O
  · exact pushFrom_same R _ _ _ O

theorem assignAll_same {a : AVec} {L : Ledger} (h : Heap X) (b : Vec) (O : Owns T L a) :
    Same T L a (Vec.assignAll N a.v b h) (assignAll N a b h L) :=
  Same.bind' fun _ _ => Same.bind' fun _ _ => assignFrom_same _ _ _ _ O

theorem assignSub_same {a : AVec} {L : Ledger} (h : Heap X) (b : Vec) (lo hi : Nat) (left : Nat → Option X)
    (O : Owns T L a) : Same T L a (Vec.assignSub N a.v b h lo hi left) (assignSub N a b h L lo hi left) :=
  Same.bind' fun _ _ => Same.bind' fun _ _ => Same.bind' fun _ _ => assignFrom_same _ _ _ _ O

theorem clearMid_same (n : Nat) : ∀ {a : AVec} {L : Ledger} (h : Heap X), Owns T L a →
    Same T L a (Vec.clearMid N n a.v h) (clearMid N n a h L) := by
  induction n with
  | zero => intro a L h O; exact .pure O O.ok rfl
  | succ n ih =>
    intro a L h O
    unfold Vec.clearMid clearMid
    refine Same.bind' fun h _ => ?_
    refine Same.bind' fun b hb => ?_
    rcases moveBlock_same b O (slotGet_isSome hb) with ⟨e1, e2⟩ | ⟨a', L', e1, e2, ok, fr⟩
    · rw [e1, e2]; exact rfl
    · rw [e1, e2]
      exact Same.bind (x := some (a'.v, h)) (y := some (a', h, L')) (f := fun r => Vec.clearMid N n r.1 r.2)
        (g := fun r => clearMid N n r.1 r.2.1 r.2.2) O.wf ⟨a', L', rfl, rfl, ok, fr⟩ fun a h L O => ih h O

theorem clear_same {a : AVec} {L : Ledger} (h : Heap X) (O : Owns T L a) :
    Same T L a (Vec.clear N a.v h) (clear N a h L) := by
  unfold Vec.clear clear
  split
  · exact .pure O O.ok rfl
  · refine Same.bind' fun h _ => ?_
    split
    · refine Same.bind' fun b hb => ?_
      rcases moveBlock_same b O (slotGet_isSome hb) with ⟨e1, e2⟩ | ⟨a', L', e1, e2, ok, fr⟩
      · rw [e1, e2]; exact rfl
      · rw [e1, e2]
        refine Same.bind (x := some (a'.v, h)) (y := some (a', h, L'))
          (f := fun r => (Vec.clearMid N (r.1.slotIdx - 1).toNat r.1 r.2).bind _)
          (g := fun r => (clearMid N (r.1.v.slotIdx - 1).toNat r.1 r.2.1 r.2.2).bind _)
          O.wf ⟨a', L', rfl, rfl, ok, fr⟩ fun a h L O => ?_
        refine Same.bind O.wf (clearMid_same _ h O) fun a h L O => ?_
        simp only [T]
        cases hc : Vec.destroyDown N a.v.dataptr 0 (Vec.blockSize N) h with
        | none => exact rfl
        | some h' => exact ⟨_, _, rfl, rfl, (show Ok a from O.ok).keep rfl rfl rfl rfl, O.refl⟩
    · exact ⟨_, _, rfl, rfl, (show Ok a from O.ok).keep rfl rfl rfl rfl, O.refl⟩

theorem shrink_same {a : AVec} {L : Ledger} (h : Heap X) (O : Owns T L a) :
    Same T L a (Vec.shrinkToFit N a.v h) (shrinkToFit N a h L) := by
  unfold Vec.shrinkToFit shrinkToFit
  cases hc : Vec.freeList N a.v.freeblocks a.v.freeIdx 0 h with
  | none => exact rfl
  | some h' => exact ⟨_, _, rfl, rfl, (show Ok a from O.ok).keep rfl rfl rfl rfl, O.refl⟩

theorem freeAll_same {a : AVec} {L : Ledger} (h : Heap X) (O : Owns T L a) :
    (Vec.freeAll N a.v h = none ∧ freeAll N a h L = none) ∨
    ∃ h' L', Vec.freeAll N a.v h = some h' ∧ freeAll N a h L = some (h', L') ∧ L.Frame L' a.owned [] := by
  have ok : Ok a := O.ok
  cases hd : a.v.dataptr with
  | none =>
    have h1 : a.d = none := by have := ok.d; rw [hd] at this; simpa using this
    have h2 : a.f = none := by have := ok.f; rw [ok.both hd] at this; simpa using this
    refine .inr ⟨h, L, by rw [Vec.freeAll, hd], by rw [freeAll, hd], ?_⟩
    have e : a.owned = [] := by simp [owned, h1, h2]
    have r := O.refl
    rw [show T.owned a = [] from e] at r
    rw [e]; exact r
  | some l =>
    unfold freeAll
    simp only [hd]
    cases hf : Vec.freeAll N a.v h with
    | none => exact .inl ⟨rfl, rfl⟩
    | some h' =>
      have nd := List.nodup_append.1 O.nodup
      have lf : ∀ x, x ∈ a.f.toList → x ∈ L.live := fun x h => O.live x (List.mem_append_right _ h)
      have ld : ∀ x, x ∈ a.d.toList → x ∈ L.live := fun x h => O.live x (List.mem_append_left _ h)
      obtain ⟨L1, e1, f1⟩ := Ledger.delete_eq lf
      have f1' := (f1 O.wf).more (r := a.d.toList) O.wf nd.1 ld fun x h h' => nd.2.2 x h x h' rfl
      obtain ⟨L2, e2, f2⟩ := Ledger.delete_eq (L := L1) (p := a.d) fun x h => f1'.live x (by simpa using h)
      refine .inr ⟨h', L2, rfl, by simp [e1, e2], ?_⟩
      exact (f1'.trans O.wf (f2 f1'.wf)).perm List.perm_append_comm (.refl _)

end AVec
end Verif.Block.Vector
