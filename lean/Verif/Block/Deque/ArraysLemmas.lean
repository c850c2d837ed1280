import Verif.Block.Deque.Arrays
import Verif.Block.Deque.World

/-
Lemmas for ArraysProps.lean: the functions of Arrays.lean do what those of Model.lean do, and keep account.
-/
namespace Verif.Block.Deque
open Verif.Block
variable {X : Type} {P : Pol} {N : Nat}

namespace AFree

structure Ok (q : AFree) : Prop where
  f : q.f.isSome = q.l.blocks.isSome
  avail : q.l.avail = 0 ↔ q.l.blocks = none

/-- the free list of an object whose other array is `d` -/
def T (d : Option Nat) : Tagged FreeL AFree := ⟨AFree.l, fun q => d.toList ++ q.f.toList, AFree.Ok⟩

theorem grow_same {d : Option Nat} {q : AFree} {L : Ledger} (O : Owns (T d) L q) :
    ∃ q' L', grow q L = some (q', L') ∧ q'.l = q.l.grow ∧ Ok q' ∧
      L.Frame L' (d.toList ++ q.f.toList) (d.toList ++ q'.f.toList) := by
  have ok : Ok q := O.ok
  unfold grow
  by_cases h0 : q.l.idx ≥ q.l.avail
  · rw [if_pos h0]
    by_cases h1 : q.l.avail = 0
    · rw [if_pos h1]
      have e : q.l.grow = { q.l with blocks := some (List.replicate 64 none), avail := 64 } := by
        rw [FreeL.grow, if_pos h0, if_pos h1]
      refine ⟨_, _, rfl, rfl, ?_, ?_⟩
      · rw [e]; exact ⟨rfl, by simp⟩
      · have h2 : q.f = none := by have := ok.f; rw [ok.avail.1 h1] at this; simpa using this
        have := (Ledger.Frame.alloc O.wf).more (r := d.toList ++ q.f.toList) O.wf O.nodup O.live (by simp)
        refine this.perm (by simp) ?_
        simp only [h2, Option.toList_none, List.append_nil, Option.toList_some]
        exact List.perm_append_comm
    · rw [if_neg h1]
      have ho : (d.toList ++ q.f.toList).Perm (q.f.toList ++ d.toList) := List.perm_append_comm
      obtain ⟨L', e, f⟩ := Ledger.replace (p := q.f) (r := d.toList) O.wf (ho.nodup_iff.1 O.nodup)
        (fun x h => O.live x (ho.mem_iff.2 h))
      rw [e]
      refine ⟨_, _, rfl, rfl, ?_, ?_⟩
      · have e : q.l.grow = { q.l with
            blocks := q.l.blocks.map (fun l => l.take q.l.avail ++ List.replicate q.l.avail none),
            avail := q.l.avail * 2 } := by
          rw [FreeL.grow, if_pos h0, if_neg h1]
        have hf : q.l.blocks ≠ none := fun h => h1 (ok.avail.2 h)
        rw [e]
        refine ⟨?_, ?_⟩
        · cases hp : q.l.blocks with
          | none => exact absurd hp hf
          | some l => rfl
        · exact ⟨fun h => absurd (show q.l.avail * 2 = 0 from h) (by omega), fun h => absurd (by simpa using h) hf⟩
      · refine f.perm ho.symm ?_
        simp only [Option.toList_some]
        exact (List.perm_append_comm (l₁ := [L.alloc.1]))
  · rw [if_neg h0]
    exact ⟨_, _, rfl, by rw [FreeL.grow, if_neg h0], ok, O.refl⟩

theorem put_same {d : Option Nat} {q : AFree} {L : Ledger} (b : Nat) (O : Owns (T d) L q) :
    (q.l.put b = none ∧ put q L b = none) ∨
    ∃ q' L', put q L b = some (q', L') ∧ q.l.put b = some q'.l ∧ Ok q' ∧ q'.l.blocks.isSome = true ∧
      L.Frame L' (d.toList ++ q.f.toList) (d.toList ++ q'.f.toList) := by
  unfold FreeL.put put
  obtain ⟨g, L', e, ev, ok, fr⟩ := grow_same O
  rw [e, ← ev]
  simp only [Option.bind_some]
  cases hs : slotSet g.l.blocks g.l.idx b with
  | none => exact .inl ⟨rfl, rfl⟩
  | some arr =>
    have hs' := slotSet_isSome hs
    refine .inr ⟨_, _, rfl, rfl, ⟨by rw [ok.f]; simp [hs'.1, hs'.2], ?_⟩, hs'.1, fr⟩
    have n1 : g.l.blocks ≠ none := fun h => by rw [h] at hs'; cases hs'.2
    have n2 : arr ≠ none := fun h => by rw [h] at hs'; cases hs'.1
    exact ⟨fun h => absurd (ok.avail.1 h) n1, fun h => absurd h n2⟩

end AFree

theorem get_keep {f f' : FreeL} {h h' : Heap X} {b : Nat} (e : f.get h = some (b, f', h')) :
    f'.blocks = f.blocks ∧ f'.avail = f.avail := by
  unfold FreeL.get at e
  split at e
  · cases e; exact ⟨rfl, rfl⟩
  · simp only [Option.map_eq_some_iff] at e
    obtain ⟨_, _, e⟩ := e
    cases e; exact ⟨rfl, rfl⟩

namespace ADeq

/-- What is true of the members at any time. -/
structure Ok (a : ADeq) : Prop where
  d : a.d.isSome = a.v.dataptr.isSome
  avail : a.v.avail = 0 ↔ a.v.dataptr = none
  free : AFree.Ok ⟨a.v.free, a.f⟩
  both : a.v.dataptr = none → a.v.free.blocks = none

def T : Tagged Deq ADeq := ⟨ADeq.v, ADeq.owned, ADeq.Ok⟩

theorem Ok.keep {a : ADeq} (O : Ok a) {v : Deq} (h1 : v.dataptr.isSome = a.v.dataptr.isSome)
    (h2 : v.avail = a.v.avail) (h3 : v.free.blocks = a.v.free.blocks)
    (h4 : v.free.avail = a.v.free.avail) : Ok ⟨v, a.d, a.f⟩ := by
  have e1 : v.dataptr = none ↔ a.v.dataptr = none := by
    rw [← Option.not_isSome_iff_eq_none, ← Option.not_isSome_iff_eq_none, h1]
  exact ⟨by simp [O.d, h1], by rw [h2, O.avail, e1], ⟨by simp only [h3]; exact O.free.f, by
    simp only [h3, h4]; exact O.free.avail⟩, fun h => by rw [h3]; exact O.both (e1.1 h)⟩

/-- Same members, other values. -/
theorem Owns.keep {a : ADeq} {L : Ledger} (O : Owns T L a) {v : Deq} (h1 : v.dataptr.isSome = a.v.dataptr.isSome)
    (h2 : v.avail = a.v.avail) (h3 : v.free.blocks = a.v.free.blocks)
    (h4 : v.free.avail = a.v.free.avail) : Owns T L ⟨v, a.d, a.f⟩ :=
  ⟨(show Ok a from O.ok).keep h1 h2 h3 h4, O.wf, O.nodup, O.live⟩

/-- The free list of an object. -/
theorem Owns.free {a : ADeq} {L : Ledger} (O : Owns T L a) : Owns (AFree.T a.d) L ⟨a.v.free, a.f⟩ :=
  ⟨(show Ok a from O.ok).free, O.wf, O.nodup, O.live⟩

theorem firstBlock_same {a : ADeq} {L : Ledger} (h : Heap X) (O : Owns T L a) (h0 : a.v.avail = 0) :
    Same T L a (Deq.firstBlock N a.v h) (firstBlock N a h L) := by
  have ok : Ok a := O.ok
  unfold firstBlock
  cases hf : Deq.firstBlock N a.v h with
  | none => exact rfl
  | some r =>
    obtain ⟨v, h'⟩ := r
    simp only [Deq.firstBlock, Option.bind_eq_some_iff, Option.map_eq_some_iff] at hf
    obtain ⟨⟨b, f, h2⟩, hg, p, hp, hf⟩ := hf
    cases hf
    have k := get_keep hg
    have hp' := (slotSet_isSome hp).1
    have hd : a.v.dataptr = none := ok.avail.1 h0
    have h1 : a.d = none := by have := ok.d; rw [hd] at this; simpa using this
    have h2 : a.f = none := by have := ok.free.f; rw [ok.both hd] at this; simpa using this
    have hb : f.blocks = none := by rw [k.1]; exact ok.both hd
    have ha : f.avail = 0 := by rw [k.2]; exact ok.free.avail.2 (ok.both hd)
    refine ⟨_, _, rfl, rfl, ⟨by simp [hp'], ?_, ⟨?_, ?_⟩, fun _ => hb⟩, ?_⟩
    · exact ⟨fun h => absurd h (by simp), fun h => by simp only at h; rw [h] at hp'; cases hp'⟩
    · simp [h2, hb]
    · simp [ha, hb]
    · simpa [T, owned, h1, h2] using Ledger.Frame.alloc O.wf

theorem roomBack_same {a : ADeq} {L : Ledger} (O : Owns T L a) (h0 : a.v.avail ≠ 0) :
    (Deq.roomBack P a.v = none ∧ roomBack P a L = none) ∨
    ∃ a' L', roomBack P a L = some (a', L') ∧ Deq.roomBack P a.v = some a'.v ∧ Ok a' ∧ L.Frame L' a.owned a'.owned := by
  have ok : Ok a := O.ok
  unfold roomBack
  cases hr : Deq.roomBack P a.v with
  | none => exact .inl ⟨rfl, rfl⟩
  | some v =>
    simp only [Option.bind_some]
    unfold Deq.roomBack at hr
    split at hr
    · rename_i hb
      rw [if_pos hb]
      split at hr
      · rename_i hf
        rw [if_pos hf]
        simp only [Option.bind_eq_some_iff, Option.map_eq_some_iff] at hr
        obtain ⟨l, hl, l', _, rfl⟩ := hr
        exact .inr ⟨_, _, rfl, rfl, ok.keep (by simp [hl]) rfl rfl rfl, O.refl⟩
      · rename_i hf
        rw [if_neg hf]
        simp only [Option.bind_eq_some_iff, Option.map_eq_some_iff] at hr
        obtain ⟨l, hl, l', _, rfl⟩ := hr
        obtain ⟨L', e, fr⟩ := Ledger.replace (p := a.d) (r := a.f.toList) O.wf O.nodup O.live
        rw [e]
        refine .inr ⟨_, _, rfl, rfl, ⟨rfl, ?_, ok.free, by simp⟩, by simpa [owned] using fr⟩
        exact ⟨fun h => absurd (show a.v.avail * 2 = 0 from h) (by omega), fun h => by simp at h⟩
    · rename_i hb
      rw [if_neg hb]
      cases hr
      exact .inr ⟨_, _, rfl, rfl, ok, O.refl⟩

theorem roomFront_same {a : ADeq} {L : Ledger} (O : Owns T L a) (h0 : a.v.avail ≠ 0) :
    (Deq.roomFront P a.v = none ∧ roomFront P a L = none) ∨
    ∃ a' L', roomFront P a L = some (a', L') ∧ Deq.roomFront P a.v = some a'.v ∧ Ok a' ∧
      L.Frame L' a.owned a'.owned := by
  have ok : Ok a := O.ok
  unfold roomFront
  cases hr : Deq.roomFront P a.v with
  | none => exact .inl ⟨rfl, rfl⟩
  | some v =>
    simp only [Option.bind_some]
    unfold Deq.roomFront at hr
    split at hr
    · rename_i hb
      rw [if_pos hb]
      simp only at hr
      split at hr
      · rename_i hf
        rw [if_pos hf]
        simp only [Option.bind_eq_some_iff, Option.map_eq_some_iff] at hr
        obtain ⟨l, hl, l', _, rfl⟩ := hr
        exact .inr ⟨_, _, rfl, rfl, ok.keep (by simp [hl]) rfl rfl rfl, O.refl⟩
      · rename_i hf
        rw [if_neg hf]
        simp only [Option.bind_eq_some_iff, Option.map_eq_some_iff] at hr
        obtain ⟨l, hl, l', _, rfl⟩ := hr
        obtain ⟨L', e, fr⟩ := Ledger.replace (p := a.d) (r := a.f.toList) O.wf O.nodup O.live
        rw [e]
        refine .inr ⟨_, _, rfl, rfl, ⟨rfl, ?_, ok.free, by simp⟩, by simpa [owned] using fr⟩
        exact ⟨fun h => absurd (show a.v.avail * 2 = 0 from h) (by omega), fun h => by simp at h⟩
    · rename_i hb
      rw [if_neg hb]
      cases hr
      exact .inr ⟨_, _, rfl, rfl, ok, O.refl⟩

theorem blockCheck_same {a : ADeq} {L : Ledger} (h : Heap X) (O : Owns T L a) :
    Same T L a (Deq.blockCheck P N a.v h) (blockCheck P N a h L) := by
  unfold Deq.blockCheck blockCheck
  split
  · split
    · rename_i h0; exact firstBlock_same h O h0
    · rename_i h0
      rcases roomBack_same (P := P) O h0 with ⟨e1, e2⟩ | ⟨g, L', e1, e2, ok, fr⟩
      · rw [e1, e2]; exact rfl
      · rw [e1, e2]
        simp only [Option.bind_some]
        cases hb : g.v.free.get h with
        | none => exact rfl
        | some r =>
          obtain ⟨b, f, h'⟩ := r
          have k := get_keep hb
          simp only [Option.bind_some]
          cases hs : slotSet g.v.dataptr (g.v.back + 1) b with
          | none => exact rfl
          | some arr =>
            have hs' := slotSet_isSome hs
            exact ⟨_, _, rfl, rfl, ok.keep (by simp [hs'.1, hs'.2]) rfl k.1 k.2, fr⟩
  · exact .pure O O.ok rfl

theorem blockCheckFront_same {a : ADeq} {L : Ledger} (h : Heap X) (O : Owns T L a) :
    Same T L a (Deq.blockCheckFront P N a.v h) (blockCheckFront P N a h L) := by
  unfold Deq.blockCheckFront blockCheckFront
  split
  · split
    · rename_i h0; exact firstBlock_same h O h0
    · rename_i h0
      rcases roomFront_same (P := P) O h0 with ⟨e1, e2⟩ | ⟨g, L', e1, e2, ok, fr⟩
      · rw [e1, e2]; exact rfl
      · rw [e1, e2]
        simp only [Option.bind_some]
        cases hb : g.v.free.get h with
        | none => exact rfl
        | some r =>
          obtain ⟨b, f, h'⟩ := r
          have k := get_keep hb
          simp only [Option.bind_some]
          cases hs : slotSet g.v.dataptr (g.v.front - 1) b with
          | none => exact rfl
          | some arr =>
            have hs' := slotSet_isSome hs
            exact ⟨_, _, rfl, rfl, ok.keep (by simp [hs'.1, hs'.2]) rfl k.1 k.2, fr⟩
  · exact .pure O O.ok rfl

theorem pushBack_same {a : ADeq} {L : Ledger} (h : Heap X) (x : X) (O : Owns T L a) :
    Same T L a (Deq.pushBack P N a.v h x) (pushBack P N a h L x) := by
  refine Same.bind O.wf (blockCheck_same h O) fun a h L O => ?_
  simp only [T]
  cases hc : constructAt N a.v.dataptr a.v.back a.v.bsize h x with
  | none => exact rfl
  | some h' => exact ⟨_, _, rfl, rfl, (show Ok a from O.ok).keep rfl rfl rfl rfl, O.refl⟩

theorem pushFront_same {a : ADeq} {L : Ledger} (h : Heap X) (x : X) (O : Owns T L a) :
    Same T L a (Deq.pushFront P N a.v h x) (pushFront P N a h L x) := by
  refine Same.bind O.wf (blockCheckFront_same h O) fun a h L O => ?_
  simp only [T]
  cases hc : constructAt N a.v.dataptr a.v.front a.v.fsize h x with
  | none => exact rfl
  | some h' => exact ⟨_, _, rfl, rfl, (show Ok a from O.ok).keep rfl rfl rfl rfl, O.refl⟩

/-- an object with a new free list -/
theorem Ok.withFree {a : ADeq} (O : Ok a) {v : Deq} {q : AFree} (hd : a.v.dataptr.isSome = true)
    (h1 : v.dataptr = a.v.dataptr) (h2 : v.avail = a.v.avail) (h3 : v.free = q.l) (oq : q.Ok) : Ok ⟨v, a.d, q.f⟩ :=
  ⟨by simp [O.d, h1], by rw [h1, h2]; exact O.avail, by rw [h3]; exact oq,
    fun h => by simp only [h1] at h; rw [h] at hd; cases hd⟩

theorem popBackStep_same {a : ADeq} {L : Ledger} (O : Owns T L a) :
    (Deq.popBackStep N a.v = none ∧ popBackStep N a L = none) ∨
    ∃ a' L', popBackStep N a L = some (a', L') ∧ Deq.popBackStep N a.v = some a'.v ∧ Ok a' ∧
      L.Frame L' a.owned a'.owned := by
  unfold Deq.popBackStep popBackStep
  split
  · exact .inr ⟨_, _, rfl, rfl, (show Ok a from O.ok).keep rfl rfl rfl rfl, O.refl⟩
  · cases hg : slotGet a.v.dataptr a.v.back with
    | none => exact .inl ⟨rfl, rfl⟩
    | some b =>
      have hd := slotGet_isSome hg
      simp only [Option.bind_some]
      rcases AFree.put_same b (Owns.free O) with ⟨e1, e2⟩ | ⟨q, L', e1, e2, ok, _, fr⟩
      · exact .inl ⟨by rw [e1]; rfl, by rw [e2]; rfl⟩
      · rw [e1, e2]
        exact .inr ⟨_, _, rfl, rfl, (show Ok a from O.ok).withFree hd rfl rfl rfl ok, fr⟩

theorem popFrontStep_same {a : ADeq} {L : Ledger} (O : Owns T L a) :
    (Deq.popFrontStep N a.v = none ∧ popFrontStep N a L = none) ∨
    ∃ a' L', popFrontStep N a L = some (a', L') ∧ Deq.popFrontStep N a.v = some a'.v ∧ Ok a' ∧
      L.Frame L' a.owned a'.owned := by
  unfold Deq.popFrontStep popFrontStep
  split
  · exact .inr ⟨_, _, rfl, rfl, (show Ok a from O.ok).keep rfl rfl rfl rfl, O.refl⟩
  · cases hg : slotGet a.v.dataptr a.v.front with
    | none => exact .inl ⟨rfl, rfl⟩
    | some b =>
      have hd := slotGet_isSome hg
      simp only [Option.bind_some]
      rcases AFree.put_same b (Owns.free O) with ⟨e1, e2⟩ | ⟨q, L', e1, e2, ok, _, fr⟩
      · exact .inl ⟨by rw [e1]; rfl, by rw [e2]; rfl⟩
      · rw [e1, e2]
        exact .inr ⟨_, _, rfl, rfl, (show Ok a from O.ok).withFree hd rfl rfl rfl ok, fr⟩

theorem popBack_same {a : ADeq} {L : Ledger} (h : Heap X) (O : Owns T L a) :
    Same T L a (Deq.popBack P N a.v h) (popBack P N a h L) := by
  unfold Deq.popBack popBack
  split
  · exact .pure O O.ok rfl
  · have O' : Owns T L ⟨{ a.v with csize := a.v.csize - 1 }, a.d, a.f⟩ := Owns.keep O rfl rfl rfl rfl
    rcases popBackStep_same (N := N) O' with ⟨e1, e2⟩ | ⟨a', L', e1, e2, ok, fr⟩
    · rw [e1, e2]; exact rfl
    · rw [e1, e2]
      simp only [Option.bind_some]
      cases hc : destroyAt P N a'.v.dataptr a'.v.back a'.v.bsize h with
      | none => exact rfl
      | some h' => exact ⟨_, _, rfl, rfl, ok, fr⟩

theorem popFront_same {a : ADeq} {L : Ledger} (h : Heap X) (O : Owns T L a) :
    Same T L a (Deq.popFront P N a.v h) (popFront P N a h L) := by
  unfold Deq.popFront popFront
  split
  · exact .pure O O.ok rfl
  · have O' : Owns T L ⟨{ a.v with csize := a.v.csize - 1 }, a.d, a.f⟩ := Owns.keep O rfl rfl rfl rfl
    rcases popFrontStep_same (N := N) O' with ⟨e1, e2⟩ | ⟨a', L', e1, e2, ok, fr⟩
    · rw [e1, e2]; exact rfl
    · rw [e1, e2]
      simp only [Option.bind_some]
      cases hc : destroyAt P N a'.v.dataptr a'.v.front a'.v.fsize h with
      | none => exact rfl
      | some h' => exact ⟨_, _, rfl, rfl, ok, fr⟩

theorem popN_same (n : Nat) : ∀ {a : ADeq} {L : Ledger} (h : Heap X), Owns T L a →
    Same T L a (Deq.popN P N n a.v h) (popN P N n a h L) := by
  induction n with
  | zero => intro a L h O; exact .pure O O.ok rfl
  | succ n ih =>
    intro a L h O
    exact Same.bind O.wf (popBack_same h O) fun a h L O => ih h O

theorem pushFrom_same (R : InRange X) (n : Nat) : ∀ (s : R.S) {a : ADeq} {L : Ledger} (h : Heap X), Owns T L a →
    Same T L a (Deq.pushFrom P N R n s a.v h) (pushFrom P N R n s a h L) := by
  induction n with
  | zero =>
    intro s a L h O
    unfold Deq.pushFrom pushFrom
    split
    · exact rfl
    · exact .pure O O.ok rfl
  | succ n ih =>
    intro s a L h O
    unfold Deq.pushFrom pushFrom
    split
    · refine Same.bind' fun q _ => ?_
      refine Same.bind O.wf (pushBack_same q.2 q.1 O) fun a h L O => ?_
      exact Same.bind' fun s _ => ih s h O
    · exact .pure O O.ok rfl

theorem assignFrom_same (R : InRange X) (fuel : Nat) {a : ADeq} {L : Ledger} (h : Heap X) (s : R.S) (O : Owns T L a) :
    Same T L a (Deq.assignFrom P N R fuel a.v h s) (assignFrom P N R fuel a h L s) := by
  unfold Deq.assignFrom Deq.assignOver assignFrom
  split
  · rw [Option.bind_assoc]
    refine Same.bind' fun b _ => ?_
    rw [Option.bind_assoc]
    refine Same.bind' fun e _ => ?_
    rw [Option.bind_assoc]
    refine Same.bind' fun r _ => ?_
    split
    · rw [Option.bind_assoc]
      refine Same.bind' fun n _ => ?_
      rw [Option.bind_map]
      exact Same.bind O.wf (popN_same n _ O) fun a h L O => pushFrom_same R _ _ _ O
    · exact pushFrom_same R _ _ _ O
  · exact pushFrom_same R _ _ _ O

theorem assignAll_same {a : ADeq} {L : Ledger} (h : Heap X) (b : Deq) (O : Owns T L a) :
    Same T L a (Deq.assignAll P N a.v b h) (assignAll P N a b h L) :=
  Same.bind' fun _ _ => Same.bind' fun _ _ => assignFrom_same _ _ _ _ O

theorem assignSub_same {a : ADeq} {L : Ledger} (h : Heap X) (b : Deq) (lo hi : Nat) (left : Nat → Option X)
    (O : Owns T L a) : Same T L a (Deq.assignSub P N a.v b h lo hi left) (assignSub P N a b h L lo hi left) :=
  Same.bind' fun _ _ => Same.bind' fun _ _ => Same.bind' fun _ _ => assignFrom_same _ _ _ _ O

theorem clearMid_same {d : Option Nat} (p : SlotPtr) (n : Nat) : ∀ (ii : Int) {q : AFree} {L : Ledger} (h : Heap X),
    Owns (AFree.T d) L q → Same (AFree.T d) L q (Deq.clearMid P N p ii n q.l h) (clearMid P N p ii n q h L) := by
  induction n with
  | zero => intro ii q L h O; exact .pure O O.ok rfl
  | succ n ih =>
    intro ii q L h O
    unfold Deq.clearMid clearMid
    refine Same.bind' fun h _ => ?_
    refine Same.bind' fun b _ => ?_
    rcases AFree.put_same b O with ⟨e1, e2⟩ | ⟨q', L', e1, e2, ok, _, fr⟩
    · rw [e1, e2]; exact rfl
    · rw [e1, e2]
      exact Same.bind (x := some (q'.l, h)) (y := some (q', h, L')) (f := fun r => Deq.clearMid P N p (ii - 1) n r.1 r.2)
        (g := fun r => clearMid P N p (ii - 1) n r.1 r.2.1 r.2.2) O.wf ⟨q', L', rfl, rfl, ok, fr⟩
        fun a h L O => ih _ h O

theorem clearFront_same {d : Option Nat} (v : Deq) {q : AFree} {L : Ledger} (h : Heap X) (O : Owns (AFree.T d) L q) :
    Same (AFree.T d) L q (Deq.clearFront P N v q.l h) (clearFront P N v q h L) := by
  unfold Deq.clearFront clearFront
  split
  · refine Same.bind' fun b _ => ?_
    rcases AFree.put_same b O with ⟨e1, e2⟩ | ⟨q', L', e1, e2, ok, _, fr⟩
    · rw [e1, e2]; exact rfl
    · rw [e1, e2]
      simp only [Option.bind_some]
      cases hc : Deq.destroyDown P N v.dataptr v.front (blockSize N) ((blockSize N : Int) - 1 - v.fsize).toNat h with
      | none => exact rfl
      | some h' => exact ⟨_, _, rfl, rfl, ok, fr⟩
  · exact .pure O O.ok rfl

theorem clear_same {a : ADeq} {L : Ledger} (h : Heap X) (O : Owns T L a) :
    Same T L a (Deq.clear P N a.v h) (clear P N a h L) := by
  unfold Deq.clear clear
  split
  · exact .pure O O.ok rfl
  · refine Same.bind' fun h _ => ?_
    have hm : ∀ q : AFree, T.owned ⟨{ a.v with free := q.l }, a.d, q.f⟩ = (AFree.T a.d).owned q := fun _ => rfl
    refine Same.bindVia (T' := AFree.T a.d) (q := ⟨a.v.free, a.f⟩) _ hm O.wf (clearMid_same _ _ _ h (Owns.free O))
      fun q h L Oq => ?_
    refine Same.bindVia (T' := AFree.T a.d) (q := q) _ hm Oq.wf (clearFront_same _ h Oq) fun q h L Oq => ?_
    simp only
    refine Same.bind' fun b _ => ?_
    cases hs : slotSet a.v.dataptr ((a.v.avail / 2 : Nat) : Int) b with
    | none => exact rfl
    | some p =>
      have hs' := slotSet_isSome hs
      have ok : Ok a := O.ok
      have n1 : a.v.dataptr ≠ none := fun h => by rw [h] at hs'; cases hs'.2
      refine ⟨⟨⟨0, p, a.v.avail, (a.v.avail / 2 : Nat), (a.v.avail / 2 : Nat), (blockSize N / 2 : Nat) + 1,
        (blockSize N / 2 : Nat), q.l⟩, a.d, q.f⟩, L, rfl, rfl, ⟨by simp [ok.d, hs'.1, hs'.2], ?_, Oq.ok, fun h => ?_⟩, Oq.refl⟩
      · exact ⟨fun h => absurd (ok.avail.1 h) n1, fun h => by simp only at h; rw [h] at hs'; cases hs'.1⟩
      · simp only at h; rw [h] at hs'; cases hs'.1

theorem shrink_same {a : ADeq} {L : Ledger} (h : Heap X) (O : Owns T L a) :
    Same T L a (Deq.shrinkToFit N a.v h) (shrinkToFit N a h L) := by
  unfold Deq.shrinkToFit shrinkToFit
  cases hc : FreeL.freeFrom N a.v.free.blocks a.v.free.idx 0 h with
  | none => exact rfl
  | some h' => exact ⟨_, _, rfl, rfl, (show Ok a from O.ok).keep rfl rfl rfl rfl, O.refl⟩

theorem freeAll_same {a : ADeq} {L : Ledger} (h : Heap X) (O : Owns T L a) :
    (Deq.freeAll P N a.v h = none ∧ freeAll P N a h L = none) ∨
    ∃ h' L', Deq.freeAll P N a.v h = some h' ∧ freeAll P N a h L = some (h', L') ∧ L.Frame L' a.owned [] := by
  have ok : Ok a := O.ok
  cases hd : a.v.dataptr with
  | none =>
    have h1 : a.d = none := by have := ok.d; rw [hd] at this; simpa using this
    have h2 : a.f = none := by have := ok.free.f; rw [ok.both hd] at this; simpa using this
    refine .inr ⟨h, L, by rw [Deq.freeAll, hd], by rw [freeAll, hd], ?_⟩
    have e : a.owned = [] := by simp [owned, h1, h2]
    have r := O.refl
    rw [show T.owned a = [] from e] at r
    rw [e]; exact r
  | some l =>
    unfold freeAll
    simp only [hd]
    cases hf : Deq.freeAll P N a.v h with
    | none => exact .inl ⟨rfl, rfl⟩
    | some h' =>
      have nd := List.nodup_append.1 O.nodup
      have lf : ∀ x, x ∈ a.f.toList → x ∈ L.live := fun x h => O.live x (List.mem_append_right _ h)
      have ld : ∀ x, x ∈ a.d.toList → x ∈ L.live := fun x h => O.live x (List.mem_append_left _ h)
      obtain ⟨L1, e1, f1⟩ := Ledger.delete_eq lf
      have f1' := (f1 O.wf).more (r := a.d.toList) O.wf nd.1 ld fun x h h' => nd.2.2 x h x h' rfl
      obtain ⟨L2, e2, f2⟩ := Ledger.delete_eq (L := L1) (p := a.d) fun x h => f1'.live x (by simpa using h)
      refine .inr ⟨h', L2, rfl, by simp [e1, e2], ?_⟩
      exact (f1'.trans O.wf (f2 f1'.wf)).perm List.perm_append_comm (.refl _)

end ADeq
end Verif.Block.Deque
