import Verif.Block.Deque.Lemmas2

namespace Verif.Block.Deque
open Verif.Block
variable {X : Type} {N : Nat} {h : Heap X}

/-- a fresh block joins the used blocks -/
theorem allocBack {us : List Nat} {g : Nat → Option X} (w : h.Wf) (G : Grid (blockSize N) h us [] g)
    (hg : ∀ j, j < blockSize N → g (us.length * blockSize N + j) = none) :
    Grid (blockSize N) h.alloc.2 (us ++ [h.alloc.1]) [] g ∧
      Heap.Frame h h.alloc.2 (us ++ []) ((us ++ [h.alloc.1]) ++ []) := by
  obtain ⟨b, f', h', fs', e, F', G', hn, hl, hc, fr⟩ := FOK.empty.get G w
  rw [FreeL.get, if_pos rfl] at e
  cases e
  have hfs : fs' = [] := List.length_eq_zero_iff.1 (by rw [← F'.idx])
  subst hfs
  refine ⟨?_, fr.congr (fun _ => Iff.rfl) (by intro b; simp; grind)⟩
  exact G'.addBack hn hl hc hg

/-- content of a deque of equal elements, cut at `c` -/
def part (f1 c : Nat) (x : X) (p : Nat) : Option X := if f1 ≤ p ∧ p < c then some x else none

theorem part_replicate (f1 n : Nat) (x : X) (p : Nat) :
    part f1 (f1 + n) x p = content f1 (List.replicate n x) p := by
  rw [part, content]
  by_cases h1 : f1 ≤ p
  · rw [if_neg (show ¬ p < f1 by omega)]
    by_cases h2 : p < f1 + n
    · rw [if_pos ⟨h1, h2⟩, List.getElem?_replicate, if_pos (by omega)]
    · rw [if_neg (by omega), List.getElem?_replicate, if_neg (by omega)]
  · rw [if_neg (by omega), if_pos (by omega)]

theorem fillMid_eq (x : X) {avail F f1 : Nat} (n : Nat) : ∀ {h : Heap X} {p : SlotPtr} {us : List Nat},
    h.Wf → Grid (blockSize N) h us [] (part f1 (us.length * blockSize N) x) → ArrAt p avail F us →
    F + us.length + n ≤ avail → f1 ≤ us.length * blockSize N →
    ∃ p' h' us', Deq.fillMid N x n ((F + us.length : Nat) : Int) p h = some (p', h') ∧ us'.length = us.length + n ∧
      Grid (blockSize N) h' us' [] (part f1 (us'.length * blockSize N) x) ∧ ArrAt p' avail F us' ∧
      Heap.Frame h h' (us ++ []) (us' ++ []) := by
  induction n with
  | zero =>
    intro h p us w G a _ _
    exact ⟨p, h, us, rfl, rfl, G, a, Heap.Frame.refl w⟩
  | succ n ih =>
    intro h p us w G a hle hf
    obtain ⟨G1, fr1⟩ := allocBack w G (by
      intro j _; rw [part, if_neg (by omega)])
    obtain ⟨p1, e1, a1⟩ := a.snoc (by omega) h.alloc.1
    have hb : (us ++ [h.alloc.1])[us.length]? = some h.alloc.1 := by simp
    obtain ⟨h2, e2, G2, fr2⟩ := G1.constructUp x (blockSize N) (N := N) (p := p1) (i := ((F + us.length : Nat) : Int))
      (k := us.length) (b := h.alloc.1) (j := 0) fr1.wf (a1.slotGet hb) hb (by omega) (by
        intro q _ _; rw [part, if_neg (by omega)])
    obtain ⟨p3, h3, us3, e3, l3, G3, a3, fr3⟩ := ih (p := p1) (us := us ++ [h.alloc.1]) fr2.wf (G2.congr (by
      intro q hq
      simp only [List.length_append, List.length_singleton] at hq
      rw [Nat.add_mul] at hq
      simp only [List.length_append, List.length_singleton, part, Nat.add_mul]
      (repeat' split) <;> first | rfl | omega)) a1 (by simp; omega) (by simp [Nat.add_mul]; omega)
    refine ⟨p3, h3, us3, ?_, by rw [l3]; simp; omega, G3, a3, (fr1.trans fr2).trans fr3⟩
    rw [Deq.fillMid, e1]
    simp only [Option.bind_some]
    rw [show ((0 : Nat) : Int) = 0 from rfl] at e2
    rw [e2]
    simp only [Option.bind_some]
    rw [show ((F + us.length : Nat) : Int) + 1 = ((F + (us ++ [h.alloc.1]).length : Nat) : Int) by simp; omega]
    exact e3

/-- the position computed for `n > 0` elements: `K` further blocks after slot `F` -/
theorem layout_spec (n : Nat) (hn : 0 < n) :
    ∃ F K f1 bz : Nat, Deq.layout N n (Nat.max ((n >>> N) + 2) 64) = ((F : Int), ((F + K : Nat) : Int), (f1 : Int) - 1, (bz : Int)) ∧
      F + K < Nat.max ((n >>> N) + 2) 64 ∧ f1 ≤ blockSize N ∧ bz ≤ blockSize N ∧
      f1 + n = K * blockSize N + bz := by
  have hB := blockSize_pos N
  rw [shr_eq]
  generalize hb : blockSize N = B at *
  have hdm := Nat.div_add_mod n B
  have hml := Nat.mod_lt n hB
  have hmax : Nat.max (n / B + 2) 64 = max (n / B + 2) 64 := rfl
  rw [hmax]
  simp only [Deq.layout, shr_eq, hb]
  by_cases hq : 0 < n / B
  · have hmul : n / B * B = B * (n / B) := Nat.mul_comm _ _
    rw [if_pos hq, if_neg (by omega), if_neg (by omega)]
    refine ⟨(max (n / B + 2) 64 - (n / B + 1)) / 2, n / B + 1, B - n % B / 2, n % B - n % B / 2, ?_, ?_, ?_, ?_, ?_⟩
    · have h1 : n - n / B * B = n % B := by omega
      rw [h1]
      refine Prod.ext rfl (Prod.ext (by simp) (Prod.ext (by simp only; omega) (by simp only; omega)))
    · omega
    · omega
    · omega
    · rw [Nat.add_mul]; omega
  · have hq0 : n / B = 0 := Nat.eq_zero_of_not_pos hq
    have hnB : n < B := by
      rw [hq0] at hdm; omega
    rw [if_neg hq]
    by_cases h1 : 2 ≤ B / 2 ∧ n > B / 2 - 2
    · simp only [if_pos h1]
      rw [if_neg (by omega), if_pos trivial]
      refine ⟨30, 1, B - n / 2, n - n / 2, ?_, by omega, by omega, by omega, by omega⟩
      refine Prod.ext rfl (Prod.ext rfl (Prod.ext (by simp only; omega) (by simp only; omega)))
    · simp only [if_neg h1]
      rw [if_pos hq0]
      refine ⟨30, 0, B / 2 - n / 2, B / 2 - n / 2 + n, ?_, by omega, by omega, ?_, by omega⟩
      · refine Prod.ext rfl (Prod.ext rfl (Prod.ext (by simp only; omega) (by simp only; omega)))
      · have : B = 2 ^ N := by rw [← hb, blockSize_eq]
        by_cases h2 : 2 ≤ B / 2
        · omega
        · -- blocks of one or two cells
          have : B ≠ 3 := by
            intro h3
            rw [h3] at this
            cases N with
            | zero => simp at this
            | succ N => rw [Nat.pow_succ] at this; omega
          omega

theorem ofSize_eq (w : h.Wf) (n : Nat) (hn : 0 < n) (x : X) :
    ∃ v' h' us' F f1 bz, Deq.ofSize N h n x = some (v', h') ∧ Core N h' v' (List.replicate n x) us' [] F f1 bz ∧
      Heap.Frame h h' ([] ++ []) (us' ++ []) := by
  have hB := blockSize_pos N
  obtain ⟨F, K, f1, bz, hl, hlt, hf, hz, hs⟩ := layout_spec (N := N) n hn
  rw [Deq.ofSize]
  rw [if_neg (by omega)]
  simp only [hl]
  generalize hav : Nat.max ((n >>> N) + 2) 64 = avail at *
  have G0 : Grid (blockSize N) h [] [] (fun _ => none : Nat → Option X) := ⟨by simp, by simp, by simp, by simp⟩
  obtain ⟨G1, fr1⟩ := allocBack w G0 (fun _ _ => rfl)
  generalize hbb : h.alloc.1 = b at *
  generalize hhh : h.alloc.2 = h1 at *
  rw [List.nil_append] at G1
  obtain ⟨p1, e1, a1⟩ := ArrAt.one (p := some (List.replicate avail none)) (l := List.replicate avail none) (i := F) (b := b) rfl (by simp; omega)
  rw [List.length_replicate] at a1
  rw [e1]
  simp only [Option.bind_some]
  have hb0 : [b][0]? = some b := rfl
  have hcnt : ((if ((F + K : Nat) : Int) > (F : Int) then (blockSize N : Int) else (bz : Int)) - ((f1 : Int) - 1 + 1)).toNat =
      (if 0 < K then blockSize N else bz) - f1 := by
    by_cases hK : 0 < K
    · rw [if_pos (by omega), if_pos hK]; omega
    · rw [if_neg (by omega), if_neg hK]; omega
  have hcb : f1 ≤ (if 0 < K then blockSize N else bz) ∧ (if 0 < K then blockSize N else bz) ≤ blockSize N := by
    by_cases hK : 0 < K
    · rw [if_pos hK]; omega
    · have : K = 0 := by omega
      subst this
      rw [if_neg hK]; omega
  obtain ⟨h2, e2, G2, fr2⟩ := G1.constructUp x ((if 0 < K then blockSize N else bz) - f1) (N := N) (p := p1) (i := (F : Int))
    (k := 0) (b := b) (j := f1) fr1.wf (a1.slotGet' hb0 (by simp)) hb0 (by omega) (fun _ _ _ => rfl)
  rw [hcnt, show (f1 : Int) - 1 + 1 = (f1 : Int) by omega, e2]
  simp only [Option.bind_some]
  by_cases hK : 0 < K
  · rw [if_pos hK] at G2
    have G2' : Grid (blockSize N) h2 [b] [] (part f1 ([b].length * blockSize N) x) := G2.congr (by
      intro q hq
      simp only [List.length_singleton, Nat.one_mul] at hq
      simp only [part, List.length_singleton, Nat.one_mul, Nat.zero_mul, Nat.zero_add]
      (repeat' split) <;> first | rfl | omega)
    obtain ⟨p3, h3, us3, e3, l3, G3, a3, fr3⟩ := fillMid_eq x (avail := avail) (F := F) (K - 1) fr2.wf G2' a1
      (by simp; omega) (by simp; omega)
    simp only [List.length_singleton] at e3 l3
    rw [show (((F + K : Nat) : Int) - 1 - (F : Int)).toNat = K - 1 by omega,
      show (F : Int) + 1 = ((F + 1 : Nat) : Int) by omega, e3]
    simp only [Option.bind_some]
    rw [if_pos (by omega)]
    have hl3 : us3.length = K := by omega
    have hge : blockSize N ≤ K * blockSize N := Nat.le_mul_of_pos_left _ hK
    obtain ⟨G4, fr4⟩ := allocBack fr3.wf G3 (by intro j _; rw [part, if_neg (by omega)])
    generalize hbb4 : h3.alloc.1 = b4 at *
    generalize hhh4 : h3.alloc.2 = h4 at *
    obtain ⟨p5, e5, a5⟩ := a3.snoc (by omega) b4
    have hb5 : (us3 ++ [b4])[K]? = some b4 := by rw [← hl3]; simp
    obtain ⟨h6, e6, G6, fr6⟩ := G4.constructUp x bz (N := N) (p := p5) (i := ((F + K : Nat) : Int))
      (k := K) (b := b4) (j := 0) fr4.wf (a5.slotGet hb5) hb5 (by omega) (by
        intro q _ _; rw [part, hl3, if_neg (by omega)])
    rw [← hl3] at e6 ⊢
    rw [e5]
    simp only [Option.bind_some]
    rw [show ((bz : Nat) : Int).toNat = bz by omega]
    rw [show ((0 : Nat) : Int) = 0 from rfl] at e6
    rw [e6]
    refine ⟨_, h6, us3 ++ [b4], F, f1, bz, rfl, ⟨G6.congr ?_, FOK.empty, by simp, a5, rfl, by simp; omega, by simp, rfl, rfl,
      hf, hz, ?_⟩, (((fr1.trans fr2).trans fr3).trans fr4).trans fr6⟩
    · intro q hq
      rw [← part_replicate, hs, part, part, hl3]
      (repeat' split) <;> first | rfl | omega
    · simp only [List.length_append, List.length_singleton, List.length_replicate, Nat.add_mul, hl3]; omega
  · have hK0 : K = 0 := by omega
    subst hK0
    rw [if_neg hK] at G2
    simp only [Nat.add_zero] at *
    rw [show (((F : Nat) : Int) - 1 - (F : Int)).toNat = 0 by omega, Deq.fillMid]
    simp only [Option.bind_some]
    rw [if_neg (by omega)]
    refine ⟨_, h2, [b], F, f1, bz, rfl, ⟨G2.congr ?_, FOK.empty, by simp, a1, rfl, by simp, by simp, rfl, rfl,
      hf, hz, ?_⟩, fr1.trans fr2⟩
    · intro q hq
      rw [← part_replicate, hs, part]
      (repeat' split) <;> first | rfl | omega
    · simp; omega

theorem copyCtor_eq (P : Pol) {v : Deq} {xs : List X} {us fs : List Nat} {F f1 bz : Nat}
    (c : Core N h v xs us fs F f1 bz) (w : h.Wf) (hi : Core.Iterable N v) :
    ∃ v' h' us' fs' F' f1' bz', Deq.copyCtor P N v h = some (v', h') ∧ Core N h' v' xs us' fs' F' f1' bz' ∧
      Heap.Frame h h' ([] ++ [] ++ (us ++ fs)) (us' ++ fs' ++ (us ++ fs)) ∧ (∀ b, b ∈ us' ++ fs' → b ∉ us ++ fs) ∧
      Core N h' v xs us fs F f1 bz := by
  obtain ⟨l, hl, hlen⟩ := c.ptr
  have hle := c.arr.le
  have hne := c.ne
  have hmax : Nat.max v.avail 64 = max v.avail 64 := rfl
  have G0 : Grid (blockSize N) h [] [] (fun _ => none : Nat → Option X) := ⟨by simp, by simp, by simp, by simp⟩
  obtain ⟨G1, fr1⟩ := allocBack w G0 (fun _ _ => rfl)
  have hB : ∀ b, b ∈ us ++ fs → b < h.next := fun b hb => w.live b (c.grid.live b hb)
  have hd := fr1.disjoint hB (by simp)
  have hB1 : ∀ b, b ∈ us ++ fs → b < h.alloc.2.next := fun b hb => Nat.lt_of_lt_of_le (hB b hb) fr1.next_le
  have cs := c.frame (fr1.agree hB (by simp))
  obtain ⟨ib, ie, hib, hie, db, de⟩ := cs.all_iters hi
  have D := cs.feeds (fun _ => none) xs.length (k := 0) db de (Nat.zero_add _) (Nat.le_refl _)
  rw [leave_copy, List.take_length, List.drop_zero] at D
  rw [Deq.copyCtor, hl]
  simp only
  generalize hbb : h.alloc.1 = b at *
  generalize hhh : h.alloc.2 = h1 at *
  obtain ⟨p1, e1, a1⟩ := ArrAt.one (p := some (List.replicate (Nat.max v.avail 64) none))
    (l := List.replicate (Nat.max v.avail 64) none) (i := F) (b := b) rfl (by simp; omega)
  rw [List.length_replicate] at a1
  rw [c.front, e1]
  simp only [Option.bind_some]
  rw [Deq.assignAll, hib, hie]
  simp only [Option.bind_some]
  have c1 : Core N h1 ⟨0, p1, Nat.max v.avail 64, F, F, v.fsize + 1, v.fsize, ⟨0, 0, none⟩⟩ [] [b] [] F f1 f1 := by
    refine ⟨G1.congr (fun q _ => content_nil _ _), FOK.empty, rfl, a1, rfl, by simp, by simp, c.fsz, ?_, c.f1le,
      c.f1le, ?_⟩
    · simp only; rw [c.fsz]; omega
    · simp; omega
  obtain ⟨v', h', us', fs', F', bz', e, c', f, dj, q, _⟩ := c1.assignFrom_eq P fr1.wf hB1 hd D
    (fuel := v.csize + 1) (by have := c.len; omega) (.inl rfl)
  exact ⟨v', h', us', fs', F', f1, bz', e, c', (frame_left fr1 _).trans f, dj, q⟩

end Verif.Block.Deque
