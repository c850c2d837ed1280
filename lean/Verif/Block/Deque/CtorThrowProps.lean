import Verif.Block.Leak
import Verif.Block.Deque.CtorThrow
import Verif.Block.Deque.ThrowProps

/-
C139: constructors of StableBlockDeque that throw.
-/
namespace Verif.Block.Deque
open Verif.Block
variable {X : Type} {N : Nat}

/-! ## What should be constructed, and what of it needs memory or a copy -/

/-- the elements the new object is to have -/
def Ctor.wants (aw : AWorld X) : Ctor X → List X
  | .size n x => List.replicate n x
  | .copy j => (aw j).getD []

/-- the construction as a call -/
def Ctor.op (i : Nat) : Ctor X → Op X
  | .size n x => .newSize i n x
  | .copy j => .copyNew i j

/-- How many blocks a deque constructed with `n` elements has. -/
def blocksFor (N n : Nat) : Nat :=
  if n = 0 then 1
  else if 2 ^ N ≤ n then n / 2 ^ N + 2
  else if 2 ≤ N ∧ 2 ^ (N - 1) < n + 2 then 2
  else 1

/-- Does the construction perform the failing operation?  `off` is the number of cells before the first element. -/
def Ctor.needs (N off : Nat) (aw : AWorld X) : Ctor X → CFault → Prop
  | _, .array => True
  | .size n _, .block k => k < blocksFor N n
  | .size n _, .element k => k < n
  | .copy j, .block k => k = 0 ∨ ∃ a, aw j = some a ∧ k * 2 ^ N < off + a.length
  | .copy j, .element k => ∃ a, aw j = some a ∧ k < a.length

/-- how many blocks were allocated before the failure -/
def CFault.blocks (N off : Nat) : CFault → Nat
  | .array => 0
  | .block k => k
  | .element k => (off + k) / 2 ^ N + 1

/-- how many elements were constructed before the failure -/
def CFault.elems (N off : Nat) : CFault → Nat
  | .array => 0
  | .block k => k * 2 ^ N - off
  | .element k => k

/-! ## Lemmas -/

theorem Leaked.ofGrid {h h' : Heap X} {us : List Nat} {xs : List X} {f1 : Nat} (w : h.Wf)
    (g : Grid (blockSize N) h' us [] (content f1 xs)) (f : Heap.Frame h h' [] us)
    (hf : xs = [] ∨ f1 + xs.length ≤ us.length * blockSize N) : Leaked (2 ^ N) f1 h h' us xs := by
  rw [blockSize_eq] at g hf
  refine .ofFrame w f (by simpa using g.nodup) (fun b hb => g.live b (by simp [hb])) ?_ hf
  intro k b hb j hj
  rw [g.cells k b hb j hj, content]

theorem layout_blocks (n avail : Nat) (hn : 0 < n) :
    (Deq.layout N n avail).2.1 - (Deq.layout N n avail).1 = ((blocksFor N n : Nat) : Int) - 1 := by
  have hB := blockSize_pos N
  simp only [Deq.layout, shr_eq, blocksFor, ← blockSize_eq N]
  rw [if_neg (by omega : ¬ n = 0)]
  by_cases hq : blockSize N ≤ n
  · have : n / blockSize N > 0 := Nat.div_pos hq hB
    rw [if_pos hq]
    simp only [if_pos this]
    rw [if_neg (by omega), if_neg (by omega)]
    simp only; omega
  · have h0 : n / blockSize N = 0 := Nat.div_eq_of_lt (by omega)
    rw [if_neg hq]
    have hnp : ¬ n / blockSize N > 0 := by omega
    simp only [if_neg hnp]
    have hiff : (2 ≤ blockSize N / 2 ∧ n > blockSize N / 2 - 2) ↔ (2 ≤ N ∧ 2 ^ (N - 1) < n + 2) := by
      rw [blockSize_eq]
      cases N with
      | zero => simp
      | succ m =>
        have h1 : 2 ^ (m + 1) / 2 = 2 ^ m := by rw [Nat.pow_succ]; omega
        rw [h1, Nat.add_sub_cancel]
        have h2 : 2 ≤ 2 ^ m ↔ 2 ≤ m + 1 := by
          cases m with
          | zero => simp
          | succ m => have := Nat.two_pow_pos m; rw [Nat.pow_succ]; omega
        rw [h2]
        constructor
        · rintro ⟨a, b⟩; have := h2.2 a; exact ⟨a, by omega⟩
        · rintro ⟨a, b⟩; have := h2.2 a; exact ⟨a, by omega⟩
    by_cases h1 : 2 ≤ N ∧ 2 ^ (N - 1) < n + 2
    · rw [if_pos h1]
      simp only [if_pos (hiff.2 h1)]; simp
    · rw [if_neg h1]
      simp only [if_neg (fun h => h1 (hiff.1 h)), if_pos h0]; simp

theorem ofSizeFault_leak {h : Heap X} (w : h.Wf) (n : Nat) (x : X) (aw : AWorld X) :
    ∃ off, off ≤ 2 ^ N ∧ ∀ f, (Ctor.size n x).needs N off aw f →
      ∃ h' L, Deq.ofSizeFault N h n x f = some (.threw (if f = .array then 0 else 1) h') ∧
        Leaked (2 ^ N) off h h' L ((List.replicate n x).take (f.elems N off)) ∧ L.length = f.blocks N off ∧
        Heap.Frame h h' [] L := by
  have hB := blockSize_pos N
  rcases Nat.eq_zero_or_pos n with rfl | hpos
  · refine ⟨0, Nat.zero_le _, fun f hn => ?_⟩
    cases f with
    | array => exact ⟨h, [], rfl, by simpa using Leaked.refl _ _ _, rfl, Heap.Frame.refl w⟩
    | block k =>
      have : k = 0 := by simpa [Ctor.needs, blocksFor] using hn
      subst this
      exact ⟨h, [], rfl, by simpa using Leaked.refl _ _ _, rfl, Heap.Frame.refl w⟩
    | element k => simp [Ctor.needs] at hn
  obtain ⟨F, K, f1, bz, hl, hlt, hf, hz, hs⟩ := layout_spec (N := N) n hpos
  have hK : blocksFor N n = K + 1 := by
    have := layout_blocks (N := N) n (Nat.max ((n >>> N) + 2) 64) hpos
    rw [hl] at this
    simp only at this
    omega
  refine ⟨f1, by rw [← blockSize_eq]; exact hf, fun f hn => ?_⟩
  cases f with
  | array => exact ⟨h, [], rfl, by simpa [CFault.elems] using Leaked.refl _ _ _, rfl, Heap.Frame.refl w⟩
  | block k =>
    cases k with
    | zero => exact ⟨h, [], rfl, by simpa [CFault.elems] using Leaked.refl _ _ _, rfl, Heap.Frame.refl w⟩
    | succ k =>
      simp only [Ctor.needs, hK] at hn
      obtain ⟨p', h', us', e, hl', G, a, fr⟩ := fillTo_eq (N := N) w x (avail := Nat.max ((n >>> N) + 2) 64) (F := F) (f1 := f1)
        (m := k + 1) (Nat.succ_pos _) (by omega) hf
      rw [List.append_nil, List.append_nil] at fr
      refine ⟨h', us', ?_, ?_, hl', fr⟩
      · simp only [Deq.ofSizeFault, hl]
        rw [if_pos ⟨by omega, by omega⟩, e]
        rfl
      · have h1 : (k + 1) * blockSize N ≤ K * blockSize N := Nat.mul_le_mul_right _ (by omega)
        have h2 : blockSize N ≤ (k + 1) * blockSize N := Nat.le_mul_of_pos_left _ (Nat.succ_pos _)
        have h3 : (List.replicate n x).take (CFault.elems N f1 (.block (k + 1))) =
            List.replicate ((k + 1) * blockSize N - f1) x := by
          rw [List.take_replicate, CFault.elems, ← blockSize_eq, Nat.min_eq_left (by omega)]
        rw [h3]
        refine Leaked.ofGrid w (G.congr fun q hq => ?_) fr (.inr ?_)
        · rw [← part_replicate, show f1 + ((k + 1) * blockSize N - f1) = (k + 1) * blockSize N by omega]
        · rw [hl', List.length_replicate]; omega
  | element k =>
    simp only [Ctor.needs] at hn
    have h3 : (List.replicate n x).take (CFault.elems N f1 (.element k)) = List.replicate k x := by
      rw [List.take_replicate, CFault.elems, Nat.min_eq_left (by omega)]
    have hto : ((f1 : Int) - 1 + 1 + (k : Int)).toNat = f1 + k := by omega
    have hdm := Nat.div_add_mod (f1 + k) (blockSize N)
    have hml := Nat.mod_lt (f1 + k) hB
    have hbl : CFault.blocks N f1 (.element k) = (f1 + k) / blockSize N + 1 := by rw [CFault.blocks, blockSize_eq]
    rw [h3, hbl]
    by_cases hq : (f1 + k) / blockSize N = 0
    · have hlt' : f1 + k < blockSize N := by rw [hq] at hdm; omega
      have G0 : Grid (blockSize N) h [] [] (fun _ => none : Nat → Option X) := ⟨by simp, by simp, by simp, by simp⟩
      obtain ⟨G1, fr1⟩ := allocBack w G0 (fun _ _ => rfl)
      rw [List.nil_append] at G1
      obtain ⟨p1, e1, a1⟩ := ArrAt.one (p := some (List.replicate (Nat.max ((n >>> N) + 2) 64) none))
        (l := List.replicate (Nat.max ((n >>> N) + 2) 64) none) (i := F) (b := h.alloc.1) rfl (by rw [List.length_replicate]; omega)
      rw [List.length_replicate] at a1
      have hb0 : [h.alloc.1][0]? = some h.alloc.1 := rfl
      obtain ⟨h2, e2, G2, fr2⟩ := G1.constructUp x k (N := N) (p := p1) (i := (F : Int))
        (k := 0) (b := h.alloc.1) (j := f1) fr1.wf (a1.slotGet' hb0 (by simp)) hb0 (by omega) (fun _ _ _ => rfl)
      have fr : Heap.Frame h h2 [] [h.alloc.1] := by simpa using fr1.trans fr2
      refine ⟨h2, [h.alloc.1], ?_, ?_, by simp [hq], fr⟩
      · simp only [Deq.ofSizeFault, hl, hto]
        rw [if_pos hn, if_pos hq, e1]
        simp only [Option.bind_some]
        rw [show (f1 : Int) - 1 + 1 = (f1 : Int) by omega, e2]
        rfl
      · refine Leaked.ofGrid w (G2.congr fun q hq' => ?_) fr (.inr ?_)
        · rw [← part_replicate, part]
          simp only [Nat.zero_mul, Nat.zero_add]
        · simp; omega
    · have hqK : (f1 + k) / blockSize N ≤ K := by
        have : (f1 + k) / blockSize N * blockSize N ≤ f1 + k := Nat.div_mul_le_self _ _
        have h4 : (f1 + k) / blockSize N * blockSize N < (K + 1) * blockSize N := by rw [Nat.add_mul, Nat.one_mul]; omega
        have := Nat.lt_of_mul_lt_mul_right h4
        omega
      generalize hqq : (f1 + k) / blockSize N = q at *
      generalize hjj : (f1 + k) % blockSize N = j at *
      have hmul : q * blockSize N + j = f1 + k := by rw [Nat.mul_comm]; exact hdm
      have hge : blockSize N ≤ q * blockSize N := Nat.le_mul_of_pos_left _ (Nat.pos_of_ne_zero hq)
      obtain ⟨p3, h3', us3, e3, l3, G3, a3, fr3⟩ := fillTo_eq (N := N) w x (avail := Nat.max ((n >>> N) + 2) 64) (F := F) (f1 := f1)
        (m := q) (Nat.pos_of_ne_zero hq) (by omega) hf
      obtain ⟨G4, fr4⟩ := allocBack fr3.wf G3 (by intro j _; rw [part, l3, if_neg (by omega)])
      obtain ⟨p5, e5, a5⟩ := a3.snoc (by omega) h3'.alloc.1
      have hb5 : (us3 ++ [h3'.alloc.1])[q]? = some h3'.alloc.1 := by rw [← l3]; simp
      obtain ⟨h6, e6, G6, fr6⟩ := G4.constructUp x j (N := N) (p := p5) (i := ((F + q : Nat) : Int))
        (k := q) (b := h3'.alloc.1) (j := 0) fr4.wf (a5.slotGet hb5) hb5 (by omega) (by
          intro r _ _; rw [part, if_neg (by omega)])
      have fr : Heap.Frame h h6 [] (us3 ++ [h3'.alloc.1]) := by simpa using (fr3.trans fr4).trans fr6
      refine ⟨h6, us3 ++ [h3'.alloc.1], ?_, ?_, by simp [l3], fr⟩
      · simp only [Deq.ofSizeFault, hl, hto, hqq, hjj]
        rw [if_pos hn, if_neg hq, e3]
        simp only [Option.bind_some]
        rw [l3] at e5
        rw [show (F : Int) + (q : Int) = ((F + q : Nat) : Int) by omega, e5]
        simp only [Option.bind_some]
        rw [show ((0 : Nat) : Int) = 0 from rfl] at e6
        rw [e6]
        rfl
      · refine Leaked.ofGrid w (G6.congr fun r hr => ?_) fr (.inr ?_)
        · rw [← part_replicate, part, part]
          (repeat' split) <;> first | rfl | omega
        · simp only [List.length_append, List.length_singleton, List.length_replicate, Nat.add_mul, l3]; omega

theorem copyCtorFault_leak (P : Pol) {h : Heap X} {v : Deq} {xs : List X} {us fs : List Nat} {F f1 bz : Nat}
    (c : Core N h v xs us fs F f1 bz) (w : h.Wf) (hi : Core.Iterable N v) (aw : AWorld X) {j : Nat} (ha : aw j = some xs)
    (f : CFault) (hn : (Ctor.copy j : Ctor X).needs N f1 aw f) :
    ∃ h' L, v.copyCtorFault P N h f = some (.threw (if f = .array then 0 else 1) h') ∧
      Leaked (2 ^ N) f1 h h' L (xs.take (f.elems N f1)) ∧ L.length = f.blocks N f1 ∧
      Heap.Frame h h' [] L := by
  have hB := blockSize_pos N
  obtain ⟨l, hl, hlen⟩ := c.ptr
  have hle := c.arr.le
  have hne := c.ne
  have hmax : Nat.max v.avail 64 = max v.avail 64 := rfl
  have G0 : Grid (blockSize N) h [] [] (fun _ => none : Nat → Option X) := ⟨by simp, by simp, by simp, by simp⟩
  obtain ⟨G1, fr1⟩ := allocBack w G0 (fun _ _ => rfl)
  have hB0 : ∀ b, b ∈ us ++ fs → b < h.next := fun b hb => w.live b (c.grid.live b hb)
  have hd := fr1.disjoint hB0 (by simp)
  have cs := c.frame (fr1.agree hB0 (by simp))
  obtain ⟨ib, ie, hib, hie, db, de⟩ := cs.all_iters hi
  obtain ⟨p1, e1, a1⟩ := ArrAt.one (p := some (List.replicate (Nat.max v.avail 64) none))
    (l := List.replicate (Nat.max v.avail 64) none) (i := F) (b := h.alloc.1) rfl (by rw [List.length_replicate]; omega)
  rw [List.length_replicate] at a1
  have c1 : Core N h.alloc.2 ⟨0, p1, Nat.max v.avail 64, F, F, v.fsize + 1, v.fsize, ⟨0, 0, none⟩⟩ (xs.take 0) [h.alloc.1] [] F f1 f1 := by
    refine ⟨G1.congr (fun q _ => content_nil _ _), FOK.empty, rfl, a1, rfl, by simp, by simp, c.fsz, ?_, c.f1le,
      c.f1le, ?_⟩
    · simp only; rw [c.fsz]; omega
    · simp; omega
  have rounds : ∀ (t : Nat) (g : Fault) (ht : t < xs.length), ∃ v' h' us' F' bz',
      Deq.pushFromFault P N (.iter (blockSize N) v.dataptr ie fun _ => none) g t (0, ib)
          ⟨0, p1, Nat.max v.avail 64, F, F, v.fsize + 1, v.fsize, ⟨0, 0, none⟩⟩ h.alloc.2 =
        v'.pushBackFault P N h' xs[t] g ∧
      Core N h' v' (xs.take t) us' [] F' f1 bz' ∧ Heap.Frame h h' [] us' ∧ (us'.length = 1 ∨ 0 < bz') := by
    intro t g ht
    obtain ⟨v', h', us', F', bz', e, c', f', b'⟩ := Core.pushFirst P (p := 0) (k := 0) g t c1 (.inl rfl) cs fr1.wf (by simpa using hd)
      db de (by omega)
    simp only [Nat.zero_add] at e c'
    exact ⟨v', h', us', F', bz', e, c', by simpa using (show Heap.Frame h h.alloc.2 [] [h.alloc.1] by simpa using fr1).trans f', b'⟩
  have hlen' := c.len
  have hf1 : (v.fsize + 1).toNat = f1 := by rw [c.fsz]; omega
  cases f with
  | array => exact ⟨h, [], rfl, by simpa [CFault.elems] using Leaked.refl _ _ _, rfl, Heap.Frame.refl w⟩
  | block k =>
    cases k with
    | zero => exact ⟨h, [], rfl, by simpa [CFault.elems] using Leaked.refl _ _ _, rfl, Heap.Frame.refl w⟩
    | succ k =>
      have h0 : (k + 1) * blockSize N < f1 + xs.length := by
        rcases hn with h0 | ⟨a', ha', h0⟩
        · cases h0
        · rw [ha] at ha'; cases ha'
          rw [blockSize_eq]; exact h0
      have h2 : blockSize N ≤ (k + 1) * blockSize N := Nat.le_mul_of_pos_left _ (Nat.succ_pos _)
      have hfle := c.f1le
      have ht : (k + 1) * blockSize N - f1 < xs.length := by omega
      obtain ⟨v', h', us', F', bz', e, c', fr, hb⟩ := rounds _ .block ht
      have hsz := c'.size
      have hbz := c'.bzle
      have hne' := c'.ne
      rw [List.length_take, Nat.min_eq_left (Nat.le_of_lt ht)] at hsz
      have h5 : (k + 2) * blockSize N = us'.length * blockSize N + bz' := by
        rw [← hsz, show k + 2 = k + 1 + 1 from rfl, Nat.add_mul (k + 1), Nat.one_mul]; omega
      have h6 : us'.length ≤ k + 2 := Nat.le_of_mul_le_mul_right (c := blockSize N) (by omega) hB
      have h7 : k + 2 ≤ us'.length + 1 := Nat.le_of_mul_le_mul_right (c := blockSize N) (by
        rw [Nat.add_mul us'.length, Nat.one_mul]; omega) hB
      have hul : us'.length = k + 1 := by
        rcases Nat.lt_or_ge us'.length (k + 2) with h8 | h8
        · omega
        · have : us'.length = k + 2 := by omega
          rw [this] at h5
          omega
      have hbs : bz' = blockSize N := by
        rw [hul, show k + 2 = k + 1 + 1 from rfl, Nat.add_mul (k + 1), Nat.one_mul] at h5; omega
      obtain ⟨v2, F2, e2, c2, _⟩ := c'.roomBack_eq P
      refine ⟨h', us', ?_, ?_, hul, fr⟩
      · have hidx : v'.free.idx = 0 := by rw [c'.free.idx]; rfl
        have hav := c'.avail_pos
        rw [Deq.pushBackFault, if_pos ⟨by rw [c'.bsz, hbs]; exact Int.le_refl _, hidx⟩, if_neg (by omega), e2] at e
        simp only [Deq.copyCtorFault, hl, Option.isSome_some, if_true, hf1]
        rw [if_pos (by omega), c.front, e1]
        simp only [Option.bind_some, hib, hie]
        erw [e]
        simp
      · have h3 : CFault.elems N f1 (.block (k + 1)) = (k + 1) * blockSize N - f1 := by rw [CFault.elems, blockSize_eq]
        rw [h3]
        refine Leaked.ofGrid w c'.grid fr (.inr ?_)
        rw [List.length_take, Nat.min_eq_left (Nat.le_of_lt ht), hul]; omega
  | element k =>
    obtain ⟨a', ha', h0⟩ := hn
    rw [ha] at ha'; cases ha'
    obtain ⟨v', h', us', F', bz', e, c', fr, hb⟩ := rounds k .element h0
    obtain ⟨v1, h1, us1, fs1, F1, bz1, e1', c1', fr1', _, b1⟩ := c'.blockCheck_eq P fr.wf
    have hidx := Core.blockCheck_free P (by rw [c'.free.idx]; rfl) e1' (by have := c'.avail_pos; omega)
    have hfs : fs1 = [] := List.length_eq_zero_iff.1 (by rw [← c1'.free.idx, hidx])
    subst hfs
    obtain ⟨e2, _⟩ := BrokenB.make P xs[k] e1' c1' b1
    have fr2 : Heap.Frame h h1 [] us1 := fr.trans (by simpa using fr1')
    have hsz := c1'.size
    rw [List.length_take, Nat.min_eq_left (Nat.le_of_lt h0)] at hsz
    refine ⟨h1, us1, ?_, ?_, ?_, fr2⟩
    · rw [e2] at e
      simp only [Deq.copyCtorFault, hl, Option.isSome_some, if_true]
      rw [if_pos (by omega), c.front, e1]
      simp only [Option.bind_some, hib, hie]
      erw [e]
      simp
    · refine Leaked.ofGrid w c1'.grid fr2 (.inr ?_)
      rw [CFault.elems, List.length_take, Nat.min_eq_left (Nat.le_of_lt h0)]; omega
    · simp only [CFault.blocks, ← blockSize_eq]
      obtain ⟨m, hm⟩ : ∃ m, us1.length = m + 1 := ⟨us1.length - 1, by have := c1'.ne; omega⟩
      rw [hm, Nat.add_mul, Nat.one_mul] at hsz
      rw [hm, show f1 + k = m * blockSize N + bz1 by omega, Nat.mul_comm, Nat.mul_add_div hB, Nat.div_eq_of_lt b1, Nat.add_zero]

theorem WInvR.abandon {w : World X} {aw us fs} (W : WInv N w aw us fs) {h' : Heap X} {L : List Nat}
    (f : Heap.Frame w.heap h' [] L) (hl : ∀ b, b ∈ L → h'.live b = true) :
    WInvR ⟨fun b => b ∈ L, h'⟩ N ⟨w.objs, h'⟩ aw us fs := by
  have hlv : ∀ i b, b ∈ us i ++ fs i → w.heap.live b = true := fun i => (W.rep i).live
  refine ⟨f.wf, fun i => ?_, W.disj, fun b hb => ?_, fun b hb => ⟨f.wf.live b (hl b hb), rfl, fun _ => rfl⟩, fun b hb i hi => ?_⟩
  · exact (W.rep i).frame fun b hb => f.keep b (W.wf.live b (hlv i b hb)) (by simp)
  · rcases f.noleak b hb with h1 | ⟨h1, _⟩
    · exact .inl h1
    · exact .inr (W.noleak b (by rw [← (f.keep b h1 (by simp)).1]; exact hb))
  · rcases f.fresh b hb with h1 | h1
    · simp at h1
    · have := W.wf.live b (hlv i b hi); omega

/-! ## C139 -/

/-- C139 in full: a constructor that throws leaves nothing allocated, neither an array of block pointers nor a block of elements. -/
def NothingLeft (X : Type) (P : Pol) (N : Nat) : Prop :=
  ∀ (w : World X) (aw : AWorld X), Reached P N w aw → ∀ (i : Nat) (ct : Ctor X), careful P N w (ct.op i) = true →
    ∀ aw' o, ideal aw (ct.op i) = some (aw', o) → ∀ f arrays h', execCtorFault P N w f ct = some (.threw arrays h') →
      arrays = 0 ∧ ∀ b, h'.live b = w.heap.live b

theorem Ctor.live {P : Pol} {w : World X} {aw us fs} (W : WInv N w aw us fs) {i j : Nat}
    {aw' : AWorld X} {o} (hi : ideal aw (.copyNew i j : Op X) = some (aw', o))
    (hc : careful P N w (.copyNew i j : Op X) = true) :
    ∃ xs v F f1 bz, aw j = some xs ∧ w.objs j = some v ∧ Core N w.heap v xs (us j) (fs j) F f1 bz ∧ Core.Iterable N v := by
  cases ha : aw j with
  | none => simp [ideal, ha] at hi
  | some xs =>
    obtain ⟨v, hv, r⟩ := W.getSome ha
    simp only [careful, hv, Option.all_some, Bool.and_eq_true] at hc
    rcases r with ⟨F, f1, bz, c⟩ | ⟨nl, _⟩
    · exact ⟨xs, v, F, f1, bz, rfl, hv, c, iterable_iff.1 hc.2⟩
    · rw [nl.ptr] at hc; simp at hc

/-- C139, exactly what happens: there is a number `off` of cells before the first element such that a construction that performs the
failing operation throws and leaves exactly this behind: the array of block pointers, unless it is that array that could not be
allocated, and all blocks allocated before the failure, with the elements constructed before it, which are never destroyed.  No later
careful program, whatever it does with the objects there are, gives those blocks back or changes what is in them, and it sees what it
would see if the construction had not been tried. -/
theorem ctor_throw_leak (P : Pol) (N : Nat) (w : World X) (aw : AWorld X) (h : Reached P N w aw) (i : Nat) (ct : Ctor X)
    (aw1 : AWorld X) (o1 : Obs X) (hi : ideal aw (ct.op i) = some (aw1, o1)) (hc : careful P N w (ct.op i) = true) :
    ∃ off, off ≤ 2 ^ N ∧
      (∀ f, ct.needs N off aw f →
        ∃ h' L, execCtorFault P N w f ct = some (.threw (if f = .array then 0 else 1) h') ∧
          Leaked (2 ^ N) off w.heap h' L ((ct.wants aw).take (f.elems N off)) ∧ L.length = f.blocks N off ∧
          ∀ ops aw' obs, idealRun aw ops = some (aw', obs) → carefulRun P N ⟨w.objs, h'⟩ ops = true →
            ∃ w', run P N ⟨w.objs, h'⟩ ops = some (w', obs) ∧
              ∀ b, b ∈ L → w'.heap.live b = true ∧ ∀ j, w'.heap.cells b j = h'.cells b j) ∧
      -- a construction that does not get to the failing operation is an ordinary one
      (∀ f, ¬ ct.needs N off aw f →
        ∃ v w', execCtorFault P N w f ct = some (.made v w'.heap) ∧ exec P N w (ct.op i) = some (w', o1) ∧
          w'.objs i = some v ∧ Reached P N w' aw1) := by
  obtain ⟨us, fs, W⟩ := h.inv
  obtain ⟨w', us', fs', e, W', _⟩ := step P w aw us fs W _ _ _ hi hc
  have R : Reached P N w' aw1 := .call h hc hi e
  have key : ∃ off, off ≤ 2 ^ N ∧ (∀ f, ct.needs N off aw f →
      ∃ h' L, execCtorFault P N w f ct = some (.threw (if f = .array then 0 else 1) h') ∧
        Leaked (2 ^ N) off w.heap h' L ((ct.wants aw).take (f.elems N off)) ∧ L.length = f.blocks N off ∧
        Heap.Frame w.heap h' [] L) ∧
      (∀ f, ¬ ct.needs N off aw f →
        ∃ v w', execCtorFault P N w f ct = some (.made v w'.heap) ∧ exec P N w (ct.op i) = some (w', o1) ∧
          w'.objs i = some v ∧ Reached P N w' aw1) := by
    cases ct with
    | size n x =>
      obtain ⟨off, ho, hf⟩ := ofSizeFault_leak (N := N) W.wf n x aw
      refine ⟨off, ho, hf, fun f hn => ?_⟩
      have e' := e
      simp only [Ctor.op, exec, Option.map_eq_some_iff] at e
      obtain ⟨⟨v, h'⟩, e1, e2⟩ := e
      cases e2
      refine ⟨v, _, ?_, e', upd_same _ _ _, R⟩
      cases f with
      | array => exact absurd trivial hn
      | block k =>
        simp only [Ctor.needs] at hn
        cases k with
        | zero => exact absurd (by rw [blocksFor]; (repeat' split) <;> simp) hn
        | succ k =>
          simp only [execCtorFault, Deq.ofSizeFault]
          rw [if_neg, e1]
          · rfl
          · rintro ⟨h1, h2⟩
            rw [layout_blocks _ _ (Nat.pos_of_ne_zero h1)] at h2
            omega
      | element k =>
        simp only [Ctor.needs] at hn
        simp only [execCtorFault, Deq.ofSizeFault, if_neg hn, e1, Option.map_some]
    | copy j =>
      obtain ⟨xs, v, F, f1, bz, ha, hv, c, hit⟩ := Ctor.live W hi hc
      refine ⟨f1, by rw [← blockSize_eq]; exact c.f1le, fun f hn => ?_, fun f hn => ?_⟩
      · obtain ⟨h', L, e, r⟩ := copyCtorFault_leak P c W.wf hit aw ha f hn
        exact ⟨h', L, by simp only [execCtorFault, hv, Option.bind_some, e], by simpa [Ctor.wants, ha] using r⟩
      · have e' := e
        simp only [Ctor.op, exec, hv, Option.bind_some, Option.map_eq_some_iff] at e
        obtain ⟨⟨v', h'⟩, e1, e2⟩ := e
        cases e2
        refine ⟨v', _, ?_, e', upd_same _ _ _, R⟩
        obtain ⟨l, hl, _⟩ := c.ptr
        have hlen := c.len
        cases f with
        | array => exact absurd trivial hn
        | block k =>
          cases k with
          | zero => exact absurd (.inl rfl) hn
          | succ k =>
            have hk : ¬ (k + 1) * blockSize N < f1 + xs.length := by
              intro h1
              exact hn (.inr ⟨xs, ha, by rw [← blockSize_eq]; exact h1⟩)
            have hto : (v.fsize + 1).toNat = f1 := by rw [c.fsz]; omega
            simp only [execCtorFault, hv, Option.bind_some, Deq.copyCtorFault, hto]
            rw [if_pos (by simp [hl]), if_neg (by omega), e1]
            rfl
        | element k =>
          have hk : ¬ k < v.csize := by
            intro h1
            exact hn ⟨xs, ha, by omega⟩
          simp only [execCtorFault, hv, Option.bind_some, Deq.copyCtorFault]
          rw [if_pos (by simp [hl]), if_neg hk, e1]
          rfl
  obtain ⟨off, ho, k1, k2⟩ := key
  refine ⟨off, ho, fun f hn => ?_, k2⟩
  obtain ⟨h', L, e, lk, hl, fr⟩ := k1 f hn
  refine ⟨h', L, e, lk, hl, fun ops aw' obs hi hcr => ?_⟩
  obtain ⟨w', us', fs', e', W'⟩ := runs P ops _ _ _ _ (W.abandon fr fun b hb => (lk.live b).2 (.inr hb)) _ _ hi hcr
  refine ⟨w', e', fun b hb => ?_⟩
  obtain ⟨_, h1, h2⟩ := W'.rest b hb
  exact ⟨by rw [h1]; exact (lk.live b).2 (.inr hb), h2⟩

/-- C139, the part that holds: if it is the array of block pointers that cannot be allocated, nothing is left allocated and the
objects there are go on as they should. -/
theorem ctor_throw_array_partial (P : Pol) (N : Nat) (w : World X) (aw : AWorld X) (h : Reached P N w aw) (i : Nat) (ct : Ctor X)
    (aw1 : AWorld X) (o1 : Obs X) (hi : ideal aw (ct.op i) = some (aw1, o1)) (hc : careful P N w (ct.op i) = true) :
    ∃ h', execCtorFault P N w .array ct = some (.threw 0 h') ∧ (∀ b, h'.live b = w.heap.live b) ∧
      ∀ b, w.heap.live b = true → ∀ j, h'.cells b j = w.heap.cells b j := by
  obtain ⟨off, _, h1, _⟩ := ctor_throw_leak P N w aw h i ct aw1 o1 hi hc
  obtain ⟨h', L, e, lk, hl, _⟩ := h1 .array trivial
  have hL : L = [] := List.length_eq_zero_iff.1 hl
  subst hL
  refine ⟨h', e, fun b => ?_, lk.old⟩
  have := lk.live b
  simp only [List.not_mem_nil, or_false] at this
  cases h1 : h'.live b <;> cases h2 : w.heap.live b <;> simp [h1, h2] at this ⊢

/-- C139 is violated for every block size and element type, with a single element whose construction throws. -/
theorem ctor_throw_violation (P : Pol) (N : Nat) (x : X) : ¬ NothingLeft X P N := by
  intro h
  obtain ⟨off, _, h1, _⟩ := ctor_throw_leak P N (World.empty : World X) noObjs .start 0 (.size 1 x) _ _ rfl rfl
  obtain ⟨h', L, e, lk, hl, _⟩ := h1 (.element 0) (Nat.zero_lt_one)
  have := (h World.empty noObjs .start 0 (.size 1 x) rfl _ _ rfl _ _ _ e).1
  simp at this

/-- seven elements in blocks of four: the first block with one and the second with three elements are lost -/
example : (execCtorFault ⟨true, true⟩ 2 (World.empty : World Nat) (.element 4) (.size 7 7)).map (fun m => match m with
      | .threw a h => (a, (List.range 4).map h.live, [h.cells 0 2, h.cells 0 3, h.cells 1 0, h.cells 1 2, h.cells 1 3])
      | _ => (9, [], [])) = some (1, [true, true, false, false], [none, some 7, some 7, some 7, none]) ∧
    ((run ⟨true, true⟩ 1 World.empty [.new 0, .push 0 1, .push 0 2, .push 0 3]).bind fun r =>
      (execCtorFault ⟨true, true⟩ 1 r.1 (.block 1) (.copy 0)).map fun m => match m with
      | .threw a h => (a, (List.range 4).map h.live, [h.cells 2 0, h.cells 2 1])
      | _ => (9, [], [])) = some (1, [true, true, true, false], [none, some 1]) := by decide

/-- the hypotheses of `ctor_throw_leak` for these -/
example : carefulRun ⟨true, true⟩ 1 World.empty [.new 0, .push 0 1, .push 0 2, .push 0 3, (Ctor.copy 0).op 1] = true ∧
    (idealRun noObjs [.new 0, .push 0 1, .push 0 2, .push 0 3, (Ctor.copy 0).op 1]).isSome = true ∧
    (∀ off, (Ctor.size 7 7).needs 2 off noObjs (.element 4)) ∧ (∀ off, ¬ (Ctor.size 7 7).needs 2 off noObjs (.block 3)) := by
  refine ⟨by decide, by decide, fun _ => ?_, fun _ => ?_⟩ <;> simp [Ctor.needs, blocksFor]

end Verif.Block.Deque
