import Verif.Block.Leak
import Verif.Block.Vector.CtorThrow
import Verif.Block.Vector.ThrowProps

/-
C138: constructors of StableBlockVector that throw.
-/
namespace Verif.Block.Vector
open Verif.Block Vec
variable {X : Type} {N : Nat}

/-! ## What should be constructed, and what of it needs memory or a copy -/

/-- the elements the new object is to have -/
def Ctor.wants (aw : AWorld X) : Ctor X → List X
  | .size n x => List.replicate n x
  | .copy j => ((aw j).map AObj.elems).getD []

/-- the construction as a call -/
def Ctor.op (i : Nat) : Ctor X → Op X
  | .size n x => .newSize i n x
  | .copy j => .copyNew i j

/-- Does the construction perform the failing operation?  The constructor with a size reserves one block more than whole blocks fit;
a copy of a vector that reserved nothing allocates nothing. -/
def Ctor.needs (N : Nat) (aw : AWorld X) : Ctor X → CFault → Prop
  | .size _ _, .array => True
  | .size n _, .block k => k ≤ n / 2 ^ N
  | .size n _, .element k => k < n
  | .copy j, .array => ∃ a, aw j = some a ∧ a.reserved ≠ 0
  | .copy j, .block k => ∃ a, aw j = some a ∧ k * 2 ^ N < a.elems.length
  | .copy j, .element k => ∃ a, aw j = some a ∧ k < a.elems.length

/-- how many blocks were allocated before the failure -/
def CFault.blocks (N : Nat) : CFault → Nat
  | .array => 0
  | .block k => k
  | .element k => k / 2 ^ N + 1

/-- how many elements were constructed before the failure -/
def CFault.elems (N : Nat) : CFault → Nat
  | .array => 0
  | .block k => k * 2 ^ N
  | .element k => k

/-! ## Lemmas -/

theorem Leaked.ofCore {h h' : Heap X} {v : Vec} {us : List Nat} {xs : List X} (w : h.Wf) (c : Core N h' v xs us [])
    (f : Heap.Frame h h' [] us) : Leaked (2 ^ N) 0 h h' us xs := by
  refine .ofFrame w f (by simpa using c.nodup) (fun b hb => c.live b (by simp [hb])) ?_ (.inr ?_)
  · intro k b hb j hj
    rw [if_neg (by omega)]
    rw [← blockSize_eq] at hj ⊢
    exact c.cells k b hb j hj
  · have h1 := c.size
    have h2 := c.bsz
    have h3 := c.len
    rw [blockSize_eq] at h1 h2
    omega

theorem ofSizeFault_leak {h : Heap X} (w : h.Wf) (n : Nat) (x : X) (f : CFault) (aw : AWorld X) (hn : (Ctor.size n x).needs N aw f) :
    ∃ h' L, (∀ nothrow, ofSizeFault N nothrow h n x f =
        some (if nothrow then .ended else .threw (if f = .array then 0 else 1) h')) ∧
      Leaked (2 ^ N) 0 h h' L ((List.replicate n x).take (f.elems N)) ∧ L.length = f.blocks N ∧
      Heap.Frame h h' [] L := by
  have hB := blockSize_pos N
  have hslots : n / blockSize N < Nat.max (n / blockSize N + 1) 64 := by
    have := Nat.le_max_left (n / blockSize N + 1) 64
    show _ < max _ _
    omega
  have hpos : 0 < Nat.max (n / blockSize N + 1) 64 := Nat.lt_of_le_of_lt (Nat.zero_le _) hslots
  cases f with
  | array => exact ⟨h, [], fun _ => by simp [ofSizeFault], .refl _ _ _, rfl, Heap.Frame.refl w⟩
  | block k =>
    simp only [Ctor.needs, ← blockSize_eq] at hn
    obtain ⟨arr', h', us', e, c, fr, hl⟩ := Core.fillFull (N := N) x (n / blockSize N) (n % blockSize N) _ hslots k 0 (h := h)
      (by omega) (Core.slots _ hpos x) rfl w
    simp only [Nat.zero_add] at c hl
    refine ⟨h', us', fun _ => ?_, ?_, hl, fr⟩
    · simp only [ofSizeFault, shr_eq, mask_eq, if_pos hn, e, Option.map_some]
      rfl
    · have hle : k * blockSize N ≤ n := Nat.le_trans (Nat.mul_le_mul_right _ hn) (Nat.div_mul_le_self _ _)
      have := Leaked.ofCore w c fr
      simpa [CFault.elems, List.take_replicate, ← blockSize_eq, Nat.min_eq_left hle] using this
  | element k =>
    simp only [Ctor.needs] at hn
    have hk : k / blockSize N ≤ n / blockSize N := Nat.div_le_div_right (Nat.le_of_lt hn)
    obtain ⟨arr', h', us', e, c, fr, hl⟩ := Core.fillFull (N := N) x (n / blockSize N) (n % blockSize N) _ hslots (k / blockSize N) 0
      (h := h) (by omega) (Core.slots _ hpos x) rfl w
    simp only [Nat.zero_add] at c hl
    obtain ⟨p', e1, c1, f1⟩ := c.addFresh fr.wf rfl (by simp only; omega)
    obtain ⟨h2, e2, c2, f2⟩ := c1.constructUp x (k % blockSize N) f1.wf (by
      simp only; have := Nat.mod_lt k hB; omega)
    have fr2 : Heap.Frame h h2 [] (us' ++ [h'.next]) := fr.trans (by simpa using f1.trans f2)
    refine ⟨h2, us' ++ [h'.next], fun _ => ?_, ?_, by simp [CFault.blocks, hl, blockSize_eq], fr2⟩
    · simp only [ofSizeFault, shr_eq, mask_eq, if_pos hn, e, Option.bind_some]
      rw [hl] at e1
      simp only [Heap.alloc_fst]
      simp only at e1 e2
      rw [e1]
      simp only [Option.bind_some, e2, Option.map_some]
      rfl
    · have := Leaked.ofCore w c2 fr2
      have hk2 : k / blockSize N * blockSize N + k % blockSize N = k := by
        rw [Nat.mul_comm, Nat.div_add_mod]
      simpa [CFault.elems, List.take_replicate, List.replicate_append_replicate, hk2, Nat.min_eq_left (Nat.le_of_lt hn)] using this

theorem copyCtorFault_leak {w : World X} {aw us fs} (W : WInv N w aw us fs) {j : Nat} {a : AObj X} (ha : aw j = some a)
    (hm : a.moved = false) (hit : a.iterable N = true) {v : Vec} (hv : w.objs j = some v) (f : CFault)
    (hn : (Ctor.copy j).needs N aw f) :
    ∃ h' L, (∀ nothrow, v.copyCtorFault N nothrow w.heap f =
        some (if nothrow = true ∧ f ≠ .array then .ended else .threw (if f = .array then 0 else 1) h')) ∧
      Leaked (2 ^ N) 0 w.heap h' L (a.elems.take (f.elems N)) ∧ L.length = f.blocks N ∧
      Heap.Frame w.heap h' [] L := by
  have hB := blockSize_pos N
  obtain ⟨v', hv', c, hr, hu⟩ := W.getLive ha hm
  rw [hv] at hv'; cases hv'
  obtain ⟨ib, ie, hib, hie, hden⟩ := c.all_iters hu (iterable_core hit hr)
  have hlen := c.len
  have some_ptr : v.avail ≠ 0 → ∃ l, v.dataptr = some l := by
    intro h0
    cases hd : v.dataptr with
    | none => exact absurd (by have := c.arr.len; rw [hd] at this; simpa using this.symm) h0
    | some l => exact ⟨l, rfl⟩
  have rounds : ∀ (t : Nat) (g : Fault) (ht : t < a.elems.length),
      ∃ v' h' us', pushFromFault N (.iter (blockSize N) v.dataptr ie fun _ => none) g t (0, ib)
          { default N with dataptr := some (List.replicate v.avail none), avail := v.avail, slotIdx := -1 } w.heap =
          v'.pushFault N h' a.elems[t] g ∧
        Core N h' v' (a.elems.take t) us' [] ∧ Heap.Frame w.heap h' [] us' ∧ 0 < v'.bsize ∧ ∃ l, v.dataptr = some l := by
    intro t g ht
    have hav : v.avail ≠ 0 := by
      intro h0
      have := (c.null_iter h0).1
      rw [this] at ht; simp at ht
    rcases hden with ⟨hx, _⟩ | ⟨d0, d1⟩
    · rw [hx] at ht; simp at ht
    have c0 : Core N w.heap { Vec.default N with
        dataptr := some (List.replicate v.avail none), avail := v.avail, slotIdx := -1 } (a.elems.take 0) [] [] := by
      refine ⟨ArrOK.nil v.avail, ?_, ⟨rfl, rfl⟩, rfl, .inl rfl, Nat.le_refl _, by simp [Vec.default],
        rfl, by simp, by simp, by simp, by simp, fun _ => rfl⟩
      simp [hav]
    obtain ⟨v', h', us', e, c', f', b'⟩ := Core.pushFirst (k := 0) g t c0 hB c W.wf (by simp) d0 d1 (by omega)
    simp only [Nat.zero_add] at e c'
    exact ⟨v', h', us', e, c', f', b', some_ptr hav⟩
  cases f with
  | array =>
    obtain ⟨a', ha', h0⟩ := hn
    rw [ha] at ha'; cases ha'
    obtain ⟨l, hl⟩ := some_ptr (by rw [hr]; exact h0)
    exact ⟨w.heap, [], fun _ => by simp [copyCtorFault, hl], .refl _ _ _, rfl, Heap.Frame.refl W.wf⟩
  | block k =>
    obtain ⟨a', ha', h0⟩ := hn
    rw [ha] at ha'; cases ha'
    rw [← blockSize_eq] at h0
    obtain ⟨v', h', us', e, c', fr, hb, l, hl⟩ := rounds (k * blockSize N) .block h0
    have hsz := c'.size
    have hbz := c'.bsz
    have hl' := c'.len
    rw [List.length_take, Nat.min_eq_left (Nat.le_of_lt h0)] at hl'
    have hul : us'.length = k := by
      rw [← hl'] at hsz
      have h1 : (k + 1) * blockSize N = us'.length * blockSize N + v'.bsize := by
        rw [Nat.add_mul, Nat.one_mul]; exact hsz
      have h2 : us'.length < k + 1 := Nat.lt_of_mul_lt_mul_right (a := blockSize N) (by omega)
      have h3 : k + 1 ≤ us'.length + 1 := Nat.le_of_mul_le_mul_right (c := blockSize N) (by
        rw [Nat.add_mul us'.length, Nat.one_mul]; omega) hB
      omega
    have hbs : v'.bsize = blockSize N := by rw [hul] at hsz; omega
    refine ⟨h', us', fun nothrow => ?_, ?_, hul, fr⟩
    · have hf : v'.growSlots.freeIdx = 0 := by
        have h0 := c'.fidx
        simp only [List.length_nil] at h0
        rw [Vec.growSlots]; split
        · exact h0
        · split <;> exact h0
      rw [pushFault, if_pos ⟨by omega, hf⟩] at e
      simp only [copyCtorFault, hl, if_pos (show k * blockSize N < v.csize by omega), hib, hie, Option.bind_some]
      erw [e]
      simp
    · have := Leaked.ofCore W.wf c' fr
      simpa [CFault.elems, ← blockSize_eq] using this
  | element k =>
    obtain ⟨a', ha', h0⟩ := hn
    rw [ha] at ha'; cases ha'
    obtain ⟨v', h', us', e, c', fr, hb, l, hl⟩ := rounds k .element h0
    obtain ⟨v2, h2, us2, b2, fs2, e2, B, f2, _⟩ := c'.pushElement fr.wf a.elems[k]
    have c2 := B.core
    have hfs : fs2 = [] := by
      have h1 : v2.freeIdx = 0 := by
        have h0 := c'.fidx
        simp only [List.length_nil] at h0
        simp only [pushFault, Option.bind_eq_some_iff, Option.map_eq_some_iff] at e2
        obtain ⟨⟨v1, h1⟩, e1, b, _, e2⟩ := e2
        cases e2
        simp only
        rw [Vec.blockCheck] at e1
        split at e1
        · have hg : v'.growSlots.freeIdx = 0 := by
            rw [Vec.growSlots]; split
            · exact h0
            · split <;> exact h0
          simp only [Vec.getNewBlock, hg, if_pos, Option.bind_some, Option.map_eq_some_iff] at e1
          obtain ⟨_, _, e1⟩ := e1
          cases e1
          first | exact hg | rfl
        · cases e1; exact h0
      have := c2.fidx
      exact List.length_eq_zero_iff.1 (by rw [← this]; exact h1)
    subst hfs
    have fr2 : Heap.Frame w.heap h2 [] (us2 ++ [b2]) := fr.trans (by simpa using f2)
    refine ⟨h2, us2 ++ [b2], fun nothrow => ?_, ?_, ?_, fr2⟩
    · simp only [copyCtorFault, hl, if_pos (show k < v.csize by omega), hib, hie, Option.bind_some]
      rw [e2] at e
      erw [e]
      simp
    · have := Leaked.ofCore W.wf c2 fr2
      simpa [CFault.elems] using this
    · have hs := B.size
      have hp := B.pos
      have hle := B.le
      have hl' := c2.len
      rw [List.length_take, Nat.min_eq_left (Nat.le_of_lt h0)] at hl'
      simp only [List.length_append, List.length_singleton, CFault.blocks, ← blockSize_eq]
      congr 1
      have : k = us2.length * blockSize N + (v2.bsize - 1) := hl'.trans hs
      rw [this, Nat.mul_comm, Nat.mul_add_div hB, Nat.div_eq_of_lt (by omega), Nat.add_zero]

theorem WInvR.abandon {w : World X} {aw us fs} (W : WInv N w aw us fs) {h' : Heap X} {L : List Nat}
    (f : Heap.Frame w.heap h' [] L) (hl : ∀ b, b ∈ L → h'.live b = true) :
    WInvR ⟨fun b => b ∈ L, h'⟩ N ⟨w.objs, h'⟩ aw us fs := by
  have hlv : ∀ i b, b ∈ us i ++ fs i → w.heap.live b = true := fun i => (W.rep i).live
  refine ⟨f.wf, fun i => ?_, W.disj, fun b hb => ?_, fun b hb => ⟨f.wf.live b (hl b hb), rfl, fun _ => rfl⟩, fun b hb i hi => ?_⟩
  · exact (W.rep i).frame fun b hb => f.keep b (W.wf.live b (hlv i b hb)) (by simp)
  · rcases f.noleak b hb with h1 | ⟨h1, _⟩
    · exact .inl h1
    · exact .inr (W.noleak b (by rw [← (f.keep b h1 (by simp)).1]; exact hb))
  · rcases f.fresh b hb with h1 | h1
    · simp at h1
    · have := W.wf.live b (hlv i b hi); omega

/-! ## C138 -/

/-- C138 in full: a constructor that throws leaves nothing allocated, neither an array of block pointers nor a block of elements. -/
def NothingLeft (X : Type) (N : Nat) : Prop :=
  ∀ (w : World X) (aw : AWorld X), Reached N w aw → ∀ (i : Nat) (ct : Ctor X), careful N aw (ct.op i) = true →
    ∀ aw' o, ideal N aw (ct.op i) = some (aw', o) → ∀ f arrays h', execCtorFault N false w f ct = some (.threw arrays h') →
      arrays = 0 ∧ ∀ b, h'.live b = w.heap.live b

theorem Ctor.live {w : World X} {aw us fs} (W : WInv N w aw us fs) {i j : Nat} (hc : careful N aw (.copyNew i j : Op X) = true) :
    ∃ a v, aw j = some a ∧ w.objs j = some v ∧ a.moved = false ∧ a.iterable N = true := by
  cases ha : aw j with
  | none => simp [careful, ha] at hc
  | some a =>
    simp only [careful, ha, Option.any_some, Bool.and_eq_true, Bool.not_eq_true'] at hc
    obtain ⟨v, hv, _⟩ := W.getLive ha hc.1.1
    exact ⟨a, v, rfl, hv, hc.1.1, hc.1.2⟩

/-- C138, exactly what happens: a construction that performs the failing operation throws and leaves exactly this behind: the array
of block pointers, unless it is that array that could not be allocated, and all blocks allocated before the failure, with the elements
constructed before it, which are never destroyed.  No later careful program, whatever it does with the objects there are, gives
those blocks back or changes what is in them, and it sees what it would see if the construction had not been tried. -/
theorem ctor_throw_leak (N : Nat) (w : World X) (aw : AWorld X) (h : Reached N w aw) (i : Nat) (ct : Ctor X)
    (hc : careful N aw (ct.op i) = true) (f : CFault) (hn : ct.needs N aw f) :
    ∃ h' L, execCtorFault N false w f ct = some (.threw (if f = .array then 0 else 1) h') ∧
      Leaked (2 ^ N) 0 w.heap h' L ((ct.wants aw).take (f.elems N)) ∧ L.length = f.blocks N ∧
      ∀ ops aw' obs, idealRun N aw ops = some (aw', obs) → carefulRun N aw ops = true →
        ∃ w', run N ⟨w.objs, h'⟩ ops = some (w', obs) ∧
          ∀ b, b ∈ L → w'.heap.live b = true ∧ ∀ j, w'.heap.cells b j = h'.cells b j := by
  obtain ⟨us, fs, W⟩ := h.inv
  obtain ⟨h', L, e, lk, hl, fr⟩ : ∃ h' L, execCtorFault N false w f ct = some (.threw (if f = .array then 0 else 1) h') ∧
      Leaked (2 ^ N) 0 w.heap h' L ((ct.wants aw).take (f.elems N)) ∧ L.length = f.blocks N ∧ Heap.Frame w.heap h' [] L := by
    cases ct with
    | size n x =>
      obtain ⟨h', L, e, r⟩ := ofSizeFault_leak W.wf n x f aw hn
      exact ⟨h', L, by rw [execCtorFault, e]; rfl, r⟩
    | copy j =>
      obtain ⟨a, v, ha, hv, hm, hit⟩ := Ctor.live W hc
      obtain ⟨h', L, e, r⟩ := copyCtorFault_leak W ha hm hit hv f hn
      refine ⟨h', L, by simp [execCtorFault, hv, e], ?_⟩
      simpa [Ctor.wants, ha] using r
  refine ⟨h', L, e, lk, hl, fun ops aw' obs hi hcr => ?_⟩
  obtain ⟨w', us', fs', e', W'⟩ := runs ops _ _ _ _ (W.abandon fr fun b hb => (lk.live b).2 (.inr hb)) _ _ hi hcr
  refine ⟨w', e', fun b hb => ?_⟩
  obtain ⟨_, h1, h2⟩ := W'.rest b hb
  exact ⟨by rw [h1]; exact (lk.live b).2 (.inr hb), h2⟩

/-- A construction that does not get to the failing operation is an ordinary one. -/
theorem ctor_not_reached (N : Nat) (w : World X) (aw : AWorld X) (h : Reached N w aw) (i : Nat) (ct : Ctor X) (aw' : AWorld X)
    (hc : careful N aw (ct.op i) = true) (hi : ideal N aw (ct.op i) = some (aw', .done)) (f : CFault) (hn : ¬ ct.needs N aw f)
    (nothrow : Bool) :
    ∃ v w', execCtorFault N nothrow w f ct = some (.made v w'.heap) ∧ exec N w (ct.op i) = some (w', .done) ∧
      w'.objs i = some v ∧ Reached N w' aw' := by
  obtain ⟨us, fs, W⟩ := h.inv
  obtain ⟨w', us', fs', e, W', _⟩ := step w aw us fs W _ _ _ hi hc
  have R : Reached N w' aw' := .call h hc hi e
  cases ct with
  | size n x =>
    simp only [Ctor.op, exec, Option.map_eq_some_iff] at e
    obtain ⟨⟨v, h'⟩, e1, e2⟩ := e
    cases e2
    refine ⟨v, _, ?_, by simp only [Ctor.op, exec, e1, Option.map_some], upd_same _ _ _, R⟩
    cases f with
    | array => exact absurd trivial hn
    | block k =>
      simp only [Ctor.needs, ← blockSize_eq] at hn
      simp only [execCtorFault, ofSizeFault, shr_eq, if_neg hn, e1, Option.map_some]
    | element k =>
      simp only [Ctor.needs] at hn
      simp only [execCtorFault, ofSizeFault, if_neg hn, e1, Option.map_some]
  | copy j =>
    obtain ⟨a, v, ha, hv, hm, hit⟩ := Ctor.live W hc
    obtain ⟨v2, hv2, c, hr, hu⟩ := W.getLive ha hm
    rw [hv] at hv2; cases hv2
    simp only [Ctor.op, exec, hv, Option.bind_some, Option.map_eq_some_iff] at e
    obtain ⟨⟨v', h'⟩, e1, e2⟩ := e
    cases e2
    refine ⟨v', _, ?_, by simp only [Ctor.op, exec, hv, Option.bind_some, e1, Option.map_some], upd_same _ _ _, R⟩
    cases hd : v.dataptr with
    | none =>
      simp only [copyCtor, hd] at e1
      cases e1
      simp only [execCtorFault, hv, Option.bind_some, copyCtorFault, hd]
    | some l =>
      cases f with
      | array =>
        refine absurd ⟨a, ha, fun h0 => ?_⟩ hn
        have h1 := c.arr.len
        rw [hd, hr, h0] at h1
        simp only [Option.getD_some] at h1
        exact c.ne (by rw [hd, List.length_eq_zero_iff.1 h1])
      | block k =>
        have hk : ¬ k * blockSize N < v.csize := by
          intro h1
          rw [← c.len, blockSize_eq] at h1
          exact hn ⟨a, ha, h1⟩
        simp only [execCtorFault, hv, Option.bind_some, copyCtorFault, hd, if_neg hk, e1, Option.map_some]
      | element k =>
        have hk : ¬ k < v.csize := by
          intro h1
          rw [← c.len] at h1
          exact hn ⟨a, ha, h1⟩
        simp only [execCtorFault, hv, Option.bind_some, copyCtorFault, hd, if_neg hk, e1, Option.map_some]

/-- For element types whose copy constructor is `noexcept` a failing allocation ends the program, except the allocation of the array
in the copy constructor, which throws and leaves everything as it was. -/
theorem ctor_ended (N : Nat) (w : World X) (aw : AWorld X) (h : Reached N w aw) (i : Nat) (ct : Ctor X)
    (hc : careful N aw (ct.op i) = true) (f : CFault) (hn : ct.needs N aw f) :
    execCtorFault N true w f ct = some (match ct, f with
      | .copy _, .array => .threw 0 w.heap
      | _, _ => .ended) := by
  obtain ⟨us, fs, W⟩ := h.inv
  cases ct with
  | size n x =>
    obtain ⟨h', L, e, r⟩ := ofSizeFault_leak W.wf n x f aw hn
    rw [execCtorFault, e]; rfl
  | copy j =>
    obtain ⟨a, v, ha, hv, hm, hit⟩ := Ctor.live W hc
    cases f with
    | array =>
      obtain ⟨a', ha', h0⟩ := hn
      rw [ha] at ha'; cases ha'
      obtain ⟨v2, hv2, c, hr, hu⟩ := W.getLive ha hm
      rw [hv] at hv2; cases hv2
      cases hd : v.dataptr with
      | none => exact absurd (by have := c.arr.len; rw [hd] at this; simpa using this.symm) (hr ▸ h0)
      | some l => simp [execCtorFault, hv, copyCtorFault, hd]
    | block k =>
      obtain ⟨h', L, e, r⟩ := copyCtorFault_leak W ha hm hit hv _ hn
      simp [execCtorFault, hv, e]
    | element k =>
      obtain ⟨h', L, e, r⟩ := copyCtorFault_leak W ha hm hit hv _ hn
      simp [execCtorFault, hv, e]

/-- C138, the part that holds: if it is the array of block pointers that cannot be allocated, nothing is left allocated and the
objects there are go on as they should. -/
theorem ctor_throw_array_partial (N : Nat) (w : World X) (aw : AWorld X) (h : Reached N w aw) (i : Nat) (ct : Ctor X)
    (hc : careful N aw (ct.op i) = true) (hn : ct.needs N aw .array) :
    ∃ h', execCtorFault N false w .array ct = some (.threw 0 h') ∧ (∀ b, h'.live b = w.heap.live b) ∧
      ∀ b, w.heap.live b = true → ∀ j, h'.cells b j = w.heap.cells b j := by
  obtain ⟨h', L, e, lk, hl, _⟩ := ctor_throw_leak N w aw h i ct hc .array hn
  have hL : L = [] := List.length_eq_zero_iff.1 hl
  subst hL
  refine ⟨h', e, fun b => ?_, lk.old⟩
  have := lk.live b
  simp only [List.not_mem_nil, or_false] at this
  cases h1 : h'.live b <;> cases h2 : w.heap.live b <;> simp [h1, h2] at this ⊢

/-- C138 is violated for every block size and element type: whatever the state, constructing `n` elements when the second of two or
more blocks cannot be allocated leaks. -/
theorem ctor_throw_violation (N : Nat) (x : X) : ¬ NothingLeft X N := by
  intro h
  obtain ⟨h', L, e, lk, hl, _⟩ := ctor_throw_leak N (World.empty : World X) noObjs .start 0 (.size (2 ^ N) x) rfl (.block 1)
    (by simp [Ctor.needs, Nat.div_self (Nat.two_pow_pos N)])
  have := (h World.empty noObjs .start 0 (.size (2 ^ N) x) rfl _ _ rfl _ _ _ e).1
  simp at this

/-- also if only element construction fails, and also for copies -/
example : (execCtorFault 1 false (World.empty : World Nat) (.element 2) (.size 5 7)).map (fun m => match m with
      | .threw a h => (a, (List.range 4).map h.live, [h.cells 0 0, h.cells 0 1, h.cells 1 0])
      | _ => (9, [], [])) = some (1, [true, true, false, false], [some 7, some 7, none]) ∧
    ((run 1 World.empty [.new 0, .push 0 1, .push 0 2, .push 0 3]).bind fun r =>
      (execCtorFault 1 false r.1 (.block 1) (.copy 0)).map fun m => match m with
      | .threw a h => (a, (List.range 4).map h.live, [h.cells 2 0, h.cells 2 1])
      | _ => (9, [], [])) = some (1, [true, true, true, false], [some 1, some 2]) := by decide

/-- the hypotheses of `ctor_throw_leak` for these -/
example : carefulRun 1 noObjs [.new 0, .push 0 1, .push 0 2, .push 0 3, (Ctor.copy 0).op 1] = true ∧
    (∀ a, (idealRun 1 noObjs [.new 0, .push 0 1, .push 0 2, .push 0 3]).bind (fun r => r.1 0) = some a → 1 * 2 ^ 1 < a.elems.length) ∧
    (Ctor.size 5 7).needs 1 noObjs (.element 2) ∧ ¬ (Ctor.size 5 7).needs 1 noObjs (.block 3) := by
  refine ⟨by decide, ?_, by simp [Ctor.needs], by simp [Ctor.needs]⟩
  intro a h
  cases h
  decide

end Verif.Block.Vector
