import Verif.Block.Deque.Model
import Verif.Block.Iterator.Lemmas
import Mathlib.Data.List.Nodup

/- Lemmas about blocks laid out one after the other. -/
namespace Verif.Block.Deque
open Verif.Block
variable {X : Type}

theorem blockSize_eq (N : Nat) : blockSize N = 2 ^ N := by
  simp [blockSize, Nat.shiftLeft_eq]

theorem blockSize_pos (N : Nat) : 0 < blockSize N := by
  rw [blockSize_eq]; exact Nat.two_pow_pos N

theorem shr_eq (N n : Nat) : n >>> N = n / blockSize N := by
  rw [blockSize_eq, Nat.shiftRight_eq_div_pow]

theorem mask_eq (N n : Nat) : n &&& cntmask N = n % blockSize N := by
  rw [cntmask, blockSize_eq, Nat.and_two_pow_sub_one_eq_mod]

/-- The blocks `us`, one after the other, contain `g 0, g 1, ...`; the blocks `fs` are empty. -/
structure Grid (B : Nat) (h : Heap X) (us fs : List Nat) (g : Nat → Option X) : Prop where
  nodup : (us ++ fs).Nodup
  live : ∀ b, b ∈ us ++ fs → h.live b = true
  cells : ∀ k b : Nat, us[k]? = some b → ∀ j : Nat, j < B → h.cells b j = g (k * B + j)
  fcells : ∀ b, b ∈ fs → ∀ j, j < B → h.cells b j = none

variable {B : Nat} {h : Heap X} {us fs : List Nat} {g : Nat → Option X}

theorem us_inj (nd : (us ++ fs).Nodup) {k k' b : Nat} (h1 : us[k]? = some b) (h2 : us[k']? = some b) :
    k = k' := by
  have nd' := (List.nodup_append.1 nd).1
  obtain ⟨hk, e⟩ := List.getElem?_eq_some_iff.1 h1
  obtain ⟨hk', e'⟩ := List.getElem?_eq_some_iff.1 h2
  exact (List.Nodup.getElem_inj_iff nd').1 (e.trans e'.symm)

theorem us_fs (nd : (us ++ fs).Nodup) {k b : Nat} (h1 : us[k]? = some b) : b ∉ fs :=
  fun h2 => (List.nodup_append.1 nd).2.2 b (List.mem_of_getElem? h1) b h2 rfl

theorem Grid.mem {k b : Nat} (hb : us[k]? = some b) : b ∈ us ++ fs :=
  List.mem_append_left _ (List.mem_of_getElem? hb)

theorem Grid.congr (G : Grid B h us fs g) {g' : Nat → Option X}
    (e : ∀ p, p < us.length * B → g' p = g p) : Grid B h us fs g' := by
  refine ⟨G.nodup, G.live, fun k b hb j hj => ?_, G.fcells⟩
  rw [G.cells k b hb j hj, e]
  have := mul_succ_le (B := B) (List.getElem?_eq_some_iff.1 hb).1
  omega

theorem Grid.perm (G : Grid B h us fs g) {fs' : List Nat} (p : fs.Perm fs') : Grid B h us fs' g := by
  refine ⟨(List.Perm.nodup_iff (p.append_left us)).1 G.nodup, fun b hb => G.live b ?_, G.cells,
    fun b hb => G.fcells b (p.mem_iff.2 hb)⟩
  rcases List.mem_append.1 hb with h1 | h1
  · exact List.mem_append_left _ h1
  · exact List.mem_append_right _ (p.mem_iff.2 h1)

theorem Grid.frame (G : Grid B h us fs g) {h' : Heap X}
    (hk : ∀ b, b ∈ us ++ fs → h'.live b = h.live b ∧ ∀ j, h'.cells b j = h.cells b j) :
    Grid B h' us fs g :=
  ⟨G.nodup, fun b hb => (hk b hb).1 ▸ G.live b hb,
    fun k b hb j hj => by rw [(hk b (Grid.mem hb)).2, G.cells k b hb j hj],
    fun b hb j hj => by rw [(hk b (List.mem_append_right _ hb)).2, G.fcells b hb j hj]⟩

/-- changing one cell -/
theorem Grid.setCell (G : Grid B h us fs g) {k b j : Nat} (hb : us[k]? = some b) (hj : j < B) (o : Option X) :
    Grid B (h.setCell b j o) us fs (fun p => if p = k * B + j then o else g p) := by
  refine ⟨G.nodup, G.live, fun k' b' hb' j' hj' => ?_, fun b' hb' j' hj' => ?_⟩
  · rw [Heap.setCell_cells]
    split
    · rename_i e
      obtain ⟨rfl, rfl⟩ := e
      rw [us_inj G.nodup hb hb', if_pos rfl]
    · rename_i e
      rw [G.cells k' b' hb' j' hj', if_neg]
      intro e'
      obtain ⟨rfl, rfl⟩ := pair_inj hj' hj e'
      rw [hb] at hb'; cases hb'
      exact e ⟨rfl, rfl⟩
  · rw [Heap.setCell_cells, if_neg, G.fcells b' hb' j' hj']
    rintro ⟨rfl, _⟩
    exact us_fs G.nodup hb hb'

/-- a new empty block at the end -/
theorem Grid.addBack (G : Grid B h us fs g) {b : Nat} (hn : b ∉ us ++ fs) (hl : h.live b = true)
    (hc : ∀ j, j < B → h.cells b j = none) (hg : ∀ j, j < B → g (us.length * B + j) = none) :
    Grid B h (us ++ [b]) fs g := by
  have hperm : ((us ++ [b]) ++ fs).Perm (b :: (us ++ fs)) := by
    rw [List.append_assoc]; exact List.perm_middle
  refine ⟨(hperm.nodup_iff).2 (List.nodup_cons.2 ⟨hn, G.nodup⟩), fun b' hb' => ?_, fun k b' hb' j hj => ?_,
    G.fcells⟩
  · rcases List.mem_cons.1 (hperm.mem_iff.1 hb') with rfl | h1
    · exact hl
    · exact G.live _ h1
  · rw [List.getElem?_append] at hb'
    split at hb'
    · exact G.cells k b' hb' j hj
    · rename_i hk
      have hk' : k = us.length := by
        have := (List.getElem?_eq_some_iff.1 hb').1
        simp at this; omega
      subst hk'
      simp at hb'
      subst hb'
      rw [hc j hj, hg j hj]

/-- a new empty block before the first -/
theorem Grid.addFront (G : Grid B h us fs g) {b : Nat} (hn : b ∉ us ++ fs) (hl : h.live b = true)
    (hc : ∀ j, j < B → h.cells b j = none) :
    Grid B h (b :: us) fs (fun p => if p < B then none else g (p - B)) := by
  refine ⟨List.nodup_cons.2 ⟨hn, G.nodup⟩, fun b' hb' => ?_, fun k b' hb' j hj => ?_, G.fcells⟩
  · rcases List.mem_cons.1 hb' with rfl | h1
    · exact hl
    · exact G.live _ h1
  · cases k with
    | zero =>
      simp at hb'; subst hb'
      rw [hc j hj, if_pos (by omega)]
    | succ k =>
      have hb'' : us[k]? = some b' := by simpa using hb'
      have hge : B ≤ (k + 1) * B := Nat.le_mul_of_pos_left _ (by omega)
      rw [G.cells k b' hb'' j hj, if_neg (by omega)]
      congr 1
      rw [Nat.add_mul]; omega

/-- the last block, if empty, becomes a reserve block -/
theorem Grid.dropBack {b : Nat} (G : Grid B h (us ++ [b]) fs g)
    (hg : ∀ j, j < B → g (us.length * B + j) = none) : Grid B h us (b :: fs) g := by
  have he : us ++ (b :: fs) = us ++ [b] ++ fs := by simp
  refine ⟨he ▸ G.nodup, fun b' hb' => G.live b' (he ▸ hb'), fun k b' hb' j hj => ?_, fun b' hb' j hj => ?_⟩
  · refine G.cells k b' ?_ j hj
    rw [List.getElem?_append_left (List.getElem?_eq_some_iff.1 hb').1]; exact hb'
  · rcases List.mem_cons.1 hb' with rfl | h1
    · rw [G.cells us.length _ (by simp) j hj, hg j hj]
    · exact G.fcells b' h1 j hj

/-- the first block, if empty, becomes a reserve block -/
theorem Grid.dropFront {b : Nat} (G : Grid B h (b :: us) fs g)
    (hg : ∀ j, j < B → g j = none) : Grid B h us (b :: fs) (fun p => g (p + B)) := by
  have hp : (us ++ (b :: fs)).Perm (b :: us ++ fs) := List.perm_middle
  refine ⟨hp.nodup_iff.2 G.nodup, fun b' hb' => G.live b' (hp.mem_iff.1 hb'), fun k b' hb' j hj => ?_,
    fun b' hb' j hj => ?_⟩
  · rw [G.cells (k + 1) b' (by simpa using hb') j hj]
    congr 1
    rw [Nat.add_mul]; omega
  · rcases List.mem_cons.1 hb' with rfl | h1
    · rw [G.cells 0 _ (by simp) j hj, Nat.zero_mul, Nat.zero_add, hg j hj]
    · exact G.fcells b' h1 j hj

/-- a reserve block is freed -/
theorem Grid.dealloc (G : Grid B h us fs g) {b : Nat} {fs' : List Nat} (w : h.Wf)
    (hp : fs.Perm (b :: fs')) :
    ∃ h', h.dealloc B b = some h' ∧ Grid B h' us fs' g ∧ Heap.Frame h h' (us ++ fs) (us ++ fs') := by
  have G' := G.perm hp
  have hpp : (us ++ (b :: fs')).Perm (b :: (us ++ fs')) := List.perm_middle
  have nd := List.nodup_cons.1 (hpp.nodup_iff.1 G'.nodup)
  refine ⟨_, Heap.dealloc_eq (G'.live b (by simp)) (G'.fcells b (by simp)), ⟨nd.2, ?_, G'.cells, ?_⟩, ?_⟩
  · intro b' hb'
    simp only
    rw [if_neg]
    · exact G'.live b' (by simp at hb' ⊢; grind)
    · rintro rfl; exact nd.1 hb'
  · intro b' hb' j hj
    exact G'.fcells b' (by simp [hb']) j hj
  · refine Heap.Frame.dealloc w ?_ nd.1
    intro b'
    rw [List.mem_append, hp.mem_iff, List.mem_cons, List.mem_append]
    grind

/-! ### construct / destroy ranges of one block -/

/-- `p[i]` is block number `k` -/
theorem Grid.constructAt {N : Nat} (G : Grid (blockSize N) h us fs g) (w : h.Wf) {p : SlotPtr} {i : Int} {k b j : Nat}
    (hs : slotGet p i = some b) (hb : us[k]? = some b) (hj : j < blockSize N)
    (hg : g (k * blockSize N + j) = none) (x : X) :
    ∃ h', constructAt N p i (j : Int) h x = some h' ∧
      Grid (blockSize N) h' us fs (fun q => if q = k * blockSize N + j then some x else g q) ∧
      Heap.Frame h h' (us ++ fs) (us ++ fs) := by
  have hl := G.live b (Grid.mem hb)
  refine ⟨_, ?_, G.setCell hb hj (some x), Heap.Frame.setCell w (Grid.mem hb) hl _ _⟩
  rw [Deque.constructAt, hs]
  simp only [Option.bind_some, natIdx]
  rw [if_pos (by omega)]
  simp only [Option.bind_some, Int.toNat_natCast]
  exact Heap.construct_eq x hl hj ((G.cells k b hb j hj).trans hg)

theorem Grid.constructUp {N : Nat} {p : SlotPtr} {i : Int} {k b : Nat} (x : X) (n : Nat) :
    ∀ {h : Heap X} {g : Nat → Option X} (_ : Grid (blockSize N) h us fs g) (_ : h.Wf) {j : Nat},
    slotGet p i = some b → us[k]? = some b → j + n ≤ blockSize N →
    (∀ q, j ≤ q → q < j + n → g (k * blockSize N + q) = none) →
    ∃ h', Deq.constructUp N p i x (j : Int) n h = some h' ∧
      Grid (blockSize N) h' us fs
        (fun q => if k * blockSize N + j ≤ q ∧ q < k * blockSize N + j + n then some x else g q) ∧
      Heap.Frame h h' (us ++ fs) (us ++ fs) := by
  induction n with
  | zero =>
    intro h g G w j _ _ _ _
    refine ⟨h, rfl, G.congr ?_, Heap.Frame.refl w⟩
    intro q _
    rw [if_neg (by omega)]
  | succ n ih =>
    intro h g G w j hs hb hj hg
    obtain ⟨h1, e1, G1, f1⟩ := G.constructAt w hs hb (show j < blockSize N by omega) (hg j (by omega) (by omega)) x
    obtain ⟨h2, e2, G2, f2⟩ := ih G1 f1.wf (j := j + 1) hs hb (by omega) (by
      intro q h1 h2
      rw [if_neg (by omega)]
      exact hg q (by omega) (by omega))
    refine ⟨h2, ?_, G2.congr ?_, f1.trans f2⟩
    · rw [Deq.constructUp, e1]
      simp only [Option.bind_some]
      rw [← e2]; congr 1
    · intro q _
      by_cases h1 : q = k * blockSize N + j
      · rw [if_pos (by omega), if_neg (by omega), if_pos h1]
      · by_cases h2 : k * blockSize N + j ≤ q ∧ q < k * blockSize N + j + (n + 1)
        · rw [if_pos h2, if_pos (by omega)]
        · rw [if_neg h2, if_neg (by omega), if_neg h1]

theorem Grid.destroyAt {N : Nat} (P : Pol) (G : Grid (blockSize N) h us fs g) (w : h.Wf) {p : SlotPtr} {i : Int} {k b j : Nat}
    (hs : slotGet p i = some b) (hb : us[k]? = some b) (hj : j < blockSize N)
    (hg : P.triv = true ∨ ∃ x, g (k * blockSize N + j) = some x) :
    ∃ h', destroyAt P N p i (j : Int) h = some h' ∧
      Grid (blockSize N) h' us fs (fun q => if q = k * blockSize N + j then none else g q) ∧
      Heap.Frame h h' (us ++ fs) (us ++ fs) := by
  have hl := G.live b (Grid.mem hb)
  have hc := G.cells k b hb j hj
  cases hgc : g (k * blockSize N + j) with
  | none =>
    have ht : P.triv = true := by
      rcases hg with h1 | ⟨x, h1⟩
      · exact h1
      · rw [hgc] at h1; cases h1
    refine ⟨h, ?_, G.congr ?_, Heap.Frame.refl w⟩
    · rw [Deque.destroyAt, hs]
      simp only [Option.bind_some, natIdx]
      rw [if_pos (show (0 : Int) ≤ j by omega)]
      simp only [Option.bind_some, Int.toNat_natCast]
      rw [if_pos ⟨ht, hl, hj, hc.trans hgc⟩]
    · intro q _
      split
      · rename_i e; rw [e, hgc]
      · rfl
  | some x =>
    refine ⟨_, ?_, G.setCell hb hj none, Heap.Frame.setCell w (Grid.mem hb) hl _ _⟩
    rw [Deque.destroyAt, hs]
    simp only [Option.bind_some, natIdx]
    rw [if_pos (show (0 : Int) ≤ j by omega)]
    simp only [Option.bind_some, Int.toNat_natCast]
    rw [if_neg (by rw [hc, hgc]; simp)]
    exact Heap.destroy_eq hl hj (hc.trans hgc)

theorem Grid.destroyDown {N : Nat} (P : Pol) {p : SlotPtr} {i : Int} {k b : Nat} (n : Nat) :
    ∀ {h : Heap X} {g : Nat → Option X} (_ : Grid (blockSize N) h us fs g) (_ : h.Wf) {j : Nat},
    slotGet p i = some b → us[k]? = some b → j + n ≤ blockSize N →
    (∀ q, j ≤ q → q < j + n → P.triv = true ∨ ∃ x, g (k * blockSize N + q) = some x) →
    ∃ h', Deq.destroyDown P N p i ((j + n : Nat) : Int) n h = some h' ∧
      Grid (blockSize N) h' us fs
        (fun q => if k * blockSize N + j ≤ q ∧ q < k * blockSize N + j + n then none else g q) ∧
      Heap.Frame h h' (us ++ fs) (us ++ fs) := by
  induction n with
  | zero =>
    intro h g G w j _ _ _ _
    refine ⟨h, rfl, G.congr ?_, Heap.Frame.refl w⟩
    intro q _
    rw [if_neg (by omega)]
  | succ n ih =>
    intro h g G w j hs hb hj hg
    obtain ⟨h1, e1, G1, f1⟩ := G.destroyAt P w hs hb (show j + n < blockSize N by omega)
      (hg (j + n) (by omega) (by omega))
    obtain ⟨h2, e2, G2, f2⟩ := ih G1 f1.wf (j := j) hs hb (by omega) (by
      intro q h1 h2
      rw [if_neg (by omega)]
      exact hg q (by omega) (by omega))
    refine ⟨h2, ?_, G2.congr ?_, f1.trans f2⟩
    · have c : (((j + (n + 1) : Nat)) : Int) - 1 = ((j + n : Nat) : Int) := by omega
      rw [Deq.destroyDown, c, e1]
      simp only [Option.bind_some]
      exact e2
    · intro q _
      by_cases h1 : q = k * blockSize N + (j + n)
      · rw [if_pos (by omega), if_neg (by omega), if_pos h1]
      · by_cases h2 : k * blockSize N + j ≤ q ∧ q < k * blockSize N + j + (n + 1)
        · rw [if_pos h2, if_pos (by omega)]
        · rw [if_neg h2, if_neg (by omega), if_neg h1]

/-! ### the list of reserve blocks -/

/-- the reserve list holds exactly the blocks `fs` -/
structure FOK (f : FreeL) (fs : List Nat) : Prop where
  arr : ArrOK f.blocks f.avail fs
  idx : f.idx = fs.length

theorem FOK.empty : FOK ⟨0, 0, none⟩ [] := ⟨⟨rfl, rfl⟩, rfl⟩

theorem FOK.put {f : FreeL} (F : FOK f fs) (b : Nat) :
    ∃ f', f.put b = some f' ∧ FOK f' (fs ++ [b]) := by
  have hle := F.arr.le
  have hi := F.idx
  have key : ArrOK f.grow.blocks f.grow.avail fs ∧ f.grow.idx = f.idx ∧ fs.length < f.grow.avail := by
    rw [FreeL.grow]
    split
    · split
      · have : fs = [] := List.length_eq_zero_iff.1 (by omega)
        subst this
        exact ⟨ArrOK.nil 64, rfl, by simp⟩
      · rename_i h0 h1
        have hne : f.blocks.isNone = false := by
          obtain ⟨l, hl, _⟩ := F.arr.getD (by omega); simp [hl]
        have hd := F.arr.double
        rw [hne] at hd
        exact ⟨hd, rfl, by simp only; omega⟩
    · exact ⟨F.arr, rfl, by omega⟩
  obtain ⟨p', e, a', _⟩ := key.1.snoc key.2.2 b
  refine ⟨_, by rw [FreeL.put, key.2.1, hi, e]; rfl, a', by simp⟩

/-- taking a block from the reserve or from the allocator -/
theorem FOK.get {f : FreeL} (F : FOK f fs) (G : Grid B h us fs g) (w : h.Wf) :
    ∃ b f' h' fs', f.get h = some (b, f', h') ∧ FOK f' fs' ∧ Grid B h' us fs' g ∧ b ∉ us ++ fs' ∧
      h'.live b = true ∧ (∀ j, j < B → h'.cells b j = none) ∧
      Heap.Frame h h' (us ++ fs) (b :: (us ++ fs')) := by
  rw [FreeL.get]
  split
  · rename_i h0
    have : fs = [] := List.length_eq_zero_iff.1 (by rw [← F.idx]; exact h0)
    subst this
    have hnew : h.next ∉ us ++ [] := fun hm => by have := w.live _ (G.live _ hm); omega
    refine ⟨_, _, _, [], rfl, F, ⟨G.nodup, ?_, G.cells, by simp⟩, hnew, by simp [Heap.alloc],
      fun j _ => w.cells _ (Nat.le_refl _) j, Heap.Frame.alloc w _⟩
    intro b hb
    rw [Heap.alloc_live]; split
    · rfl
    · exact G.live b hb
  · rename_i h0
    have hfl : 0 < fs.length := by rw [← F.idx]; omega
    obtain ⟨fs', b, rfl⟩ : ∃ fs' b, fs = fs' ++ [b] :=
      ⟨fs.dropLast, fs.getLast (List.length_pos_iff.1 hfl), (List.dropLast_concat_getLast _).symm⟩
    have hi := F.idx
    have hc : (f.idx : Int) - 1 = (fs'.length : Int) := by rw [hi]; simp
    rw [hc, F.arr.slotGet (show (fs' ++ [b])[fs'.length]? = some b by simp)]
    have hp : (us ++ (fs' ++ [b])).Perm (b :: (us ++ fs')) := by
      rw [← List.append_assoc]; exact List.perm_append_singleton _ _
    have nd := List.nodup_cons.1 (hp.nodup_iff.1 G.nodup)
    refine ⟨b, _, h, fs', rfl, ⟨F.arr.init, by simp only; rw [hi]; simp⟩,
      ⟨nd.2, fun b' hb' => G.live b' (hp.mem_iff.2 (List.mem_cons_of_mem _ hb')), G.cells,
        fun b' hb' => G.fcells b' (by simp [hb'])⟩, nd.1, G.live b (by simp), G.fcells b (by simp),
      (Heap.Frame.refl w).congr (fun _ => Iff.rfl) (fun b' => hp.mem_iff)⟩

/-- freeing all reserve blocks -/
theorem FOK.freeFrom {N : Nat} (p : SlotPtr) (n : Nat) : ∀ {h : Heap X} {ii : Nat} {fs : List Nat},
    fs.length = n → (∀ k b, fs[k]? = some b → slotGet p ((ii + k : Nat) : Int) = some b) →
    Grid (blockSize N) h us fs g → h.Wf →
    ∃ h', FreeL.freeFrom N p n ii h = some h' ∧ Grid (blockSize N) h' us [] g ∧
      Heap.Frame h h' (us ++ fs) (us ++ []) := by
  induction n with
  | zero =>
    intro h ii fs hl _ G w
    have : fs = [] := List.length_eq_zero_iff.1 hl
    subst this
    exact ⟨h, rfl, G, Heap.Frame.refl w⟩
  | succ n ih =>
    intro h ii fs hl hs G w
    cases fs with
    | nil => simp at hl
    | cons b fs =>
      obtain ⟨h1, e1, G1, f1⟩ := G.dealloc w (List.Perm.refl (b :: fs))
      obtain ⟨h2, e2, G2, f2⟩ := ih (ii := ii + 1) (by simpa using hl) (by
        intro k b' hb'
        have := hs (k + 1) b' (by simpa using hb')
        rw [← this]; congr 1; omega) G1 f1.wf
      refine ⟨h2, ?_, G2, f1.trans f2⟩
      have := hs 0 b (by simp)
      simp only [Nat.add_zero] at this
      rw [FreeL.freeFrom, this]
      simp only [Option.bind_some, e1]
      exact e2

end Verif.Block.Deque
