import Verif.Block.Deque.Lemmas
import Verif.Block.RangeLemmas

namespace Verif.Block.Deque
open Verif.Block
variable {X : Type}
namespace Core
variable {N : Nat} {h : Heap X} {v : Deq} {xs : List X} {us fs : List Nat} {F f1 bz : Nat}

theorem frame (c : Core N h v xs us fs F f1 bz) {h' : Heap X}
    (hk : ∀ b, b ∈ us ++ fs → h'.live b = h.live b ∧ ∀ j, h'.cells b j = h.cells b j) :
    Core N h' v xs us fs F f1 bz :=
  ⟨c.grid.frame hk, c.free, c.len, c.arr, c.front, c.back, c.ne, c.fsz, c.bsz, c.f1le, c.bzle, c.size⟩

/-! ### iteration -/

/-- `end()` is inside the array of block pointers -/
def Iterable (N : Nat) (v : Deq) : Prop :=
  (v.dataptr = none → v.bsize = (blockSize N : Int)) ∧
  (v.dataptr ≠ none → ¬ (v.bsize = (blockSize N : Int) ∧ v.back + 1 = (v.avail : Int)))

theorem div_base {B : Nat} (hB : 0 < B) (F q : Nat) : (F * B + q) / B = F + q / B := by
  rw [Nat.mul_comm, Nat.mul_add_div hB]
theorem mod_base (B F q : Nat) : (F * B + q) % B = q % B := by
  rw [Nat.mul_comm, Nat.mul_add_mod]

theorem end_eq (c : Core N h v xs us fs F f1 bz) (hi : Iterable N v) :
    ∃ e, v.end? N = some e ∧ Iter.Denotes (blockSize N) v.dataptr e (F * blockSize N + (f1 + xs.length)) := by
  have hB := blockSize_pos N
  have hle := c.arr.le
  have hne := c.ne
  have hs := c.size'
  have hbz := c.bzle
  obtain ⟨l, hl, hlen⟩ := c.ptr
  have hi2 := hi.2 (by rw [hl]; simp)
  have hpos : F * blockSize N + (f1 + xs.length) = (F + (us.length - 1)) * blockSize N + bz := by
    rw [Nat.add_mul]; omega
  rw [hpos, Deq.end?]
  split
  · rename_i hb
    have hbz' : bz = blockSize N := by rw [c.bsz] at hb; omega
    have hlt : F + us.length < v.avail := by
      rw [c.back] at hi2
      rw [Classical.not_and_iff_not_or_not] at hi2
      rcases hi2 with h1 | h1
      · exact absurd hb h1
      · omega
    have hd : ((F + (us.length - 1)) * blockSize N + bz) / blockSize N = F + us.length := by
      rw [div_base hB, hbz', Nat.div_self hB]; omega
    have hm : ((F + (us.length - 1)) * blockSize N + bz) % blockSize N = 0 := by
      rw [mod_base, hbz', Nat.mod_self]
    obtain ⟨e, de⟩ := (Iter.denotes_iff (blockSize N) v.dataptr ((F + (us.length - 1)) * blockSize N + bz)).2 (by
      rw [hd, hl, Option.getD_some]; omega)
    refine ⟨e, ?_, de⟩
    rw [hl]
    simp only
    rw [← hl]
    have := de
    rw [Iter.Denotes, hd, hm] at this
    rw [c.back, show (F : Int) + (us.length : Int) - 1 + 1 = ((F + us.length : Nat) : Int) by omega]
    exact this
  · rename_i hb
    have hbz' : bz < blockSize N := by rw [c.bsz] at hb; omega
    have hd : ((F + (us.length - 1)) * blockSize N + bz) / blockSize N = F + (us.length - 1) := by
      rw [div_base hB, Nat.div_eq_of_lt hbz']; rfl
    have hm : ((F + (us.length - 1)) * blockSize N + bz) % blockSize N = bz := by
      rw [mod_base, Nat.mod_eq_of_lt hbz']
    obtain ⟨e, de⟩ := (Iter.denotes_iff (blockSize N) v.dataptr ((F + (us.length - 1)) * blockSize N + bz)).2 (by
      rw [hd, hl, Option.getD_some]; omega)
    refine ⟨e, ?_, de⟩
    have := de
    rw [Iter.Denotes, hd, hm] at this
    rw [c.back, c.bsz, show (F : Int) + (us.length : Int) - 1 = ((F + (us.length - 1) : Nat) : Int) by omega]
    exact this

theorem begin_eq (c : Core N h v xs us fs F f1 bz) (hn : 0 < xs.length) :
    ∃ e, v.begin? N = some e ∧ Iter.Denotes (blockSize N) v.dataptr e (F * blockSize N + f1) := by
  have hB := blockSize_pos N
  have hle := c.arr.le
  have hne := c.ne
  have hf := c.f1le
  obtain ⟨l, hl, hlen⟩ := c.ptr
  rw [Deq.begin?, if_neg (by rw [← c.len]; omega)]
  split
  · rename_i hb
    have hf1 : f1 = blockSize N := by rw [c.fsz] at hb; omega
    have hL : 1 < us.length := by
      have := c.fit
      rcases Nat.lt_or_ge 1 us.length with h1 | h1
      · exact h1
      · have := Nat.mul_le_mul_right (blockSize N) h1
        omega
    have hd : (F * blockSize N + f1) / blockSize N = F + 1 := by
      rw [div_base hB, hf1, Nat.div_self hB]
    have hm : (F * blockSize N + f1) % blockSize N = 0 := by
      rw [mod_base, hf1, Nat.mod_self]
    obtain ⟨e, de⟩ := (Iter.denotes_iff (blockSize N) v.dataptr (F * blockSize N + f1)).2 (by
      rw [hd, hl, Option.getD_some]; omega)
    refine ⟨e, ?_, de⟩
    have := de
    rw [Iter.Denotes, hd, hm] at this
    rw [c.front]
    exact this
  · rename_i hb
    have hf1 : f1 < blockSize N := by rw [c.fsz] at hb; omega
    have hd : (F * blockSize N + f1) / blockSize N = F := by
      rw [div_base hB, Nat.div_eq_of_lt hf1]; rfl
    have hm : (F * blockSize N + f1) % blockSize N = f1 := by
      rw [mod_base, Nat.mod_eq_of_lt hf1]
    obtain ⟨e, de⟩ := (Iter.denotes_iff (blockSize N) v.dataptr (F * blockSize N + f1)).2 (by
      rw [hd, hl, Option.getD_some]; omega)
    refine ⟨e, ?_, de⟩
    have := de
    rw [Iter.Denotes, hd, hm] at this
    rw [c.front, c.fsz, show (f1 : Int) - 1 + 1 = (f1 : Int) by omega]
    exact this

theorem slot_pos (c : Core N h v xs us fs F f1 bz) {n : Nat} (hn : n < xs.length) :
    ∃ b, us[(f1 + n) / blockSize N]? = some b ∧
      slotGet v.dataptr (((F * blockSize N + (f1 + n)) / blockSize N : Nat) : Int) = some b := by
  obtain ⟨b, hb, _⟩ := c.cell_eq hn
  exact ⟨b, hb, by rw [div_base (blockSize_pos N)]; exact c.arr.slotGet hb⟩

theorem iterate_eq (c : Core N h v xs us fs F f1 bz) (hi : Iterable N v) : v.iterate N h = some xs := by
  obtain ⟨e, he, de⟩ := c.end_eq hi
  rw [Deq.iterate]
  rcases Nat.eq_zero_or_pos xs.length with h0 | hn
  · have hx : xs = [] := List.length_eq_zero_iff.1 h0
    subst hx
    have : v.begin? N = some e := by rw [Deq.begin?, if_pos (by rw [← c.len]; rfl), he]
    rw [this, he]
    simp only [Option.bind_some]
    exact Iter.Denotes.collect (blockSize_pos N) h [] de de (by simp) (by simp)
  · obtain ⟨b, hb, db⟩ := c.begin_eq hn
    rw [hb, he]
    simp only [Option.bind_some]
    refine Iter.Denotes.collect (blockSize_pos N) h xs db (by rw [Nat.add_assoc]; exact de) (by rw [c.len]; omega) ?_
    intro i hi
    obtain ⟨b', h1, h2⟩ := c.slot_pos hi
    refine ⟨b', by rw [Nat.add_assoc]; exact h2, ?_⟩
    rw [Nat.add_assoc, mod_base, c.cell_val h1, List.getElem?_eq_getElem hi]

theorem iterate_null (nl : Null v) (hb : v.bsize = (blockSize N : Int)) : v.iterate N h = some [] := by
  rw [Deq.iterate, Deq.begin?, if_pos nl.cs, Deq.end?, if_pos hb, nl.ptr]
  simp [Iter.make, derefVec, Iter.collect, Iter.ne]

/-- forming `end()` when the last block slot is full reads beyond the array of block pointers -/
theorem end_full (c : Core N h v xs us fs F f1 bz) (h1 : v.bsize = (blockSize N : Int))
    (h2 : v.back + 1 = (v.avail : Int)) : v.end? N = none := by
  obtain ⟨l, hl, hlen⟩ := c.ptr
  rw [Deq.end?, if_pos h1, hl]
  simp only [Iter.make, derefVec]
  rw [h2, ← hlen]; simp

/-! ### assign -/

/-- writing element `n` through an iterator -/
theorem put_eq (c : Core N h v xs us fs F f1 bz) {it : Iter} {n : Nat} (hn : n < xs.length)
    (d : Iter.Denotes (blockSize N) v.dataptr it (F * blockSize N + (f1 + n))) (x : X) :
    InRange.put (blockSize N) h it x = v.set N h n x := by
  obtain ⟨b, hb, hs⟩ := c.slot_pos hn
  obtain ⟨b', hb', hc⟩ := c.cell_eq hn
  rw [hb] at hb'; cases hb'
  rw [put_denotes h d hs, Deq.set, hc, mod_base]; rfl

theorem deref_eq (c : Core N h v xs us fs F f1 bz) {it : Iter} {n : Nat} (hn : n < xs.length)
    (d : Iter.Denotes (blockSize N) v.dataptr it (F * blockSize N + (f1 + n))) :
    it.deref (blockSize N) h = some xs[n] := by
  obtain ⟨b, hb, hs⟩ := c.slot_pos hn
  have := c.cell_val hb
  rw [d.deref_eq h hs, mod_base, this, List.getElem?_eq_getElem hn]

theorem ne_of {B : Nat} {arr : SlotPtr} {a b : Iter} {n m : Nat} (d : Iter.Denotes B arr a n)
    (d' : Iter.Denotes B arr b m) : a.ne b = decide (n ≠ m) := by
  rw [Iter.ne_eq_not_eq, eq_denotes d d']; simp

/-- The range `R` and the deque share no blocks. -/
theorem fetch {R : InRange X} {B : List Nat} {Q : Heap X → Prop} {s : R.S} {z : X} {zs : List X}
    (c : Core N h v xs us fs F f1 bz) (w : h.Wf) (hd : ∀ b, b ∈ us ++ fs → b ∉ B) (D : Feeds R B Q (z :: zs) s h) :
    R.atEnd s = false ∧ ∃ s' h', R.next s = some s' ∧ R.fetch s h = some (z, h') ∧ Core N h' v xs us fs F f1 bz ∧
      Heap.Frame h h' B B ∧ Feeds R B Q zs s' h' := by
  obtain ⟨h0, s', hs, hh⟩ := D
  obtain ⟨h2, e2, f2, F2⟩ := hh h w (Agree.refl _ _)
  exact ⟨h0, s', h2, hs, e2, c.frame fun b hb => f2.keep b (w.live b (c.grid.live b hb)) (hd b hb), f2, F2⟩

theorem assignLoop_eq {R : InRange X} {B : List Nat} {Q : Heap X → Prop} (e : Iter) (ys : List X) :
    ∀ {h : Heap X} {pre rest : List X} {it : Iter} {fuel : Nat} {s : R.S},
    Core N h v (pre ++ rest) us fs F f1 bz → h.Wf → (∀ b, b ∈ B → b < h.next) → (∀ b, b ∈ us ++ fs → b ∉ B) →
    Feeds R B Q ys s h → ys.length ≤ fuel →
    Iter.Denotes (blockSize N) v.dataptr it (F * blockSize N + (f1 + pre.length)) →
    Iter.Denotes (blockSize N) v.dataptr e (F * blockSize N + (f1 + (pre ++ rest).length)) →
    ∃ h' it' s', Deq.assignLoop (blockSize N) v.dataptr e R fuel s it h = some (h', it', s') ∧
      Feeds R B Q (ys.drop rest.length) s' h' ∧
      Core N h' v (pre ++ (ys.take rest.length ++ rest.drop ys.length)) us fs F f1 bz ∧
      Heap.Frame h h' (us ++ fs ++ B) (us ++ fs ++ B) ∧
      Iter.Denotes (blockSize N) v.dataptr it'
        (F * blockSize N + (f1 + (pre.length + min ys.length rest.length))) := by
  induction ys with
  | nil =>
    intro h pre rest it fuel s c w _ _ D _ d _
    refine ⟨h, it, s, ?_, by simpa using D, by simpa using c, Heap.Frame.refl w, by simpa using d⟩
    cases fuel <;> simp [Deq.assignLoop, D.1]
  | cons y ys ih =>
    intro h pre rest it fuel s c w hB hd D hf d de
    obtain ⟨fuel, rfl⟩ : ∃ f, fuel = f + 1 := ⟨fuel - 1, by simp at hf; omega⟩
    rw [Deq.assignLoop, ne_of d de]
    cases rest with
    | nil =>
      refine ⟨h, it, s, by simp, by simpa using D, by simpa using c, Heap.Frame.refl w, by simpa using d⟩
    | cons r rest =>
      obtain ⟨h0, s', h1, hn, e1, c1, fr1, D1⟩ := c.fetch w hd D
      rw [if_pos ⟨h0, by simp⟩, e1]
      have hB1 : ∀ b, b ∈ B → b < h1.next := fun b hb => Nat.lt_of_lt_of_le (hB b hb) fr1.next_le
      have hlt : pre.length < (pre ++ r :: rest).length := by simp
      obtain ⟨h2, e2, c2, fr2⟩ := c1.set_eq fr1.wf hlt y
      simp only [Option.bind_some]
      rw [c1.put_eq hlt d, e2]
      simp only [Option.bind_some]
      have hset : (pre ++ r :: rest).set pre.length y = (pre ++ [y]) ++ rest := by simp
      rw [hset] at c2
      obtain ⟨it', d'⟩ := de.mono (m := F * blockSize N + (f1 + pre.length) + 1) (by simp; omega)
      have hinc : it.incr (blockSize N) v.dataptr = some it' := by
        rw [Iter.incr_eq]; exact d.add (blockSize_pos N) d'
      rw [hinc]
      simp only [Option.bind_some]
      rw [hn]
      simp only [Option.bind_some]
      have D2 := D1.agree (fr2.agree hB1 fun b hb hb' => hd b hb' hb)
      obtain ⟨h3, it3, s3, e3, D3, c3, fr3, d3⟩ := ih c2 fr2.wf (fun b hb => Nat.lt_of_lt_of_le (hB1 b hb) fr2.next_le) hd D2
        (Nat.le_of_succ_le_succ hf) (by simpa [Nat.add_assoc] using d') (by
        have : ((pre ++ [y]) ++ rest).length = (pre ++ r :: rest).length := by simp
        rw [this]; exact de)
      refine ⟨h3, it3, s3, e3, by simpa using D3, by simpa using c3, ((fr1.extend _).trans (frame_left fr2 B)).trans fr3, ?_⟩
      have : (pre ++ [y]).length + min ys.length rest.length =
          pre.length + min (y :: ys).length (r :: rest).length := by simp; omega
      rw [← this]; exact d3

theorem countTo_eq {B : Nat} (hB : 0 < B) {arr : SlotPtr} {e : Iter} (m : Nat) : ∀ {it : Iter} {n fuel : Nat},
    Iter.Denotes B arr it n → Iter.Denotes B arr e (n + m) → m ≤ fuel →
    Deq.countTo B arr e fuel it = some m := by
  induction m with
  | zero =>
    intro it n fuel d de _
    have := ne_of d de
    cases fuel <;> simp [Deq.countTo, this]
  | succ m ih =>
    intro it n fuel d de hf
    obtain ⟨fuel, rfl⟩ : ∃ f, fuel = f + 1 := ⟨fuel - 1, by omega⟩
    have hne := ne_of d de
    obtain ⟨it', d'⟩ := de.mono (m := n + 1) (by omega)
    have hi : it.incr B arr = some it' := by rw [Iter.incr_eq]; exact d.add hB d'
    rw [Deq.countTo, hne, if_pos (by simp), hi]
    simp only [Option.bind_some]
    rw [ih d' (by rwa [show n + 1 + m = n + (m + 1) by omega]) (by omega)]; rfl

theorem popN_eq (P : Pol) (n : Nat) : ∀ {h : Heap X} {v : Deq} {xs : List X} {us fs : List Nat} {bz : Nat},
    Core N h v xs us fs F f1 bz → h.Wf →
    ∃ v' h' us' fs' bz', Deq.popN P N n v h = some (v', h') ∧
      Core N h' v' (xs.take (xs.length - n)) us' fs' F f1 bz' ∧
      Heap.Frame h h' (us ++ fs) (us' ++ fs') ∧ us' <+: us := by
  induction n with
  | zero =>
    intro h v xs us fs bz c w
    exact ⟨v, h, us, fs, bz, rfl, by simpa using c, Heap.Frame.refl w, List.prefix_refl _⟩
  | succ n ih =>
    intro h v xs us fs bz c w
    obtain ⟨v1, h1, us1, fs1, bz1, e1, c1, fr1, p1⟩ := c.popBack_eq P w
    obtain ⟨v2, h2, us2, fs2, bz2, e2, c2, fr2, p2⟩ := ih c1 fr1.wf
    refine ⟨v2, h2, us2, fs2, bz2, ?_, ?_, fr1.trans fr2, p2.trans p1⟩
    · rw [Deq.popN, e1]; exact e2
    · have : xs.take (xs.length - (n + 1)) = xs.dropLast.take (xs.dropLast.length - n) := by
        rw [List.dropLast_eq_take, List.take_take, List.length_take]
        congr 1; omega
      rw [this]; exact c2

theorem pushFrom_end {P : Pol} {R : InRange X} {s : R.S} (fuel : Nat) (he : R.atEnd s = true) :
    Deq.pushFrom P N R fuel s v h = some (v, h) := by
  cases fuel <;> simp [Deq.pushFrom, he]

theorem pushFrom_eq (P : Pol) {R : InRange X} {B : List Nat} {Q : Heap X → Prop} (ys : List X) :
    ∀ {h : Heap X} {v : Deq} {xs : List X} {us fs : List Nat} {F bz fuel : Nat} {s : R.S},
    Core N h v xs us fs F f1 bz → h.Wf → (∀ b, b ∈ B → b < h.next) → (∀ b, b ∈ us ++ fs → b ∉ B) →
    Feeds R B Q ys s h → ys.length ≤ fuel →
    ∃ v' h' us' fs' F' bz', Deq.pushFrom P N R fuel s v h = some (v', h') ∧
      Core N h' v' (xs ++ ys) us' fs' F' f1 bz' ∧
      Heap.Frame h h' (us ++ fs ++ B) (us' ++ fs' ++ B) ∧ (∀ b, b ∈ us' ++ fs' → b ∉ B) ∧ Q h' ∧ us <+: us' := by
  induction ys with
  | nil =>
    intro h v xs us fs F bz fuel s c w _ hd D _
    exact ⟨v, h, us, fs, F, bz, pushFrom_end fuel D.1, by simpa using c, Heap.Frame.refl w, hd, D.2 h w (Agree.refl _ _),
      List.prefix_refl _⟩
  | cons y ys ih =>
    intro h v xs us fs F bz fuel s c w hB hd D hf
    obtain ⟨fuel, rfl⟩ : ∃ f, fuel = f + 1 := ⟨fuel - 1, by simp at hf; omega⟩
    obtain ⟨h0, s', h1, hn, e1, c1, fr1, D1⟩ := c.fetch w hd D
    have hB1 : ∀ b, b ∈ B → b < h1.next := fun b hb => Nat.lt_of_lt_of_le (hB b hb) fr1.next_le
    obtain ⟨v2, h2, us2, fs2, F2, bz2, e2, c2, fr2, p2⟩ := c1.pushBack_eq P fr1.wf y
    have hd2 := fr2.disjoint hB1 hd
    have D2 := D1.agree (fr2.agree hB1 fun b hb hb' => hd b hb' hb)
    obtain ⟨v3, h3, us3, fs3, F3, bz3, e3, c3, fr3, d3, q3, p3⟩ := ih c2 fr2.wf
      (fun b hb => Nat.lt_of_lt_of_le (hB1 b hb) fr2.next_le) hd2 D2 (Nat.le_of_succ_le_succ hf)
    refine ⟨v3, h3, us3, fs3, F3, bz3, ?_, by simpa using c3, ((fr1.extend _).trans (frame_left fr2 B)).trans fr3, d3, q3,
      p2.trans p3⟩
    rw [Deq.pushFrom, if_pos h0, e1]
    simp only [Option.bind_some]
    rw [e2]
    simp only [Option.bind_some]
    rw [hn]
    exact e3

theorem pushFrom_null (P : Pol) {R : InRange X} {B : List Nat} {Q : Heap X → Prop} (nl : Null v)
    (hb : v.bsize = (blockSize N : Int)) (hi : v.free.idx = 0) (w : h.Wf) (hB : ∀ b, b ∈ B → b < h.next)
    {y : X} {ys : List X} {s : R.S} {fuel : Nat} (D : Feeds R B Q (y :: ys) s h) (hf : (y :: ys).length ≤ fuel) :
    ∃ v' h' us' fs' F' f1' bz', Deq.pushFrom P N R fuel s v h = some (v', h') ∧
      Core N h' v' (y :: ys) us' fs' F' f1' bz' ∧ Heap.Frame h h' ([] ++ [] ++ B) (us' ++ fs' ++ B) ∧
      (∀ b, b ∈ us' ++ fs' → b ∉ B) ∧ Q h' := by
  obtain ⟨fuel, rfl⟩ : ∃ f, fuel = f + 1 := ⟨fuel - 1, by simp at hf; omega⟩
  obtain ⟨h0, s', hn, hh⟩ := D
  obtain ⟨h1, e1, fr1, D1⟩ := hh h w (Agree.refl _ _)
  have hB1 : ∀ b, b ∈ B → b < h1.next := fun b hb => Nat.lt_of_lt_of_le (hB b hb) fr1.next_le
  obtain ⟨v2, h2, us2, bz2, e2, c2, fr2⟩ := pushBack_null P nl hb hi fr1.wf y
  have hd2 := fr2.disjoint (B := B) hB1 (by simp)
  have D2 := D1.agree (fr2.agree hB1 (by simp))
  obtain ⟨v3, h3, us3, fs3, F3, bz3, e3, c3, fr3, d3, q3, p3⟩ := c2.pushFrom_eq P ys (fuel := fuel) fr2.wf
    (fun b hb => Nat.lt_of_lt_of_le (hB1 b hb) fr2.next_le) hd2 D2 (Nat.le_of_succ_le_succ hf)
  refine ⟨v3, h3, us3, fs3, F3, _, bz3, ?_, c3, ((fr1.extend []).trans (frame_left fr2 B)).trans fr3, d3, q3⟩
  rw [Deq.pushFrom, if_pos h0, e1]
  simp only [Option.bind_some]
  rw [e2]
  simp only [Option.bind_some]
  rw [hn]
  exact e3

theorem assignFrom_eq (P : Pol) {R : InRange X} {B : List Nat} {Q : Heap X → Prop} {s : R.S} {fuel : Nat}
    (c : Core N h v xs us fs F f1 bz) (w : h.Wf) (hB : ∀ b, b ∈ B → b < h.next) (hd : ∀ b, b ∈ us ++ fs → b ∉ B)
    {ys : List X} (D : Feeds R B Q ys s h) (hf : ys.length ≤ fuel) (hi : xs = [] ∨ Iterable N v) :
    ∃ v' h' us' fs' F' bz', Deq.assignFrom P N R fuel v h s = some (v', h') ∧ Core N h' v' ys us' fs' F' f1 bz' ∧
      Heap.Frame h h' (us ++ fs ++ B) (us' ++ fs' ++ B) ∧ (∀ b, b ∈ us' ++ fs' → b ∉ B) ∧ Q h' ∧
      (us <+: us' ∨ us' <+: us) := by
  rw [Deq.assignFrom, Deq.assignOver]
  rcases Nat.eq_zero_or_pos xs.length with h0 | hn
  · have hx : xs = [] := List.length_eq_zero_iff.1 h0
    subst hx
    rw [if_neg (by rw [← c.len]; simp)]
    obtain ⟨v2, h2, us2, fs2, F2, bz2, e2, c2, fr2, d2, q2, p2⟩ := c.pushFrom_eq P ys w hB hd D hf
    exact ⟨v2, h2, us2, fs2, F2, bz2, e2, c2, fr2, d2, q2, .inl p2⟩
  · have hit : Iterable N v := hi.resolve_left (by rintro rfl; simp at hn)
    rw [if_pos (by rw [← c.len]; omega)]
    obtain ⟨b, hb, db⟩ := c.begin_eq hn
    obtain ⟨e, he, de⟩ := c.end_eq hit
    rw [hb, he]
    simp only [Option.bind_some]
    obtain ⟨h1, it1, s1, e1, D1, c1, fr1, d1⟩ := assignLoop_eq e ys (pre := []) (rest := xs) c w hB hd D hf
      (by simpa using db) (by simpa using de)
    have hB1 : ∀ b, b ∈ B → b < h1.next := fun b hb => Nat.lt_of_lt_of_le (hB b hb) fr1.next_le
    simp only [List.nil_append, List.length_nil, Nat.zero_add] at c1 d1
    rw [e1]
    simp only [Option.bind_some]
    rw [D1.atEnd]
    rcases Nat.lt_or_ge xs.length ys.length with hlt | hge
    · have hne : (ys.drop xs.length).isEmpty = false := by
        rw [List.isEmpty_eq_false_iff]
        intro h'; have := congrArg List.length h'; simp at this; omega
      rw [hne, if_neg (by simp)]
      simp only [Option.bind_some]
      rw [List.drop_eq_nil_of_le (show xs.length ≤ ys.length by omega), List.append_nil] at c1
      obtain ⟨v2, h2, us2, fs2, F2, bz2, e2, c2, fr2, d2, q2, p2⟩ := c1.pushFrom_eq P (ys.drop xs.length) (fuel := fuel) fr1.wf
        hB1 hd D1 (by simp; omega)
      rw [List.take_append_drop] at c2
      exact ⟨v2, h2, us2, fs2, F2, bz2, e2, c2, fr1.trans fr2, d2, q2, .inl p2⟩
    · have hem : ys.drop xs.length = [] := List.drop_eq_nil_of_le hge
      rw [hem] at D1 ⊢
      rw [List.isEmpty_nil, if_pos rfl]
      rw [Nat.min_eq_left hge] at d1
      rw [countTo_eq (blockSize_pos N) (xs.length - ys.length) d1
        (by rw [show F * blockSize N + (f1 + ys.length) + (xs.length - ys.length) = F * blockSize N + (f1 + xs.length) by omega]; exact de)
        (by rw [← c.len]; omega)]
      simp only [Option.bind_some]
      rw [List.take_of_length_le hge] at c1
      obtain ⟨v2, h2, us2, fs2, bz2, e2, c2, fr2, p2⟩ := popN_eq P (xs.length - ys.length) c1 fr1.wf
      rw [e2]
      refine ⟨v2, h2, us2, fs2, F, bz2, pushFrom_end fuel D1.1, ?_, fr1.trans (frame_left fr2 B), fr2.disjoint hB1 hd,
        D1.2 h2 fr2.wf (fr2.agree hB1 fun b hb hb' => hd b hb' hb), .inr p2⟩
      have : (ys ++ xs.drop ys.length).take ((ys ++ xs.drop ys.length).length - (xs.length - ys.length)) = ys := by
        simp only [List.length_append, List.length_drop, Nat.add_sub_cancel, List.take_left]
      rw [this] at c2; exact c2

/-! ### ranges of a deque as input -/

theorem feeds {last : Iter} {q : Nat} (left : Nat → Option X) (n : Nat) :
    ∀ {h : Heap X} {xs : List X} {it : Iter} {p k : Nat},
    Core N h v xs us fs F f1 bz → Iter.Denotes (blockSize N) v.dataptr it (F * blockSize N + (f1 + p)) →
    Iter.Denotes (blockSize N) v.dataptr last (F * blockSize N + (f1 + q)) → p + n = q → q ≤ xs.length →
    Feeds (.iter (blockSize N) v.dataptr last left) (us ++ fs)
      (fun h' => Core N h' v (leave left k p n xs) us fs F f1 bz) ((xs.take q).drop p) (k, it) h := by
  induction n with
  | zero =>
    intro h xs it p k c d dl hq hle
    have : (xs.take q).drop p = [] := List.drop_eq_nil_of_le (by simp; omega)
    rw [this]
    refine ⟨?_, fun h1 w a => c.frame a⟩
    show it.eq last = true
    rw [eq_denotes d dl, decide_eq_true_eq]; omega
  | succ n ih =>
    intro h xs it p k c d dl hq hle
    have hp : p < xs.length := by omega
    have : (xs.take q).drop p = xs[p] :: (xs.take q).drop (p + 1) := by
      rw [List.drop_eq_getElem_cons (by simp; omega), List.getElem_take]
    rw [this]
    obtain ⟨it', d'⟩ := dl.mono (m := F * blockSize N + (f1 + p) + 1) (by omega)
    have hi : it.incr (blockSize N) v.dataptr = some it' := by
      rw [Iter.incr_eq]; exact d.add (blockSize_pos N) d'
    refine ⟨?_, (k + 1, it'), ?_, ?_⟩
    · show it.eq last = false
      rw [eq_denotes d dl, decide_eq_false_iff_not]; omega
    · show (it.incr _ _).map _ = _
      rw [hi]; rfl
    · intro h1 w a
      have c1 := c.frame a
      cases hl : left k with
      | none =>
        refine ⟨h1, ?_, Heap.Frame.refl w, ?_⟩
        · show (it.deref _ _).bind _ = _
          rw [c1.deref_eq hp d]; simp [hl]
        · have := ih (p := p + 1) (k := k + 1) c1 d' dl (by omega) hle
          simp only [leave, hl]; exact this
      | some y =>
        obtain ⟨h2, e2, c2, f2⟩ := c1.set_eq w hp y
        refine ⟨h2, ?_, f2, ?_⟩
        · show (it.deref _ _).bind _ = _
          rw [c1.deref_eq hp d]; simp [hl, c1.put_eq hp d, e2]
        · have := ih (p := p + 1) (k := k + 1) c2 d' dl (by omega) (by simpa using hle)
          simp only [leave, hl]
          have e : ((xs.set p y).take q).drop (p + 1) = (xs.take q).drop (p + 1) := by
            rw [List.take_set, List.drop_set_of_lt (by omega)]
          rw [← e]; exact this

/-- A range of the deque itself, with first element not before the position assigned to. -/
theorem assignLoopSelf {last e : Iter} {q : Nat} (left : Nat → Option X) (n : Nat) :
    ∀ {h : Heap X} {xs : List X} {it tg : Iter} {p k ii fuel : Nat},
    Core N h v xs us fs F f1 bz → h.Wf → Iter.Denotes (blockSize N) v.dataptr it (F * blockSize N + (f1 + p)) →
    Iter.Denotes (blockSize N) v.dataptr last (F * blockSize N + (f1 + q)) →
    Iter.Denotes (blockSize N) v.dataptr tg (F * blockSize N + (f1 + ii)) →
    Iter.Denotes (blockSize N) v.dataptr e (F * blockSize N + (f1 + xs.length)) →
    p + n = q → q ≤ xs.length → n ≤ fuel → ii ≤ p → ((∀ k, left k = none) ∨ ii < p) →
    ∃ h' tg' s' xs', Deq.assignLoop (blockSize N) v.dataptr e (.iter (blockSize N) v.dataptr last left) fuel (k, it) tg h =
        some (h', tg', s') ∧
      InRange.atEnd (.iter (blockSize N) v.dataptr last left) s' = true ∧
      Iter.Denotes (blockSize N) v.dataptr tg' (F * blockSize N + (f1 + (ii + n))) ∧
      Core N h' v xs' us fs F f1 bz ∧ xs'.length = xs.length ∧ xs'.take (ii + n) = xs.take ii ++ (xs.take q).drop p ∧
      Heap.Frame h h' (us ++ fs) (us ++ fs) := by
  induction n with
  | zero =>
    intro h xs it tg p k ii fuel c w d dl dt de hq hle _ hip _
    have : (xs.take q).drop p = [] := List.drop_eq_nil_of_le (by simp; omega)
    have he : it.eq last = true := by rw [eq_denotes d dl, decide_eq_true_eq]; omega
    refine ⟨h, tg, (k, it), xs, ?_, he, dt, c, rfl, by simp [this], Heap.Frame.refl w⟩
    have he' : ¬ (InRange.atEnd (.iter (blockSize N) v.dataptr last left) (k, it) = false ∧ tg.ne e = true) := by
      rintro ⟨h2, _⟩
      have h3 : it.eq last = false := h2
      rw [he] at h3; cases h3
    cases fuel <;> (rw [Deq.assignLoop, if_neg he'])
  | succ n ih =>
    intro h xs it tg p k ii fuel c w d dl dt de hq hle hf hip hl
    obtain ⟨fuel, rfl⟩ : ∃ f, fuel = f + 1 := ⟨fuel - 1, by omega⟩
    have hp : p < xs.length := by omega
    have hrest : (xs.take q).drop p = xs[p] :: (xs.take q).drop (p + 1) := by
      rw [List.drop_eq_getElem_cons (by simp; omega), List.getElem_take]
    obtain ⟨it', d'⟩ := dl.mono (m := F * blockSize N + (f1 + p) + 1) (by omega)
    have hi : it.incr (blockSize N) v.dataptr = some it' := by
      rw [Iter.incr_eq]; exact d.add (blockSize_pos N) d'
    obtain ⟨tg', dt'⟩ := de.mono (m := F * blockSize N + (f1 + ii) + 1) (by omega)
    have hti : tg.incr (blockSize N) v.dataptr = some tg' := by
      rw [Iter.incr_eq]; exact dt.add (blockSize_pos N) dt'
    have he : InRange.atEnd (.iter (blockSize N) v.dataptr last left) (k, it) = false := by
      show it.eq last = false
      rw [eq_denotes d dl, decide_eq_false_iff_not]; omega
    have hte : tg.ne e = true := by rw [ne_of dt de, decide_eq_true_eq]; omega
    -- the element read, and what is left of it
    obtain ⟨h1, xs1, e1, c1, f1', hlen1, htk1, hdr1⟩ : ∃ h1 xs1,
        InRange.fetch (.iter (blockSize N) v.dataptr last left) (k, it) h = some (xs[p], h1) ∧
        Core N h1 v xs1 us fs F f1 bz ∧ Heap.Frame h h1 (us ++ fs) (us ++ fs) ∧ xs1.length = xs.length ∧
        xs1.take ii = xs.take ii ∧ xs1.drop (p + 1) = xs.drop (p + 1) := by
      cases hlk : left k with
      | none =>
        refine ⟨h, xs, ?_, c, Heap.Frame.refl w, rfl, rfl, rfl⟩
        show (it.deref _ _).bind _ = _
        rw [c.deref_eq hp d]; simp [hlk]
      | some y =>
        obtain ⟨h2, e2, c2, f2⟩ := c.set_eq w hp y
        refine ⟨h2, _, ?_, c2, f2, by simp, List.take_set_of_le (by omega), List.drop_set_of_lt (by omega)⟩
        show (it.deref _ _).bind _ = _
        rw [c.deref_eq hp d]; simp [hlk, c.put_eq hp d, e2]
    have hii : ii < xs1.length := by omega
    obtain ⟨h2, e2, c2, f2⟩ := c1.set_eq f1'.wf hii xs[p]
    obtain ⟨h3, tg3, s3, xs3, e3, t3, d3, c3, hl3, ht3, f3⟩ := ih (p := p + 1) (k := k + 1) (ii := ii + 1) (fuel := fuel) c2 f2.wf d' dl
      dt' (by simpa [hlen1] using de) (by omega) (by simp; omega) (by omega) (by omega) (hl.imp id (by omega))
    refine ⟨h3, tg3, s3, xs3, ?_, t3, ?_, c3, by rw [hl3]; simpa using hlen1, ?_, (f1'.trans f2).trans f3⟩
    · rw [Deq.assignLoop, if_pos ⟨he, hte⟩, e1]
      simp only [Option.bind_some]
      rw [c1.put_eq hii dt, e2]
      simp only [Option.bind_some]
      rw [hti]
      simp only [Option.bind_some]
      rw [hi]
      simp only [Option.map_some, Option.bind_some]
      exact e3
    · rw [show ii + (n + 1) = ii + 1 + n by omega]; exact d3
    · rw [show ii + (n + 1) = ii + 1 + n by omega, ht3, hrest, List.take_add_one, List.take_set_of_le (Nat.le_refl _),
        List.getElem?_set_self hii, htk1]
      have : ((xs1.set ii xs[p]).take q).drop (p + 1) = (xs.take q).drop (p + 1) := by
        rw [List.drop_take, List.drop_take, List.drop_set_of_lt (by omega), hdr1]
      rw [this]; simp

/-- Assigning a range of the deque itself. -/
theorem assignFromSelf (P : Pol) {last it : Iter} {p q k fuel : Nat} (left : Nat → Option X)
    (c : Core N h v xs us fs F f1 bz) (w : h.Wf)
    (d : Iter.Denotes (blockSize N) v.dataptr it (F * blockSize N + (f1 + p)))
    (dl : Iter.Denotes (blockSize N) v.dataptr last (F * blockSize N + (f1 + q))) (hpq : p ≤ q)
    (hle : q ≤ xs.length) (hf : q - p ≤ fuel) (hl : (∀ k, left k = none) ∨ 0 < p) (hn : 0 < xs.length) (hit : Iterable N v) :
    ∃ v' h' us' fs' bz', Deq.assignFrom P N (.iter (blockSize N) v.dataptr last left) fuel v h (k, it) = some (v', h') ∧
      Core N h' v' ((xs.take q).drop p) us' fs' F f1 bz' ∧
      Heap.Frame h h' (us ++ fs) (us' ++ fs') ∧ us' <+: us := by
  rw [Deq.assignFrom, Deq.assignOver, if_pos (by rw [← c.len]; omega)]
  obtain ⟨b, hb, db⟩ := c.begin_eq hn
  obtain ⟨e, he, de⟩ := c.end_eq hit
  rw [hb, he]
  simp only [Option.bind_some]
  obtain ⟨h1, tg1, s1, xs1, e1, t1, d1, c1, l1, tk1, fr1⟩ := c.assignLoopSelf left (q - p) (k := k) (ii := 0) (fuel := fuel) w d dl
    (by simpa using db) de (by omega) hle hf (Nat.zero_le _) hl
  rw [e1]
  simp only [Option.bind_some]
  rw [if_pos t1]
  have hlen : ((xs.take q).drop p).length = q - p := by simp; omega
  rw [Nat.zero_add] at d1 tk1
  rw [countTo_eq (blockSize_pos N) (xs.length - (q - p)) d1
    (by rw [show F * blockSize N + (f1 + (q - p)) + (xs.length - (q - p)) = F * blockSize N + (f1 + xs.length) by omega]; exact de)
    (by rw [← c.len]; omega)]
  simp only [Option.bind_some]
  obtain ⟨v2, h2, us2, fs2, bz2, e2, c2, fr2, p2⟩ := popN_eq P (xs.length - (q - p)) c1 fr1.wf
  rw [e2]
  refine ⟨v2, h2, us2, fs2, bz2, pushFrom_end fuel t1, ?_, fr1.trans fr2, p2⟩
  rw [show xs1.length - (xs.length - (q - p)) = q - p by omega, tk1] at c2
  simpa using c2

/-- The iterators of a range. -/
theorem sub_iters (c : Core N h v xs us fs F f1 bz) {lo hi : Nat} (hl : lo ≤ hi)
    (hle : hi ≤ xs.length) (hr : hi < xs.length ∨ Iterable N v) :
    ∃ b first last, v.begin? N = some b ∧ b.add (blockSize N) v.dataptr lo = some first ∧
      b.add (blockSize N) v.dataptr hi = some last ∧
      Iter.Denotes (blockSize N) v.dataptr first (F * blockSize N + (f1 + lo)) ∧
      Iter.Denotes (blockSize N) v.dataptr last (F * blockSize N + (f1 + hi)) := by
  have hB := blockSize_pos N
  obtain ⟨b, hb, d⟩ : ∃ b, v.begin? N = some b ∧ Iter.Denotes (blockSize N) v.dataptr b (F * blockSize N + f1) := by
    rcases Nat.eq_zero_or_pos xs.length with h0 | hn
    · obtain ⟨e, he, de⟩ := c.end_eq (hr.resolve_left (by omega))
      exact ⟨e, by rw [Deq.begin?, if_pos (by rw [← c.len, h0]), he], by rw [h0] at de; exact de⟩
    · exact c.begin_eq hn
  have hex : ∃ l, Iter.Denotes (blockSize N) v.dataptr l (F * blockSize N + (f1 + hi)) := by
    rcases hr with h1 | h1
    · obtain ⟨b', _, hs⟩ := c.slot_pos h1
      rw [Iter.denotes_iff]
      obtain ⟨l, hl, hlen⟩ := c.ptr
      rw [hl] at hs ⊢
      simp only [slotGet] at hs
      rw [if_pos (Int.natCast_nonneg _)] at hs
      have := Option.join_eq_some_iff.1 hs
      exact (List.getElem?_eq_some_iff.1 this).1
    · obtain ⟨e, _, de⟩ := c.end_eq h1
      exact de.mono (by omega)
  obtain ⟨last, dl⟩ := hex
  obtain ⟨first, df⟩ := dl.mono (m := F * blockSize N + (f1 + lo)) (by omega)
  exact ⟨b, first, last, hb, d.add hB (by rw [Nat.add_assoc]; exact df), d.add hB (by rw [Nat.add_assoc]; exact dl), df, dl⟩

theorem all_iters (c : Core N h v xs us fs F f1 bz) (hi : Iterable N v) :
    ∃ b e, v.begin? N = some b ∧ v.end? N = some e ∧
      Iter.Denotes (blockSize N) v.dataptr b (F * blockSize N + (f1 + 0)) ∧
      Iter.Denotes (blockSize N) v.dataptr e (F * blockSize N + (f1 + xs.length)) := by
  obtain ⟨e, he, de⟩ := c.end_eq hi
  rcases Nat.eq_zero_or_pos xs.length with h0 | hn
  · exact ⟨e, e, by rw [Deq.begin?, if_pos (by rw [← c.len, h0]), he], he, by rw [h0] at de; exact de, de⟩
  · obtain ⟨b, hb, db⟩ := c.begin_eq hn
    exact ⟨b, e, hb, he, db, de⟩

/-! ### destruction -/

theorem deallocSlot_eq {g : Nat → Option X} {b : Nat} {us fs : List Nat} {p : SlotPtr} {i : Int} (w : h.Wf)
    (G : Grid (blockSize N) h (us ++ [b]) fs g) (hs : slotGet p i = some b)
    (hg : ∀ j, j < blockSize N → g (us.length * blockSize N + j) = none) :
    ∃ h', Deq.deallocSlot N p i h = some h' ∧ Grid (blockSize N) h' us fs g ∧
      Heap.Frame h h' ((us ++ [b]) ++ fs) (us ++ fs) := by
  obtain ⟨h', e, G', f⟩ := (G.dropBack hg).dealloc w (List.Perm.refl _)
  refine ⟨h', ?_, G', f.congr (by intro b'; simp) (fun _ => Iff.rfl)⟩
  rw [Deq.deallocSlot, hs]; exact e

/-- the middle blocks in `freeAll` -/
theorem freeMid_eq (P : Pol) {p : SlotPtr} {u0 F : Nat} (n : Nat) :
    ∀ {h : Heap X} {mids : List Nat} {g : Nat → Option X}, mids.length = n →
    Grid (blockSize N) h (u0 :: mids) fs g → h.Wf →
    (∀ k b, mids[k]? = some b → slotGet p ((F + 1 + k : Nat) : Int) = some b) →
    (∀ q, blockSize N ≤ q → q < (n + 1) * blockSize N → ∃ x, g q = some x) →
    ∃ h' g', Deq.freeMid P N p ((F + n : Nat) : Int) n h = some h' ∧
      Grid (blockSize N) h' [u0] fs g' ∧ (∀ q, q < blockSize N → g' q = g q) ∧
      Heap.Frame h h' ((u0 :: mids) ++ fs) ([u0] ++ fs) := by
  induction n with
  | zero =>
    intro h mids g hl G w _ _
    have : mids = [] := List.length_eq_zero_iff.1 hl
    subst this
    exact ⟨h, g, rfl, G, fun _ _ => rfl, Heap.Frame.refl w⟩
  | succ n ih =>
    intro h mids g hl G w hs hg
    obtain ⟨m, b, rfl⟩ : ∃ m b, mids = m ++ [b] :=
      ⟨mids.dropLast, mids.getLast (by rintro rfl; simp at hl), (List.dropLast_concat_getLast _).symm⟩
    have hml : m.length = n := by simpa using hl
    have hsb : slotGet p ((F + (n + 1) : Nat) : Int) = some b := by
      rw [← hs n b (by rw [← hml]; simp)]; congr 1; omega
    have hub : (u0 :: (m ++ [b]))[n + 1]? = some b := by rw [← hml]; simp
    obtain ⟨h1, e1, G1, fr1⟩ := G.destroyDown P (blockSize N) w (j := 0) hsb hub (by omega) (by
      intro q _ h2
      exact .inr (hg _ (by have := Nat.le_mul_of_pos_left (blockSize N) (show 0 < n + 1 by omega); omega)
        (by rw [Nat.add_mul (n + 1)]; omega)))
    have hcons : u0 :: (m ++ [b]) = (u0 :: m) ++ [b] := rfl
    rw [hcons] at G1
    obtain ⟨h2, e2, G2, fr2⟩ := deallocSlot_eq fr1.wf G1 hsb (by
      intro j hj
      simp only [List.length_cons, hml]
      rw [if_pos (by omega)])
    obtain ⟨h3, g3, e3, G3, hg3, fr3⟩ := ih hml G2 fr2.wf (by
      intro k b' hb'
      refine hs k b' ?_
      rw [List.getElem?_append_left (List.getElem?_eq_some_iff.1 hb').1]; exact hb') (by
      intro q h1 h2
      rw [if_neg (by omega)]
      exact hg q h1 (by rw [Nat.add_mul (n + 1)]; omega))
    refine ⟨h3, g3, ?_, G3, ?_, ?_⟩
    · rw [Nat.zero_add] at e1
      rw [Deq.freeMid, e1]
      simp only [Option.bind_some]
      rw [e2]
      simp only [Option.bind_some]
      rw [show ((F + (n + 1) : Nat) : Int) - 1 = ((F + n : Nat) : Int) by omega]
      exact e3
    · intro q hq
      rw [hg3 q hq, if_neg]
      have := Nat.le_mul_of_pos_left (blockSize N) (show 0 < n + 1 by omega)
      omega
    · exact (fr1.trans (fr2.congr (fun _ => Iff.rfl) (fun _ => Iff.rfl))).trans fr3

theorem freeAll_eq (P : Pol) (c : Core N h v xs us fs F f1 bz) (w : h.Wf) :
    ∃ h', v.freeAll P N h = some h' ∧ Heap.Frame h h' (us ++ fs) ([] ++ []) := by
  have hB := blockSize_pos N
  have hne := c.ne
  have hs := c.size'
  have hbl := c.bzle
  have hfl := c.f1le
  obtain ⟨l, hl, hlen⟩ := c.ptr
  -- the reserve blocks, once the others are gone
  have fin : ∀ {h1 : Heap X} {g : Nat → Option X}, Grid (blockSize N) h1 [] fs g → h1.Wf →
      ∃ h', FreeL.freeFrom N v.free.blocks v.free.idx 0 h1 = some h' ∧ Heap.Frame h1 h' ([] ++ fs) ([] ++ []) := by
    intro h1 g G w1
    obtain ⟨h', e, _, fr⟩ := FOK.freeFrom (N := N) v.free.blocks v.free.idx (ii := 0) c.free.idx.symm
      (fun k b hb => by rw [Nat.zero_add]; exact c.free.arr.slotGet hb) G w1
    exact ⟨h', e, fr⟩
  rw [Deq.freeAll, hl]
  simp only
  rw [← hl]
  split
  · rename_i hbf
    have hL : us.length = 1 := by rw [c.back, c.front] at hbf; omega
    obtain ⟨u0, rfl⟩ : ∃ u0, us = [u0] := List.length_eq_one_iff.1 hL
    simp only [List.length_singleton, Nat.sub_self, Nat.zero_mul, Nat.zero_add] at hs
    have hsb := c.arr.slotGet' (i := v.front) (k := 0) (b := u0) (by simp) (by rw [c.front]; simp)
    obtain ⟨h1, e1, G1, fr1⟩ := c.grid.destroyDown P (bz - f1) w (k := 0) (j := f1) (show slotGet v.dataptr v.back = some u0 by rw [hbf]; exact hsb) (by simp) (by omega)
      (fun q h1 h2 => .inr (content_in (by omega) (by omega)))
    have hn : (v.bsize - 1 - v.fsize).toNat = bz - f1 := by rw [c.bsz, c.fsz]; omega
    have hb' : v.bsize = ((f1 + (bz - f1) : Nat) : Int) := by rw [c.bsz]; omega
    rw [hn, hb', e1]
    simp only [Option.bind_some]
    obtain ⟨h2, e2, G2, fr2⟩ := deallocSlot_eq (us := []) fr1.wf G1 hsb (by
      intro j hj
      split
      · rfl
      · rename_i hh
        rcases Nat.lt_or_ge j f1 with h1 | h1
        · exact content_lt (by simpa using h1)
        · exact content_ge (by simp at hh ⊢; omega))
    rw [e2]
    simp only [Option.bind_some]
    obtain ⟨h3, e3, fr3⟩ := fin G2 fr2.wf
    exact ⟨h3, e3, (fr1.trans fr2).trans fr3⟩
  · rename_i hbf
    have hL : 1 < us.length := by rw [c.back, c.front] at hbf; omega
    obtain ⟨us', ul, rfl⟩ : ∃ us' b, us = us' ++ [b] :=
      ⟨us.dropLast, us.getLast (List.length_pos_iff.1 hne), (List.dropLast_concat_getLast _).symm⟩
    obtain ⟨u0, mids, rfl⟩ : ∃ b m, us' = b :: m := by
      cases us' with
      | nil => simp at hL
      | cons b m => exact ⟨b, m, rfl⟩
    simp only [List.length_append, List.length_cons, List.length_nil, Nat.zero_add, Nat.add_sub_cancel] at hs
    have hbk : v.back = ((F + (mids.length + 1) : Nat) : Int) := by
      rw [c.back]; simp; omega
    have hsl := c.arr.slotGet' (i := v.back) (k := mids.length + 1) (b := ul) (by simp) hbk
    have hsf := c.arr.slotGet' (i := v.front) (k := 0) (b := u0) (by simp) (by rw [c.front]; simp)
    have hmul := Nat.le_mul_of_pos_left (blockSize N) (show 0 < mids.length + 1 by omega)
    obtain ⟨h1, e1, G1, fr1⟩ := c.grid.destroyDown P bz w (k := mids.length + 1) (j := 0) hsl (by simp) (by omega)
      (fun q h1 h2 => .inr (content_in (by omega) (by omega)))
    rw [Nat.zero_add] at e1
    rw [show v.bsize.toNat = bz by rw [c.bsz]; omega, c.bsz, e1]
    simp only [Option.bind_some]
    obtain ⟨h2, e2, G2, fr2⟩ := deallocSlot_eq fr1.wf G1 hsl (by
      intro j hj
      simp only [List.length_cons]
      split
      · rfl
      · exact content_ge (by omega))
    rw [e2]
    simp only [Option.bind_some]
    obtain ⟨h3, g3, e3, G3, hg3, fr3⟩ := freeMid_eq P (F := F) (p := v.dataptr) mids.length rfl G2 fr2.wf (by
      intro k b hb
      refine c.arr.slotGet' (k := k + 1) ?_ (by omega)
      rw [List.cons_append, List.getElem?_cons_succ, List.getElem?_append_left (List.getElem?_eq_some_iff.1 hb).1]
      exact hb) (by
      intro q h1 h2
      rw [if_neg (by omega)]
      exact content_in (by omega) (by omega))
    have hcnt : (v.back - 1 - v.front).toNat = mids.length := by rw [hbk, c.front]; omega
    rw [hcnt, show v.back - 1 = ((F + mids.length : Nat) : Int) by rw [hbk]; omega, e3]
    simp only [Option.bind_some]
    obtain ⟨h4, e4, G4, fr4⟩ := G3.destroyDown P (blockSize N - f1) fr3.wf (k := 0) (j := f1) hsf (by simp) (by omega) (by
      intro q h1 h2
      refine .inr ?_
      rw [hg3 _ (by omega), if_neg (by omega)]
      exact content_in (by omega) (by omega))
    rw [show ((blockSize N : Int) - 1 - v.fsize).toNat = blockSize N - f1 by rw [c.fsz]; omega]
    rw [show f1 + (blockSize N - f1) = blockSize N by omega] at e4
    rw [e4]
    simp only [Option.bind_some]
    obtain ⟨h5, e5, G5, fr5⟩ := deallocSlot_eq (us := []) fr4.wf G4 hsf (by
      intro j hj
      simp only [List.length_nil, Nat.zero_mul, Nat.zero_add]
      split
      · rfl
      · rename_i hh
        rw [hg3 _ hj, if_neg (by omega)]
        exact content_lt (by omega))
    rw [e5]
    simp only [Option.bind_some]
    obtain ⟨h6, e6, fr6⟩ := fin G5 fr5.wf
    exact ⟨h6, e6, ((((fr1.trans fr2).trans fr3).trans fr4).trans fr5).trans fr6⟩

theorem freeAll_null (P : Pol) (nl : Null v) : v.freeAll P N h = some h := by
  rw [Deq.freeAll, nl.ptr]

/-! ### clear -/

theorem clearMid_eq (P : Pol) {p : SlotPtr} {u0 F : Nat} (n : Nat) :
    ∀ {h : Heap X} {mids gfs fs0 : List Nat} {g : Nat → Option X} {f : FreeL}, mids.length = n →
    Grid (blockSize N) h (u0 :: mids) gfs g → h.Wf → FOK f fs0 →
    (∀ k b, mids[k]? = some b → slotGet p ((F + 1 + k : Nat) : Int) = some b) →
    (∀ q, blockSize N ≤ q → q < (n + 1) * blockSize N → ∃ x, g q = some x) →
    ∃ h' g' f' mf, Deq.clearMid P N p ((F + n : Nat) : Int) n f h = some (f', h') ∧ FOK f' (fs0 ++ mf) ∧
      Grid (blockSize N) h' [u0] (mf ++ gfs) g' ∧ (∀ q, q < blockSize N → g' q = g q) ∧
      Heap.Frame h h' ((u0 :: mids) ++ gfs) ([u0] ++ (mf ++ gfs)) := by
  induction n with
  | zero =>
    intro h mids gfs fs0 g f hl G w K _ _
    have : mids = [] := List.length_eq_zero_iff.1 hl
    subst this
    exact ⟨h, g, f, [], rfl, by simpa using K, G, fun _ _ => rfl, Heap.Frame.refl w⟩
  | succ n ih =>
    intro h mids gfs fs0 g f hl G w K hs hg
    obtain ⟨m, b, rfl⟩ : ∃ m b, mids = m ++ [b] :=
      ⟨mids.dropLast, mids.getLast (by rintro rfl; simp at hl), (List.dropLast_concat_getLast _).symm⟩
    have hml : m.length = n := by simpa using hl
    have hsb : slotGet p ((F + (n + 1) : Nat) : Int) = some b := by
      rw [← hs n b (by rw [← hml]; simp)]; congr 1; omega
    have hub : (u0 :: (m ++ [b]))[n + 1]? = some b := by rw [← hml]; simp
    obtain ⟨h1, e1, G1, fr1⟩ := G.destroyDown P (blockSize N) w (j := 0) hsb hub (by omega) (by
      intro q _ h2
      exact .inr (hg _ (by have := Nat.le_mul_of_pos_left (blockSize N) (show 0 < n + 1 by omega); omega)
        (by rw [Nat.add_mul (n + 1)]; omega)))
    have hcons : u0 :: (m ++ [b]) = (u0 :: m) ++ [b] := rfl
    rw [hcons] at G1
    have G2 := G1.dropBack (by
      intro j hj
      simp only [List.length_cons, hml]
      rw [if_pos (by omega)])
    obtain ⟨f1, ef, K1⟩ := K.put b
    obtain ⟨h3, g3, f3, mf, e3, K3, G3, hg3, fr3⟩ := ih hml G2 fr1.wf K1 (by
      intro k b' hb'
      refine hs k b' ?_
      rw [List.getElem?_append_left (List.getElem?_eq_some_iff.1 hb').1]; exact hb') (by
      intro q h1 h2
      rw [if_neg (by omega)]
      exact hg q h1 (by rw [Nat.add_mul (n + 1)]; omega))
    refine ⟨h3, g3, f3, b :: mf, ?_, by simpa using K3, G3.perm List.perm_middle, ?_, ?_⟩
    · rw [Nat.zero_add] at e1
      rw [Deq.clearMid, e1]
      simp only [Option.bind_some]
      rw [hsb]
      simp only [Option.bind_some]
      rw [ef]
      simp only [Option.bind_some]
      rw [show ((F + (n + 1) : Nat) : Int) - 1 = ((F + n : Nat) : Int) by omega]
      exact e3
    · intro q hq
      rw [hg3 q hq, if_neg]
      have := Nat.le_mul_of_pos_left (blockSize N) (show 0 < n + 1 by omega)
      omega
    · exact fr1.trans (fr3.congr (by intro b'; simp) (by intro b'; simp; grind))

theorem clear_eq (P : Pol) (c : Core N h v xs us fs F f1 bz) (w : h.Wf)
    (hc : xs = [] ∨ P.triv = true ∨ 1 < us.length ∨ f1 = 0) :
    ∃ v' h' us' fs' F' f1' bz', v.clear P N h = some (v', h') ∧ Core N h' v' [] us' fs' F' f1' bz' ∧
      Heap.Frame h h' (us ++ fs) (us' ++ fs') := by
  have hB := blockSize_pos N
  have hne := c.ne
  have hs := c.size'
  have hbl := c.bzle
  have hfl := c.f1le
  have hle := c.arr.le
  have hav := c.avail_pos
  obtain ⟨l, hl, hlen⟩ := c.ptr
  rw [Deq.clear]
  split
  · rename_i h0
    have hx : xs = [] := List.length_eq_zero_iff.1 (by rw [c.len]; omega)
    subst hx
    exact ⟨v, h, us, fs, F, f1, bz, rfl, c, Heap.Frame.refl w⟩
  · rename_i h0
    have hx : 0 < xs.length := by rw [c.len]; omega
    have hc' : P.triv = true ∨ 1 < us.length ∨ f1 = 0 := hc.resolve_left (by rintro rfl; simp at hx)
    -- what happens in the end, with `u0` the first block
    have fin : ∀ {h1 : Heap X} {u0 : Nat} {fs' : List Nat} {f' : FreeL} {g : Nat → Option X}, FOK f' fs' →
        us[0]? = some u0 → Grid (blockSize N) h1 [u0] fs' g → (∀ q, q < blockSize N → g q = none) →
        ∃ p, (slotGet v.dataptr v.front).bind (fun b => slotSet v.dataptr ((v.avail / 2 : Nat) : Int) b) = some p ∧
          Core N h1 ⟨0, p, v.avail, (v.avail / 2 : Nat), (v.avail / 2 : Nat), (blockSize N / 2 : Nat) + 1,
            (blockSize N / 2 : Nat), f'⟩ [] [u0] fs' (v.avail / 2) (blockSize N / 2 + 1) (blockSize N / 2 + 1) := by
      intro h1 u0 fs' f' g K hu G hg
      obtain ⟨p, e, a⟩ := ArrAt.one (p := v.dataptr) (b := u0) (i := v.avail / 2) hl (by omega)
      rw [c.arr.slotGet' (i := v.front) hu (by rw [c.front]; simp)]
      refine ⟨p, e, ⟨G.congr ?_, K, rfl, hlen ▸ a, rfl, by simp, by simp, by simp, by simp,
        by omega, by omega, by simp; omega⟩⟩
      intro q hq
      rw [content_nil, hg q (by simpa using hq)]
    obtain ⟨ul, hul⟩ := c.last
    have hbk : v.back = ((F + (us.length - 1) : Nat) : Int) := by rw [c.back]; omega
    have hmul : 1 < us.length → blockSize N ≤ (us.length - 1) * blockSize N := fun h1 =>
      Nat.le_mul_of_pos_left (blockSize N) (by omega)
    obtain ⟨h1, e1, G1, fr1⟩ := c.grid.destroyDown P bz w (k := us.length - 1) (j := 0)
      (c.arr.slotGet' hul hbk) hul (by omega) (by
        intro q h1 h2
        rcases hc' with h3 | h3 | h3
        · exact .inl h3
        · exact .inr (content_in (by have := hmul h3; omega) (by omega))
        · exact .inr (content_in (by omega) (by omega)))
    rw [Nat.zero_add] at e1
    rw [show v.bsize.toNat = bz by rw [c.bsz]; omega, c.bsz, e1]
    simp only [Option.bind_some]
    rcases Nat.lt_or_ge 1 us.length with hL | hL
    · have hm := hmul hL
      obtain ⟨us', ul', rfl⟩ : ∃ us' b, us = us' ++ [b] :=
        ⟨us.dropLast, us.getLast (List.length_pos_iff.1 hne), (List.dropLast_concat_getLast _).symm⟩
      obtain ⟨u0, mids, rfl⟩ : ∃ b m, us' = b :: m := by
        cases us' with
        | nil => simp at hL
        | cons b m => exact ⟨b, m, rfl⟩
      simp only [List.length_append, List.length_cons, List.length_nil, Nat.zero_add, Nat.add_sub_cancel] at hs hbk hul hm G1
      have : ul' = ul := by simpa using hul
      subst this
      have G2 := G1.dropBack (by
        intro j hj
        simp only [List.length_cons]
        split
        · rfl
        · exact content_ge (by omega))
      obtain ⟨h3, g3, f3, mf, e3, K3, G3, hg3, fr3⟩ := clearMid_eq P (F := F) (p := v.dataptr) mids.length rfl G2 fr1.wf c.free (by
        intro k b hb
        refine c.arr.slotGet' (k := k + 1) ?_ (by omega)
        rw [List.cons_append, List.getElem?_cons_succ, List.getElem?_append_left (List.getElem?_eq_some_iff.1 hb).1]
        exact hb) (by
        intro q h1 h2
        rw [if_neg (by omega)]
        exact content_in (by omega) (by omega))
      rw [show (v.back - 1 - v.front).toNat = mids.length by rw [hbk, c.front]; omega,
        show v.back - 1 = ((F + mids.length : Nat) : Int) by rw [hbk]; omega, e3]
      simp only [Option.bind_some]
      obtain ⟨f4, ef4, K4⟩ := K3.put ul'
      have hsf := c.arr.slotGet' (i := v.front) (k := 0) (b := u0) (by simp) (by rw [c.front]; simp)
      obtain ⟨h5, e5, G5, fr5⟩ := G3.destroyDown P (blockSize N - f1) fr3.wf (k := 0) (j := f1) hsf (by simp) (by omega) (by
        intro q h1 h2
        refine .inr ?_
        rw [hg3 _ (by omega), if_neg (by omega)]
        exact content_in (by omega) (by omega))
      rw [show f1 + (blockSize N - f1) = blockSize N by omega] at e5
      rw [Deq.clearFront, if_pos (by rw [hbk, c.front]; omega), c.arr.slotGet' hul hbk]
      simp only [Option.bind_some]
      rw [ef4]
      simp only [Option.bind_some]
      rw [show ((blockSize N : Int) - 1 - v.fsize).toNat = blockSize N - f1 by rw [c.fsz]; omega, e5]
      simp only [Option.bind_some, Option.map_some]
      obtain ⟨p, ep, c'⟩ := fin (u0 := u0) (K4) (by simp) (G5.perm (fs' := fs ++ mf ++ [ul']) (by
          rw [List.perm_iff_count]
          intro a; simp only [List.count_append, List.count_cons, List.count_nil]; omega)) (by
        intro q hq
        split
        · rfl
        · rename_i hh
          rw [hg3 _ hq, if_neg (by omega)]
          exact content_lt (by omega))
      rw [hsf] at ep ⊢
      simp only [Option.bind_some] at ep ⊢
      rw [ep]
      refine ⟨_, h5, _, _, _, _, _, rfl, c', ?_⟩
      refine ((fr1.trans (fr3.congr ?_ (fun _ => Iff.rfl))).trans fr5).congr (fun _ => Iff.rfl) ?_
      · intro b'; simp
      · intro b'; simp; grind
    · obtain ⟨u0, rfl⟩ : ∃ u0, us = [u0] := List.length_eq_one_iff.1 (by omega)
      simp only [List.length_singleton, Nat.sub_self, Nat.zero_mul, Nat.zero_add, Nat.add_zero] at hs hbk hul
      rw [show (v.back - 1 - v.front).toNat = 0 by rw [hbk, c.front]; omega, Deq.clearMid]
      simp only [Option.bind_some]
      rw [Deq.clearFront, if_neg (by rw [hbk, c.front]; omega)]
      simp only [Option.bind_some]
      obtain ⟨p, ep, c'⟩ := fin (u0 := u0) c.free (by simp) G1 (by
        intro q hq
        simp only [List.length_singleton, Nat.sub_self, Nat.zero_mul, Nat.zero_add, Nat.add_zero]
        split
        · rfl
        · exact content_ge (by omega))
      have hsf := c.arr.slotGet' (i := v.front) (k := 0) (b := u0) (by simp) (by rw [c.front]; simp)
      rw [hsf] at ep ⊢
      simp only [Option.bind_some] at ep ⊢
      rw [ep]
      exact ⟨_, h1, _, _, _, _, _, rfl, c', fr1⟩

theorem clear_null (P : Pol) (nl : Null v) : v.clear P N h = some (v, h) := by
  rw [Deq.clear, if_pos (.inl nl.av)]

end Core
end Verif.Block.Deque
