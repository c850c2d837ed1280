import Verif.Block.Vector.Lemmas
import Verif.Block.Iterator.Lemmas

/-
The two kinds of element storage of the mapped containers: `std::vector<V>` (a list) and
`StableBlockVector<V, N>` (the model of Verif.Block.Vector, with its own heap).
-/
namespace Verif.Mapped
open Verif.Block

/-- The operations the mapped containers use; `none` is undefined behaviour. -/
structure Store (S V : Type) where
  /-- a new container -/
  empty : S
  /-- `size()` -/
  size : S → Nat
  /-- `emplace_back` -/
  push : S → V → Option S
  /-- reading `d[i]` -/
  get : S → Nat → Option V
  /-- `d[i] = v` -/
  set : S → Nat → V → Option S
  /-- `d.back()` -/
  back : S → Option V
  /-- `it = d.begin() + i`, then `*it` unless `it == d.end()` -/
  iterAt : S → Nat → Option (Option V)
  /-- `d.end()` -/
  endOk : S → Option Unit
  /-- what a loop from `begin()` to `end()` sees -/
  all : S → Option (List V)
  /-- a loop from `begin()` to `end()` that calls `F` on each element, which may change the element and its own state -/
  visit : {σ : Type} → (σ → V → σ × V) → σ → S → Option (σ × S)
  /-- `localErase` -/
  erase : S → Nat → Option (S × Bool)
  /-- `clear()` -/
  clear : S → Option S
  /-- the address of element `i` (only for stable storage) -/
  addr : S → Nat → Option (Nat × Nat)

variable {V : Type}

/-- The meaning of a visit: each element once, in order. -/
def visitList {σ V : Type} (F : σ → V → σ × V) : σ → List V → σ × List V
  | z, [] => (z, [])
  | z, x :: xs =>
    let r := visitList F (F z x).1 xs
    (r.1, (F z x).2 :: r.2)

theorem visitList_length {σ V : Type} (F : σ → V → σ × V) : ∀ (xs : List V) (z : σ), (visitList F z xs).2.length = xs.length
  | [], _ => rfl
  | x :: xs, z => by simp [visitList, visitList_length F xs]

/-- `std::vector<V>`; `localErase` at MappedVector.hpp:213-217 (DualMappedVector.hpp:410-414). -/
def vectorStore (V : Type) : Store (List V) V where
  empty := []
  size := List.length
  push xs x := some (xs ++ [x])
  get xs i := xs[i]?
  set xs i x := if i < xs.length then some (xs.set i x) else none
  back xs := xs.getLast?
  iterAt xs i := if i = xs.length then some none else (xs[i]?).map some
  endOk _ := some ()
  all xs := some xs
  visit F z xs := some (visitList F z xs)
  erase xs i := if i < xs.length then some (xs.eraseIdx i, true) else none
  clear _ := some []
  addr _ _ := none

/-- `*it = x` -/
def Iter.write (bs : Nat) (h : Heap V) (it : Iter) (x : V) : Option (Heap V) :=
  it.blk.bind fun b => if 0 ≤ it.pos then h.assign bs b it.pos.toNat x else none

/-- `for (; it != last; ++it) { auto& x = *it; ... }` for at most `fuel` rounds. -/
def Iter.visit {σ : Type} (bs : Nat) (arr : SlotPtr) (last : Iter) (F : σ → V → σ × V) :
    Nat → σ → Iter → Heap V → Option (σ × Heap V)
  | 0, z, it, h => if it.ne last then none else some (z, h)
  | fuel + 1, z, it, h =>
    if it.ne last then
      (it.deref bs h).bind fun x =>
      (Iter.write bs h it (F z x).2).bind fun h =>
      (it.incr bs arr).bind fun it => Iter.visit bs arr last F fuel (F z x).1 it h
    else some (z, h)

open Verif.Block.Vector in
/-- `StableBlockVector<V, N>`; `localErase` at MappedVector.hpp:218-227 (DualMappedVector.hpp:415-424,
StringMappedVector.hpp:204-213, DualStringMappedVector.hpp:415-424).  That `begin() + size()` compares equal to
`end()` is C24, and is used in `iterAt` instead of repeating the comparison.
`index == size() - 1` is false for an empty vector: `size() - 1` is then the largest number of its type. -/
def stableStore (N : Nat) (V : Type) : Store (Vec × Heap V) V where
  empty := (Vec.default N, Heap.empty)
  size s := s.1.size
  push s x := Vec.pushBack N s.1 s.2 x
  get s i := Vec.get N s.1 s.2 i
  set s i x := (Vec.set N s.1 s.2 i x).map fun h => (s.1, h)
  back s := Vec.back N s.1 s.2
  iterAt s i :=
    if i = s.1.size then (Vec.end? N s.1).map fun _ => none
    else
      (Vec.begin? N s.1).bind fun b =>
      (b.add (Vec.blockSize N) s.1.dataptr i).bind fun it => (it.deref (Vec.blockSize N) s.2).map some
  endOk s := (Vec.end? N s.1).map fun _ => ()
  all s := Vec.iterate N s.1 s.2
  visit F z s :=
    (Vec.begin? N s.1).bind fun b =>
    (Vec.end? N s.1).bind fun e =>
    (Iter.visit (Vec.blockSize N) s.1.dataptr e F (s.1.csize + 1) z b s.2).map fun r => (r.1, (s.1, r.2))
  erase s i :=
    if i + 1 = s.1.size then (Vec.popBack N s.1 s.2).map fun s => (s, true) else some (s, false)
  clear s := Vec.clear N s.1 s.2
  addr s i := Vec.cell N s.1 i

/-- The template argument `STABILITY`; for stable storage with the block order. -/
inductive Kind where
  | unstable
  | stable (blockOrder : Nat)
deriving DecidableEq

/-- Does storage of this kind keep elements where they are? -/
def Kind.isStable : Kind → Bool
  | .unstable => false
  | .stable _ => true

/-- Stable storage: reserved block slots after adding an element to `len` elements (none, then 64, then doubled each
time they are exhausted). -/
def Kind.reserve : Kind → Nat → Nat → Nat
  | .unstable, _, _ => 0
  | .stable N, r, len => if len = r * 2 ^ N then (if r = 0 then 64 else r * 2) else r

/-- Stable storage has a well defined `end()` iff its reserved block slots are not exactly full (C25). -/
def Kind.iterable : Kind → Nat → Nat → Bool
  | .unstable, _, _ => true
  | .stable N, r, len => decide (r = 0 ∨ len < r * 2 ^ N)

/-- What `localErase(i)` leaves of a list: stable storage only drops the last element. -/
def Kind.erase {V : Type} (k : Kind) (xs : List V) (i : Nat) : List V :=
  if k.isStable = true then (if i = xs.length - 1 then xs.dropLast else xs) else xs.eraseIdx i

/-- What the proofs about the mapped containers use: `Rep s xs r`: the storage holds the sequence `xs` and has reserved
`r` block slots.  With stable storage elements keep their addresses. -/
structure Lawful {S V : Type} (st : Store S V) (kind : Kind) where
  Rep : S → List V → Nat → Prop
  size : ∀ {s xs r}, Rep s xs r → st.size s = xs.length
  push : ∀ {s xs r} (x), Rep s xs r → ∃ s', st.push s x = some s' ∧ Rep s' (xs ++ [x]) (kind.reserve r xs.length) ∧
    ∀ k, k < xs.length → st.addr s' k = st.addr s k
  get : ∀ {s xs r i} (h : i < xs.length), Rep s xs r → st.get s i = some xs[i]
  set : ∀ {s xs r i} (_ : i < xs.length) (x), Rep s xs r → ∃ s', st.set s i x = some s' ∧ Rep s' (xs.set i x) r ∧
    ∀ k, st.addr s' k = st.addr s k
  back : ∀ {s xs r} (h : xs ≠ []), Rep s xs r → st.back s = some (xs.getLast h)
  iterAt : ∀ {s xs r i} (h : i < xs.length), Rep s xs r → st.iterAt s i = some (some xs[i])
  endOk : ∀ {s xs r}, Rep s xs r → kind.iterable r xs.length = true → st.endOk s = some ()
  all : ∀ {s xs r}, Rep s xs r → kind.iterable r xs.length = true → st.all s = some xs
  visit : ∀ {σ : Type} (F : σ → V → σ × V) (z : σ) {s xs r}, Rep s xs r → kind.iterable r xs.length = true →
    ∃ s', st.visit F z s = some ((visitList F z xs).1, s') ∧ Rep s' (visitList F z xs).2 r ∧
      ∀ k, st.addr s' k = st.addr s k
  erase : ∀ {s xs r i}, i < xs.length → Rep s xs r →
    ∃ s', st.erase s i = some (s', !kind.isStable || decide (i = xs.length - 1)) ∧ Rep s' (kind.erase xs i) r ∧
      ∀ k, k < (kind.erase xs i).length → st.addr s' k = st.addr s k
  clear : ∀ {s xs r}, Rep s xs r → ∃ s', st.clear s = some s' ∧ Rep s' [] r

/-- A new container holds nothing. -/
structure Lawful.Starts {S V : Type} {st : Store S V} {kind : Kind} (L : Lawful st kind) : Prop where
  start : L.Rep st.empty [] 0

def vectorLawful (V : Type) : Lawful (vectorStore V) .unstable where
  Rep s xs r := s = xs ∧ r = 0
  size := by rintro s xs r ⟨rfl, rfl⟩; rfl
  push := by rintro s xs r x ⟨rfl, rfl⟩; exact ⟨_, rfl, ⟨rfl, rfl⟩, fun _ _ => rfl⟩
  get := by rintro s xs r i h ⟨rfl, rfl⟩; exact List.getElem?_eq_getElem h
  set := by rintro s xs r i h x ⟨rfl, rfl⟩; exact ⟨_, if_pos h, ⟨rfl, rfl⟩, fun _ => rfl⟩
  back := by rintro s xs r h ⟨rfl, rfl⟩; exact List.getLast?_eq_some_getLast h
  iterAt := by
    rintro s xs r i h ⟨rfl, rfl⟩
    show (if i = s.length then _ else _) = _
    rw [if_neg (by omega), List.getElem?_eq_getElem h]; rfl
  endOk := by intros; rfl
  all := by rintro s xs r ⟨rfl, rfl⟩ _; rfl
  visit := by rintro σ F z s xs r ⟨rfl, rfl⟩ _; exact ⟨_, rfl, ⟨rfl, rfl⟩, fun _ => rfl⟩
  erase := by rintro s xs r i h ⟨rfl, rfl⟩; exact ⟨_, if_pos h, ⟨rfl, rfl⟩, fun _ _ => rfl⟩
  clear := by rintro s xs r ⟨rfl, rfl⟩; exact ⟨_, rfl, ⟨rfl, rfl⟩⟩

namespace StableLaws
open Verif.Block.Vector Verif.Block.Vector.Vec
variable {N : Nat}

/-- A predicate of the heap and the blocks a container owns, which no operation of the container can make false. -/
structure Closed (P : Heap V → List Nat → Prop) : Prop where
  wf : ∀ {h l}, P h l → h.Wf
  step : ∀ {h h' l l'}, P h l → Heap.Frame h h' l l' → P h' l'

/-- The storage holds `xs` and has `r` reserved slots. -/
def RepG (P : Heap V → List Nat → Prop) (N : Nat) (s : Vec × Heap V) (xs : List V) (r : Nat) : Prop :=
  ∃ us fs, Core N s.2 s.1 xs us fs ∧ P s.2 (us ++ fs) ∧ (us = [] → s.1.avail = 0) ∧ s.1.avail = r

/-- for a single container -/
def Rep (N : Nat) (s : Vec × Heap V) (xs : List V) (r : Nat) : Prop := RepG (fun h _ => h.Wf) N s xs r

theorem cell_frame {h h' : Heap V} {v v' : Vec} {xs xs' : List V} {us fs us' fs' : List Nat}
    (c : Core N h v xs us fs) (c' : Core N h' v' xs' us' fs') (p : us <+: us' ∨ us' <+: us) {k : Nat}
    (hk : k < xs.length) (hk' : k < xs'.length) : cell N v' k = cell N v k := by
  rw [c.len] at hk; rw [c'.len] at hk'
  obtain ⟨b, h1, h2⟩ := c.cell_eq hk
  obtain ⟨b', h1', h2'⟩ := c'.cell_eq hk'
  have : b' = b := by
    rcases p with ⟨l, rfl⟩ | ⟨l, rfl⟩
    · obtain ⟨hh, he⟩ := List.getElem?_eq_some_iff.1 h1
      rw [List.getElem?_append_left hh, h1] at h1'; exact (Option.some.inj h1').symm
    · obtain ⟨hh, he⟩ := List.getElem?_eq_some_iff.1 h1'
      rw [List.getElem?_append_left hh, h1'] at h1; exact Option.some.inj h1
  rw [h2, h2', this]

theorem begin_denotes {h : Heap V} {v : Vec} {xs : List V} {us fs : List Nat} (c : Core N h v xs us fs)
    (hx : 0 < xs.length) : ∃ b, begin? N v = some b ∧ Iter.Denotes (blockSize N) v.dataptr b 0 := by
  have hlen := c.len
  have hu := c.csize_lt (by omega)
  rw [begin?, if_neg (by omega)]
  have : ∃ it, Iter.Denotes (blockSize N) v.dataptr it 0 := by
    rw [Iter.denotes_iff, c.arr.len, Nat.zero_div]; exact c.avail_pos hu
  obtain ⟨it, hd⟩ := this
  refine ⟨it, ?_, hd⟩
  rw [← hd]; simp

theorem end_denotes {h : Heap V} {v : Vec} {xs : List V} {us fs : List Nat} (c : Core N h v xs us fs)
    (hu : us = [] → v.avail = 0) (ha : v.avail ≠ 0) (hi : v.csize < v.avail * blockSize N) :
    ∃ e, end? N v = some e ∧ Iter.Denotes (blockSize N) v.dataptr e v.csize := by
  have hB := blockSize_pos N
  obtain ⟨us, b, rfl⟩ : ∃ us' b, us = us' ++ [b] :=
    ⟨us.dropLast, us.getLast (fun e => ha (hu e)), (List.dropLast_concat_getLast _).symm⟩
  have hcs := c.last_size
  have hbz := c.bsz
  obtain ⟨l, hl, hll, _⟩ := c.arr.getD (by omega)
  have hex : ∃ e, Iter.Denotes (blockSize N) v.dataptr e v.csize := by
    rw [Iter.denotes_iff, c.arr.len]
    exact Nat.div_lt_of_lt_mul (by rw [Nat.mul_comm]; exact hi)
  obtain ⟨e, he⟩ := hex
  refine ⟨e, ?_, he⟩
  rw [← he]
  by_cases hb : v.bsize = blockSize N
  · have e1 : v.csize / blockSize N = us.length + 1 := by
      rw [hcs, hb, Nat.add_div_right _ hB, Nat.mul_div_cancel _ hB]
    have e2 : v.csize % blockSize N = 0 := by
      rw [hcs, hb, Nat.add_mod_right, Nat.mul_mod_left]
    rw [e1, e2, end?, if_pos hb, c.last_idx, hl]
    rfl
  · have e1 : v.csize / blockSize N = us.length := by
      rw [hcs, Nat.mul_comm, Nat.mul_add_div hB, Nat.div_eq_of_lt (show v.bsize < _ by omega)]; rfl
    have e2 : v.csize % blockSize N = v.bsize := by
      rw [hcs, Nat.mul_comm, Nat.mul_add_mod, Nat.mod_eq_of_lt (by omega)]
    rw [e1, e2, end?, if_neg hb, c.last_idx]

theorem end_null {h : Heap V} {v : Vec} {xs : List V} {us fs : List Nat} (c : Core N h v xs us fs)
    (ha : v.avail = 0) : xs = [] ∧ v.csize = 0 ∧ end? N v = some ⟨.static, none, 0, 0⟩ := by
  have hB := blockSize_pos N
  have hlen := c.len
  have hue : us = [] := List.length_eq_zero_iff.1 (by have := c.arr.le; omega)
  subst hue
  have hsz := c.size
  have hbz := c.bsz
  simp only [List.length_nil, Nat.zero_mul, Nat.zero_add] at hsz
  have hcs : v.csize = 0 := by omega
  have hbs : v.bsize = blockSize N := by omega
  have hp : v.dataptr = none := by
    have h1 := c.arr.len
    have h2 := c.ne
    cases hd : v.dataptr with
    | none => rfl
    | some l =>
      rw [hd] at h1 h2
      simp at h1 h2
      exact absurd (List.length_eq_zero_iff.1 (by omega)) h2
  exact ⟨List.length_eq_zero_iff.1 (by omega), hcs, by simp [end?, hbs, hp, Iter.make, derefVec]⟩

theorem iterOk_cases {h : Heap V} {v : Vec} {xs : List V} {us fs : List Nat} (c : Core N h v xs us fs)
    (hi : Kind.iterable (.stable N) v.avail xs.length = true) :
    v.avail = 0 ∨ (v.avail ≠ 0 ∧ v.csize < v.avail * blockSize N) := by
  simp only [Kind.iterable, decide_eq_true_eq] at hi
  by_cases h0 : v.avail = 0
  · exact .inl h0
  · exact .inr ⟨h0, by have := hi.resolve_left h0; rwa [c.len, ← blockSize_eq] at this⟩

theorem write_eq {h : Heap V} {v : Vec} {xs : List V} {us fs : List Nat} (c : Core N h v xs us fs) (w : h.Wf)
    {it : Iter} {n : Nat} (d : Iter.Denotes (blockSize N) v.dataptr it n) (hn : n < xs.length) (x : V) :
    it.deref (blockSize N) h = some xs[n] ∧
    ∃ h', Iter.write (blockSize N) h it x = some h' ∧ Core N h' v (xs.set n x) us fs ∧ Heap.Frame h h' (us ++ fs) (us ++ fs) := by
  have hB := blockSize_pos N
  obtain ⟨b, hb, _⟩ := c.cell_eq (c.len ▸ hn)
  have hv := (c.cell_val hb).trans (List.getElem?_eq_getElem hn)
  have hm := Nat.mod_lt n hB
  have hsg := c.arr.slotGet hb
  refine ⟨by rw [d.deref_eq h hsg, Heap.read_eq (c.live_us hb) hm, hv], _, ?_, c.setCell hn hb x,
    (Heap.Frame.setCell w (List.mem_append_left fs (List.mem_of_getElem? hb)) (c.live_us hb) _ _)⟩
  obtain ⟨v1, o1, p1, r1⟩ := d.eqs
  have hbk : it.blk = some b := by
    rw [v1] at r1
    cases hd : v.dataptr with
    | none => rw [hd] at hsg; simp [slotGet] at hsg
    | some l =>
      rw [hd] at hsg r1
      simp only [slotGet, derefVec] at hsg r1
      rw [if_pos (Int.natCast_nonneg _)] at hsg r1
      rw [r1] at hsg; simpa using hsg
  rw [Iter.write, hbk]
  simp only [Option.bind_some]
  rw [p1, o1, if_pos (by omega), Int.toNat_natCast]
  exact Heap.assign_eq x (c.live_us hb) hm hv

theorem visit_loop {σ : Type} {P : Heap V → List Nat → Prop} (hP : Closed P) (F : σ → V → σ × V) {v : Vec} {us fs : List Nat} {last : Iter} (m : Nat) :
    ∀ {h : Heap V} {xs : List V} {it : Iter} {n fuel : Nat} (z : σ), Core N h v xs us fs → P h (us ++ fs) → xs.length = n + m → m ≤ fuel →
    Iter.Denotes (blockSize N) v.dataptr it n → Iter.Denotes (blockSize N) v.dataptr last xs.length →
    ∃ h', Iter.visit (blockSize N) v.dataptr last F fuel z it h = some ((visitList F z (xs.drop n)).1, h') ∧
      Core N h' v (xs.take n ++ (visitList F z (xs.drop n)).2) us fs ∧ P h' (us ++ fs) := by
  have hB := blockSize_pos N
  induction m with
  | zero =>
    intro h xs it n fuel z c w hl _ d dl
    have hne : it.ne last = false := by
      rw [Iter.ne_eq_not_eq, (Iter.Denotes.eq_iff d dl).2 (by omega)]; rfl
    have hd : xs.drop n = [] := List.drop_eq_nil_of_le (by omega)
    refine ⟨h, ?_, ?_, w⟩
    · rw [hd]; cases fuel <;> simp [Iter.visit, hne, visitList]
    · rw [hd]; simp only [visitList, List.append_nil]; rw [List.take_of_length_le (by omega)]; exact c
  | succ m ih =>
    intro h xs it n fuel z c w hl hf d dl
    have hn : n < xs.length := by omega
    have hne : it.ne last = true := by
      rw [Iter.ne_eq_not_eq]
      have : it.eq last ≠ true := fun h => by
        have := (Iter.Denotes.eq_iff d dl).1 h
        omega
      simpa using this
    obtain ⟨fuel, rfl⟩ : ∃ f, fuel = f + 1 := ⟨fuel - 1, by omega⟩
    obtain ⟨hdr, h1, hw1, c1, f1⟩ := write_eq c (hP.wf w) d hn (F z xs[n]).2
    have w1 := hP.step w f1
    obtain ⟨it', d'⟩ := dl.mono (m := n + 1) (by omega)
    have hi : it.incr (blockSize N) v.dataptr = some it' := by
      rw [Iter.incr_eq]; exact d.add hB d'
    obtain ⟨h', e', c', w'⟩ := ih (fuel := fuel) (F z xs[n]).1 c1 w1 (by simp; omega) (by omega) d' (by simpa using dl)
    have hdrop : xs.drop n = xs[n] :: xs.drop (n + 1) := List.drop_eq_getElem_cons hn
    have hds : (xs.set n (F z xs[n]).2).drop (n + 1) = xs.drop (n + 1) := by
      rw [List.drop_set_of_lt (by omega)]
    refine ⟨h', ?_, ?_, w'⟩
    · rw [Iter.visit, if_pos hne, hdr]
      simp only [Option.bind_some]
      rw [hw1]
      simp only [Option.bind_some]
      rw [hi]
      simp only [Option.bind_some]
      rw [e', hds, hdrop]; rfl
    · rw [hds] at c'
      rw [hdrop]
      have : (xs.set n (F z xs[n]).2).take (n + 1) = xs.take n ++ [(F z xs[n]).2] := by
        rw [List.take_set, List.take_succ_eq_append_getElem hn, List.set_append_right _ _ (by simp; omega)]
        simp [Nat.min_eq_left (Nat.le_of_lt hn)]
      rw [this] at c'
      simpa [visitList] using c'

end StableLaws

open Verif.Block.Vector Verif.Block.Vector.Vec StableLaws in
/-- Stable storage, with a predicate of the heap that is kept. -/
def stableLawfulG (N : Nat) {V : Type} {P : Heap V → List Nat → Prop} (hP : Closed P) : Lawful (stableStore N V) (.stable N) where
  Rep := StableLaws.RepG P N
  size := by rintro s xs r ⟨us, fs, c, _⟩; exact c.len.symm
  push := by
    rintro s xs r x ⟨us, fs, c, w, hu, rfl⟩
    obtain ⟨v', h', us', fs', e, c', f, p, l, a⟩ := c.pushBack (hP.wf w) x
    refine ⟨(v', h'), e, ⟨us', fs', c', hP.step w f, fun h => by simp [h] at l, by rw [c.len]; exact a.trans (by rw [capPush, blockSize_eq]; rfl)⟩, fun k hk => ?_⟩
    exact cell_frame c c' (.inl p) hk (by simp; omega)
  get := by rintro s xs r i h ⟨us, fs, c, _⟩; exact c.get_eq h
  set := by
    rintro s xs r i h x ⟨us, fs, c, w, hu, rfl⟩
    obtain ⟨h', e, c', f⟩ := c.set_eq (hP.wf w) h x
    exact ⟨(s.1, h'), by simp only [stableStore, e, Option.map_some], ⟨us, fs, c', hP.step w f, hu, rfl⟩, fun _ => rfl⟩
  back := by
    rintro s xs r h ⟨us, fs, c, _⟩
    rw [List.getLast_eq_getElem]
    exact c.back_eq (List.length_pos_iff.2 h)
  iterAt := by
    rintro s xs r i h ⟨us, fs, c, w, hu, rfl⟩
    have hB := blockSize_pos N
    obtain ⟨b, hb, d⟩ := begin_denotes c (by omega)
    have hex : ∃ it, Iter.Denotes (blockSize N) s.1.dataptr it i := by
      rw [Iter.denotes_iff, c.arr.len]
      exact Nat.lt_of_lt_of_le (c.div_lt (c.len ▸ h)) c.arr.le
    obtain ⟨it, d'⟩ := hex
    have ha : b.add (blockSize N) s.1.dataptr i = some it := d.add hB (by simpa using d')
    have := (write_eq c (hP.wf w) d' h xs[i]).1
    simp only [stableStore, Vec.size, if_neg (show ¬ i = s.1.csize by have := c.len; omega), hb, Option.bind_some, ha, this, Option.map_some]
  endOk := by
    rintro s xs r ⟨us, fs, c, w, hu, rfl⟩ hi
    rcases iterOk_cases c hi with h0 | ⟨h0, h1⟩
    · simp only [stableStore, (end_null c h0).2.2, Option.map_some]
    · obtain ⟨e, he, _⟩ := end_denotes c hu h0 h1
      simp only [stableStore, he, Option.map_some]
  all := by
    rintro s xs r ⟨us, fs, c, w, hu, rfl⟩ hi
    refine c.iterate hu ?_
    rcases iterOk_cases c hi with h0 | ⟨_, h1⟩
    · exact .inl h0
    · exact .inr (c.len ▸ h1)
  visit := by
    rintro σ F z s xs r ⟨us, fs, c, w, hu, rfl⟩ hi
    rcases iterOk_cases c hi with h0 | ⟨h0, h1⟩
    · obtain ⟨h2, h3, h4⟩ := end_null c h0
      subst h2
      refine ⟨s, ?_, ⟨us, fs, c, w, hu, rfl⟩, fun _ => rfl⟩
      simp only [stableStore, begin?, h3, if_true, h4, Option.bind_some]
      simp [Iter.visit, Iter.ne, visitList]
    · obtain ⟨e, he, de⟩ := end_denotes c hu h0 h1
      by_cases hx : xs.length = 0
      · have hx0 : xs = [] := List.length_eq_zero_iff.1 hx
        subst hx0
        refine ⟨s, ?_, ⟨us, fs, c, w, hu, rfl⟩, fun _ => rfl⟩
        have h3 : s.1.csize = 0 := c.len.symm
        simp only [stableStore, begin?, h3, if_true, he, Option.bind_some]
        simp [Iter.visit, Iter.ne, visitList]
      · obtain ⟨b, hb, d⟩ := begin_denotes c (by omega)
        have hlen := c.len
        obtain ⟨h', e', c', w'⟩ := visit_loop hP F (last := e) xs.length (fuel := s.1.csize + 1) z c w (by omega) (by omega) d (hlen ▸ de)
        refine ⟨(s.1, h'), ?_, ⟨us, fs, by simpa using c', w', hu, rfl⟩, fun _ => rfl⟩
        simp only [stableStore, hb, he, Option.bind_some, e', Option.map_some, List.drop_zero]
  erase := by
    rintro s xs r i h ⟨us, fs, c, w, hu, rfl⟩
    have hlen := c.len
    by_cases hi : i = xs.length - 1
    · obtain ⟨v', h', us', fs', e, c', f, p, l, a⟩ := c.popBack (hP.wf w)
      refine ⟨(v', h'), ?_, ?_, ?_⟩
      · have hi' : i + 1 = xs.length := by omega
        simp only [stableStore, Vec.size, ← hlen, e, Option.map_some, hi', if_true]
        rw [decide_eq_true hi, Bool.or_true]
      · simp only [Kind.erase, Kind.isStable, if_true, if_pos hi]
        refine ⟨us', fs', c', hP.step w f, fun h0 => ?_, a⟩
        have := c.csize_lt (by omega)
        have := l this
        rw [h0] at this; simp at this
      · intro k hk
        simp only [Kind.erase, Kind.isStable, if_true, if_pos hi, List.length_dropLast] at hk
        exact cell_frame c c' (.inr p) (by omega) (by simp; omega)
    · refine ⟨s, ?_, ?_, fun _ _ => rfl⟩
      · have hi' : ¬ i + 1 = xs.length := by omega
        simp only [stableStore, Vec.size, ← hlen, hi, hi', decide_false]; rfl
      · simp only [Kind.erase, Kind.isStable, if_true, if_neg hi]
        exact ⟨us, fs, c, w, hu, rfl⟩
  clear := by
    rintro s xs r ⟨us, fs, c, w, hu, rfl⟩
    obtain ⟨v', h', us', fs', e, c', f, p, hn, a⟩ := c.clear (hP.wf w) hu
    exact ⟨(v', h'), e, us', fs', c', hP.step w f, fun h0 => a ▸ hu (hn h0), a⟩

/-- Stable storage of a single container. -/
def stableLawful (N : Nat) (V : Type) : Lawful (stableStore N V) (.stable N) :=
  stableLawfulG N (P := fun h _ => h.Wf) ⟨fun h => h, fun _ f => f.wf⟩

theorem vectorStarts (V : Type) : (vectorLawful V).Starts := ⟨rfl, rfl⟩

open Verif.Block.Vector Verif.Block.Vector.Vec StableLaws in
theorem stableStarts (N : Nat) (V : Type) : (stableLawful N V).Starts := ⟨⟨[], [], ⟨⟨rfl, rfl⟩, by simp [stableStore, Vec.default], ⟨rfl, rfl⟩, rfl, .inr rfl, Nat.le_refl _,
    by simp [stableStore, Vec.default], rfl, by simp, by simp, by simp, by simp, fun _ => rfl⟩, Heap.Wf.empty, fun _ => rfl, rfl⟩⟩

end Verif.Mapped
