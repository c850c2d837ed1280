import Verif.Block.Mixed.Spec
import Verif.Block.Vector.World
import Verif.Block.Deque.World

namespace Verif.Block.Mixed
open Verif.Block
variable {X : Type}

theorem put_same {α : Type} (f : Nat → α) (N : Nat) (a : α) : put f N a N = a := by simp [put]
theorem put_ne {α : Type} (f : Nat → α) {N M : Nat} (a : α) (h : M ≠ N) : put f N a M = f M := by simp [put, h]

/-- The object `n` represents the ideal one. -/
def Rep (h : Heap X) (w : World X) (aw : AWorld X) : Name → List Nat → List Nat → Prop
  | .vec N i, us, fs => Vector.ORep N h (w.vecs N i) (aw.vecs N i) us fs
  | .deq N i, us, fs => Deque.ORep N h (w.deqs N i) (aw.deqs N i) us fs

theorem Rep.frame {h h' : Heap X} {w : World X} {aw : AWorld X} {n : Name} {us fs : List Nat} (r : Rep h w aw n us fs)
    (hk : ∀ b, b ∈ us ++ fs → h'.live b = h.live b ∧ ∀ j, h'.cells b j = h.cells b j) : Rep h' w aw n us fs := by
  cases n with
  | vec N i => exact Vector.ORep.frame (N := N) r hk
  | deq N i => exact Deque.ORep.frame (N := N) r hk

theorem Rep.live {h : Heap X} {w : World X} {aw : AWorld X} {n : Name} {us fs : List Nat} (r : Rep h w aw n us fs) :
    ∀ b, b ∈ us ++ fs → h.live b = true := by
  cases n with
  | vec N i => exact Vector.ORep.live (N := N) r
  | deq N i => exact Deque.ORep.live (N := N) r

/-- Invariant of the objects of all types. -/
structure MInv (w : World X) (aw : AWorld X) (us fs : Name → List Nat) : Prop where
  wf : w.heap.Wf
  rep : ∀ n, Rep w.heap w aw n (us n) (fs n)
  disj : ∀ m n, m ≠ n → ∀ b, b ∈ us m ++ fs m → b ∉ us n ++ fs n
  noleak : ∀ b, w.heap.live b = true → ∃ n, b ∈ us n ++ fs n

theorem MInv.empty : MInv (World.empty : World X) noObjs (fun _ => []) (fun _ => []) :=
  ⟨Heap.Wf.empty, fun n => by cases n <;> exact ⟨rfl, rfl⟩, by simp, by simp [World.empty, Heap.empty]⟩

/-- The blocks of all objects but those of the kind `k`. -/
def others (w : World X) (us fs : Name → List Nat) (k : Nat → Name) : Others X :=
  ⟨fun b => ∃ n, (∀ i, n ≠ k i) ∧ b ∈ us n ++ fs n, w.heap⟩

section
variable {w : World X} {aw : AWorld X} {us fs : Name → List Nat}

theorem MInv.lt (M : MInv w aw us fs) {n : Name} {b : Nat} (hb : b ∈ us n ++ fs n) : b < w.heap.next :=
  M.wf.live b ((M.rep n).live b hb)

theorem MInv.held (M : MInv w aw us fs) (k : Nat → Name) (b : Nat) (hb : w.heap.live b = true) :
    (others w us fs k).own b ∨ ∃ i, b ∈ us (k i) ++ fs (k i) := by
  obtain ⟨n, hn⟩ := M.noleak b hb
  by_cases h : ∃ i, n = k i
  · obtain ⟨i, rfl⟩ := h
    exact .inr ⟨i, hn⟩
  · exact .inl ⟨n, fun i e => h ⟨i, e⟩, hn⟩

/-- the vectors of one block size -/
theorem MInv.vecs (M : MInv w aw us fs) (N : Nat) :
    Vector.WInvR (others w us fs (.vec N)) N ⟨w.vecs N, w.heap⟩ (aw.vecs N) (fun i => us (.vec N i)) (fun i => fs (.vec N i)) :=
  ⟨M.wf, fun i => M.rep (.vec N i), fun i j hij => M.disj _ _ (by simpa using hij), M.held _,
    fun _ ⟨_, _, hb⟩ => ⟨M.lt hb, rfl, fun _ => rfl⟩, fun b ⟨n, hn, hb⟩ i => M.disj n _ (hn i) b hb⟩

theorem MInv.deqs (M : MInv w aw us fs) (N : Nat) :
    Deque.WInvR (others w us fs (.deq N)) N ⟨w.deqs N, w.heap⟩ (aw.deqs N) (fun i => us (.deq N i)) (fun i => fs (.deq N i)) :=
  ⟨M.wf, fun i => M.rep (.deq N i), fun i j hij => M.disj _ _ (by simpa using hij), M.held _,
    fun _ ⟨_, _, hb⟩ => ⟨M.lt hb, rfl, fun _ => rfl⟩, fun b ⟨n, hn, hb⟩ i => M.disj n _ (hn i) b hb⟩

/-- block lists after a call on vectors -/
def withVecs (us : Name → List Nat) (N : Nat) (us' : Nat → List Nat) : Name → List Nat
  | .vec M i => if M = N then us' i else us (.vec M i)
  | .deq M i => us (.deq M i)

def withDeqs (us : Name → List Nat) (N : Nat) (us' : Nat → List Nat) : Name → List Nat
  | .vec M i => us (.vec M i)
  | .deq M i => if M = N then us' i else us (.deq M i)

/-- Putting the objects of a kind back: generic part. -/
theorem MInv.back {w' : World X} {aw' : AWorld X} {us' fs' : Name → List Nat} (M : MInv w aw us fs) (k : Nat → Name)
    (wf : w'.heap.Wf) (hk : ∀ i, Rep w'.heap w' aw' (k i) (us' (k i)) (fs' (k i)))
    (hs : ∀ n, (∀ i, n ≠ k i) → us' n = us n ∧ fs' n = fs n ∧ (Rep w'.heap w aw n (us n) (fs n) → Rep w'.heap w' aw' n (us n) (fs n)))
    (disj : ∀ i j, i ≠ j → ∀ b, b ∈ us' (k i) ++ fs' (k i) → b ∉ us' (k j) ++ fs' (k j))
    (held : ∀ b, w'.heap.live b = true → (others w us fs k).own b ∨ ∃ i, b ∈ us' (k i) ++ fs' (k i))
    (rest : ∀ b, (others w us fs k).own b → b < w'.heap.next ∧ w'.heap.live b = w.heap.live b ∧
      ∀ j, w'.heap.cells b j = w.heap.cells b j)
    (apart : ∀ b, (others w us fs k).own b → ∀ i, b ∉ us' (k i) ++ fs' (k i)) : MInv w' aw' us' fs' := by
  refine ⟨wf, ?_, ?_, ?_⟩
  · intro n
    by_cases h : ∃ i, n = k i
    · obtain ⟨i, rfl⟩ := h; exact hk i
    · have hn : ∀ i, n ≠ k i := fun i e => h ⟨i, e⟩
      obtain ⟨e1, e2, e3⟩ := hs n hn
      rw [e1, e2]
      refine e3 ((M.rep n).frame fun b hb => ?_)
      exact (rest b ⟨n, hn, hb⟩).2
  · intro m n hmn b hb
    by_cases h : ∃ i, m = k i
    · obtain ⟨i, rfl⟩ := h
      by_cases h' : ∃ j, n = k j
      · obtain ⟨j, rfl⟩ := h'
        exact disj i j (by rintro rfl; exact hmn rfl) b hb
      · have hn : ∀ i, n ≠ k i := fun i e => h' ⟨i, e⟩
        obtain ⟨e1, e2, _⟩ := hs n hn
        rw [e1, e2]
        exact fun hb' => apart b ⟨n, hn, hb'⟩ i hb
    · have hm : ∀ i, m ≠ k i := fun i e => h ⟨i, e⟩
      obtain ⟨e1, e2, _⟩ := hs m hm
      rw [e1, e2] at hb
      by_cases h' : ∃ j, n = k j
      · obtain ⟨j, rfl⟩ := h'
        exact apart b ⟨m, hm, hb⟩ j
      · have hn : ∀ i, n ≠ k i := fun i e => h' ⟨i, e⟩
        obtain ⟨e1, e2, _⟩ := hs n hn
        rw [e1, e2]
        exact M.disj m n hmn b hb
  · intro b hb
    rcases held b hb with ⟨n, hn, hb'⟩ | ⟨i, hi⟩
    · obtain ⟨e1, e2, _⟩ := hs n hn
      exact ⟨n, by rw [e1, e2]; exact hb'⟩
    · exact ⟨_, hi⟩

theorem MInv.ofVecs {N : Nat} {vw : Vector.World X} {av : Vector.AWorld X} {us' fs' : Nat → List Nat} (M : MInv w aw us fs)
    (W : Vector.WInvR (others w us fs (.vec N)) N vw av us' fs') :
    MInv { w with vecs := put w.vecs N vw.objs, heap := vw.heap } { aw with vecs := put aw.vecs N av }
      (withVecs us N us') (withVecs fs N fs') := by
  refine M.back (.vec N) W.wf ?_ ?_ ?_ ?_ W.rest ?_
  · intro i
    simp only [Rep, withVecs, put_same, if_true]
    exact W.rep i
  · intro n hn
    cases n with
    | vec K i =>
      have hK : K ≠ N := by rintro rfl; exact hn i rfl
      simp only [withVecs, if_neg hK, Rep, put_ne _ _ hK]
      exact ⟨trivial, trivial, id⟩
    | deq K i => exact ⟨rfl, rfl, id⟩
  · simpa only [withVecs, if_true] using W.disj
  · simpa only [withVecs, if_true] using W.held
  · simpa only [withVecs, if_true] using W.apart

theorem MInv.ofDeqs {N : Nat} {vw : Deque.World X} {av : Deque.AWorld X} {us' fs' : Nat → List Nat} (M : MInv w aw us fs)
    (W : Deque.WInvR (others w us fs (.deq N)) N vw av us' fs') :
    MInv { w with deqs := put w.deqs N vw.objs, heap := vw.heap } { aw with deqs := put aw.deqs N av }
      (withDeqs us N us') (withDeqs fs N fs') := by
  refine M.back (.deq N) W.wf ?_ ?_ ?_ ?_ W.rest ?_
  · intro i
    simp only [Rep, withDeqs, put_same, if_true]
    exact W.rep i
  · intro n hn
    cases n with
    | deq K i =>
      have hK : K ≠ N := by rintro rfl; exact hn i rfl
      simp only [withDeqs, if_neg hK, Rep, put_ne _ _ hK]
      exact ⟨trivial, trivial, id⟩
    | vec K i => exact ⟨rfl, rfl, id⟩
  · simpa only [withDeqs, if_true] using W.disj
  · simpa only [withDeqs, if_true] using W.held
  · simpa only [withDeqs, if_true] using W.apart

/-- update of a block list -/
def updN (f : Name → List Nat) (n : Name) (l : List Nat) : Name → List Nat := fun m => if m = n then l else f m
theorem updN_same (f : Name → List Nat) (n l) : updN f n l n = l := by simp [updN]
theorem updN_ne (f : Name → List Nat) {n m} (l) (h : m ≠ n) : updN f n l m = f m := by simp [updN, h]

/-- An operation on the object `d` that reads the object `s` and may change its elements. -/
theorem MInv.update2 {w' : World X} {aw' : AWorld X} {d s : Name} {us' fs' : List Nat} (M : MInv w aw us fs) (hds : d ≠ s)
    (f : Heap.Frame w.heap w'.heap (us d ++ fs d ++ (us s ++ fs s)) (us' ++ fs' ++ (us s ++ fs s)))
    (hd : ∀ b, b ∈ us' ++ fs' → b ∉ us s ++ fs s)
    (rd : Rep w'.heap w' aw' d us' fs') (rs : Rep w'.heap w' aw' s (us s) (fs s))
    (ro : ∀ n, n ≠ d → n ≠ s → Rep w'.heap w aw n (us n) (fs n) → Rep w'.heap w' aw' n (us n) (fs n)) :
    MInv w' aw' (updN us d us') (updN fs d fs') := by
  have old : ∀ n, n ≠ d → ∀ b, b ∈ us n ++ fs n → b ∉ us' ++ fs' := by
    intro n hn b hb hb'
    by_cases hns : n = s
    · subst hns; exact hd b hb' hb
    · rcases f.fresh b (List.mem_append_left _ hb') with h1 | h1
      · rcases List.mem_append.1 h1 with h1 | h1
        · exact M.disj n d hn b hb h1
        · exact M.disj n s hns b hb h1
      · have := M.lt hb; omega
  refine ⟨f.wf, ?_, ?_, ?_⟩
  · intro n
    by_cases hn : n = d
    · subst hn; simp only [updN_same]; exact rd
    · simp only [updN_ne _ _ hn]
      by_cases hns : n = s
      · subst hns; exact rs
      · refine ro n hn hns ((M.rep n).frame fun b hb => ?_)
        refine f.keep b (M.lt hb) fun h1 => ?_
        rcases List.mem_append.1 h1 with h1 | h1
        · exact M.disj n d hn b hb h1
        · exact M.disj n s hns b hb h1
  · intro m n hmn b hb
    by_cases hm : m = d
    · subst hm
      simp only [updN_same] at hb
      simp only [updN_ne _ _ hmn.symm]
      exact fun h => old n hmn.symm b h hb
    · simp only [updN_ne _ _ hm] at hb
      by_cases hn : n = d
      · subst hn; simp only [updN_same]; exact old m hm b hb
      · simp only [updN_ne _ _ hn]; exact M.disj m n hmn b hb
  · intro b hb
    rcases f.noleak b hb with h1 | ⟨h1, h2⟩
    · rcases List.mem_append.1 h1 with h1 | h1
      · exact ⟨d, by simpa only [updN_same] using h1⟩
      · exact ⟨s, by simpa only [updN_ne _ _ hds.symm] using h1⟩
    · obtain ⟨k, hk⟩ := M.noleak b ((f.keep b h1 h2).1 ▸ hb)
      have hkd : k ≠ d := by rintro rfl; exact h2 (List.mem_append_left _ hk)
      exact ⟨k, by simpa only [updN_ne _ _ hkd] using hk⟩

/-! ### ranges -/

/-- What the source is when the range has been read. -/
theorem MInv.feeds (M : MInv w aw us fs) {s : Name} {ys : List X} (hs : aw.elems s = some ys) {lo hi : Nat} (hl : lo ≤ hi)
    (hle : hi ≤ ys.length) (hc : source w aw hi s = true) (left : Nat → Option X) :
    ∃ bs arr last first, w.range lo hi s = some (bs, arr, ys.length, first, last) ∧
      Feeds (.iter bs arr last left) (us s ++ fs s)
        (fun h' => Rep h' w (aw.become s (leave left 0 lo (hi - lo) ys)) s (us s) (fs s)) ((ys.take hi).drop lo) (0, first) w.heap := by
  cases s with
  | vec N i =>
    simp only [AWorld.elems, Option.map_eq_some_iff] at hs
    obtain ⟨b, hb, rfl⟩ := hs
    simp only [source, hb, Option.any_some, Bool.and_eq_true, Bool.not_eq_true', decide_eq_true_eq] at hc
    obtain ⟨v, hv, c, hr, hu⟩ := (M.vecs N).getLive hb hc.1
    replace hv : w.vecs N i = some v := hv
    obtain ⟨ib, i1, i2, hib, hi1, hi2, hden⟩ := c.sub_iters hu hl hle (by rw [hr, Vector.Vec.blockSize_eq]; exact hc.2)
    refine ⟨Vector.Vec.blockSize N, v.dataptr, i2, i1, ?_, ?_⟩
    · simp only [World.range, hv, Option.bind_some, hib, hi1, hi2, Option.map_some, c.len]
    · have hrep : ∀ h', Vector.Vec.Core N h' v (leave left 0 lo (hi - lo) b.elems) (us (.vec N i)) (fs (.vec N i)) →
          Rep h' w (aw.become (.vec N i) (leave left 0 lo (hi - lo) b.elems)) (.vec N i) (us (.vec N i)) (fs (.vec N i)) := by
        intro h' c'
        simp only [Rep, AWorld.become, put_same, Vector.upd_same, hv, hb, Option.map_some, leave_length, Nat.sub_self,
          Vector.reservePushes]
        exact .inr ⟨hc.1, c', hr, hu⟩
      rcases hden with ⟨rfl, he⟩ | ⟨d1, d2⟩
      · have hem : (b.elems.take lo).drop lo = [] := List.drop_eq_nil_of_le (by simp; omega)
        rw [hem]
        refine Feeds.empty he fun h1 _ a => hrep h1 ?_
        rw [Nat.sub_self, leave]
        exact c.frame a
      · exact (c.feeds left (hi - lo) (k := 0) d1 d2 (by omega) hle).imp hrep
  | deq N i =>
    replace hs : aw.deqs N i = some ys := hs
    obtain ⟨v, hv, r⟩ := (M.deqs N).getSome hs
    replace hv : w.deqs N i = some v := hv
    simp only [source, hv, Option.all_some] at hc
    obtain ⟨ib, i1, i2, hib, hi1, hi2, D⟩ := Deque.sub_drep r left hl hle hc
    refine ⟨Deque.blockSize N, v.dataptr, i2, i1, ?_, ?_⟩
    · simp only [World.range, hv, Option.bind_some, hib, hi1, hi2, Option.map_some, r.csize]
    · refine D.imp fun h' r' => ?_
      simp only [Rep, AWorld.become, put_same, Deque.upd_same, hv]
      exact r'

/-- The target of a range. -/
theorem MInv.assignFrom (P : Deque.Pol) (M : MInv w aw us fs) {d : Name} {xs : List X} (hd : aw.elems d = some xs)
    (hc : target w aw d = true) {R : InRange X} {B : List Nat} {Q : Heap X → Prop} {s : R.S} {fuel : Nat}
    (hB : ∀ b, b ∈ B → b < w.heap.next) (hdj : ∀ b, b ∈ us d ++ fs d → b ∉ B) {ys : List X} (D : Feeds R B Q ys s w.heap)
    (hf : ys.length ≤ fuel) :
    ∃ w' us' fs', w.assignFrom P R fuel s d = some w' ∧
      Rep w'.heap w' (aw.become d ys) d us' fs' ∧
      Heap.Frame w.heap w'.heap (us d ++ fs d ++ B) (us' ++ fs' ++ B) ∧ (∀ b, b ∈ us' ++ fs' → b ∉ B) ∧ Q w'.heap ∧
      ∀ n, n ≠ d → ∀ h aw' us fs, Rep h w aw' n us fs → Rep h w' aw' n us fs := by
  cases d with
  | vec N i =>
    simp only [AWorld.elems, Option.map_eq_some_iff] at hd
    obtain ⟨a, ha, rfl⟩ := hd
    simp only [target, ha, Option.any_some, Bool.not_eq_true'] at hc
    obtain ⟨v, hv, c, hr, hu⟩ := (M.vecs N).getLive ha hc
    replace hv : w.vecs N i = some v := hv
    obtain ⟨v', h', us', fs', e, c', f, dj, q, p, lu, ha'⟩ := c.assignFrom (fuel := fuel) M.wf hB hdj D hf
    refine ⟨{ w with vecs := put w.vecs N (Vector.upd (w.vecs N) i (some v')), heap := h' }, us', fs', ?_, ?_, f, dj, q, ?_⟩
    · simp only [World.assignFrom, hv, Option.bind_some]
      rw [e]; rfl
    · simp only [Rep, AWorld.become, put_same, Vector.upd_same, ha, Option.map_some]
      refine .inr ⟨hc, c', ?_, Vector.avail_nil hu lu ha'⟩
      rw [ha', Vector.capPushes_eq, hr]
    · intro n hn h aw' us1 fs1 r1
      cases n with
      | vec K j =>
        by_cases hK : K = N
        · subst hK
          have hj : j ≠ i := by rintro rfl; exact hn rfl
          simpa only [Rep, put_same, Vector.upd_ne _ _ hj] using r1
        · simpa only [Rep, put_ne _ _ hK] using r1
      | deq K j => exact r1
  | deq N i =>
    replace hd : aw.deqs N i = some xs := hd
    obtain ⟨v, hv, r⟩ := (M.deqs N).getSome hd
    replace hv : w.deqs N i = some v := hv
    simp only [target, hv, Option.all_some] at hc
    rw [Bool.and_eq_true] at hc
    obtain ⟨v', h', us', fs', e, c', f, dj, q, _, _⟩ := Deque.assignFrom_drep P r M.wf hB hdj D hf hc.1 hc.2
    refine ⟨{ w with deqs := put w.deqs N (Deque.upd (w.deqs N) i (some v')), heap := h' }, us', fs', ?_, ?_, f, dj, q, ?_⟩
    · simp only [World.assignFrom, hv, Option.bind_some]
      rw [e]; rfl
    · simp only [Rep, AWorld.become, put_same, Deque.upd_same]
      exact c'
    · intro n hn h aw' us1 fs1 r1
      cases n with
      | deq K j =>
        by_cases hK : K = N
        · subst hK
          have hj : j ≠ i := by rintro rfl; exact hn rfl
          simpa only [Rep, put_same, Deque.upd_ne _ _ hj] using r1
        · simpa only [Rep, put_ne _ _ hK] using r1
      | vec K j => exact r1

/-- Objects other than the one that changes. -/
theorem Rep.become {h : Heap X} {w : World X} {aw : AWorld X} {d n : Name} {xs : List X} {us fs : List Nat} (hn : n ≠ d) :
    Rep h w (aw.become d xs) n us fs ↔ Rep h w aw n us fs := by
  cases d with
  | vec N i =>
    cases n with
    | vec K j =>
      by_cases hK : K = N
      · subst hK
        have hj : j ≠ i := by rintro rfl; exact hn rfl
        simp only [Rep, AWorld.become, put_same, Vector.upd_ne _ _ hj]
      · simp only [Rep, AWorld.become, put_ne _ _ hK]
    | deq K j => exact Iff.rfl
  | deq N i =>
    cases n with
    | deq K j =>
      by_cases hK : K = N
      · subst hK
        have hj : j ≠ i := by rintro rfl; exact hn rfl
        simp only [Rep, AWorld.become, put_same, Deque.upd_ne _ _ hj]
      · simp only [Rep, AWorld.become, put_ne _ _ hK]
    | vec K j => exact Iff.rfl

theorem elems_become {aw : AWorld X} {d n : Name} {xs : List X} (hn : n ≠ d) :
    (aw.become d xs).elems n = aw.elems n := by
  cases d with
  | vec N i =>
    cases n with
    | vec K j =>
      by_cases hK : K = N
      · subst hK
        have hj : j ≠ i := by rintro rfl; exact hn rfl
        simp only [AWorld.elems, AWorld.become, put_same, Vector.upd_ne _ _ hj]
      · simp only [AWorld.elems, AWorld.become, put_ne _ _ hK]
    | deq K j => rfl
  | deq N i =>
    cases n with
    | deq K j =>
      by_cases hK : K = N
      · subst hK
        have hj : j ≠ i := by rintro rfl; exact hn rfl
        simp only [AWorld.elems, AWorld.become, put_same, Deque.upd_ne _ _ hj]
      · simp only [AWorld.elems, AWorld.become, put_ne _ _ hK]
    | vec K j => rfl

theorem elems_become_same {aw : AWorld X} {n : Name} {ys xs : List X} (h : aw.elems n = some ys) :
    (aw.become n xs).elems n = some xs := by
  cases n with
  | vec N i =>
    simp only [AWorld.elems, Option.map_eq_some_iff] at h
    obtain ⟨a, ha, _⟩ := h
    simp only [AWorld.elems, AWorld.become, put_same, Vector.upd_same, ha, Option.map_some]
  | deq N i => simp only [AWorld.elems, AWorld.become, put_same, Deque.upd_same]

/-- the range as a whole -/
theorem MInv.range (P : Deque.Pol) (M : MInv w aw us fs) {d s : Name} (hds : d ≠ s) {xs ys : List X}
    (hd : aw.elems d = some xs) (hs : aw.elems s = some ys) {lo hi : Nat} (hl : lo ≤ hi) (hle : hi ≤ ys.length)
    (ht : target w aw d = true) (hc : source w aw hi s = true) (left : Nat → Option X) :
    ∃ r w' us' fs', w.range lo hi s = some r ∧
      w.assignFrom P (.iter r.1 r.2.1 r.2.2.2.2 left) (r.2.2.1 + 1) (0, r.2.2.2.1) d = some w' ∧
      MInv w' ((aw.become d ((ys.take hi).drop lo)).become s (leave left 0 lo (hi - lo) ys)) us' fs' := by
  obtain ⟨bs, arr, last, first, er, D⟩ := M.feeds hs hl hle hc left
  obtain ⟨w', us', fs', ea, rd, f, dj, q, ho⟩ := M.assignFrom P hd ht (fun b hb => M.lt hb) (M.disj d s hds) D
    (fuel := ys.length + 1) (by simp; omega)
  refine ⟨_, w', _, _, er, ea, M.update2 hds f dj ((Rep.become hds).2 rd) ?_ ?_⟩
  · have := ho s hds.symm _ _ _ _ q
    cases s with
    | vec N i =>
      have hd' : ((aw.become d ((ys.take hi).drop lo)).vecs N) i = aw.vecs N i := by
        cases d with
        | vec K j =>
          by_cases hK : K = N
          · subst hK
            have hj : i ≠ j := by rintro rfl; exact hds rfl
            simp only [AWorld.become, put_same, Vector.upd_ne _ _ hj]
          · simp only [AWorld.become, put_ne _ _ (Ne.symm hK)]
        | deq K j => rfl
      simp only [Rep, AWorld.become, put_same, Vector.upd_same] at this ⊢
      simp only [AWorld.become] at hd'
      rw [hd']; exact this
    | deq N i =>
      simp only [Rep, AWorld.become, put_same, Deque.upd_same] at this ⊢
      exact this
  · intro n hn hns r
    exact (Rep.become hns).2 ((Rep.become hn).2 (ho n hn _ _ _ _ r))

theorem become_same {s : Name} {ys : List X} (hs : aw.elems s = some ys) : aw.become s ys = aw := by
  have hp : ∀ {α : Type} (f : Nat → α) (N : Nat) (a : α), a = f N → put f N a = f := by
    intro α f N a e; funext M; by_cases h : M = N
    · subst h; rw [put_same, e]
    · rw [put_ne _ _ h]
  cases s with
  | vec N i =>
    simp only [AWorld.elems, Option.map_eq_some_iff] at hs
    obtain ⟨a, ha, rfl⟩ := hs
    simp only [AWorld.become, ha, Option.map_some, Nat.sub_self, Vector.reservePushes]
    rw [hp]
    funext k; by_cases hk : k = i
    · subst hk; rw [Vector.upd_same, ha]
    · rw [Vector.upd_ne _ _ hk]
  | deq N i =>
    replace hs : aw.deqs N i = some ys := hs
    simp only [AWorld.become]
    rw [hp]
    exact Deque.upd_id hs

end

theorem step (P : Deque.Pol) {w : World X} {aw : AWorld X} {us fs : Name → List Nat} (M : MInv w aw us fs) (op : Op X)
    {aw' : AWorld X} {o : Obs X} (hi : ideal aw op = some (aw', o)) (hc : careful P w aw op = true) :
    ∃ w' us' fs', exec P w op = some (w', o) ∧ MInv w' aw' us' fs' := by
  cases op with
  | vec N op =>
    simp only [ideal, Option.map_eq_some_iff] at hi
    obtain ⟨r, hr, hi⟩ := hi
    cases hi
    obtain ⟨w', us', fs', e, W, _⟩ := Vector.step _ _ _ _ (M.vecs N) op r.1 r.2 hr hc
    exact ⟨_, _, _, by rw [exec, e]; rfl, M.ofVecs W⟩
  | deq N op =>
    simp only [ideal, Option.map_eq_some_iff] at hi
    obtain ⟨r, hr, hi⟩ := hi
    cases hi
    obtain ⟨w', us', fs', e, W, _⟩ := Deque.step P _ _ _ _ (M.deqs N) op r.1 r.2 hr hc
    exact ⟨_, _, _, by rw [exec, e]; rfl, M.ofDeqs W⟩
  | assign d s lo up =>
    simp only [ideal, Option.bind_eq_some_iff] at hi
    obtain ⟨a, ha, b, hb, hi⟩ := hi
    split at hi <;> [skip; cases hi]
    rename_i hcond
    obtain ⟨hds, hlo, hhi⟩ := hcond
    cases hi
    simp only [careful, Bool.and_eq_true] at hc
    obtain ⟨r, w', us', fs', er, ea, M'⟩ := M.range P hds ha hb hlo hhi hc.1 hc.2 fun _ => none
    rw [leave_copy, become_same (by rw [elems_become hds.symm]; exact hb)] at M'
    refine ⟨w', us', fs', ?_, M'⟩
    simp only [exec, er, Option.bind_some]
    rw [ea]; rfl
  | move d s lo up left =>
    simp only [ideal, Option.bind_eq_some_iff] at hi
    obtain ⟨a, ha, b, hb, hi⟩ := hi
    split at hi <;> [skip; cases hi]
    rename_i hcond
    obtain ⟨hds, hlo, hhi, hleft⟩ := hcond
    cases hi
    simp only [careful, Bool.and_eq_true] at hc
    obtain ⟨r, w', us', fs', er, ea, M'⟩ := M.range P hds ha hb hlo hhi hc.1 hc.2 fun k => left[k]?
    rw [← hleft, leave_list left 0 lo b _ (fun t _ => by simp) (by omega), show lo + left.length = up by omega] at M'
    refine ⟨w', us', fs', ?_, M'⟩
    simp only [exec, er, Option.bind_some]
    rw [ea]; rfl

theorem runs (P : Deque.Pol) (ops : List (Op X)) : ∀ (w : World X) (aw : AWorld X) (us fs : Name → List Nat),
    MInv w aw us fs → ∀ aw' obs, idealRun aw ops = some (aw', obs) → carefulRun P w aw ops = true →
    ∃ w' us' fs', run P w ops = some (w', obs) ∧ MInv w' aw' us' fs' := by
  induction ops with
  | nil =>
    intro w aw us fs M aw' obs h _
    cases h
    exact ⟨w, us, fs, rfl, M⟩
  | cons op ops ih =>
    intro w aw us fs M aw' obs h hc
    simp only [idealRun, Option.bind_eq_some_iff, Option.map_eq_some_iff] at h
    obtain ⟨⟨aw1, o⟩, h1, ⟨aw2, os⟩, h2, h3⟩ := h
    cases h3
    rw [carefulRun, Bool.and_eq_true] at hc
    obtain ⟨w1, us1, fs1, e1, M1⟩ := step P M op h1 hc.1
    rw [e1, h1] at hc
    obtain ⟨w2, us2, fs2, e2, M2⟩ := ih w1 aw1 us1 fs1 M1 aw2 os h2 hc.2
    exact ⟨w2, us2, fs2, by simp only [run, e1, Option.bind_some, e2, Option.map_some], M2⟩

end Verif.Block.Mixed
