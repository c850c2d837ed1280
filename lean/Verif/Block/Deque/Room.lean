import Verif.Block.Deque.OldIters

/-
C154, for deques that never run out of room: how many additions at each end a default constructed StableBlockDeque takes
before its array of block pointers is changed (StableBlockDeque.hpp:475-549).
-/
namespace Verif.Block.Deque
open Verif.Block

variable {X : Type} {N : Nat}

/-- an addition at the back -/
def Op.isPush : Op X → Bool
  | .push _ _ => true
  | _ => false

/-- an addition at the front -/
def Op.isPushFront : Op X → Bool
  | .pushFront _ _ => true
  | _ => false

/-- where the first element is put, counted from the beginning of the first block the array has room for -/
def mid (N : Nat) : Nat := 30 * blockSize N + blockSize N / 2

/-- `v` is unused, or its array is the first one and the elements are around the middle. -/
def Few (N pb pf : Nat) (v : Deq) : Prop :=
  v = Deq.default N ∨
    (v.avail = 64 ∧ (mid N : Int) ≤ v.pos N 0 + pf ∧ v.pos N v.csize ≤ (mid N : Int) + pb)

theorem half_le (N : Nat) : blockSize N / 2 + (blockSize N - blockSize N / 2) = blockSize N := by omega

theorem pos_add (v : Deq) (n : Nat) : v.pos N n = v.pos N 0 + n := by
  simp only [Deq.pos]; omega

namespace ADeq

theorem pushBack_few {P : Pol} {a a' : ADeq} {L L' : Ledger} {h h' : Heap X} {x : X} {pb pf : Nat} (f : Few N pb pf a.v)
    (hr : a.v.avail = 0 ∨ a.v.bsize < 2 ^ N ∨ a.v.back + 1 < a.v.avail)
    (e : pushBack P N a h L x = some (a', h', L')) : Few N (pb + 1) pf a'.v ∧ (a.v.avail ≠ 0 → a'.v.avail ≠ 0) := by
  rcases f with f | ⟨f1, f2, f3⟩
  · simp only [pushBack, blockCheck, f, Deq.default, Int.le_refl, ge_iff_le, if_true, firstBlock, Deq.firstBlock,
      Option.bind_eq_some_iff, Option.map_eq_some_iff] at e
    obtain ⟨_, ⟨_, ⟨_, _, _, _, rfl⟩, rfl⟩, _, _, e⟩ := e
    cases e
    refine ⟨.inr ⟨rfl, ?_, ?_⟩, fun h => absurd (by rw [f]; rfl) h⟩ <;> simp only [Deq.pos, mid] <;> push_cast <;> omega
  · have ha : a.v.avail ≠ 0 := by omega
    have hr := hr.resolve_left ha
    have K := (pushBack_pos ha hr e 0).2
    suffices a'.v.avail = a.v.avail ∧ a'.v.csize = a.v.csize + 1 by
      refine ⟨.inr ⟨by omega, by omega, ?_⟩, by omega⟩
      rw [pos_add] at f3 ⊢
      omega
    simp only [pushBack, Option.bind_eq_some_iff, Option.map_eq_some_iff] at e
    obtain ⟨⟨b, h1, L1⟩, e1, _, _, e⟩ := e
    cases e
    suffices b.v.avail = a.v.avail ∧ b.v.csize = a.v.csize from ⟨this.1, by simp [this.2]⟩
    unfold blockCheck at e1
    split at e1
    · rename_i hb
      have hb' : ¬ a.v.bsize < 2 ^ N := by
        rw [blockSize_eq] at hb; push_cast at hb; omega
      have hr := hr.resolve_left hb'
      simp only [Option.bind_eq_some_iff, Option.map_eq_some_iff] at e1
      obtain ⟨⟨g, L2⟩, eg, ⟨b', v', h2⟩, en, _, _, e1⟩ := e1
      cases e1
      have : ¬ a.v.back ≥ (a.v.avail : Int) - 1 := by omega
      simp only [roomBack, Deq.roomBack, if_neg this, Option.bind_some] at eg
      cases eg
      exact ⟨rfl, rfl⟩
    · cases e1; exact ⟨rfl, rfl⟩

theorem pushFront_few {P : Pol} {a a' : ADeq} {L L' : Ledger} {h h' : Heap X} {x : X} {pb pf : Nat} (f : Few N pb pf a.v)
    (hN : 0 < N) (hf : -1 ≤ a.v.fsize) (h0 : 0 ≤ a.v.front)
    (hr : a.v.avail = 0 ∨ 0 ≤ a.v.fsize ∨ 0 < a.v.front)
    (e : pushFront P N a h L x = some (a', h', L')) : Few N pb (pf + 1) a'.v ∧ (a.v.avail ≠ 0 → a'.v.avail ≠ 0) := by
  rcases f with f | ⟨f1, f2, f3⟩
  · simp only [pushFront, blockCheckFront, f, Deq.default, if_true, firstBlock, Deq.firstBlock,
      Option.bind_eq_some_iff, Option.map_eq_some_iff, show (-1 : Int) < 0 by omega] at e
    obtain ⟨_, ⟨_, ⟨_, _, _, _, rfl⟩, rfl⟩, _, _, e⟩ := e
    cases e
    refine ⟨.inr ⟨rfl, ?_, ?_⟩, fun h => absurd (by rw [f]; rfl) h⟩ <;> simp only [Deq.pos, mid] <;> push_cast <;> omega
  · have ha : a.v.avail ≠ 0 := by omega
    have hr := hr.resolve_left ha
    have K := (pushFront_pos ha hf h0 hr e 0).2
    rw [pos_add] at K
    suffices a'.v.avail = a.v.avail ∧ a'.v.csize = a.v.csize + 1 by
      refine ⟨.inr ⟨by omega, by omega, ?_⟩, by omega⟩
      rw [pos_add] at f3 ⊢
      omega
    simp only [pushFront, Option.bind_eq_some_iff, Option.map_eq_some_iff] at e
    obtain ⟨⟨b, h1, L1⟩, e1, _, _, e⟩ := e
    cases e
    suffices b.v.avail = a.v.avail ∧ b.v.csize = a.v.csize from ⟨this.1, by simp [this.2]⟩
    unfold blockCheckFront at e1
    split at e1
    · rename_i hb
      have hr := hr.resolve_left (by omega)
      simp only [Option.bind_eq_some_iff, Option.map_eq_some_iff] at e1
      obtain ⟨⟨g, L2⟩, eg, ⟨b', v', h2⟩, en, _, _, e1⟩ := e1
      cases e1
      have : ¬ a.v.front = 0 := by omega
      simp only [roomFront, Deq.roomFront, if_neg this, Option.bind_some] at eg
      cases eg
      exact ⟨rfl, rfl⟩
    · cases e1; exact ⟨rfl, rfl⟩

theorem popBack_few {P : Pol} {a a' : ADeq} {L L' : Ledger} {h h' : Heap X} {pb pf : Nat} (f : Few N pb pf a.v)
    (e : popBack P N a h L = some (a', h', L')) : Few N pb pf a'.v ∧ (a.v.avail ≠ 0 → a'.v.avail ≠ 0) := by
  have K := (popBack_pos e 0).2
  unfold popBack at e
  split at e
  · cases e; exact ⟨f, id⟩
  · rename_i hc
    rcases f with f | ⟨f1, f2, f3⟩
    · rw [f] at hc; exact absurd rfl hc
    · suffices a'.v.avail = a.v.avail ∧ a'.v.csize = a.v.csize - 1 by
        refine ⟨.inr ⟨by omega, by omega, ?_⟩, by omega⟩
        rw [pos_add] at f3 ⊢
        omega
      simp only [Option.bind_eq_some_iff, Option.map_eq_some_iff] at e
      obtain ⟨⟨b, L1⟩, e1, _, _, e⟩ := e
      cases e
      unfold popBackStep at e1
      split at e1
      · cases e1; exact ⟨rfl, rfl⟩
      · simp only [Option.bind_eq_some_iff, Option.map_eq_some_iff] at e1
        obtain ⟨_, _, q, _, e1⟩ := e1
        cases e1; exact ⟨rfl, rfl⟩

theorem popFront_few {P : Pol} {a a' : ADeq} {L L' : Ledger} {h h' : Heap X} {pb pf : Nat} (f : Few N pb pf a.v)
    (e : popFront P N a h L = some (a', h', L')) : Few N pb pf a'.v ∧ (a.v.avail ≠ 0 → a'.v.avail ≠ 0) := by
  by_cases hc : a.v.csize = 0
  · rw [popFront, if_pos hc] at e
    cases e; exact ⟨f, id⟩
  · have K := (popFront_pos hc e 0).2
    rw [pos_add (n := 0 + 1)] at K
    rw [popFront, if_neg hc] at e
    rcases f with f | ⟨f1, f2, f3⟩
    · rw [f] at hc; exact absurd rfl hc
    · suffices a'.v.avail = a.v.avail ∧ a'.v.csize = a.v.csize - 1 by
        refine ⟨.inr ⟨by omega, by omega, ?_⟩, by omega⟩
        rw [pos_add] at f3 ⊢
        omega
      simp only [Option.bind_eq_some_iff, Option.map_eq_some_iff] at e
      obtain ⟨⟨b, L1⟩, e1, _, _, e⟩ := e
      cases e
      unfold popFrontStep at e1
      split at e1
      · cases e1; exact ⟨rfl, rfl⟩
      · simp only [Option.bind_eq_some_iff, Option.map_eq_some_iff] at e1
        obtain ⟨_, _, q, _, e1⟩ := e1
        cases e1; exact ⟨rfl, rfl⟩

end ADeq

theorem Few.mono {v : Deq} {pb pf pb' pf' : Nat} (f : Few N pb pf v) (h1 : pb ≤ pb') (h2 : pf ≤ pf') : Few N pb' pf' v := by
  rcases f with f | ⟨f1, f2, f3⟩
  · exact .inl f
  · exact .inr ⟨f1, by omega, by omega⟩

/-- With few additions so far, there is room at the back. -/
theorem Few.back {h : Heap X} {v : Deq} {xs : List X} {us fs : List Nat} {pb pf : Nat} (f : Few N pb pf v)
    (r : DRep N h v xs us fs) (hb : pb < 33 * 2 ^ N + (2 ^ N - 2 ^ N / 2)) :
    v.avail = 0 ∨ v.bsize < 2 ^ N ∨ v.back + 1 < v.avail := by
  rcases f with rfl | ⟨f1, f2, f3⟩
  · exact .inl rfl
  rcases r with ⟨F, f1', bz, c⟩ | ⟨nl, _⟩
  swap
  · exact .inl nl.av
  right
  by_contra hn
  have h1 := c.bsz; have h2 := c.bzle; have h3 := c.back; have h4 := c.size; have h5 := c.arr.le
  rw [c.pos_eq, ← c.len] at f3
  have hpow : blockSize N = 2 ^ N := blockSize_eq N
  have e1 : bz = blockSize N := by
    have : ¬ v.bsize < 2 ^ N := fun h => hn (.inl h)
    rw [h1] at this
    have : ¬ bz < 2 ^ N := fun h => this (by exact_mod_cast h)
    omega
  have e2 : F + us.length = 64 := by omega
  have e3 : F * blockSize N + us.length * blockSize N = 64 * blockSize N := by rw [← Nat.add_mul, e2]
  rw [← hpow] at hb
  rw [mid] at f3
  omega

/-- With few additions so far, there is room at the front. -/
theorem Few.front {h : Heap X} {v : Deq} {xs : List X} {us fs : List Nat} {pb pf : Nat} (f : Few N pb pf v)
    (r : DRep N h v xs us fs) (hb : pf < 30 * 2 ^ N + 2 ^ N / 2) :
    v.avail = 0 ∨ 0 ≤ v.fsize ∨ 0 < v.front := by
  rcases f with rfl | ⟨f1, f2, f3⟩
  · exact .inl rfl
  rcases r with ⟨F, f1', bz, c⟩ | ⟨nl, _⟩
  swap
  · exact .inl nl.av
  right
  by_contra hn
  have h1 := c.fsz; have h2 := c.front
  rw [c.pos_eq] at f2
  have hpow : blockSize N = 2 ^ N := blockSize_eq N
  have e1 : f1' = 0 := by omega
  have e2 : F = 0 := by omega
  subst e1 e2
  rw [← hpow] at hb
  rw [mid] at f2
  omega

theorem Few.some_or {h : Heap X} {v : Deq} {xs : List X} {us fs : List Nat} {pb pf : Nat} (f : Few N pb pf v)
    (r : DRep N h v xs us fs) : v = Deq.default N ∨ (v.dataptr.isSome = true ∧ v.avail ≠ 0) := by
  rcases f with rfl | ⟨f1, f2, f3⟩
  · exact .inl rfl
  rcases r with ⟨F, f1', bz, c⟩ | ⟨nl, _⟩
  · obtain ⟨l, h1, h2⟩ := c.ptr
    exact .inr ⟨by simp [h1], by omega⟩
  · have := nl.av; omega

theorem DRep.front_fsize {h : Heap X} {v : Deq} {xs : List X} {us fs : List Nat} {pb pf : Nat} (f : Few N pb pf v)
    (r : DRep N h v xs us fs) : -1 ≤ v.fsize ∧ 0 ≤ v.front := by
  rcases f with rfl | ⟨f1, f2, f3⟩
  · simp [Deq.default]
  rcases r with ⟨F, f1', bz, c⟩ | ⟨nl, _⟩
  · have := c.fsz; have := c.front; omega
  · have := nl.av; omega

/-- A program of few additions at both ends. -/
theorem few_run {P : Pol} {k : Nat} (hN : 0 < N) (ops : List (Op X)) : ∀ {w : TWorld X} {aw : AWorld X}
    {us fs : Nat → List Nat} {pb pf : Nat} {a : ADeq} {xs : List X}, TInv w → WInv N w.erase aw us fs →
    (∀ op, op ∈ ops → op.ends k = true) → Few N pb pf a.v →
    pb + ops.countP Op.isPush ≤ 33 * 2 ^ N + (2 ^ N - 2 ^ N / 2) → pf + ops.countP Op.isPushFront ≤ 30 * 2 ^ N + 2 ^ N / 2 →
    w.objs k = some a → aw k = some xs →
    carefulRun P N w.erase ops = true ∧ (a.v.avail ≠ 0 → roomyRun P N k w ops = true) ∧
      ∃ w' aw' obs us' fs' a' xs', runT P N w ops = some (w', obs) ∧ idealRun aw ops = some (aw', obs) ∧
        TInv w' ∧ WInv N w'.erase aw' us' fs' ∧ w'.objs k = some a' ∧ aw' k = some xs' ∧
        Few N (pb + ops.countP Op.isPush) (pf + ops.countP Op.isPushFront) a'.v := by
  induction ops with
  | nil =>
    intro w aw us fs pb pf a xs I W _ f _ _ ha hx
    exact ⟨rfl, fun _ => rfl, w, aw, [], us, fs, a, xs, rfl, rfl, I, W, ha, hx, f⟩
  | cons op ops ih =>
    intro w aw us fs pb pf a xs I W hg f h1 h2 ha hx
    obtain ⟨v, hv, r⟩ := W.getSome hx
    have hav : w.erase.objs k = some a.v := by simp [TWorld.erase, ha]
    rw [hav] at hv
    cases hv
    have hop := hg op List.mem_cons_self
    have hso := f.some_or r
    have hff := DRep.front_fsize f r
    rw [List.countP_cons] at h1 h2
    have hback : op.isPush = true → a.v.avail = 0 ∨ a.v.bsize < 2 ^ N ∨ a.v.back + 1 < a.v.avail := fun h =>
      f.back r (by rw [h] at h1; simp only [if_true] at h1; omega)
    have hfront : op.isPushFront = true → a.v.avail = 0 ∨ 0 ≤ a.v.fsize ∨ 0 < a.v.front := fun h =>
      f.front r (by rw [h] at h2; simp only [if_true] at h2; omega)
    have hcar : careful P N w.erase op = true := by
      cases op <;> simp only [Op.ends, beq_iff_eq, reduceCtorEq] at hop <;> subst hop <;>
        simp only [careful, hav, Option.all_some]
      · rcases hso with h | h
        · simp [Deq.usable, h, Deq.default]
        · simp [Deq.usable, h.1]
      · have : a.v.overlap = false := by
          rcases hso with h | h
          · simp [Deq.overlap, h, Deq.default]
          · have := (hfront rfl).resolve_left h.2
            simp only [Deq.overlap, decide_eq_false_iff_not]
            omega
        rw [this]
        rcases hso with h | h
        · simp [h, Deq.default]; omega
        · simp [h.1]
      · rcases hso with h | h
        · simp [h, Deq.default]
        · simp [h.1]
    have hroom : a.v.avail ≠ 0 → a.v.roomy N op = true := by
      intro hz
      cases op <;> simp only [Op.ends, beq_iff_eq, reduceCtorEq] at hop <;>
        simp only [Deq.roomy, Bool.or_eq_true, decide_eq_true_eq]
      · exact (hback rfl).resolve_left hz
      · exact (hfront rfl).resolve_left hz
    have hid : ∃ aw1 ys, ideal aw op = some (aw1, .done) ∧ aw1 k = some ys := by
      cases op <;> simp only [Op.ends, beq_iff_eq, reduceCtorEq] at hop <;> subst hop <;>
        simp only [ideal, hx, Option.map_some, Option.some.injEq, Prod.mk.injEq, and_true]
      all_goals first | exact ⟨_, _, rfl, by simp [upd]; rfl⟩ | exact ⟨_, _, rfl, hx⟩
    obtain ⟨aw1, ys, hi, hy⟩ := hid
    obtain ⟨w1, us1, fs1, e1, W1, _⟩ := step P w.erase aw us fs W op _ _ hi hcar
    obtain ⟨tw, e2, ew⟩ := runT_of_run (P := P) (N := N) (used := fun j => (aw j).isSome) [op] I (fun j hj => by
      have hn : aw j = none := by simpa using hj
      have := (W.getNone hn).1
      simpa [TWorld.erase] using this)
      (by cases op <;> simp only [Op.ends, beq_iff_eq, reduceCtorEq] at hop <;> simp [namesOk, Op.declares]) (w1, [.done]) (by simp [run, e1])
    dsimp only at e2 ew
    have I1 := (run_of_runT [op] I _ e2).2
    have e3 : execT P N w op = some (tw, .done) := by
      simp only [runT, Option.bind_eq_some_iff, Option.map_eq_some_iff] at e2
      obtain ⟨⟨t1, o1⟩, q1, ⟨t2, o2⟩, q2, q3⟩ := e2
      cases q2
      simp only [Prod.mk.injEq, List.cons.injEq, and_true] at q3
      obtain ⟨rfl, rfl⟩ := q3
      exact q1
    rw [← ew] at W1
    have hnext : ∃ a1, tw.objs k = some a1 ∧
        Few N (pb + if op.isPush = true then 1 else 0) (pf + if op.isPushFront = true then 1 else 0) a1.v ∧
        (a.v.avail ≠ 0 → a1.v.avail ≠ 0) := by
      cases op <;> simp only [Op.ends, beq_iff_eq, reduceCtorEq] at hop <;> subst hop <;>
        simp only [execT, TWorld.on, ha, Option.bind_some, Option.map_eq_some_iff] at e3 <;>
        obtain ⟨⟨a1, g1, L1⟩, e3, e4⟩ := e3 <;> cases e4 <;> refine ⟨a1, by simp [upd], ?_⟩ <;>
        simp only [Op.isPush, Op.isPushFront, if_true, Bool.false_eq_true, if_false, Nat.add_zero]
      · exact ADeq.pushBack_few f (hback rfl) e3
      · exact ADeq.pushFront_few f hN hff.1 hff.2 (hfront rfl) e3
      · exact ADeq.popBack_few f e3
      · exact ADeq.popFront_few f e3
      · simp only [ADeq.shrinkToFit, Option.map_eq_some_iff] at e3
        obtain ⟨_, _, e3⟩ := e3
        cases e3
        refine ⟨?_, id⟩
        rcases f with f | f
        · left; simp [f, Deq.default]
        · exact .inr f
    obtain ⟨a1, ha1, f1, hz1⟩ := hnext
    obtain ⟨c1, c2, w', aw', obs, us', fs', a', xs', j1, j2, j3, j4, j5, j6, j7⟩ :=
      ih I1 W1 (fun op h => hg op (List.mem_cons_of_mem _ h)) f1 (by omega) (by omega) ha1 hy
    refine ⟨?_, ?_, w', aw', .done :: obs, us', fs', a', xs', ?_, ?_, j3, j4, j5, j6, ?_⟩
    · rw [carefulRun, hcar, e1, ← ew]; exact c1
    · intro hz
      rw [roomyRun, ha, e3]
      simp only [Option.all_some, hroom hz, Bool.true_and]
      exact c2 (hz1 hz)
    · simp [runT, e3, j1]
    · simp [idealRun, hi, j2]
    · rw [List.countP_cons, List.countP_cons]
      exact j7.mono (by omega) (by omega)

/-! ## C154 -/

/-- C154, without a condition on the internal state.  A default constructed StableBlockDeque with blocks of `2 ^ N`
elements, `N > 0`, is used with additions and removals at both ends, in any order, and `shrink_to_fit`; in all there are
less than `33.5 * 2 ^ N` additions at the back and at most `30.5 * 2 ^ N` at the front.  Then no call is undefined, and an
iterator to any element, taken at any moment, stays valid as long as that element is not removed: it gives the same
element, and the loop from it to `end()` sees the elements of the deque from that one on. -/
theorem old_iterator_few_partial (P : Pol) (N : Nat) (hN : 0 < N) (pre post : List (Op X)) (k n m : Nat)
    (hp : ∀ op, op ∈ pre ++ post → op.ends k = true)
    (hb : (pre ++ post).countP Op.isPush < 33 * 2 ^ N + 2 ^ N / 2)
    (hf : (pre ++ post).countP Op.isPushFront ≤ 30 * 2 ^ N + 2 ^ N / 2)
    (aw : AWorld X) (obs : List (Obs X)) (h : idealRun noObjs (.new k :: pre) = some (aw, obs))
    (hm : follow k n aw post = some m) :
    ∃ w w' v v' p e obs' a aw' a', runT P N TWorld.empty (.new k :: pre) = some (w, obs) ∧
      runT P N w post = some (w', obs') ∧ w.objs k = some v ∧ w'.objs k = some v' ∧ heldAt N v n = some p ∧
      aw k = some a ∧ idealRun aw post = some (aw', obs') ∧ aw' k = some a' ∧ n < a.length ∧
      p.deref N w'.heap = a[n]? ∧ heldEnd N v' = some e ∧
      Held.walk N v' w'.heap e (a'.length + 1) p = some (a'.drop m) := by
  have e0 : exec P N (World.empty : World X) (.new k) =
      some (⟨upd World.empty.objs k (some (Deq.default N)), World.empty.heap⟩, .done) := rfl
  have t0 : execT P N (TWorld.empty : TWorld X) (.new k) =
      some (⟨upd TWorld.empty.objs k (some (ADeq.default N)), TWorld.empty.heap, TWorld.empty.arrays⟩, .done) := rfl
  generalize ht : (⟨upd TWorld.empty.objs k (some (ADeq.default N)), TWorld.empty.heap, TWorld.empty.arrays⟩ : TWorld X) = t at t0
  have R0 : runT P N (TWorld.empty : TWorld X) [.new k] = some (t, [.done]) := by simp [runT, t0]
  obtain ⟨E0, I0⟩ := run_of_runT [.new k] TInv.empty _ R0
  have E0' : exec P N (World.empty : World X) (.new k) = some (t.erase, .done) := by
    have E0 : run P N (World.empty : World X) [.new k] = some (t.erase, [.done]) := E0
    rw [run, e0, Option.bind_some] at E0
    simp only [run, Option.map_some, Option.some.injEq, Prod.mk.injEq, and_true] at E0
    rw [e0, E0]
  have hi0 : ideal (noObjs : AWorld X) (.new k) = some (upd noObjs k (some []), .done) := by simp [ideal, noObjs]
  obtain ⟨w1, us0, fs0, e1, W0, _⟩ := step P World.empty noObjs _ _ WInv.empty (.new k) _ _ hi0 rfl
  rw [E0'] at e1
  cases e1
  have hk : t.objs k = some (ADeq.default N) := by subst ht; simp [upd]
  have hx : (upd noObjs k (some []) : AWorld X) k = some [] := by simp [upd]
  have hhalf : 2 ^ N / 2 ≤ 2 ^ N - 2 ^ N / 2 := by omega
  -- the whole program
  obtain ⟨c, _, _⟩ := few_run (P := P) hN (pre ++ post) I0 W0 hp (.inl rfl) (pb := 0) (pf := 0) (by omega) (by omega) hk hx
  rw [List.countP_append] at hb hf
  obtain ⟨_, _, w, aw1, obs1, us1, fs1, v, xs, r1, r2, I1, W1, hv, hxs, f1⟩ := few_run (P := P) hN pre I0 W0
    (fun op ho => hp op (List.mem_append_left _ ho)) (.inl rfl) (pb := 0) (pf := 0) (by omega) (by omega) hk hx
  have hobs : (aw, obs) = (aw1, .done :: obs1) := by
    rw [idealRun, hi0, Option.bind_some, r2] at h
    simpa using h.symm
  cases hobs
  obtain ⟨_, hroom, w2, aw2, obs2, us2, fs2, v2, xs2, r3, r4, I2, W2, hv2, hxs2, f2⟩ := few_run (P := P) hN post I1 W1
    (fun op ho => hp op (List.mem_append_right _ ho)) f1 (by omega) (by omega) hv hxs
  have hcar : carefulRun P N (World.empty : World X) ((Op.new k :: pre) ++ post) = true := by
    rw [List.cons_append, carefulRun, E0']; exact c
  obtain ⟨w', w2', v', v2', p, obs', a, aw', a', k1, k2, k3, k4, k5, k6, k7, k8, k9, k10, k11⟩ :=
    old_iterator_partial P N (.new k :: pre) post k n m aw _ h hcar (fun op ho => hp op (List.mem_append_right _ ho)) hm
  have hw : w' = w := by
    rw [runT, t0, Option.bind_some, r1] at k1
    simp only [Option.map_some, Option.some.injEq, Prod.mk.injEq] at k1
    exact k1.1.symm
  subst hw
  rw [hv] at k3; cases k3
  rw [r3] at k2; cases k2
  rw [hv2] at k4; cases k4
  rw [r4] at k7; cases k7
  rw [hxs] at k6; cases k6
  rw [hxs2] at k8; cases k8
  obtain ⟨u, hu, r⟩ := W1.getSome hxs
  simp only [TWorld.erase, hv, Option.map_some, Option.some.injEq] at hu
  subst hu
  have hav : v.v.avail ≠ 0 := by
    rcases f1.some_or r with h | h
    · have := r.csize; rw [h] at this; simp only [Deq.default] at this; omega
    · exact h.2
  obtain ⟨u, hu, r'⟩ := W2.getSome hxs2
  simp only [TWorld.erase, hv2, Option.map_some, Option.some.injEq] at hu
  subst hu
  have hit : v2.v.iterable N = true := by
    have hbk := f2.back r' (by omega)
    rcases f2.some_or r' with h | h
    · simp [Deq.iterable, h, Deq.default]
    · have := hbk.resolve_left h.2
      have hpow : ((blockSize N : Nat) : Int) = 2 ^ N := by rw [blockSize_eq]; push_cast; rfl
      simp only [Deq.iterable, h.1, if_true, Bool.not_eq_true', Bool.and_eq_false_iff, beq_eq_false_iff_ne, ne_eq, hpow]
      omega
  obtain ⟨e, q1, q2⟩ := k11 (hroom hav) hit
  exact ⟨_, _, _, _, p, e, _, _, _, _, k1, r3, hv, hv2, k5, hxs, r4, hxs2, k10, k9, q1, q2⟩

/-- An iterator to the second element is kept while elements are added and removed at both ends. -/
example :
    let pre : List (Op Char) := [.push 0 'a', .push 0 'b']
    let post : List (Op Char) := [.push 0 'c', .pushFront 0 'd', .pushFront 0 'e', .popFront 0, .push 0 'f', .pop 0, .shrink 0]
    (∀ op, op ∈ pre ++ post → op.ends 0 = true) ∧ (pre ++ post).countP Op.isPush < 33 * 2 ^ 1 + 2 ^ 1 / 2 ∧
    (pre ++ post).countP Op.isPushFront ≤ 30 * 2 ^ 1 + 2 ^ 1 / 2 ∧
    (idealRun noObjs (.new 0 :: pre)).map (fun r => r.1 0) = some (some ['a', 'b']) ∧
    follow 0 1 (upd noObjs 0 (some ['a', 'b'])) post = some 2 := by
  decide

set_option maxRecDepth 8000 in
/-- The numbers are exact: with blocks of two elements `end()` can be formed after 66 additions at the back but not after
67 (= 33.5 * 2), and the 61 (= 30.5 * 2) additions at the front leave the array as it is, but the 62nd moves its
entries. -/
example :
    (runT ⟨true, true⟩ 1 TWorld.empty (Op.new 0 :: (List.range 66 : List Nat).map (Op.push 0))).bind (fun r =>
      (r.1.objs 0).map fun v => ((heldEnd 1 v).isSome, v.v.front)) = some (true, 30) ∧
    (runT ⟨true, true⟩ 1 TWorld.empty (Op.new 0 :: (List.range 67 : List Nat).map (Op.push 0))).bind (fun r =>
      (r.1.objs 0).map fun v => ((heldEnd 1 v).isSome, v.v.front)) = some (false, 30) ∧
    (runT ⟨true, true⟩ 1 TWorld.empty (Op.new 0 :: (List.range 61 : List Nat).map (Op.pushFront 0))).bind (fun r =>
      (r.1.objs 0).map fun v => [v.v.front, v.v.back]) = some [0, 30] ∧
    (runT ⟨true, true⟩ 1 TWorld.empty (Op.new 0 :: (List.range 62 : List Nat).map (Op.pushFront 0))).bind (fun r =>
      (r.1.objs 0).map fun v => [v.v.front, v.v.back]) = some [16, 47] := by
  decide

end Verif.Block.Deque
