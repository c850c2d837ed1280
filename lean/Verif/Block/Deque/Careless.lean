import Verif.Block.Deque.ThrowProps

/-
C30 and C25-C29: the calls that `careful` excludes are undefined, in every reachable state; and what the two calls do that are made
but leave a deque that does not work: `StableBlockDeque(0)` and the copy of a deque without memory.
-/
namespace Verif.Block.Deque
open Verif.Block
variable {X : Type} {P : Pol} {N : Nat}

/-! ## Deques without memory keep their members -/

/-- `v'` has memory, or `v` has not and the number of elements in the last block is the same -/
def Keeps (v v' : Deq) : Prop := v'.dataptr = none → v.dataptr = none ∧ v'.bsize = v.bsize

theorem Keeps.refl (v : Deq) : Keeps v v := fun h => ⟨h, rfl⟩

theorem Keeps.trans {a b c : Deq} (h1 : Keeps a b) (h2 : Keeps b c) : Keeps a c := fun h =>
  ⟨(h1 (h2 h).1).1, (h2 h).2.trans (h1 (h2 h).1).2⟩

theorem Keeps.ofSome {v v' : Deq} (h : v'.dataptr ≠ none) : Keeps v v' := fun h' => absurd h' h

theorem slotGet_ne {p : SlotPtr} {i : Int} {b : Nat} (h : slotGet p i = some b) : p ≠ none := by
  rintro rfl; cases h

theorem slotSet_ne {p q : SlotPtr} {i : Int} {b : Nat} (h : slotSet p i b = some q) : q ≠ none := by
  cases p with
  | none => cases h
  | some l =>
    simp only [slotSet] at h
    split at h <;> cases h
    simp

theorem constructAt_ne {p : SlotPtr} {i j : Int} {h h' : Heap X} {x : X} (e : constructAt N p i j h x = some h') : p ≠ none := by
  simp only [constructAt, Option.bind_eq_some_iff] at e
  obtain ⟨b, hb, -⟩ := e
  exact slotGet_ne hb

theorem destroyAt_ne {p : SlotPtr} {i j : Int} {h h' : Heap X} (e : destroyAt P N p i j h = some h') : p ≠ none := by
  simp only [destroyAt, Option.bind_eq_some_iff] at e
  obtain ⟨b, hb, -⟩ := e
  exact slotGet_ne hb

theorem pushBack_keeps {v v' : Deq} {h h' : Heap X} {x : X} (e : v.pushBack P N h x = some (v', h')) : Keeps v v' := by
  simp only [Deq.pushBack, Option.bind_eq_some_iff, Option.map_eq_some_iff] at e
  obtain ⟨r, -, h1, hc, e⟩ := e
  cases e
  exact .ofSome (constructAt_ne hc)

theorem pushFront_keeps {v v' : Deq} {h h' : Heap X} {x : X} (e : v.pushFront P N h x = some (v', h')) : Keeps v v' := by
  simp only [Deq.pushFront, Option.bind_eq_some_iff, Option.map_eq_some_iff] at e
  obtain ⟨r, -, h1, hc, e⟩ := e
  cases e
  exact .ofSome (constructAt_ne hc)

theorem popBack_keeps {v v' : Deq} {h h' : Heap X} (e : v.popBack P N h = some (v', h')) : Keeps v v' := by
  rw [Deq.popBack] at e
  split at e
  · cases e; exact .refl v
  · simp only [Option.bind_eq_some_iff, Option.map_eq_some_iff] at e
    obtain ⟨r, -, h1, hc, e⟩ := e
    cases e
    exact .ofSome (destroyAt_ne hc)

theorem popFront_keeps {v v' : Deq} {h h' : Heap X} (e : v.popFront P N h = some (v', h')) : Keeps v v' := by
  rw [Deq.popFront] at e
  split at e
  · cases e; exact .refl v
  · simp only [Option.bind_eq_some_iff, Option.map_eq_some_iff] at e
    obtain ⟨r, -, h1, hc, e⟩ := e
    cases e
    exact .ofSome (destroyAt_ne hc)

theorem popN_keeps (n : Nat) : ∀ {v v' : Deq} {h h' : Heap X}, Deq.popN P N n v h = some (v', h') → Keeps v v' := by
  induction n with
  | zero => intro v v' h h' e; cases e; exact .refl v
  | succ n ih =>
    intro v v' h h' e
    simp only [Deq.popN, Option.bind_eq_some_iff] at e
    obtain ⟨r, h1, e⟩ := e
    exact (popBack_keeps (v' := r.1) (h' := r.2) h1).trans (ih e)

theorem pushFrom_keeps (R : InRange X) (n : Nat) : ∀ {s : R.S} {v v' : Deq} {h h' : Heap X},
    Deq.pushFrom P N R n s v h = some (v', h') → Keeps v v' := by
  induction n with
  | zero =>
    intro s v v' h h' e
    simp only [Deq.pushFrom] at e
    split at e <;> cases e
    exact .refl v
  | succ n ih =>
    intro s v v' h h' e
    simp only [Deq.pushFrom] at e
    split at e
    · simp only [Option.bind_eq_some_iff] at e
      obtain ⟨r, -, q, h1, s', -, e⟩ := e
      exact (pushBack_keeps (v' := q.1) (h' := q.2) h1).trans (ih e)
    · cases e; exact .refl v

theorem assignFrom_keeps (R : InRange X) {n : Nat} {s : R.S} {v v' : Deq} {h h' : Heap X}
    (e : Deq.assignFrom P N R n v h s = some (v', h')) : Keeps v v' := by
  simp only [Deq.assignFrom, Option.bind_eq_some_iff] at e
  obtain ⟨⟨v1, h1, s1⟩, e1, e2⟩ := e
  refine Keeps.trans ?_ (pushFrom_keeps R n e2)
  simp only [Deq.assignOver] at e1
  split at e1
  · simp only [Option.bind_eq_some_iff] at e1
    obtain ⟨b, -, l, -, r, -, e1⟩ := e1
    split at e1
    · simp only [Option.bind_eq_some_iff, Option.map_eq_some_iff] at e1
      obtain ⟨k, -, q, hq, e1⟩ := e1
      cases e1
      exact popN_keeps k hq
    · cases e1; exact .refl v
  · cases e1; exact .refl v

theorem clear_keeps {v v' : Deq} {h h' : Heap X} (e : v.clear P N h = some (v', h')) : Keeps v v' := by
  rw [Deq.clear] at e
  split at e
  · cases e; exact .refl v
  · simp only [Option.bind_eq_some_iff, Option.map_eq_some_iff] at e
    obtain ⟨h1, -, r, -, q, -, b, -, p, hp, e⟩ := e
    cases e
    exact .ofSome (slotSet_ne hp)

theorem shrink_keeps {v v' : Deq} {h h' : Heap X} (e : v.shrinkToFit N h = some (v', h')) : Keeps v v' := by
  simp only [Deq.shrinkToFit, Option.map_eq_some_iff] at e
  obtain ⟨h1, -, e⟩ := e
  cases e
  exact .refl v

theorem copyCtor_ne {v v' : Deq} {h h' : Heap X} (e : Deq.copyCtor P N v h = some (v', h')) : v'.dataptr ≠ none := by
  simp only [Deq.copyCtor] at e
  split at e
  · simp only [Option.bind_eq_some_iff, Deq.assignAll] at e
    obtain ⟨p, hp, b, -, l, -, e⟩ := e
    intro h0
    exact slotSet_ne hp ((assignFrom_keeps _ e) h0).1
  · simp only [Option.map_eq_some_iff] at e
    obtain ⟨p, hp, e⟩ := e
    cases e
    exact slotSet_ne hp

theorem fillMid_ne {x : X} (n : Nat) : ∀ {i : Int} {p p' : SlotPtr} {h h' : Heap X}, p ≠ none →
    Deq.fillMid N x n i p h = some (p', h') → p' ≠ none := by
  induction n with
  | zero => intro i p p' h h' hp e; cases e; exact hp
  | succ n ih =>
    intro i p p' h h' hp e
    simp only [Deq.fillMid, Option.bind_eq_some_iff] at e
    obtain ⟨q, hq, h1, -, e⟩ := e
    exact ih (slotSet_ne hq) e

theorem ofSize_ne {n : Nat} {x : X} {v' : Deq} {h h' : Heap X} (e : Deq.ofSize N h n x = some (v', h')) : v'.dataptr ≠ none := by
  simp only [Deq.ofSize] at e
  split at e
  · simp only [Option.map_eq_some_iff] at e
    obtain ⟨p, hp, e⟩ := e
    cases e
    exact slotSet_ne hp
  · simp only [Option.bind_eq_some_iff] at e
    obtain ⟨p, hp, h1, -, r, hr, e⟩ := e
    split at e
    · simp only [Option.bind_eq_some_iff, Option.map_eq_some_iff] at e
      obtain ⟨q, hq, h2, -, e⟩ := e
      cases e
      exact slotSet_ne hq
    · cases e
      exact fillMid_ne _ (slotSet_ne hp) (p' := r.1) (h' := r.2) hr

/-- Objects without memory have at most `blockSize` as number of elements in the last block. -/
def Small (N : Nat) (w : World X) : Prop := ∀ i v, w.objs i = some v → v.dataptr = none → v.bsize ≤ (blockSize N : Int)

theorem Small.set {w : World X} (S : Small N w) {i : Nat} {v : Deq} {h : Heap X} (hv : v.dataptr = none → v.bsize ≤ (blockSize N : Int)) :
    Small N (⟨upd w.objs i (some v), h⟩ : World X) := by
  intro k u hu
  by_cases hk : k = i
  · subst hk
    simp only [upd_same] at hu
    cases hu
    exact hv
  · simp only [upd_ne _ _ hk] at hu
    exact S k u hu

theorem Small.keeps {w : World X} (S : Small N w) {i : Nat} {v v' : Deq} {h : Heap X} (hv : w.objs i = some v) (hk : Keeps v v') :
    Small N (⟨upd w.objs i (some v'), h⟩ : World X) :=
  S.set fun h0 => (hk h0).2 ▸ S i v hv (hk h0).1

/-- in a reachable state, all objects -/
theorem WInvR.bsize_le {w : World X} {aw us fs} (W : WInv N w aw us fs) (S : Small N w) {i : Nat} {v : Deq} (hv : w.objs i = some v) :
    v.bsize ≤ (blockSize N : Int) := by
  have hr := W.rep i
  rw [hv] at hr
  cases ha : aw i with
  | none => rw [ha] at hr; exact hr.elim
  | some a =>
    rw [ha] at hr
    rcases hr with ⟨F, f1, bz, c⟩ | ⟨nl, _⟩
    · rw [c.bsz]; exact_mod_cast c.bzle
    · exact S i v hv nl.ptr

theorem Small.exec {w w' : World X} {aw us fs} (W : WInv N w aw us fs) (S : Small N w) {op : Op X} {o : Obs X}
    (e : exec P N w op = some (w', o)) : Small N w' := by
  cases op <;> simp only [Deque.exec, Option.bind_eq_some_iff, Option.map_eq_some_iff, Option.some.injEq] at e
  case new i => cases e; exact S.set fun _ => Int.le_refl _
  case newSize i n x =>
    obtain ⟨r, h1, e⟩ := e; cases e
    exact S.set fun h0 => absurd h0 (ofSize_ne (h' := r.2) h1)
  case copyNew i j =>
    obtain ⟨v, hv, r, h1, e⟩ := e; cases e
    exact S.set fun h0 => absurd h0 (copyCtor_ne (h' := r.2) h1)
  case moveNew i j =>
    obtain ⟨v, hv, e⟩ := e; cases e
    exact Small.set (w := ⟨upd w.objs i (some v), w.heap⟩) (S.set fun _ => W.bsize_le S hv)
      fun _ => show v.bsize ≤ _ from W.bsize_le S hv
  case moveAssign i j =>
    obtain ⟨u, hu, v, hv, r, h1, e⟩ := e; cases e
    simp only [Deq.moveAssign, Option.map_eq_some_iff] at h1
    obtain ⟨h2, -, rfl⟩ := h1
    exact Small.set (w := ⟨upd w.objs i (some v), w.heap⟩) (S.set fun _ => W.bsize_le S hv)
      fun _ => show v.bsize ≤ _ from W.bsize_le S hv
  case copyAssign i j =>
    obtain ⟨u, hu, v, hv, r, h1, e⟩ := e; cases e
    simp only [Deq.copyAssign, Deq.assignAll, Option.bind_eq_some_iff] at h1
    obtain ⟨b, -, l, -, h1⟩ := h1
    exact S.keeps hu (assignFrom_keeps (h' := r.2) _ h1)
  case assignRange i j lo hi =>
    obtain ⟨u, hu, v, hv, r, h1, e⟩ := e; cases e
    simp only [Deq.assignSub, Option.bind_eq_some_iff] at h1
    obtain ⟨b, -, l, -, l', -, h1⟩ := h1
    exact S.keeps hu (assignFrom_keeps (h' := r.2) _ h1)
  case moveRange i j lo hi left =>
    obtain ⟨u, hu, v, hv, r, h1, e⟩ := e; cases e
    simp only [Deq.assignSub, Option.bind_eq_some_iff] at h1
    obtain ⟨b, -, l, -, l', -, h1⟩ := h1
    exact S.keeps hu (assignFrom_keeps (h' := r.2) _ h1)
  case destroy i =>
    obtain ⟨v, hv, h', h1, e⟩ := e; cases e
    intro k u hu
    by_cases hk : k = i
    · subst hk; simp only [upd_same] at hu; cases hu
    · simp only [upd_ne _ _ hk] at hu; exact S k u hu
  case push i x => obtain ⟨v, hv, r, h1, e⟩ := e; cases e; exact S.keeps hv (pushBack_keeps (h' := r.2) h1)
  case pushFront i x => obtain ⟨v, hv, r, h1, e⟩ := e; cases e; exact S.keeps hv (pushFront_keeps (h' := r.2) h1)
  case pop i => obtain ⟨v, hv, r, h1, e⟩ := e; cases e; exact S.keeps hv (popBack_keeps (h' := r.2) h1)
  case popFront i => obtain ⟨v, hv, r, h1, e⟩ := e; cases e; exact S.keeps hv (popFront_keeps (h' := r.2) h1)
  case assign i xs => obtain ⟨v, hv, r, h1, e⟩ := e; cases e; exact S.keeps hv (assignFrom_keeps (h' := r.2) _ h1)
  case clear i => obtain ⟨v, hv, r, h1, e⟩ := e; cases e; exact S.keeps hv (clear_keeps (h' := r.2) h1)
  case shrink i => obtain ⟨v, hv, r, h1, e⟩ := e; cases e; exact S.keeps hv (shrink_keeps (h' := r.2) h1)
  case set i k x => obtain ⟨v, hv, h', h1, e⟩ := e; cases e; exact S
  case size i => obtain ⟨v, hv, e⟩ := e; cases e; exact S
  case empty i => obtain ⟨v, hv, e⟩ := e; cases e; exact S
  case get i k => obtain ⟨v, hv, x, h1, e⟩ := e; cases e; exact S
  case «at» i k =>
    obtain ⟨v, hv, x, h1, e⟩ := e
    cases x <;> (cases e; exact S)
  case front i => obtain ⟨v, hv, x, h1, e⟩ := e; cases e; exact S
  case back i => obtain ⟨v, hv, x, h1, e⟩ := e; cases e; exact S
  case iterate i => obtain ⟨v, hv, x, h1, e⟩ := e; cases e; exact S

theorem Reached.small {w : World X} {aw : AWorld X} (h : Reached P N w aw) : Small N w := by
  induction h with
  | start => intro i v hv; cases hv
  | call h _ _ he ih =>
    obtain ⟨us, fs, W⟩ := h.inv
    exact Small.exec W ih he
  | noMemory h hm hc hf he ih =>
    rename_i w w' aw front i x f
    obtain ⟨us, fs, W⟩ := h.inv
    rcases W.noMemory hm hc hf with ⟨w1, e, W', ho, _⟩ | ⟨w1, e, _⟩
    · rw [he] at e; cases e
      intro k u hu hp
      by_cases hk : k = i
      · subst hk
        obtain ⟨v, hv, hd⟩ := hm
        have r1 := W.rep k
        have r2 := W'.rep k
        rw [hv] at r1
        rw [hu] at r2
        cases ha : aw k with
        | none => rw [ha] at r1; exact r1.elim
        | some a =>
          rw [ha] at r1 r2
          rcases r1 with ⟨F, f1, bz, c⟩ | ⟨nl, _⟩
          · rcases r2 with ⟨F, f1, bz, c'⟩ | ⟨_, h0, _⟩
            · obtain ⟨l, hl, _⟩ := c'.ptr
              rw [hp] at hl; cases hl
            · have := c.ne; rw [h0] at this; simp at this
          · rw [nl.ptr] at hd; cases hd
      · rw [ho k hk] at hu; exact ih k u hu hp
    · rw [he] at e; cases e
  | assignThrew h ha hk hy hc he ih =>
    simp only [execAssignThrow, Option.bind_eq_some_iff, Option.map_eq_some_iff] at he
    obtain ⟨v, hv, h', h1, e⟩ := he
    cases e
    exact ih

/-! ## The excluded calls -/

theorem push_unusable {v : Deq} {h : Heap X} {x : X} (nl : Null v) (hb : v.bsize ≤ (blockSize N : Int)) (hu : v.usable N = false) :
    v.pushBack P N h x = none := by
  simp only [Deq.usable, nl.ptr, Option.isSome_none, Bool.false_or, Bool.and_eq_false_iff, beq_eq_false_iff_ne] at hu
  rw [Deq.pushBack, Deq.blockCheck]
  by_cases h1 : v.bsize = blockSize N
  · rw [if_pos (by omega), if_pos nl.av, Deq.firstBlock, FreeL.get, if_neg (hu.resolve_left fun h => h h1), nl.fb]
    rfl
  · rw [if_neg (by omega)]
    simp only [Option.bind_some, constructAt, nl.ptr]
    rfl

theorem assign_unusable {v : Deq} {h : Heap X} {x : X} {xs : List X} (nl : Null v) (hb : v.bsize ≤ (blockSize N : Int))
    (hu : v.usable N = false) : v.assign P N h (x :: xs) = none := by
  simp [Deq.assign, Deq.assignFrom, Deq.assignOver, nl.cs, Deq.pushFrom, push_unusable nl hb hu]

theorem destroyDown_hole {p : SlotPtr} {i : Int} {b : Nat} (ht : P.triv = false) (hb : slotGet p i = some b) (j : Nat) (n : Nat) :
    ∀ {hi : Int} {h : Heap X}, h.cells b j = none → hi - n ≤ j → (j : Int) < hi → Deq.destroyDown P N p i hi n h = none := by
  induction n with
  | zero => intro hi h _ h1 h2; omega
  | succ n ih =>
    intro hi h hc h1 h2
    rw [Deq.destroyDown]
    by_cases hj : hi - 1 = j
    · rw [destroyAt, hb, hj, natIdx, if_pos (by omega)]
      simp [ht, Heap.destroy, hc]
    · cases e : destroyAt P N p i (hi - 1) h with
      | none => rfl
      | some h' =>
        simp only [Option.bind_some]
        refine ih ?_ (by omega) (by omega)
        simp only [destroyAt, hb, Option.bind_some, Option.bind_eq_some_iff, ht] at e
        obtain ⟨k, hk, e⟩ := e
        simp only [Bool.false_eq_true, false_and, if_false, Heap.destroy] at e
        split at e <;> cases e
        simp only [Heap.setCell]
        split
        · rfl
        · exact hc

theorem clear_hole {h : Heap X} {v : Deq} {xs : List X} {us fs : List Nat} {F f1 bz : Nat} (c : Core N h v xs us fs F f1 bz)
    (hx : xs ≠ []) (ht : P.triv = false) (hl : us.length = 1) (hf : f1 ≠ 0) : v.clear P N h = none := by
  have hlen := c.len
  have hpos : 0 < xs.length := List.length_pos_iff.2 hx
  have hav := c.avail_pos
  have hsz := c.size
  have hfl := c.f1le
  rw [hl, Nat.one_mul] at hsz
  obtain ⟨u, hu⟩ := List.length_eq_one_iff.1 hl
  have hg : slotGet v.dataptr v.back = some u := by
    refine c.arr.slotGet' (k := 0) (by rw [hu]; rfl) ?_
    rw [c.back, hl]; omega
  have h0 : h.cells u 0 = none := by
    rw [c.grid.cells 0 u (by rw [hu]; rfl) 0 (blockSize_pos N)]
    rw [content, if_pos (by omega)]
  rw [Deq.clear, if_neg (by omega), destroyDown_hole ht hg 0 _ h0 (by rw [c.bsz]; omega) (by rw [c.bsz]; omega)]
  rfl

theorem pushFront_overlap {h : Heap X} {v : Deq} {x : X} (hp : v.avail ≠ 0) (hm : P.memmove = false) (ho : v.overlap = true) :
    v.pushFront P N h x = none := by
  simp only [Deq.overlap, decide_eq_true_eq] at ho
  obtain ⟨h1, h2, h3, h4⟩ := ho
  rw [Deq.pushFront, Deq.blockCheckFront, if_pos h1, if_neg hp, Deq.roomFront, if_pos h2]
  simp only [if_pos h3]
  cases v.dataptr with
  | none => rfl
  | some l =>
    simp only [Option.bind_some, slotCopyIn]
    rw [if_pos ⟨by omega, by omega, hm⟩]
    rfl

theorem pushFront_small {h : Heap X} {v : Deq} {x : X} (nl : Null v) (hc : v.free.idx ≠ 0 ∨ N = 0) :
    v.pushFront P N h x = none := by
  rw [Deq.pushFront, Deq.blockCheckFront, if_pos (by rw [nl.fs]; omega), if_pos nl.av, Deq.firstBlock]
  by_cases h1 : v.free.idx = 0
  · have h2 : N = 0 := hc.resolve_left fun h => h h1
    subst h2
    simp only [FreeL.get, if_pos h1, Option.bind_some, Option.bind_eq_none_iff]
    intro r hr
    simp only [Option.map_eq_some_iff] at hr
    obtain ⟨p, -, rfl⟩ := hr
    simp only [constructAt, blockSize, natIdx]
    simp
  · rw [FreeL.get, if_neg h1, nl.fb]
    rfl

theorem end_none {h : Heap X} {v : Deq} {xs : List X} {us fs : List Nat} (r : DRep N h v xs us fs) (hi : v.iterable N = false) :
    v.end? N = none := by
  rcases r with ⟨F, f1, bz, c⟩ | ⟨nl, _⟩
  · obtain ⟨l, hl, _⟩ := c.ptr
    rw [Deq.iterable, hl] at hi
    simp only [Option.isSome_some, if_true, Bool.not_eq_false', Bool.and_eq_true, beq_iff_eq] at hi
    exact c.end_full hi.1 hi.2
  · rw [Deq.iterable, nl.ptr] at hi
    simp only [Option.isSome_none, Bool.false_eq_true, if_false, beq_eq_false_iff_ne] at hi
    rw [Deq.end?, if_neg hi, nl.ptr]
    rfl

/-- The calls to which `careful_exact` applies: insertions, `clear`, `shrink_to_fit`, iteration, assigning elements, and copies of
deques that own memory. -/
def Op.covered (w : World X) : Op X → Prop
  | .push _ _ | .pushFront _ _ | .clear _ | .shrink _ | .iterate _ => True
  | .assign _ xs => xs ≠ []
  | .copyNew _ j => hasMemory w j
  | _ => False

/-- C30 and C25-C29: in every reachable state, of the calls that sequences have, these are undefined exactly if they are not careful. -/
theorem careful_exact (P : Pol) (N : Nat) (w : World X) (aw : AWorld X) (h : Reached P N w aw) (op : Op X) (hk : op.covered w)
    (hi : (ideal aw op).isSome = true) : exec P N w op = none ↔ careful P N w op = false := by
  obtain ⟨us, fs, W⟩ := h.inv
  have S := h.small
  constructor
  · intro e
    cases hc : careful P N w op with
    | false => rfl
    | true =>
      obtain ⟨⟨aw', o⟩, hi⟩ := Option.isSome_iff_exists.1 hi
      obtain ⟨w', _, _, e', _⟩ := step P w aw us fs W op aw' o hi hc
      rw [e] at e'; cases e'
  · intro hc
    have obj : ∀ i, (aw i).isSome = true → ∃ v a, aw i = some a ∧ w.objs i = some v ∧ DRep N w.heap v a (us i) (fs i) ∧
        v.bsize ≤ (blockSize N : Int) := by
      intro i ha
      obtain ⟨a, ha⟩ := Option.isSome_iff_exists.1 ha
      obtain ⟨v, hv, r⟩ := W.getSome ha
      exact ⟨v, a, ha, hv, r, W.bsize_le S hv⟩
    cases op with
    | push i x =>
      obtain ⟨v, a, ha, hv, r, hb⟩ := obj i (by simpa [ideal] using hi)
      simp only [careful, hv, Option.all_some] at hc
      simp only [exec, hv, Option.bind_some, Option.map_eq_none_iff]
      rcases r with ⟨F, f1, bz, c⟩ | ⟨nl, _⟩
      · obtain ⟨l, hl, _⟩ := c.ptr
        simp [Deq.usable, hl] at hc
      · exact push_unusable nl hb hc
    | pushFront i x =>
      obtain ⟨v, a, ha, hv, r, hb⟩ := obj i (by simpa [ideal] using hi)
      simp only [careful, hv, Option.all_some, Bool.and_eq_false_iff, Bool.or_eq_false_iff, Bool.not_eq_false', beq_eq_false_iff_ne,
        decide_eq_false_iff_not, Option.isSome_eq_false_iff] at hc
      simp only [exec, hv, Option.bind_some, Option.map_eq_none_iff]
      rcases r with ⟨F, f1, bz, c⟩ | ⟨nl, _⟩
      · obtain ⟨l, hl, _⟩ := c.ptr
        rcases hc with ⟨h1, -⟩ | ⟨h1, h2⟩
        · rw [hl] at h1; simp at h1
        · exact pushFront_overlap (by have := c.avail_pos; omega) h1 h2
      · rcases hc with ⟨-, h1⟩ | ⟨h1, h2⟩
        · exact pushFront_small nl (h1.imp id fun h => by omega)
        · simp only [Deq.overlap, decide_eq_true_eq, nl.av] at h2
          omega
    | clear i =>
      obtain ⟨v, a, ha, hv, r, hb⟩ := obj i (by simpa [ideal] using hi)
      simp only [careful, hv, Option.all_some, Bool.or_eq_false_iff, beq_eq_false_iff_ne, decide_eq_false_iff_not] at hc
      simp only [exec, hv, Option.bind_some, Option.map_eq_none_iff]
      obtain ⟨⟨⟨h1, h2⟩, h3⟩, h4⟩ := hc
      rcases r with ⟨F, f1, bz, c⟩ | ⟨nl, _⟩
      · have hne := c.ne
        have hfs := c.fsz
        have hfr := c.front
        have hbk := c.back
        refine clear_hole c ?_ h2 (by omega) (by omega)
        rintro rfl
        exact h1 c.len.symm
      · exact absurd nl.cs h1
    | shrink i =>
      obtain ⟨v, a, ha, hv, r, hb⟩ := obj i (by simpa [ideal] using hi)
      simp only [careful, hv, Option.all_some, Bool.or_eq_false_iff, beq_eq_false_iff_ne, Option.isSome_eq_false_iff] at hc
      simp only [exec, hv, Option.bind_some, Option.map_eq_none_iff, Deq.shrinkToFit]
      rcases r with ⟨F, f1, bz, c⟩ | ⟨nl, _⟩
      · obtain ⟨l, hl, _⟩ := c.ptr
        rw [hl] at hc; simp at hc
      · obtain ⟨m, hm⟩ : ∃ m, v.free.idx = m + 1 := ⟨v.free.idx - 1, by omega⟩
        rw [hm, FreeL.freeFrom, nl.fb]; rfl
    | iterate i =>
      obtain ⟨v, a, ha, hv, r, hb⟩ := obj i (by simpa [ideal] using hi)
      simp only [careful, hv, Option.all_some] at hc
      simp only [exec, hv, Option.bind_some, Option.map_eq_none_iff, Deq.iterate, end_none r hc]
      cases v.begin? N <;> rfl
    | assign i xs =>
      obtain ⟨v, a, ha, hv, r, hb⟩ := obj i (by simpa [ideal] using hi)
      simp only [careful, hv, Option.all_some, Bool.and_eq_false_iff, Bool.or_eq_false_iff, beq_eq_false_iff_ne] at hc
      simp only [exec, hv, Option.bind_some, Option.map_eq_none_iff]
      rcases hc with hc | ⟨h1, h2⟩
      · rcases r with ⟨F, f1, bz, c⟩ | ⟨nl, _⟩
        · obtain ⟨l, hl, _⟩ := c.ptr
          simp [Deq.usable, hl] at hc
        · cases xs with
          | nil => exact absurd rfl hk
          | cons x xs => exact assign_unusable nl hb hc
      · simp only [Deq.assign, Deq.assignFrom, Deq.assignOver]
        rw [if_pos h1, end_none r h2]
        cases v.begin? N <;> rfl
    | copyNew i j =>
      obtain ⟨v, hv, hp⟩ := hk
      obtain ⟨v', a, ha, hv', r, hb⟩ := obj j (by
        simp only [ideal] at hi
        split at hi
        · simpa using hi
        · cases hi)
      rw [hv] at hv'; cases hv'
      simp only [careful, hv, Option.all_some, hp, Bool.true_and] at hc
      obtain ⟨l, hl⟩ := Option.isSome_iff_exists.1 hp
      simp only [exec, hv, Option.bind_some, Option.map_eq_none_iff, Deq.copyCtor, hl, Deq.assignAll, end_none r hc,
        Option.bind_none]
      simp
    | _ => exact hk.elim

/-- C30, moved-from deques, in every reachable state: after `vi(std::move(vj))` or `vi = std::move(vj)`, where the last block of `vj` held
`bsize` elements (counted from its start) and `vj` had `free.idx` spare blocks, exactly these calls on `vj` are undefined: `push_back` and
assigning elements unless the last block was full and there were no spare blocks, `push_front` unless there were no spare blocks and
blocks have at least two elements, `shrink_to_fit` unless there were no spare blocks, iteration (even `begin()`) unless the last block
was full. -/
theorem moved_calls (P : Pol) (N : Nat) (w : World X) (aw aw1 : AWorld X) (h : Reached P N w aw) (i j : Nat) (op : Op X)
    (hop : op = .moveNew i j ∨ op = .moveAssign i j) (hi : ideal aw op = some (aw1, .done)) (v : Deq) (hv : w.objs j = some v) :
    ∃ w1, exec P N w op = some (w1, .done) ∧ aw1 j = some [] ∧
      (∀ x, exec P N w1 (.push j x) = none ↔ ¬ (v.bsize = 2 ^ N ∧ v.free.idx = 0)) ∧
      (∀ x xs, exec P N w1 (.assign j (x :: xs)) = none ↔ ¬ (v.bsize = 2 ^ N ∧ v.free.idx = 0)) ∧
      (∀ x, exec P N w1 (.pushFront j x) = none ↔ ¬ (v.free.idx = 0 ∧ 1 ≤ N)) ∧
      (exec P N w1 (.shrink j) = none ↔ v.free.idx ≠ 0) ∧
      (exec P N w1 (.iterate j) = none ↔ v.bsize ≠ 2 ^ N) := by
  obtain ⟨us, fs, W⟩ := h.inv
  have hc : careful P N w op = true := by rcases hop with rfl | rfl <;> rfl
  obtain ⟨w1, us1, fs1, e, W1, _⟩ := step P w aw us fs W op aw1 .done hi hc
  have R : Reached P N w1 aw1 := .call h hc hi e
  have hj : w1.objs j = some v.husk := by
    rcases hop with rfl | rfl
    · simp only [exec, hv, Option.map_some, Option.some.injEq] at e
      cases e
      exact upd_same _ _ _
    · simp only [exec, hv, Option.bind_some, Option.bind_eq_some_iff, Option.map_eq_some_iff, Deq.moveAssign] at e
      obtain ⟨u, -, r, ⟨h2, -, rfl⟩, e⟩ := e
      cases e
      exact upd_same _ _ _
  have ha : aw1 j = some [] := by
    rcases hop with rfl | rfl
    · simp only [ideal] at hi
      split at hi <;> [skip; cases hi]
      simp only [Option.map_eq_some_iff] at hi
      obtain ⟨a, -, hi⟩ := hi
      cases hi
      exact upd_same _ _ _
    · simp only [ideal] at hi
      split at hi <;> [cases hi; skip]
      simp only [Option.bind_eq_some_iff, Option.map_eq_some_iff] at hi
      obtain ⟨a, -, b, -, hi⟩ := hi
      cases hi
      exact upd_same _ _ _
  have hB : (blockSize N : Int) = 2 ^ N := by rw [blockSize_eq]; norm_cast
  refine ⟨w1, e, ha, fun x => ?_, fun x xs => ?_, fun x => ?_, ?_, ?_⟩
  · rw [careful_exact P N w1 aw1 R (.push j x) trivial (by simp [ideal, ha])]
    simp [careful, hj, Deq.usable, Deq.husk, hB]
  · rw [careful_exact P N w1 aw1 R (.assign j (x :: xs)) (by simp [Op.covered]) (by simp [ideal, ha])]
    simp [careful, hj, Deq.usable, Deq.husk, hB]
  · rw [careful_exact P N w1 aw1 R (.pushFront j x) trivial (by simp [ideal, ha])]
    have : v.husk.overlap = false := by
      refine decide_eq_false ?_
      rintro ⟨-, -, h3, h4⟩
      simp only [Deq.husk] at h3 h4
      omega
    simp only [careful, hj, Option.all_some, this, Bool.not_false, Bool.or_true, Bool.and_true]
    simp [Deq.husk]
  · rw [careful_exact P N w1 aw1 R (.shrink j) trivial (by simp [ideal, ha])]
    simp [careful, hj, Deq.husk]
  · rw [careful_exact P N w1 aw1 R (.iterate j) trivial (by simp [ideal, ha])]
    simp [careful, hj, Deq.husk, Deq.iterable, hB]

/-! ## C30: `StableBlockDeque(0)` and copies of deques without memory -/

/-- The call makes a deque that should be empty and for which one block is allocated: `StableBlockDeque(0)` or a copy of an object
without memory. -/
def MakesEmpty (w : World X) (i : Nat) : Op X → Prop
  | .newSize k n _ => k = i ∧ n = 0
  | .copyNew k j => k = i ∧ ∃ v, w.objs j = some v ∧ v.dataptr = none
  | _ => False

theorem makes_empty {w : World X} {i : Nat} {op : Op X} (hn : ∀ j v, w.objs j = some v → v.dataptr = none → v.avail = 0)
    (h : MakesEmpty w i op) :
    exec P N w op = some (⟨upd w.objs i (some ⟨0, some ((List.replicate 64 none).set 30 (some w.heap.next)), 64, 30, 30,
      (blockSize N / 2 : Nat), (blockSize N / 2 : Nat), ⟨0, 0, none⟩⟩), w.heap.alloc.2⟩, .done) := by
  cases op <;> try exact h.elim
  · obtain ⟨rfl, rfl⟩ := h
    simp [exec, Deq.ofSize, slotSet, Heap.alloc]
  · obtain ⟨rfl, v, hv, hp⟩ := h
    simp [exec, hv, Deq.copyCtor, hp, hn _ v hv hp, slotSet, Heap.alloc]

/-- C30 fails for these in every reachable state: the deque is made, reports that it is empty and can be destroyed.  After a
`push_back(x)` its size is 1 and `back()` is `x`, but `v[0]`, `at(0)`, `front()` and its destruction are undefined (the destruction
loses the element).  After a `push_front(x)`, `front()` and `v[0]` are `x`, but `back()` and its destruction are undefined. -/
theorem made_empty_calls (P : Pol) (N : Nat) (w : World X) (aw : AWorld X) (h : Reached P N w aw) (i : Nat) (op : Op X)
    (ho : MakesEmpty w i op) :
    ∃ w1, exec P N w op = some (w1, .done) ∧
      (exec P N w1 (.size i) = some (w1, .num 0) ∧ exec P N w1 (.empty i) = some (w1, .bool true) ∧
        (∀ k, exec P N w1 (.at i k) = some (w1, .threw)) ∧ exec P N w1 (.pop i) = some (w1, .done) ∧
        exec P N w1 (.popFront i) = some (w1, .done) ∧ exec P N w1 (.clear i) = some (w1, .done) ∧
        exec P N w1 (.iterate i) = some (w1, .vals []) ∧ ∃ w2, exec P N w1 (.destroy i) = some (w2, .done)) ∧
      (∀ x, ∃ w2, exec P N w1 (.push i x) = some (w2, .done) ∧ exec P N w2 (.size i) = some (w2, .num 1) ∧
        exec P N w2 (.back i) = some (w2, .val x) ∧ exec P N w2 (.get i 0) = none ∧ exec P N w2 (.at i 0) = none ∧
        exec P N w2 (.front i) = none ∧ exec P N w2 (.destroy i) = none) ∧
      (∀ x, ∃ w2, exec P N w1 (.pushFront i x) = some (w2, .done) ∧ exec P N w2 (.size i) = some (w2, .num 1) ∧
        exec P N w2 (.front i) = some (w2, .val x) ∧ exec P N w2 (.get i 0) = some (w2, .val x) ∧
        exec P N w2 (.back i) = none ∧ exec P N w2 (.destroy i) = none) := by
  have hB := blockSize_pos N
  obtain ⟨us, fs, W⟩ := h.inv
  have hn : ∀ j v, w.objs j = some v → v.dataptr = none → v.avail = 0 := by
    intro j v hv hp
    have r := W.rep j
    rw [hv] at r
    cases ha : aw j with
    | none => rw [ha] at r; exact r.elim
    | some a =>
      rw [ha] at r
      rcases r with ⟨F, f1, bz, c⟩ | ⟨nl, _⟩
      · obtain ⟨l, hl, _⟩ := c.ptr
        rw [hp] at hl; cases hl
      · exact nl.av
  refine ⟨_, makes_empty hn ho, ?_⟩
  have hcell : ∀ j, w.heap.alloc.2.cells w.heap.next j = none := fun j => W.wf.cells w.heap.next (Nat.le_refl _) j
  have hlive : w.heap.alloc.2.live w.heap.next = true := by simp [Heap.alloc]
  have hslot : ∀ k : Nat, slotGet (some ((List.replicate 64 none).set 30 (some w.heap.next))) (k : Int) =
      if k = 30 then some w.heap.next else none := by
    intro k
    simp only [slotGet, Int.natCast_nonneg, if_true, Int.toNat_natCast, List.getElem?_set, List.length_replicate]
    by_cases hk : k = 30
    · subst hk; simp
    · rw [if_neg (fun h => hk h.symm), if_neg hk]
      cases hg : (List.replicate 64 (none : Option Nat))[k]? with
      | none => rfl
      | some o =>
        have := List.mem_replicate.1 (List.mem_of_getElem? hg)
        rw [this.2]; rfl
  generalize hp : (some ((List.replicate 64 none).set 30 (some w.heap.next)) : SlotPtr) = p at hslot ⊢
  have hpn : p ≠ none := by rw [← hp]; simp
  generalize hh : w.heap.alloc.2 = g at hcell hlive ⊢
  generalize w.heap.next = b at hcell hlive hslot
  have h30 : slotGet p 30 = some b := hslot 30
  have h31 : slotGet p 31 = none := hslot 31
  have h29 : slotGet p 29 = none := hslot 29
  obtain ⟨m, hm⟩ : ∃ m, blockSize N / 2 = m := ⟨_, rfl⟩
  have hmB : m < blockSize N := by omega
  rw [hm]
  generalize hw : (⟨upd w.objs i (some ⟨0, p, 64, 30, 30, (m : Nat), (m : Nat), ⟨0, 0, none⟩⟩), g⟩ : World X) = w1
  have hj : w1.objs i = some ⟨0, p, 64, 30, 30, (m : Nat), (m : Nat), ⟨0, 0, none⟩⟩ := by rw [← hw]; exact upd_same _ _ _
  have hg : w1.heap = g := by rw [← hw]
  have hs : ∀ v, w1.objs i = some v → (⟨upd w1.objs i (some v), w1.heap⟩ : World X) = w1 := by
    intro v hv; rw [upd_id hv]
  have hs' := hs _ hj
  refine ⟨⟨?_, ?_, ?_, ?_, ?_, ?_, ?_, ?_⟩, ?_, ?_⟩
  · simp [exec, hj, Deq.size]
  · simp [exec, hj, Deq.empty]
  · intro k; simp [exec, hj, Deq.at?]
  · simp [exec, hj, Deq.popBack, hs']
  · simp [exec, hj, Deq.popFront, hs']
  · simp [exec, hj, Deq.clear, hs']
  · have he : Deq.end? N (⟨0, p, 64, 30, 30, (m : Nat), (m : Nat), ⟨0, 0, none⟩⟩ : Deq) = some ⟨.slot 30, some b, m, m⟩ := by
      rw [Deq.end?, if_neg (by simp only; omega)]
      obtain ⟨l, hl⟩ := Option.ne_none_iff_exists'.1 hpn
      rw [hl] at h30
      simp only [slotGet] at h30
      simp only [hl, Iter.make, derefVec, show (0 : Int) ≤ 30 by omega, if_true] at h30 ⊢
      rw [Option.join_eq_some_iff.1 h30]
      rfl
    simp only [exec, hj, Option.bind_some, Deq.iterate, Deq.begin?, if_true, he]
    simp [Iter.collect, Iter.ne]
  · obtain ⟨l, hl⟩ := Option.ne_none_iff_exists'.1 hpn
    have hd : g.dealloc (blockSize N) b = some { g with live := fun b' => if b' = b then false else g.live b' } := by
      rw [Heap.dealloc, if_pos ⟨hlive, by simp [hcell]⟩]
    refine ⟨⟨upd w1.objs i none, { g with live := fun b' => if b' = b then false else g.live b' }⟩, ?_⟩
    simp only [exec, hj, Option.bind_some, Deq.freeAll, hl]
    simp only [← hl, hg, if_true, show ((m : Int) - 1 - (m : Int)).toNat = 0 by omega, Deq.destroyDown, Option.bind_some,
      Deq.deallocSlot, h30, hd, FreeL.freeFrom, Option.map_some]
  · intro x
    have hset : g.construct (blockSize N) b m x = some (g.setCell b m (some x)) := by
      rw [Heap.construct, if_pos ⟨hlive, hmB, by simp [hcell]⟩]
    have hl' : (g.setCell b m (some x)).live b = true := hlive
    have hc' : ∀ j, (g.setCell b m (some x)).cells b j = if j = m then some x else none := by
      intro j; simp [Heap.setCell, hcell]
    have hrd : ∀ j, j ≠ m → (g.setCell b m (some x)).read (blockSize N) b j = none := by
      intro j hj; simp [Heap.read, hc', hj]
    have hdn : (g.setCell b m (some x)).dealloc (blockSize N) b = none := by
      rw [Heap.dealloc, if_neg]
      rintro ⟨-, h1⟩
      have := List.all_eq_true.1 h1 m (List.mem_range.2 hmB)
      simp [hc'] at this
    have hget : Deq.get N (⟨1, p, 64, 30, 30, (m : Nat) + 1, (m : Nat), ⟨0, 0, none⟩⟩ : Deq) (g.setCell b m (some x)) 0 = none := by
      simp only [Deq.get, Deq.cell, shr_eq, mask_eq]
      rw [show ((m : Int) + ((0 : Nat) : Int) + 1).toNat = m + 1 by omega]
      rcases Nat.lt_or_ge (m + 1) (blockSize N) with h1 | h1
      · rw [Nat.div_eq_of_lt h1, Nat.mod_eq_of_lt h1]
        simp [h30, Heap.read, hc']
      · rw [show m + 1 = blockSize N by omega, Nat.div_self hB]
        simp [h31]
    have hfr : Deq.frontVal N (⟨1, p, 64, 30, 30, (m : Nat) + 1, (m : Nat), ⟨0, 0, none⟩⟩ : Deq) (g.setCell b m (some x)) = none := by
      rw [Deq.frontVal]
      split
      · simp [readAt, h31]
      · simp only [readAt, h30, Option.bind_some, natIdx]
        rw [if_pos (by omega), Option.bind_some, hrd _ (by omega)]
    refine ⟨⟨upd w1.objs i (some ⟨1, p, 64, 30, 30, (m : Nat) + 1, (m : Nat), ⟨0, 0, none⟩⟩), g.setCell b m (some x)⟩, ?_, ?_, ?_, ?_, ?_, ?_, ?_⟩
    · simp only [exec, hj, Option.bind_some, Deq.pushBack, Deq.blockCheck]
      rw [if_neg (by omega)]
      simp [constructAt, h30, natIdx, hg, hset]
    · simp [exec, upd_same, Deq.size]
    · simp only [exec, upd_same, Option.bind_some, Deq.backVal]
      rw [if_neg (by omega)]
      simp [readAt, h30, natIdx, Heap.read, hl', hmB, hc']
    · simp only [exec, upd_same, Option.bind_some, hget]; rfl
    · simp [exec, upd_same, Deq.at?, hget]
    · simp only [exec, upd_same, Option.bind_some, hfr]; rfl
    · obtain ⟨l, hl⟩ := Option.ne_none_iff_exists'.1 hpn
      simp only [exec, upd_same, Option.bind_some, Deq.freeAll, hl]
      simp only [← hl, if_true, show ((m : Int) + 1 - 1 - (m : Int)).toNat = 0 by omega, Deq.destroyDown, Option.bind_some,
        Deq.deallocSlot, h30, hdn, Option.bind_none, Option.map_none]
  · intro x
    have hset : g.construct (blockSize N) b m x = some (g.setCell b m (some x)) := by
      rw [Heap.construct, if_pos ⟨hlive, hmB, by simp [hcell]⟩]
    have hl' : (g.setCell b m (some x)).live b = true := hlive
    have hc' : ∀ j, (g.setCell b m (some x)).cells b j = if j = m then some x else none := by
      intro j; simp [Heap.setCell, hcell]
    have hrd : ∀ j, j ≠ m → (g.setCell b m (some x)).read (blockSize N) b j = none := by
      intro j hj; simp [Heap.read, hc', hj]
    have hdn : (g.setCell b m (some x)).dealloc (blockSize N) b = none := by
      rw [Heap.dealloc, if_neg]
      rintro ⟨-, h1⟩
      have := List.all_eq_true.1 h1 m (List.mem_range.2 hmB)
      simp [hc'] at this
    refine ⟨⟨upd w1.objs i (some ⟨1, p, 64, 30, 30, (m : Nat), (m : Nat) - 1, ⟨0, 0, none⟩⟩), g.setCell b m (some x)⟩, ?_, ?_, ?_, ?_, ?_, ?_⟩
    · simp only [exec, hj, Option.bind_some, Deq.pushFront, Deq.blockCheckFront]
      rw [if_neg (by omega)]
      simp [constructAt, h30, natIdx, hg, hset]
    · simp [exec, upd_same, Deq.size]
    · simp only [exec, upd_same, Option.bind_some, Deq.frontVal]
      rw [if_neg (by omega)]
      simp [readAt, h30, natIdx, Heap.read, hl', hmB, hc']
    · simp only [exec, upd_same, Option.bind_some, Deq.get, Deq.cell, shr_eq, mask_eq]
      rw [show ((m : Int) - 1 + ((0 : Nat) : Int) + 1).toNat = m by omega, Nat.div_eq_of_lt hmB, Nat.mod_eq_of_lt hmB]
      simp [h30, Heap.read, hl', hmB, hc']
    · simp only [exec, upd_same, Option.bind_some, Deq.backVal]
      split
      · simp [readAt, h29]
      · rename_i hz
        simp only [readAt, h30, Option.bind_some, natIdx]
        rw [if_pos (by omega), Option.bind_some, hrd _ (by omega)]
        rfl
    · obtain ⟨l, hl⟩ := Option.ne_none_iff_exists'.1 hpn
      simp only [exec, upd_same, Option.bind_some, Deq.freeAll, hl]
      simp only [← hl, if_true, show ((m : Int) - 1 - ((m : Int) - 1)).toNat = 0 by omega, Deq.destroyDown, Option.bind_some,
        Deq.deallocSlot, h30, hdn, Option.bind_none, Option.map_none]

/-! ## The hypotheses are met -/

/-- deques of blocks of four: 0 with three elements and a spare block, 1 without memory -/
def someOps : List (Op Nat) := [.new 0, .push 0 1, .push 0 2, .push 0 3, .pop 0, .pop 0, .push 0 4, .pushFront 0 5, .new 1]

example : ∃ (w : World Nat) (aw : AWorld Nat), Reached libObj 2 w aw ∧ aw 0 = some [5, 1, 4] ∧ aw 1 = some [] ∧
    hasMemory w 0 ∧ MakesEmpty w 2 (.copyNew 2 1) ∧ MakesEmpty w 3 (.newSize 3 0 8) := by
  obtain ⟨w, e, r⟩ := after_failures_partial libObj 2 _ _ .start someOps _ _ rfl (by decide)
  refine ⟨w, _, r, rfl, rfl, ?_, ?_, rfl, rfl⟩
  · have : ((run libObj 2 World.empty someOps).bind fun r => (r.1.objs 0).map fun v => v.dataptr.isSome) = some true := by decide
    simp only [e, Option.bind_some, Option.map_eq_some_iff] at this
    exact this
  · have : ((run libObj 2 World.empty someOps).bind fun r => (r.1.objs 1).map fun v => v.dataptr) = some none := by decide
    simp only [e, Option.bind_some, Option.map_eq_some_iff] at this
    exact ⟨rfl, this⟩

/-- calls that are careful and calls that are not -/
example : ((run libObj 2 World.empty someOps).map fun r =>
      ([.clear 0, .iterate 0, .push 1 7, .pushFront 1 7].map (careful libObj 2 r.1),
       (exec libObj 2 r.1 (.moveNew 4 0)).map fun q => [.push 0 1, .shrink 0, .iterate 0].map (careful libObj 2 q.1))) =
    some ([false, true, true, true], some [false, false, true]) := by decide

end Verif.Block.Deque
