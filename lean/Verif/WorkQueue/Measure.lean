import Verif.WorkQueue.Halt

/-
Once the queue is halted, each step lowers a measure.
-/
namespace Verif.WorkQueue
open Verif.Conc State

variable {n t c i : Nat} {s s' : State} {o : Option Out} {l : Loc} {h : List (Event Op Out)}

/-- the number of pops after which a queue is empty -/
def cnt (x : List (Option Blk) × Bool) : Nat := x.1.length + if x.2 then 1 else 0

/-- of all queues -/
def load (s : State) : Nat := s.sum cnt

/-- of those from which a fetch will still try to take a block -/
def ahead (s : State) : Loc → Nat
  | .gHigh => load s
  | .gCnt | .gRat _ | .gLowE | .gLowPop | .gMed => cnt s.med + cnt s.low
  | .gLow => cnt s.low
  | _ => 0

/-- whether a fetch is under way -/
def fetching : Loc → Bool
  | .gHigh | .gCnt | .gRat _ | .gLowE | .gLowPop | .gMed | .gLow => true
  | _ => false

/-- a fetch that will not find anything costs more -/
def extra (s : State) (l : Loc) : Nat := if fetching l = true ∧ ahead s l = 0 then 30 else 0

/-- of closeWorkerQueue, in the loop -/
def cLoopRank (W n k : Nat) : Nat := k * (W + 30) + (n + 10)

/-- of addWorkBlock's return -/
def retRank (W n : Nat) : Ret → Nat
  | .client => 1
  | .close k => cLoopRank W n k

/-- the contribution of a thread, apart from that; `W` is the weight of a queued block -/
def base (W n : Nat) : Loc → Nat
  | .idle | .exited | .crash | .wEnter | .wUnlock => 0
  | .ret _ | .wOut => 1
  | .wHalt2 | .count | .iE .low | .nB .low _ | .setR _ | .pFin _ | .vNotify => 2
  | .wRelock | .iE .med | .nB .med _ | .cOut => 3
  | .wSleep | .iE .high | .nB .high _ => 4
  | .wHalt => 5
  | .wLock => 6
  | .wE .low => 8
  | .wE .med => 9
  | .wE .high => 10
  | .gHigh => 7
  | .gCnt => 6
  | .gRat _ => 5
  | .gLowE => 4
  | .gLowPop => 3
  | .gMed => 2
  | .gLow => 1
  | .gReset _ | .gInc _ => 17
  | .wChk _ => 16
  | .vExec bs => 20 * bs.length + 2
  | .eDone _ bs => 20 * bs.length + 13
  | .eRun _ bs => 20 * bs.length + 14
  | .eTest _ bs => 20 * bs.length + 15
  | .aNotify r _ => retRank W n r + 1
  | .aPush _ _ r _ => retRank W n r + W + 2
  | .aSize _ _ r => retRank W n r + W + 3
  | .aCheck _ _ r => retRank W n r + W + 20
  | .vPush bs _ => W * (bs.length + 1) + 3
  | .cJoin k _ => (n - k) + 4
  | .cNotify2 => n + 9
  | .cLoop k => cLoopRank W n k
  | .cNotify1 => cLoopRank W n n + 1
  | .cClear .low => cLoopRank W n n + 2
  | .cClear .med => cLoopRank W n n + 3
  | .cClear .high => cLoopRank W n n + 4
  | .cUnlock => cLoopRank W n n + 5
  | .cHalt => 0
  | .cTest => cLoopRank W n n + 6
  | .cLock => cLoopRank W n n + 7
  | .dTest => cLoopRank W n n + 8

/-- the contribution of a thread -/
def rank (W n : Nat) (s : State) (l : Loc) : Nat := base W n l + extra s l

/-- adding blocks does not raise the contribution of a thread -/
theorem rank_mono {W : Nat} (h : ∀ q, cnt (s.que q) ≤ cnt (s'.que q)) (l : Loc) : rank W n s' l ≤ rank W n s l := by
  have h1 : cnt s.high ≤ cnt s'.high := h .high
  have h2 : cnt s.med ≤ cnt s'.med := h .med
  have h3 : cnt s.low ≤ cnt s'.low := h .low
  have h4 : ahead s l ≤ ahead s' l := by cases l <;> simp only [ahead, load, State.sum] <;> omega
  simp only [rank, extra]
  split <;> split <;> simp_all

/-- nothing raises it by much -/
theorem rank_any {W : Nat} (s s' : State) (l : Loc) : rank W n s' l ≤ rank W n s l + 30 := by
  simp only [rank, extra]
  split <;> split <;> omega

theorem load_setQue (s : State) (q : Que) (x) : load (s.setQue q x) + cnt (s.que q) = load s + cnt x := sum_setQue s q x cnt

/-- a step of thread `t` from `l`: either it lowers the measure by itself, or it takes something from a queue -/
def Alt (W n t : Nat) (s : State) (l : Loc) (s1 : State) : Prop :=
  ((∀ q, cnt (s.que q) ≤ cnt (s1.que q)) ∧ W * load s1 + rank W n s1 (s1.loc t) < W * load s + rank W n s l) ∨
  (load s1 + 1 ≤ load s ∧ rank W n s1 (s1.loc t) ≤ rank W n s l + 60)

/-- the same queues -/
def Same (s s1 : State) : Prop := s1.high = s.high ∧ s1.med = s.med ∧ s1.low = s.low

theorem Same.extra {s1 : State} (h : Same s s1) (l : Loc) : extra s1 l = extra s l := by
  obtain ⟨e1, e2, e3⟩ := h
  cases l <;> simp [WorkQueue.extra, fetching, ahead, load, State.sum, e1, e2, e3]

theorem Same.load {s1 : State} (h : Same s s1) : load s1 = load s := by
  obtain ⟨e1, e2, e3⟩ := h
  simp [WorkQueue.load, State.sum, e1, e2, e3]

theorem Same.que {s1 : State} (h : Same s s1) (q : Que) : s1.que q = s.que q := by
  obtain ⟨e1, e2, e3⟩ := h
  cases q <;> assumption

variable {W : Nat}

theorem alt_same {s1 : State} {l' : Loc} (h : Same s s1) (hl : base W n l' + extra s l' < base W n l + extra s l) :
    Alt W n t s l (s1.goto t l') := by
  have h' : Same s (s1.goto t l') := h
  refine .inl ⟨fun q => by rw [h'.que]; exact Nat.le_refl _, ?_⟩
  rw [h'.load, loc_goto, upd_same, rank, rank, h'.extra]
  omega

theorem alt_base {s1 : State} {l' : Loc} (h : Same s s1) (hf : fetching l' = false) (hl : base W n l' < base W n l) :
    Alt W n t s l (s1.goto t l') :=
  alt_same h (by simp only [extra, hf]; simp; omega)

theorem alt_back {s1 : State} {r : Ret} (h : Same s s1) (hl : retRank W n r < base W n l) : Alt W n t s l (s1.back t r) := by
  cases r
  · exact alt_base h rfl hl
  · exact alt_base h rfl hl

theorem alt_got {s1 : State} {b : Option Blk} (h : Same s s1) (hl : 16 < base W n l + extra s l) : Alt W n t s l (got n s1 t b) := by
  have e1 : base W n (.wChk b) = 16 := rfl
  have e2 : extra s (.wChk b) = 0 := rfl
  have e3 : base W n (.ret (.blk b)) = 1 := rfl
  have e4 : extra s (.ret (.blk b)) = 0 := rfl
  unfold got
  split <;> exact alt_same h (by omega)

theorem alt_executed {s1 : State} {bs : List (Option Blk)} (h : Same s s1) (hl : 20 * bs.length + 12 < base W n l) :
    Alt W n t s l (executed n s1 t bs) := by
  have e1 : base W n (.wE .high) = 10 := rfl
  have e2 : base W n (.vExec bs) = 20 * bs.length + 2 := rfl
  unfold executed
  split <;> exact alt_base h rfl (by omega)

/-- a pop -/
theorem alt_popped {q : Que} {l' : Loc} {s1 : State} (h : Same (s.popped q) s1) (hl : base W n l' ≤ base W n l + 30)
    (hc : cnt (s.que q) = 0 → base W n l' + extra s l' < base W n l + extra s l) : Alt W n t s l (s1.goto t l') := by
  by_cases h0 : cnt (s.que q) = 0
  · have : s.popped q = s := by
      have h1 : s.que q = ([], false) := by
        generalize s.que q = x at h0
        obtain ⟨xs, f⟩ := x
        cases xs <;> cases f <;> simp [cnt] at h0 ⊢
      rw [popped_eq, h1]
      cases q <;> simp only [que] at h1 <;> simp [setQue, ← h1]
    rw [this] at h
    exact alt_same h (hc h0)
  · have hlt : load (s.popped q) + 1 ≤ load s := by
      have := load_setQue s q ((s.que q).1.tail, false)
      rw [popped_eq]
      simp only [cnt] at this h0 ⊢
      generalize s.que q = x at this h0
      obtain ⟨xs, f⟩ := x
      cases xs <;> cases f <;> simp at this h0 ⊢ <;> omega
    have h' : Same (s.popped q) (s1.goto t l') := h
    refine .inr ⟨by rw [h'.load]; exact hlt, ?_⟩
    rw [loc_goto, upd_same]
    have : extra (s1.goto t l') l' ≤ 30 := by unfold extra; split <;> omega
    simp only [rank]; omega

theorem alt_popped_got {q : Que} {b : Option Blk} (hl : 0 < base W n l) (hc : cnt (s.que q) = 0 → extra s l = 30) :
    Alt W n t s l (got n (s.popped q) t b) := by
  have e1 : base W n (.wChk b) = 16 := rfl
  have e2 : extra s (.wChk b) = 0 := rfl
  have e3 : base W n (.ret (.blk b)) = 1 := rfl
  have e4 : extra s (.ret (.blk b)) = 0 := rfl
  unfold got
  split <;> exact alt_popped ⟨rfl, rfl, rfl⟩ (by omega) (fun h => by rw [hc h]; omega)

/-- clear -/
theorem alt_clear {q : Que} {l' : Loc} (hf : fetching l' = false) (hl : base W n l' < base W n l) :
    Alt W n t s l ((s.clear q).goto t l') := by
  have h1 := load_setQue s q ([], false)
  have h2 : cnt ([], false) = 0 := rfl
  by_cases h0 : cnt (s.que q) = 0
  · have h3 : s.que q = ([], false) := by
      generalize s.que q = x at h0
      obtain ⟨xs, f⟩ := x
      cases xs <;> cases f <;> simp [cnt] at h0 ⊢
    have : s.clear q = s := by rw [clear_eq]; cases q <;> simp only [que] at h3 <;> simp [setQue, ← h3]
    rw [this]
    exact alt_base ⟨rfl, rfl, rfl⟩ hf hl
  · refine .inr ⟨?_, ?_⟩
    · have : load ((s.clear q).goto t l') = load (s.clear q) := rfl
      rw [this, clear_eq]; omega
    · rw [loc_goto, upd_same]
      have : extra ((s.clear q).goto t l') l' = 0 := by unfold extra; simp [hf]
      simp only [rank]; omega

/-- an insertion -/
theorem alt_insert {q : Que} {x : List (Option Blk) × Bool} {l' : Loc} {m : Nat}
    (hm : cnt x ≤ cnt (s.que q) + m) (hf : fetching l' = false) (hl : base W n l' + W * m < base W n l) :
    Alt W n t s l ((s.setQue q x).goto t l') := by
  have h1 := load_setQue s q x
  have h2 : extra ((s.setQue q x).goto t l') l' = 0 := by unfold extra; simp [hf]
  have h3 : load ((s.setQue q x).goto t l') = load (s.setQue q x) := rfl
  by_cases hx : cnt (s.que q) ≤ cnt x
  · refine .inl ⟨fun q' => ?_, ?_⟩
    · rw [show ((s.setQue q x).goto t l').que q' = (s.setQue q x).que q' by cases q' <;> rfl]
      by_cases e : q' = q
      · subst e; rw [que_setQue]; exact hx
      · rw [que_setQue_ne _ _ e]; exact Nat.le_refl _
    · rw [loc_goto, upd_same]
      have h4 : W * load (s.setQue q x) ≤ W * (load s + m) := Nat.mul_le_mul_left _ (by omega)
      rw [Nat.mul_add] at h4
      simp only [rank, h2, h3]; omega
  · refine .inr ⟨by omega, ?_⟩
    rw [loc_goto, upd_same]
    simp only [rank, h2]; omega

theorem step_alt (hh : s.halt = true) (k : Inv n s) (hm : stepAt n s t c (s.loc t) = some (s', o)) :
    Alt W n t s (s.loc t) s' := by
  have hp := k.place t
  have hst := k.stop hh t
  generalize s.loc t = l at hm hp hst ⊢
  have nempty : ∀ q, s.isEmpty q = false → 0 < load s := by
    intro q hq
    rw [isEmpty_eq] at hq
    have : 0 < cnt (s.que q) := by
      generalize s.que q = x at hq
      obtain ⟨xs, f⟩ := x
      cases xs <;> cases f <;> simp [cnt] at hq ⊢
    cases q <;> simp only [que] at this <;> simp only [load, State.sum] <;> omega
  have cntq : cnt (s.que .high) = cnt s.high ∧ cnt (s.que .med) = cnt s.med ∧ cnt (s.que .low) = cnt s.low := ⟨rfl, rfl, rfl⟩
  have hload : load s = cnt s.high + cnt s.med + cnt s.low := rfl
  have sm : Same s s := ⟨rfl, rfl, rfl⟩
  cases l with
  | idle => cases hm
  | exited => cases hm
  | crash => cases hm
  | wEnter => cases hst
  | wUnlock => cases hst
  | cHalt => cases hst
  | aCheck b p r =>
    cases b with
    | none =>
      obtain ⟨rfl, rfl⟩ := Prod.mk.inj (Option.some.inj hm)
      exact alt_back sm (by simp only [base]; omega)
    | some b =>
      simp only [stepAt] at hm
      split at hm
      · obtain ⟨rfl, rfl⟩ := Prod.mk.inj (Option.some.inj hm)
        exact alt_back sm (by simp only [base]; omega)
      · split at hm
        · obtain ⟨rfl, rfl⟩ := Prod.mk.inj (Option.some.inj hm)
          exact alt_base sm rfl (by simp only [base]; omega)
        · split at hm
          · obtain ⟨rfl, rfl⟩ := Prod.mk.inj (Option.some.inj hm)
            exact alt_back sm (by simp only [base]; omega)
          · obtain ⟨rfl, rfl⟩ := Prod.mk.inj (Option.some.inj hm)
            exact alt_base sm rfl (by simp only [base, List.length_nil]; omega)
  | aSize b p r =>
    obtain ⟨rfl, rfl⟩ := Prod.mk.inj (Option.some.inj hm)
    exact alt_base sm rfl (by simp only [base]; omega)
  | aPush b p r k =>
    obtain ⟨rfl, rfl⟩ := Prod.mk.inj (Option.some.inj hm)
    rw [push_eq]
    refine alt_insert (m := 1) ?_ rfl (by simp only [base]; omega)
    simp [cnt]
  | aNotify r k =>
    obtain ⟨rfl, rfl⟩ := Prod.mk.inj (Option.some.inj hm)
    refine alt_back ?_ (by simp only [base]; omega)
    split
    · rcases notifyOne_eq n c s with h | ⟨k, _, hk, h⟩ <;> rw [h] <;> exact sm
    · exact sm
  | vPush bs p =>
    obtain ⟨rfl, rfl⟩ := Prod.mk.inj (Option.some.inj hm)
    rw [pushVector_eq]
    refine alt_insert (m := bs.length + 1) ?_ rfl (by simp only [base]; omega)
    generalize s.que (ofPrio p) = x
    obtain ⟨xs, f⟩ := x
    cases xs <;> cases bs <;> cases f <;> simp [cnt] <;> omega
  | vNotify =>
    obtain ⟨rfl, rfl⟩ := Prod.mk.inj (Option.some.inj hm)
    exact alt_base sm rfl (by simp [base])
  | vExec bs =>
    match bs with
    | [] => obtain ⟨rfl, rfl⟩ := Prod.mk.inj (Option.some.inj hm); exact alt_base sm rfl (by simp [base])
    | none :: bs => obtain ⟨rfl, rfl⟩ := Prod.mk.inj (Option.some.inj hm); exact alt_base sm rfl (by simp [base])
    | some .dummy :: bs =>
      obtain ⟨rfl, rfl⟩ := Prod.mk.inj (Option.some.inj hm); exact alt_base sm rfl (by simp only [base, List.length_cons]; omega)
    | some (.task i) :: bs =>
      obtain ⟨rfl, rfl⟩ := Prod.mk.inj (Option.some.inj hm); exact alt_base sm rfl (by simp only [base, List.length_cons]; omega)
  | dTest =>
    simp only [stepAt, hh, if_true] at hm
    obtain ⟨rfl, rfl⟩ := Prod.mk.inj (Option.some.inj hm); exact alt_base sm rfl (by simp only [base]; omega)
  | cLock =>
    simp only [stepAt, State.lock] at hm
    split at hm
    · obtain ⟨rfl, rfl⟩ := Prod.mk.inj (Option.some.inj hm); exact alt_base sm rfl (by simp only [base]; omega)
    · cases hm
  | cTest =>
    simp only [stepAt, hh, if_true] at hm
    obtain ⟨rfl, rfl⟩ := Prod.mk.inj (Option.some.inj hm)
    exact alt_base sm rfl (by simp only [base, cLoopRank]; omega)
  | cUnlock =>
    obtain ⟨rfl, rfl⟩ := Prod.mk.inj (Option.some.inj hm)
    exact alt_base (s1 := { s with owner := none }) sm rfl (by simp only [base]; omega)
  | cClear q =>
    cases q <;> obtain ⟨rfl, rfl⟩ := Prod.mk.inj (Option.some.inj hm) <;> exact alt_clear rfl (by simp only [base]; omega)
  | cNotify1 =>
    obtain ⟨rfl, rfl⟩ := Prod.mk.inj (Option.some.inj hm)
    exact alt_base sm rfl (by simp only [base]; omega)
  | cLoop k =>
    cases k <;> obtain ⟨rfl, rfl⟩ := Prod.mk.inj (Option.some.inj hm) <;>
      exact alt_base sm rfl (by simp only [base, retRank, cLoopRank, Nat.add_mul]; omega)
  | cNotify2 =>
    obtain ⟨rfl, rfl⟩ := Prod.mk.inj (Option.some.inj hm)
    exact alt_base sm rfl (by simp only [base]; omega)
  | cJoin j locked =>
    simp only [stepAt] at hm
    split at hm
    · obtain ⟨rfl, rfl⟩ := Prod.mk.inj (Option.some.inj hm)
      refine alt_base sm ?_ ?_ <;> split <;> simp [fetching, base] <;> omega
    · split at hm
      · next h1 =>
        have h2 := k.place j
        rw [k.joined j h1] at h2
        have h2 : j < n := h2
        obtain ⟨rfl, rfl⟩ := Prod.mk.inj (Option.some.inj hm)
        exact alt_base sm rfl (by simp only [base]; omega)
      · split at hm
        · next h1 =>
          have h2 := k.place j
          rw [h1] at h2
          have h2 : j < n := h2
          obtain ⟨rfl, rfl⟩ := Prod.mk.inj (Option.some.inj hm)
          exact alt_base (s1 := { s with joined := upd s.joined j true }) sm rfl (by simp only [base]; omega)
        · cases hm
  | cOut =>
    obtain ⟨rfl, rfl⟩ := Prod.mk.inj (Option.some.inj hm)
    exact alt_base (s1 := { s with owner := none }) sm rfl (by simp [base])
  | count =>
    obtain ⟨rfl, rfl⟩ := Prod.mk.inj (Option.some.inj hm)
    exact alt_base sm rfl (by simp [base])
  | pFin i =>
    obtain ⟨rfl, rfl⟩ := Prod.mk.inj (Option.some.inj hm)
    exact alt_base sm rfl (by simp [base])
  | iE q =>
    cases q <;> obtain ⟨rfl, rfl⟩ := Prod.mk.inj (Option.some.inj hm) <;> refine alt_base sm ?_ ?_ <;> (try split) <;>
      simp [fetching, base]
  | nB q k =>
    cases q <;> obtain ⟨rfl, rfl⟩ := Prod.mk.inj (Option.some.inj hm) <;> exact alt_base sm rfl (by simp [base])
  | setR r =>
    obtain ⟨rfl, rfl⟩ := Prod.mk.inj (Option.some.inj hm)
    exact alt_base (s1 := { s with ratio := if r > 0 then r else 4 }) sm rfl (by simp [base])
  | gHigh =>
    simp only [stepAt] at hm
    split at hm
    · next b hb =>
      obtain ⟨rfl, rfl⟩ := Prod.mk.inj (Option.some.inj hm)
      refine alt_popped_got (by simp [base]) (fun h => ?_)
      have : s.high.1 = [] := by
        have : cnt s.high = 0 := h
        simp only [cnt] at this
        exact List.eq_nil_of_length_eq_zero (by omega)
      rw [front_eq] at hb; simp [que, this] at hb
    · obtain ⟨rfl, rfl⟩ := Prod.mk.inj (Option.some.inj hm)
      refine alt_popped ⟨rfl, rfl, rfl⟩ (by simp [base]) (fun h => ?_)
      have : cnt s.high = 0 := h
      simp only [base, extra, fetching, ahead, hload]
      simp only [true_and]
      split <;> split <;> omega
  | gCnt =>
    obtain ⟨rfl, rfl⟩ := Prod.mk.inj (Option.some.inj hm)
    exact alt_same sm (by simp only [base, extra, fetching, ahead]; omega)
  | gRat k =>
    obtain ⟨rfl, rfl⟩ := Prod.mk.inj (Option.some.inj hm)
    refine alt_same sm ?_
    split <;> simp only [base, extra, fetching, ahead] <;> omega
  | gLowE =>
    obtain ⟨rfl, rfl⟩ := Prod.mk.inj (Option.some.inj hm)
    refine alt_same sm ?_
    split <;> simp only [base, extra, fetching, ahead] <;> omega
  | gLowPop =>
    simp only [stepAt] at hm
    split at hm
    · next b hb =>
      obtain ⟨rfl, rfl⟩ := Prod.mk.inj (Option.some.inj hm)
      refine alt_popped ⟨rfl, rfl, rfl⟩ (by simp [base]) (fun h => ?_)
      have : s.low.1 = [] := by
        have : cnt s.low = 0 := h
        simp only [cnt] at this
        exact List.eq_nil_of_length_eq_zero (by omega)
      rw [front_eq] at hb; simp [que, this] at hb
    · obtain ⟨rfl, rfl⟩ := Prod.mk.inj (Option.some.inj hm)
      exact alt_popped ⟨rfl, rfl, rfl⟩ (by simp [base]) (fun h => by simp only [base, extra, fetching, ahead]; omega)
  | gReset b =>
    obtain ⟨rfl, rfl⟩ := Prod.mk.inj (Option.some.inj hm)
    exact alt_got ⟨rfl, rfl, rfl⟩ (by simp only [base]; omega)
  | gMed =>
    simp only [stepAt] at hm
    split at hm
    · next b hb =>
      obtain ⟨rfl, rfl⟩ := Prod.mk.inj (Option.some.inj hm)
      refine alt_popped ⟨rfl, rfl, rfl⟩ (by simp [base]) (fun h => ?_)
      have : s.med.1 = [] := by
        have : cnt s.med = 0 := h
        simp only [cnt] at this
        exact List.eq_nil_of_length_eq_zero (by omega)
      rw [front_eq] at hb; simp [que, this] at hb
    · obtain ⟨rfl, rfl⟩ := Prod.mk.inj (Option.some.inj hm)
      refine alt_popped ⟨rfl, rfl, rfl⟩ (by simp [base]) (fun h => ?_)
      have : cnt s.med = 0 := h
      simp only [base, extra, fetching, ahead]
      simp only [true_and]
      split <;> split <;> omega
  | gInc b =>
    obtain ⟨rfl, rfl⟩ := Prod.mk.inj (Option.some.inj hm)
    exact alt_got ⟨rfl, rfl, rfl⟩ (by simp only [base]; omega)
  | gLow =>
    have key : ∀ b, Alt W n t s .gLow (got n (s.popped .low) t b) := by
      intro b
      refine alt_popped_got (by simp [base]) (fun h => ?_)
      have : cnt s.low = 0 := h
      simp [extra, fetching, ahead, this]
    simp only [stepAt] at hm
    split at hm <;> obtain ⟨rfl, rfl⟩ := Prod.mk.inj (Option.some.inj hm) <;> exact key _
  | wE q =>
    have key : ∀ l', fetching l' = false → base W n l' < base W n (.wE q) → s' = s.goto t (if s.isEmpty q then l' else .gHigh) →
        Alt W n t s (.wE q) s' := by
      intro l' h1 h2 h3
      rw [h3]
      cases hq : s.isEmpty q with
      | true => exact alt_base sm h1 h2
      | false =>
        have := nempty q hq
        refine alt_same sm ?_
        have e1 : extra s .gHigh = 0 := by simp [extra, fetching, ahead]; omega
        have e2 : base W n .gHigh = 7 := rfl
        have e3 : 8 ≤ base W n (.wE q) := by cases q <;> simp [base]
        simp only [Bool.false_eq_true, if_false]
        omega
    cases q
    · exact key (.wE .med) rfl (by simp [base]) (Prod.mk.inj (Option.some.inj hm)).1.symm
    · exact key (.wE .low) rfl (by simp [base]) (Prod.mk.inj (Option.some.inj hm)).1.symm
    · exact key .wLock rfl (by simp [base]) (Prod.mk.inj (Option.some.inj hm)).1.symm
  | wLock =>
    simp only [stepAt, State.lock] at hm
    split at hm
    · obtain ⟨rfl, rfl⟩ := Prod.mk.inj (Option.some.inj hm); exact alt_base sm rfl (by simp [base])
    · cases hm
  | wRelock =>
    simp only [stepAt, State.lock] at hm
    split at hm
    · obtain ⟨rfl, rfl⟩ := Prod.mk.inj (Option.some.inj hm); exact alt_base sm rfl (by simp [base])
    · cases hm
  | wHalt =>
    simp only [stepAt, hh, if_true] at hm
    obtain ⟨rfl, rfl⟩ := Prod.mk.inj (Option.some.inj hm); exact alt_base sm rfl (by simp [base])
  | wHalt2 =>
    simp only [stepAt, hh, if_true] at hm
    obtain ⟨rfl, rfl⟩ := Prod.mk.inj (Option.some.inj hm); exact alt_base sm rfl (by simp [base])
  | wSleep => obtain ⟨rfl, rfl⟩ := Prod.mk.inj (Option.some.inj hm); exact alt_base sm rfl (by simp [base])
  | wChk b =>
    match b with
    | none => obtain ⟨rfl, rfl⟩ := Prod.mk.inj (Option.some.inj hm); exact alt_base sm rfl (by simp [base])
    | some .dummy => obtain ⟨rfl, rfl⟩ := Prod.mk.inj (Option.some.inj hm); exact alt_base sm rfl (by simp [base])
    | some (.task i) =>
      obtain ⟨rfl, rfl⟩ := Prod.mk.inj (Option.some.inj hm)
      refine alt_base sm ?_ ?_ <;> split <;> simp [fetching, base]
  | wOut =>
    obtain ⟨rfl, rfl⟩ := Prod.mk.inj (Option.some.inj hm)
    exact alt_base (s1 := { s with owner := none }) sm rfl (by simp [base])
  | eTest i bs =>
    simp only [stepAt] at hm
    split at hm <;> obtain ⟨rfl, rfl⟩ := Prod.mk.inj (Option.some.inj hm)
    · exact alt_executed sm (by simp only [base]; omega)
    · exact alt_base sm rfl (by simp only [base]; omega)
  | eRun i bs =>
    obtain ⟨rfl, rfl⟩ := Prod.mk.inj (Option.some.inj hm)
    exact alt_base sm rfl (by simp only [base]; omega)
  | eDone i bs =>
    obtain ⟨rfl, rfl⟩ := Prod.mk.inj (Option.some.inj hm)
    exact alt_executed sm (by simp only [base]; omega)
  | ret o => obtain ⟨rfl, rfl⟩ := Prod.mk.inj (Option.some.inj hm); exact alt_base sm rfl (by simp [base])

end Verif.WorkQueue
