import Verif.WorkQueue.Turn
import Verif.WorkQueue.PropsShare

/-!
# C119, C120: how long a block waits

A worker that takes steps (woken by a notification, by the timeout of its wait, or spuriously) fetches blocks, whatever the other
threads do between its steps.  A step is one of the positions of `Loc`; running the function of a block is one step.
-/

namespace Verif.WorkQueue
open Verif.Conc State

variable {n t c : Nat} {s s' : State} {o : Option Out} {l : Loc}

theorem step_ratio (h : stepAt n s t c l = some (s', o)) (h1 : 1 ≤ s.ratio) : 1 ≤ s'.ratio := by
  have back : ∀ {s1 : State} {r}, (s1.back t r).ratio = s1.ratio := by intro s1 r; cases r <;> rfl
  have one : ∀ s1 : State, (notifyOne n c s1).ratio = s1.ratio := by
    intro s1
    rcases notifyOne_eq n c s1 with h | ⟨k, _, hk, h⟩ <;> rw [h] <;> rfl
  have st : ∀ q x, (s.setQue q x).ratio = s.ratio := by intro q x; cases q <;> rfl
  unfold stepAt at h
  split at h
  all_goals try (split at h)
  all_goals try (split at h)
  all_goals try (split at h)
  all_goals try (simp only [State.lock] at h; split at h)
  all_goals (first | (cases h; done) | skip)
  all_goals obtain ⟨rfl, rfl⟩ := Prod.mk.inj (Option.some.inj h)
  all_goals first
    | exact h1
    | (rw [back]; exact h1)
    | (rw [back, one]; exact h1)
    | (simp only [goto, popped_eq, clear_eq, push_eq, pushVector_eq, st]; exact h1)
    | (simp only [goto]; omega)

theorem ratio_always (as : List (Act Op)) : ∀ {s s' : State} {h : List (Event Op Out)}, (sys n).run s as = some (s', h) →
    1 ≤ s.ratio → always n (fun s => 1 ≤ s.ratio) s as ∧ 1 ≤ s'.ratio := by
  induction as with
  | nil => intro s s' h e h1; cases e; exact ⟨h1, h1⟩
  | cons a as ih =>
    intro s s' h e h1
    simp only [Sys.run, Option.bind_eq_some_iff, Option.map_eq_some_iff] at e
    obtain ⟨⟨s1, g1⟩, e1, ⟨s2, g2⟩, e2, e3⟩ := e
    cases e3
    have k : 1 ≤ s1.ratio := by
      cases a with
      | call v op =>
        simp only [Sys.exec, Option.map_eq_some_iff] at e1
        obtain ⟨s3, e1, e3⟩ := e1
        obtain ⟨rfl, rfl⟩ := Prod.mk.inj e3
        obtain ⟨hid, rfl⟩ := call_eq e1
        exact h1
      | move v c =>
        simp only [Sys.exec, Option.map_eq_some_iff] at e1
        obtain ⟨⟨s3, r⟩, e1, e3⟩ := e1
        obtain ⟨rfl, rfl⟩ := Prod.mk.inj e3
        exact step_ratio e1 h1
    have := ih e2 k
    refine ⟨⟨h1, ?_⟩, this.2⟩
    rw [e1]; exact this.1

/-- what holds of every state reached -/
theorem start_wait (ts : List Nat) (hw : ∀ t, t < n → t ∈ ts) (as : List (Act Op)) :
    ∀ {s s' : State} {h : List (Event Op Out)}, (sys n).run s as = some (s', h) → (∀ t, .call t .get ∈ as → t ∈ ts) →
    fetchers n ts s ∧ -2147483648 ≤ s.counter → fetchers n ts s' ∧ -2147483648 ≤ s'.counter := by
  induction as with
  | nil => intro s s' h e _ hf; cases e; exact hf
  | cons a as ih =>
    intro s s' h e hc hf
    simp only [Sys.run, Option.bind_eq_some_iff, Option.map_eq_some_iff] at e
    obtain ⟨⟨s1, h1⟩, e1, ⟨s2, h2⟩, e2, e3⟩ := e
    cases e3
    refine ih e2 (fun t ht => hc t (List.mem_cons_of_mem _ ht)) ?_
    cases a with
    | call v op =>
      simp only [Sys.exec, Option.map_eq_some_iff] at e1
      obtain ⟨s3, e1, e3⟩ := e1
      obtain ⟨rfl, rfl⟩ := Prod.mk.inj e3
      obtain ⟨hid, rfl⟩ := call_eq e1
      exact ⟨fetchers_call hid (fun h => hc v (by simp [h])) hf.1, hf.2⟩
    | move v c =>
      simp only [Sys.exec, Option.map_eq_some_iff] at e1
      obtain ⟨⟨s3, r⟩, e1, e3⟩ := e1
      obtain ⟨rfl, rfl⟩ := Prod.mk.inj e3
      exact ⟨fetchers_step hw e1 hf.1, move_lo e1 (hf.1.1 v) hf.2⟩

theorem init_wait (ts : List Nat) : fetchers n ts (sys n).init ∧ -2147483648 ≤ (sys n).init.counter := by
  refine ⟨⟨place_init n, fun t h => ?_⟩, by show (-2147483648 : Int) ≤ 0; omega⟩
  have : (sys n).init.loc t = (if t < n then Loc.wE .high else .idle) := rfl
  rw [this] at h; split at h <;> cases h

theorem init_quiet : quiet (sys n).init := by
  refine ⟨fun t => ?_, rfl⟩
  show closing (if t < n then .wE .high else .idle) = false
  split <;> rfl

/-- C119: `ts`: the worker threads and the clients that call `getWorkBlock`, `T` of them.  If during a part `as` of an execution
the queue of medium priority blocks is never empty and the ratio never below `r`, then at most `T` low priority blocks are taken for
`r` medium priority ones (up to `T` blocks in the hands of the threads at the start, and two for each thread). -/
theorem medium_share (r : Nat) (ts : List Nat) (hn : ts.Nodup) (pre as : List (Act Op)) {s0 s : State}
    {h0 h : List (Event Op Out)} (e0 : (sys n).run (sys n).init pre = some (s0, h0)) (e : (sys n).run s0 as = some (s, h))
    (hts : ∀ t, t < n ∨ .call t .get ∈ pre ++ as → t ∈ ts) (hmed : always n (fun s => s.med.1 ≠ [] ∧ r ≤ s.ratio) s0 as) :
    r * taken n .low s0 as ≤ ts.length * (taken n .med s0 as + ts.length + 2 * r) := by
  obtain ⟨hf, hlo⟩ := start_wait ts (fun t h => hts t (.inl h)) pre e0 (fun t h => hts t (.inr (by simp [h]))) (init_wait ts)
  exact turn_share r ts hn (fun t h => hts t (.inl h)) as e hf (fun t h => hts t (.inr (by simp [h]))) hmed hlo

/-- C120: while blocks of one priority are queued and nobody closes the queue, each worker takes at most 22 steps for each block
that is taken (and 28 at the start), under every interleaving. -/
theorem worker_progress (q : Que) (t : Nat) (ht : t < n) (pre as : List (Act Op)) {s0 s : State} {h0 h : List (Event Op Out)}
    (e0 : (sys n).run (sys n).init pre = some (s0, h0)) (e : (sys n).run s0 as = some (s, h))
    (hq : always n (fun s => (s.que q).1 ≠ [] ∧ s.halt = false) s0 as) :
    movesOf t as ≤ 28 + 22 * (taken n .high s0 as + taken n .med s0 as + taken n .low s0 as) := by
  have h1 := work_run q ht as e (place_run pre (place_init n) e0) hq
  have h2 := toGo_le q (s0.loc t)
  have h3 : gained n q s0 as ≤ taken n .high s0 as + taken n .med s0 as + taken n .low s0 as := by
    unfold gained; split <;> omega
  omega

/-- C120, high priority: the block at position `p` of the queue has been taken when any one worker has taken more than `28 + 22 p`
steps, if nobody closes the queue. -/
theorem high_waits (t : Nat) (ht : t < n) (pre as : List (Act Op)) {s0 s : State} {h0 h : List (Event Op Out)}
    (e0 : (sys n).run (sys n).init pre = some (s0, h0)) (e : (sys n).run s0 as = some (s, h)) (hn : notClosed (h0 ++ h))
    (p : Nat) (b : Option Blk) (hb : s0.high.1[p]? = some b) (hm : 28 + 22 * p < movesOf t as) :
    (traffic n .high s0 as).2[p]? = some b := by
  have hp := place_run pre (place_init n) e0
  have hq := quiet_run pre e0 init_quiet (notClosed_append hn).1
  rcases stay_run .high b as p e hq (notClosed_append hn).2 hb with h1 | ⟨h1, h2⟩
  · exact h1
  · have h3 := work_run .high ht as e hp h1
    have h4 := toGo_le .high (s0.loc t)
    simp only [gained, if_true, Nat.add_zero] at h3
    have : 22 * taken n .high s0 as ≤ 22 * p := Nat.mul_le_mul_left _ h2
    omega

/-- C120, medium priority: the block at position `p` has been taken when any one worker has taken more than `28 + 22 m` steps,
where `m` counts the high priority blocks taken meanwhile, the medium priority blocks before it, and the low priority blocks
that C119 allows. -/
theorem medium_waits (ts : List Nat) (hnd : ts.Nodup) (t : Nat) (ht : t < n) (pre as : List (Act Op)) {s0 s : State}
    {h0 h : List (Event Op Out)}
    (e0 : (sys n).run (sys n).init pre = some (s0, h0)) (e : (sys n).run s0 as = some (s, h)) (hn : notClosed (h0 ++ h))
    (hts : ∀ t, t < n ∨ .call t .get ∈ pre ++ as → t ∈ ts)
    (p : Nat) (b : Option Blk) (hb : s0.med.1[p]? = some b)
    (hm : 28 + 22 * (taken n .high s0 as + p + ts.length * (p + ts.length + 2)) < movesOf t as) :
    (traffic n .med s0 as).2[p]? = some b := by
  have hp := place_run pre (place_init n) e0
  have hq := quiet_run pre e0 init_quiet (notClosed_append hn).1
  rcases stay_run .med b as p e hq (notClosed_append hn).2 hb with h1 | ⟨h1, h2⟩
  · exact h1
  · have h3 := work_run .med ht as e hp h1
    have h4 := toGo_le .med (s0.loc t)
    have hr := ratio_always as e (ratio_always pre e0 (by show (1 : Int) ≤ 4; omega)).2
    have h5 := medium_share (r := 1) ts hnd pre as e0 e hts
      (always_mono (fun s h => ⟨h.1.1, h.2⟩) _ _ (always_and _ _ h1 hr.1))
    have h6 : ts.length * (taken n .med s0 as + ts.length + 2 * 1) ≤ ts.length * (p + ts.length + 2) := Nat.mul_le_mul_left _ (by omega)
    have h7 : gained n .med s0 as ≤ taken n .high s0 as + p + ts.length * (p + ts.length + 2) := by
      unfold gained; rw [if_neg (by simp)]; omega
    have : 22 * gained n .med s0 as ≤ 22 * _ := Nat.mul_le_mul_left _ h7
    omega

/-- C120, low priority, partial: fewer than 2^31 medium priority blocks are taken before (see `starvation_violation`).  The block at
position `p` has been taken when any one worker has taken more than `28 + 22 m` steps, where `m` counts the high priority blocks
taken meanwhile, the low priority blocks before it, and the medium priority blocks that C118 allows if the ratio is at most `R`. -/
theorem low_waits_partial (R : Nat) (ts : List Nat) (hnd : ts.Nodup) (t : Nat) (ht : t < n) (pre as : List (Act Op)) {s0 s : State}
    {h0 h : List (Event Op Out)}
    (e0 : (sys n).run (sys n).init pre = some (s0, h0)) (e : (sys n).run s0 as = some (s, h)) (hn : notClosed (h0 ++ h))
    (hts : ∀ t, t < n ∨ .call t .get ∈ pre ++ as → t ∈ ts) (hR : always n (fun s => s.ratio ≤ R) s0 as)
    (hlim : R + taken n .med (sys n).init pre + ts.length < 2147483648)
    (p : Nat) (b : Option Blk) (hb : s0.low.1[p]? = some b)
    (hm : 28 + 22 * (taken n .high s0 as + p + (R + ts.length) * (1 + p + ts.length)) < movesOf t as) :
    (traffic n .low s0 as).2[p]? = some b := by
  have hp := place_run pre (place_init n) e0
  have hq := quiet_run pre e0 init_quiet (notClosed_append hn).1
  rcases stay_run .low b as p e hq (notClosed_append hn).2 hb with h1 | ⟨h1, h2⟩
  · exact h1
  · have h3 := work_run .low ht as e hp h1
    have h4 := toGo_le .low (s0.loc t)
    have h5 := low_share_partial R ts hnd pre as e0 e hts (always_mono (fun s h => ⟨h.1.1, h.2⟩) _ _ (always_and _ _ h1 hR)) hlim
    have h6 : (R + ts.length) * (1 + taken n .low s0 as + ts.length) ≤ (R + ts.length) * (1 + p + ts.length) := Nat.mul_le_mul_left _ (by omega)
    have h7 : gained n .low s0 as ≤ taken n .high s0 as + p + (R + ts.length) * (1 + p + ts.length) := by
      unfold gained; rw [if_neg (by simp)]; omega
    have : 22 * gained n .low s0 as ≤ 22 * _ := Nat.mul_le_mul_left _ h7
    omega

/-! ### Examples -/

theorem notClosed_of {as : List (Act Op)} {s s' : State} {h : List (Event Op Out)} (e : (sys n).run s as = some (s', h))
    (hc : ∀ t, .call t .close ∉ as ∧ .call t .destroy ∉ as) : notClosed h := by
  induction as generalizing s h with
  | nil => cases e; intro t; simp
  | cons a as ih =>
    simp only [Sys.run, Option.bind_eq_some_iff, Option.map_eq_some_iff] at e
    obtain ⟨⟨s1, h1⟩, e1, ⟨s2, h2⟩, e2, e3⟩ := e
    cases e3
    have h3 := ih e2 fun t => ⟨fun h => (hc t).1 (List.mem_cons_of_mem _ h), fun h => (hc t).2 (List.mem_cons_of_mem _ h)⟩
    cases a with
    | call v op =>
      simp only [Sys.exec, Option.map_eq_some_iff] at e1
      obtain ⟨s3, e1, e3⟩ := e1
      obtain ⟨rfl, rfl⟩ := Prod.mk.inj e3
      intro t
      have := hc t
      refine ⟨?_, ?_⟩
      · intro h
        rcases List.mem_cons.1 h with h | h
        · cases h; exact this.1 (by simp)
        · exact (h3 t).1 h
      · intro h
        rcases List.mem_cons.1 h with h | h
        · cases h; exact this.2 (by simp)
        · exact (h3 t).2 h
    | move v c =>
      simp only [Sys.exec, Option.map_eq_some_iff] at e1
      obtain ⟨⟨s3, r⟩, e1, e3⟩ := e1
      obtain ⟨rfl, rfl⟩ := Prod.mk.inj e3
      intro t
      cases r with
      | none => exact h3 t
      | some x =>
        refine ⟨?_, ?_⟩ <;> intro h <;> rcases List.mem_cons.1 h with h | h
        · cases h
        · exact (h3 t).1 h
        · cases h
        · exact (h3 t).2 h

/-- two blocks of each priority -/
def sixPre : List (Act Op) :=
  begin 1 (.addVector [some (.task 1), some (.task 2)] .high) 3 ++ begin 1 (.addVector [some (.task 3), some (.task 4)] .medium) 3 ++
    begin 1 (.addVector [some (.task 5), some (.task 6)] .low) 3

theorem notClosed_join {h1 h2 : List (Event Op Out)} (a : notClosed h1) (b : notClosed h2) : notClosed (h1 ++ h2) := fun t => by
  have := a t
  have := b t
  simp_all

theorem not_closing_go {t k : Nat} : ∀ u, Act.call u Op.close ∉ go t k ∧ Act.call u Op.destroy ∉ go t k := by
  intro u
  unfold go
  refine ⟨?_, ?_⟩ <;> intro h <;> cases List.eq_of_mem_replicate h

theorem not_get_go {t k u : Nat} : Act.call u Op.get ∉ go t k := by
  unfold go
  intro h; cases List.eq_of_mem_replicate h

theorem run_some {s : State} {as : List (Act Op)} (h : ((sys n).run s as).isSome = true) : ∃ s' h', (sys n).run s as = some (s', h') := by
  obtain ⟨⟨s', h'⟩, e⟩ := Option.isSome_iff_exists.1 h
  exact ⟨s', h', e⟩

/-- the state after `sixPre` -/
def sixState : State := match (sys 1).run (sys 1).init sixPre with
  | some (s, _) => s
  | none => (sys 1).init

theorem six_eq : ∃ h0, (sys 1).run (sys 1).init sixPre = some (sixState, h0) := ⟨_, rfl⟩

theorem six_open {h0 h : List (Event Op Out)} {k : Nat} {s : State} (e0 : (sys 1).run (sys 1).init sixPre = some (sixState, h0))
    (e : (sys 1).run sixState (go 0 k) = some (s, h)) : notClosed (h0 ++ h) :=
  notClosed_join (notClosed_of e0 (by intro t; simp [sixPre, begin, go])) (notClosed_of e not_closing_go)

theorem six_fetch {k : Nat} : ∀ t, t < 1 ∨ .call t .get ∈ sixPre ++ go 0 k → t ∈ [0] := by
  intro t h
  rcases h with h | h
  · simp; omega
  · rcases List.mem_append.1 h with h | h
    · simp [sixPre, begin, go] at h
    · exact absurd h not_get_go

/-- `worker_progress`, `high_waits` -/
example : ∃ h0 s h, (sys 1).run (sys 1).init sixPre = some (sixState, h0) ∧ (sys 1).run sixState (go 0 60) = some (s, h) ∧
    notClosed (h0 ++ h) ∧ sixState.high.1[1]? = some (some (.task 2)) ∧ 28 + 22 * 1 < movesOf 0 (go 0 60) := by
  obtain ⟨h0, e0⟩ := six_eq
  obtain ⟨s, h, e⟩ := run_some (n := 1) (s := sixState) (as := go 0 60) (by decide +kernel)
  exact ⟨h0, s, h, e0, e, six_open e0 e, rfl, by decide +kernel⟩

/-- `medium_waits`: the worker alone fetches; the two high priority blocks are taken as well -/
example : ∃ h0 s h, (sys 1).run (sys 1).init sixPre = some (sixState, h0) ∧ (sys 1).run sixState (go 0 190) = some (s, h) ∧
    notClosed (h0 ++ h) ∧ (∀ t, t < 1 ∨ .call t .get ∈ sixPre ++ go 0 190 → t ∈ [0]) ∧ sixState.med.1[1]? = some (some (.task 4)) ∧
    28 + 22 * (taken 1 .high sixState (go 0 190) + 1 + [0].length * (1 + [0].length + 2)) < movesOf 0 (go 0 190) := by
  obtain ⟨h0, e0⟩ := six_eq
  obtain ⟨s, h, e⟩ := run_some (n := 1) (s := sixState) (as := go 0 190) (by decide +kernel)
  exact ⟨h0, s, h, e0, e, six_open e0 e, six_fetch, rfl, by decide +kernel⟩

/-- `low_waits_partial` -/
example : ∃ h0 s h, (sys 1).run (sys 1).init sixPre = some (sixState, h0) ∧ (sys 1).run sixState (go 0 300) = some (s, h) ∧
    notClosed (h0 ++ h) ∧ (∀ t, t < 1 ∨ .call t .get ∈ sixPre ++ go 0 300 → t ∈ [0]) ∧
    always 1 (fun s => s.ratio ≤ (4 : Nat)) sixState (go 0 300) ∧ 4 + taken 1 .med (sys 1).init sixPre + [0].length < 2147483648 ∧
    sixState.low.1[0]? = some (some (.task 5)) ∧
    28 + 22 * (taken 1 .high sixState (go 0 300) + 0 + (4 + [0].length) * (1 + 0 + [0].length)) < movesOf 0 (go 0 300) := by
  obtain ⟨h0, e0⟩ := six_eq
  obtain ⟨s, h, e⟩ := run_some (n := 1) (s := sixState) (as := go 0 300) (by decide +kernel)
  refine ⟨h0, s, h, e0, e, six_open e0 e, six_fetch, ?_, by decide +kernel, rfl, by decide +kernel⟩
  refine always_of (P := fun s => s.ratio == 4) (fun s h => ?_) _ _ (by decide +kernel)
  simp at h
  omega

end Verif.WorkQueue
