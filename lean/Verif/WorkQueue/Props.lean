import Verif.WorkQueue.Fair

/-
The properties C63-C67 of WorkQueue.  `n` is the number of workers.
-/
namespace Verif.WorkQueue
open Verif.Conc

/-! ### Concrete executions -/

/-- thread `t` takes `k` steps -/
def go (t k : Nat) : List (Act Op) := List.replicate k (.move t 0)

/-- thread `t` calls `op` and takes `k` steps -/
def begin (t : Nat) (op : Op) (k : Nat) : List (Act Op) := .call t op :: go t k

/-! ### C63 exactly once -/

theorem sum_member {f : Nat → Nat} {ts : List Nat} {t : Nat} (h : t ∈ ts) : f t ≤ (ts.map f).sum := by
  induction ts with
  | nil => cases h
  | cons u ts ih =>
    rcases List.mem_cons.1 h with rfl | h
    · simp
    · have := ih h; simp; omega

theorem fetched_carries {i : Nat} {l : Loc} (h : fetched i l = true) : 1 ≤ carries i l := by
  cases l <;> simp_all [fetched, carries]

/-- C63: in every execution, for every block: it has been run and handed out to clients at most as often as it was
submitted.  If it was submitted at most once, only one thread can have it, and then it is not queued, has not been run and
has not been handed out. -/
theorem at_most_once (n : Nat) (as : List (Act Op)) (s : State) (h : List (Event Op Out))
    (e : (sys n).run (sys n).init as = some (s, h)) (i : Nat) :
    s.runs i + handed i h ≤ adds i h ∧
    (adds i h ≤ 1 → ∀ t, fetched i (s.loc t) = true →
      (∀ u, fetched i (s.loc u) = true → u = t) ∧ s.queued i = 0 ∧ s.runs i = 0 ∧ handed i h = 0) := by
  have k := (known_run as e).upper i
  constructor
  · have := k [] List.nodup_nil
    simp only [total] at this
    omega
  · intro ha t ht
    have h1 := fetched_carries ht
    constructor
    · intro u hu
      have h2 := fetched_carries hu
      by_cases he : u = t
      · exact he
      · have := k [u, t] (by simp [he])
        simp only [total, List.map_cons, List.map_nil, List.sum_cons, List.sum_nil] at this
        omega
    · have := k [t] (by simp)
      simp only [total, List.map_cons, List.map_nil, List.sum_cons, List.sum_nil] at this
      omega

/-- C63: if the queue has workers and has not been closed, a block submitted once and not handed out to a client has been
run exactly once, and is finished, when the queue is drained: nothing is queued, no client is inside a call and no worker
is fetching or executing. -/
theorem exactly_once (n : Nat) (hn : 0 < n) (as : List (Act Op)) (s : State) (h : List (Event Op Out))
    (e : (sys n).run (sys n).init as = some (s, h)) (hc : notClosed h) (i : Nat) (ha : adds i h = 1) (hh : handed i h = 0)
    (hq : s.high.1 = [] ∧ s.med.1 = [] ∧ s.low.1 = []) (hcl : ∀ t, n ≤ t → s.loc t = .idle)
    (hw : ∀ t, t < n → busy (s.loc t) = false) : s.runs i = 1 ∧ s.fin i = true := by
  have k := known_run as e
  have h0 : ∀ t, carries i (s.loc t) = 0 := by
    intro t
    rcases Nat.lt_or_ge t n with ht | ht
    · have h1 := hw t ht
      have h2 := k.place t
      generalize s.loc t = l at h1 h2
      cases l <;> simp_all [busy, place, carries] <;> omega
    · rw [hcl t ht]; rfl
  obtain ⟨ts, h1, h2⟩ := (k.lower hn hc).lower i (by omega)
  have hs : ∀ ts : List Nat, (ts.map fun t => carries i (s.loc t)).sum = 0 := by
    intro ts; induction ts with
    | nil => rfl
    | cons u ts ih => rw [List.map_cons, List.sum_cons, ih, h0]
  have hz : s.queued i = 0 := by simp [State.queued, hq]
  have hu := k.upper i [] List.nodup_nil
  simp only [total, hs, hz, hh, List.map_nil, List.sum_nil] at h2 hu
  have hr : s.runs i = 1 := by omega
  refine ⟨hr, ?_⟩
  rcases k.ran.late i (by omega) with h3 | ⟨t, bs, h3⟩
  · exact h3
  · rcases Nat.lt_or_ge t n with ht | ht
    · have := hw t ht; rw [h3] at this; cases this
    · have := hcl t ht; rw [h3] at this; cases this

/-- C63: without workers, a block is finished, and has been run, when the call that submits it returns. -/
theorem zero_workers (as : List (Act Op)) (s : State) (h : List (Event Op Out))
    (e : (sys 0).run (sys 0).init as = some (s, h)) (t : Nat) (op : Op) (hm : .call t op ∈ h) (hr : s.loc t = .idle)
    (i : Nat) (ha : 0 < op.adds i) : s.fin i = true ∧ 1 ≤ s.runs i := by
  have hf : s.fin i = true := by
    rcases direct_run as e t op i hm ha with h1 | h1
    · exact h1
    · rw [hr] at h1; cases h1
  exact ⟨hf, (known_run as e).ran.fin i hf⟩

/-- An execution with two workers, drained. -/
example : ∃ as s h, (sys 2).run (sys 2).init as = some (s, h) ∧ notClosed h ∧ adds 7 h = 1 ∧ handed 7 h = 0 ∧
    (s.high.1 = [] ∧ s.med.1 = [] ∧ s.low.1 = []) ∧ (∀ t, 2 ≤ t → s.loc t = .idle) ∧
    (∀ t, t < 2 → busy (s.loc t) = false) ∧ adds 8 h = 1 := by
  refine ⟨begin 2 (.add (some (.task 7)) .low) 5 ++ go 0 3 ++ begin 3 (.addVector [some (.task 8)] .medium) 3 ++ go 1 2 ++
    go 1 9 ++ go 0 11, _, _, rfl, ?_, rfl, rfl, ⟨rfl, rfl, rfl⟩, ?_, ?_, rfl⟩
  · intro t; simp
  · intro t ht
    match t with
    | 0 => omega
    | 1 => omega
    | 2 => rfl
    | 3 => rfl
    | t + 4 => rfl
  · intro t ht
    match t with
    | 0 => rfl
    | 1 => rfl
    | t + 2 => omega

/-- A block fetched by a worker. -/
example : ∃ as s h, (sys 1).run (sys 1).init as = some (s, h) ∧ adds 7 h ≤ 1 ∧ fetched 7 (s.loc 0) = true := by
  exact ⟨begin 1 (.add (some (.task 7)) .high) 5 ++ go 0 3, _, _, rfl, by decide, rfl⟩

/-- Without workers, with a vector. -/
example : ∃ as s h, (sys 0).run (sys 0).init as = some (s, h) ∧ .call 5 (.addVector [some (.task 7), some (.task 8)] .low) ∈ h ∧
    s.loc 5 = .idle := by
  exact ⟨begin 5 (.addVector [some (.task 7), some (.task 8)] .low) 10, _, _, rfl, by simp, rfl⟩

/-- C63 needs the block to be submitted once: submitted twice, it is run twice, by two workers at the same time (if it is a WorkBlock, the
second run throws std::future_error in the worker, which ends the program). -/
theorem twice_violation : ∃ as s h, (sys 2).run (sys 2).init as = some (s, h) ∧ s.runs 7 = 2 := by
  exact ⟨begin 2 (.add (some (.task 7)) .high) 5 ++ begin 2 (.add (some (.task 7)) .high) 5 ++ go 0 4 ++ go 1 4 ++ go 0 1 ++ go 1 1,
    _, _, rfl, rfl⟩

/-! ### C64 the order of fetches -/

/-- C64: in every execution, what has been appended to a queue is what left it, followed by its content, in this order.
While nobody closes the queue, what left it are the blocks taken by fetches; otherwise these are a sublist. -/
theorem fifo (n : Nat) (as : List (Act Op)) (s : State) (h : List (Event Op Out))
    (e : (sys n).run (sys n).init as = some (s, h)) (q : Que) :
    ∃ gone, (traffic n q (sys n).init as).1 = gone ++ (s.que q).1 ∧ (traffic n q (sys n).init as).2.Sublist gone ∧
      (notClosed h → (traffic n q (sys n).init as).2 = gone) := by
  obtain ⟨gone, h1, h2, h3⟩ := traffic_run q as e
  refine ⟨gone, ?_, h2, h3 ?_⟩
  · have : ((sys n).init.que q).1 = [] := by cases q <;> rfl
    simpa [this] using h1
  · intro t
    show closing (if t < n then .wE .high else .idle) = false
    split <;> rfl

/-- C64: in every state, whatever the other threads do: a fetch that begins while a high priority block is queued gets the
first one. -/
theorem high_first (n t c : Nat) (s : State) (hl : s.loc t = .gHigh) (b : Option Blk) (bs : List (Option Blk))
    (hh : s.high.1 = b :: bs) :
    ∃ s', (sys n).move t c s = some (s', none) ∧ s'.high.1 = bs ∧ s'.loc t = if t < n then .wChk b else .ret (.blk b) := by
  refine ⟨_, by simp only [sys, hl, State.stepAt, front_eq, State.que, hh, List.head?]; rfl, ?_, ?_⟩
  · simp [State.got, State.goto, popped_eq, State.setQue, State.que, hh]
  · simp [State.got, loc_goto, upd_same]

/-- C64: one client, the workers being idle: for every sequence of additions, settings of the ratio and fetches, the
fetches return what `Queues.fetch` says. -/
theorem alone_history (n : Nat) (hn : 0 < n) (t : Nat) (ht : n ≤ t) (as : List (Act Op)) (hb : ∀ a ∈ as, byThread t a)
    (s : State) (h : List (Event Op Out)) (e : (sys n).run (sys n).init as = some (s, h)) (hi : s.loc t = .idle)
    (es : List Ev) (hc : called h = es.map Ev.op) :
    s.queues = (Queues.new.run es).1 ∧ returned h = (Queues.new.run es).2.map fun r => r.bind (·.2) := by
  have h0 : (sys n).init.loc t = .idle := by
    show (if t < n then Loc.wE .high else .idle) = .idle
    rw [if_neg (by omega)]
  have := alone_run hn ht as hb (by rfl) (by rw [h0]; rfl) e es hc
  have hq : (sys n).init.queues = Queues.new := rfl
  rw [h0, hi] at this
  simpa [rest, hq] using this

/-- each such sequence has an execution -/
theorem alone_exists_history (n : Nat) (hn : 0 < n) (t : Nat) (ht : n ≤ t) (es : List Ev) :
    ∃ as s h, (∀ a ∈ as, byThread t a) ∧ (sys n).run (sys n).init as = some (s, h) ∧ s.loc t = .idle ∧
      called h = es.map Ev.op := by
  refine alone_exists hn ht es _ ?_ rfl
  show (if t < n then Loc.wE .high else .idle) = .idle
  rw [if_neg (by omega)]

/-- The same as `alone_history` for a fetch in any state: it ends as `Queues.fetch` says if the other threads wait. -/
theorem fetch_by_itself (n t : Nat) (s : State) (hl : s.loc t = .gHigh) :
    ∃ k s', (sys n).run s (go t k) = some (s', []) ∧ s'.queues = s.queues.fetch.1 ∧
      s'.loc t = (if t < n then .wChk (s.queues.fetch.2.bind (·.2)) else .ret (.blk (s.queues.fetch.2.bind (·.2)))) := by
  obtain ⟨s1, _, h1, k, h2⟩ := fetch_alone (n := n) hl
  exact ⟨k, _, h2, h1, by rw [State.got, loc_goto, upd_same]⟩

/-- C64, partial: the full statement has no bound on the number of fetches; here there are less than 2^31, see
`starvation_violation`.  After `ratio` fetches of medium priority blocks with no low priority block fetched between, and no
high priority block queued, the next fetch gets the first low priority block. -/
theorem low_turn_partial (pre es : List Ev) (hb : fetches (pre ++ es) < 2147483648) :
    let q := (Queues.new.run pre).1
    let q' := (q.run es).1
    (∀ r ∈ (q.run es).2, isFrom .low r = false) → q'.ratio ≤ ((q.run es).2.countP (isFrom .med) : Nat) →
    q'.high = [] → ∀ b bs, q'.low = b :: bs → q'.fetch.2 = some (.low, b) := by
  intro q q' hl hr hh b bs hlw
  have hb' : fetches pre + fetches es < 2147483648 := by unfold fetches at *; rw [List.count_append] at hb; exact hb
  have h1 := run_counter pre Queues.new (by decide) (by show (0 : Int) + _ < _; omega)
  have h1' : q.counter ≤ 0 + fetches pre := h1.2
  have h2 := run_turn es q h1.1 (by omega) hl
  have h3 : q'.counter ≥ q'.ratio := by
    have : q'.counter = q.counter + _ := h2
    have : 0 ≤ q.counter := h1.1
    omega
  cases hm : q'.med <;> simp [Queues.fetch, hh, hlw, hm, h3]

/-- C64, partial as above: while less than `ratio` medium priority blocks have been fetched since the beginning, or since a
low priority block was fetched although a medium one was queued, medium priority blocks come before low ones. -/
theorem medium_first_partial (pre es : List Ev) (hb : fetches (pre ++ es) < 2147483647) :
    let q0 := (Queues.new.run pre).1
    ∀ q, q = Queues.new ∨ (∃ b, q0.med ≠ [] ∧ q0.fetch.2 = some (.low, b) ∧ q = q0.fetch.1) →
    let q' := (q.run es).1
    ((q.run es).2.countP (isFrom .med) : Nat) < q'.ratio → q'.high = [] → ∀ m ms, q'.med = m :: ms →
    q'.fetch.2 = some (.med, m) := by
  intro q0 q hq q' hr hh m ms hm
  have hb' : fetches pre + fetches es < 2147483647 := by unfold fetches at *; rw [List.count_append] at hb; exact hb
  have hz : q.counter = 0 := by
    rcases hq with rfl | ⟨b, hm, hf, rfl⟩
    · rfl
    · generalize q0 = p at *
      obtain ⟨hi, me, lo, r, k⟩ := p
      cases hi <;> cases me <;> cases lo <;> by_cases h : k ≥ r <;> simp [Queues.fetch, h] at hf hm ⊢
  have h2 := run_turn_le es q (by omega) (by omega)
  have h3 : ¬ q'.ratio ≤ q'.counter := by
    have : q'.counter ≤ q.counter + _ := h2
    omega
  cases hl : q'.low <;> simp [Queues.fetch, hh, hl, hm, h3]

/-- Two medium priority blocks and two of low priority with ratio 2: what is fetched. -/
example : let q := (Queues.new.run [.setRatio 2, .add 1 .low, .add 2 .medium, .add 3 .medium, .add 4 .low, .add 5 .medium]).1
    (q.run [.fetch, .fetch, .fetch, .fetch, .fetch, .fetch]).2 =
      [some (.med, some (.task 2)), some (.med, some (.task 3)), some (.low, some (.task 1)), some (.med, some (.task 5)),
       some (.low, some (.task 4)), none] := by rfl

/-- `low_turn_partial`'s hypotheses -/
example : let q := (Queues.new.run [.setRatio 2, .add 1 .low, .add 2 .medium, .add 3 .medium, .add 5 .medium]).1
    let q' := (q.run [.fetch, .fetch]).1
    (∀ r ∈ (q.run [.fetch, .fetch]).2, isFrom .low r = false) ∧
    q'.ratio ≤ ((q.run [.fetch, .fetch]).2.countP (isFrom .med) : Nat) ∧ q'.high = [] ∧ q'.low = [some (.task 1)] ∧
    q'.med = [some (.task 5)] := by
  refine ⟨by decide, by decide, rfl, rfl, rfl⟩

/-- `medium_first_partial`'s hypotheses, the second case -/
example : let q0 := (Queues.new.run [.setRatio 1, .add 1 .low, .add 2 .medium, .add 3 .medium, .add 4 .low, .fetch]).1
    q0.med ≠ [] ∧ q0.fetch.2 = some (.low, some (.task 1)) ∧
    let q' := (q0.fetch.1.run [.add 9 .high, .fetch]).1
    ((q0.fetch.1.run [.add 9 .high, .fetch]).2.countP (isFrom .med) : Nat) < q'.ratio ∧ q'.high = [] ∧
    q'.med = [some (.task 3)] := by
  refine ⟨by decide, rfl, by decide, rfl, rfl⟩

/-- `fifo`: blocks of one priority from two clients, and what two fetches took -/
example : ∃ as s h, (sys 1).run (sys 1).init as = some (s, h) ∧ notClosed h ∧
    traffic 1 .med (sys 1).init as = ([some (.task 1), some (.task 2), some (.task 3)], [some (.task 1), some (.task 2)]) ∧
    s.med.1 = [some (.task 3)] := by
  refine ⟨begin 1 (.add (some (.task 1)) .medium) 2 ++ begin 2 (.addVector [some (.task 2), some (.task 3)] .medium) 0 ++
    go 1 3 ++ go 2 2 ++ begin 3 .get 5 ++ begin 1 .get 4 , _, _, rfl, fun t => ?_, rfl, rfl⟩
  simp

/-! ### C65 starvation -/

/-- C65, partial: with less than 2^31 fetches in the life of the queue (see `starvation_violation`).  If a low priority
block is queued and no high priority one is, then of the next `ratio + 1` fetches during which no high priority block is
added and the ratio is not changed, one gets a low priority block. -/
theorem no_starvation_partial (pre es : List Ev) (hb : fetches (pre ++ es) < 2147483648) :
    let q := (Queues.new.run pre).1
    q.high = [] → q.low ≠ [] → (∀ i, .add i .high ∉ es ∧ .add i .required ∉ es) → (∀ r, .setRatio r ∉ es) →
    q.ratio + 1 ≤ fetches es → ∃ r ∈ (q.run es).2, isFrom .low r = true := by
  intro q hh hl ha hs hf
  have hb' : fetches pre + fetches es < 2147483648 := by unfold fetches at *; rw [List.count_append] at hb; exact hb
  apply Classical.byContradiction
  intro hno
  have hno : ∀ es', es' <+: es → ∀ r ∈ (q.run es').2, isFrom .low r = false := by
    rintro es' ⟨es2, rfl⟩ r hr
    by_cases h : isFrom .low r = true
    · exact absurd ⟨r, by rw [run_append]; exact List.mem_append_left _ hr, h⟩ hno
    · simpa using h
  have hc := run_counter pre Queues.new (by decide) (by show (0 : Int) + _ < _; omega)
  have hc1 : q.counter ≤ 0 + fetches pre := hc.2
  have hc0 : 0 ≤ q.counter := hc.1
  have hrat : 0 < q.ratio := run_ratio_pos pre Queues.new (by decide)
  obtain ⟨a, b, rfl, h2⟩ := last_fetch es (by omega)
  have hna := hno a ⟨_, rfl⟩
  have hnh := run_noHigh a q hh hl (fun i => ⟨fun h => (ha i).1 (by simp [h]), fun h => (ha i).2 (by simp [h])⟩) hna
  have ht := run_turn a q hc0 (by omega) hna
  have hrt := run_ratio a q (fun r h => hs r (by simp [h]))
  generalize hq' : (q.run a).1 = q' at *
  have h3 : q'.ratio ≤ q'.counter := by rw [hrt, ht, hnh.1]; omega
  have := hno (a ++ [.fetch]) ⟨b, by simp⟩ q'.fetch.2 (by rw [run_append, hq']; simp [Queues.run, Queues.step])
  obtain ⟨x, xs, hx⟩ := List.exists_cons_of_ne_nil hnh.2.2
  cases hm : q'.med <;> simp [Queues.fetch, hnh.2.1, hx, hm, h3, isFrom] at this

/-- `no_starvation_partial`'s hypotheses -/
example : let q := (Queues.new.run [.setRatio 2, .add 1 .low, .add 2 .medium, .add 3 .high, .fetch]).1
    let es : List Ev := [.fetch, .add 5 .medium, .fetch, .add 6 .medium, .fetch]
    q.high = [] ∧ q.low ≠ [] ∧ (∀ i, .add i .high ∉ es ∧ .add i .required ∉ es) ∧ (∀ r, .setRatio r ∉ es) ∧
    q.ratio + 1 ≤ fetches es := by
  refine ⟨rfl, by decide, fun i => by simp, fun r => by simp, by decide⟩

/-- C65 fails: the counter of medium priority fetches is an `int` that is not reset while no low priority block is queued.
After 2^31 fetches of medium priority blocks it is negative, and then a low priority block waits for up to 2^31 further
fetches, although no high priority block is ever added and the ratio is 4. -/
theorem starvation_violation (n : Nat) (hn : 0 < n) (m : Nat) (hm : m ≤ 2147483648) :
    ∃ as s h, (sys n).run (sys n).init as = some (s, h) ∧
      called h = (rounds 1 2147483648 ++ .add 0 .low :: rounds 2147483649 m).map Ev.op ∧
      fetches (rounds 2147483649 m) = m ∧ some (.task 0) ∉ returned h ∧ s.low.1 = [some (.task 0)] ∧ s.ratio = 4 := by
  obtain ⟨as, s, h, hb, hr, hi, hc⟩ := alone_exists_history n hn n (Nat.le_refl _)
    (rounds 1 2147483648 ++ .add 0 .low :: rounds 2147483649 m)
  obtain ⟨h1, h2⟩ := alone_history n hn n (Nat.le_refl _) as hb s h hr hi _ hc
  have hs := run_starve (some (.task 0)) 2147483649 m hm
  have hrun : Queues.new.run (rounds 1 2147483648 ++ .add 0 .low :: rounds 2147483649 m) =
      ({ Queues.new with low := [some (.task 0)], counter := m - 2147483648 }, roundsOut 1 2147483648 ++ roundsOut 2147483649 m) := by
    have hw : wrap ((2147483648 : Nat) : Int) = -2147483648 := by decide
    rw [run_append, run_rounds, Queues.run]
    simp only [Queues.step, hw]
    simp only at hs
    have hn : Queues.new.low ++ [some (Blk.task 0)] = [some (.task 0)] := rfl
    rw [hn, hs]
    rfl
  rw [hrun] at h1 h2
  refine ⟨as, s, h, hr, hc, fetches_rounds _ _, ?_, congrArg Queues.low h1, congrArg Queues.ratio h1⟩
  rw [h2, List.map_append, List.mem_append, not_or]
  exact ⟨roundsOut_ne (by omega), roundsOut_ne (by omega)⟩

end Verif.WorkQueue
