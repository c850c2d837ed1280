import Verif.WorkQueue.Share
import Verif.WorkQueue.Props

/-!
# C118: low and medium priority when fetches overlap

`low_turn_partial` and `no_starvation_partial` (C64, C65) are about fetches one after the other.  Here any number of worker
threads and clients fetch at the same time, and any clients add blocks and change the ratio in between, under every schedule.
-/

namespace Verif.WorkQueue
open Verif.Conc

variable {n : Nat}

theorem commits_le (R : Int) (l : Loc) : commits R l ≤ 1 := by
  cases l <;> simp [commits]
  split <;> omega

theorem weigh_zero {f : Loc → Nat} {s : State} : ∀ {ts : List Nat}, (∀ t ∈ ts, f (s.loc t) = 0) → weigh f ts s = 0
  | [], _ => rfl
  | t :: ts, h => by
    have h1 := weigh_zero (ts := ts) fun u hu => h u (List.mem_cons_of_mem _ hu)
    have h2 := h t (by simp)
    simp only [weigh, List.map_cons, List.sum_cons] at *
    omega

theorem start_counter (ts : List Nat) (hn : ts.Nodup) (hw : ∀ t, t < n → t ∈ ts) (pre : List (Act Op)) {s0 : State}
    {h0 : List (Event Op Out)} (e0 : (sys n).run (sys n).init pre = some (s0, h0)) (hc : ∀ t, .call t .get ∈ pre → t ∈ ts)
    (hb : taken n .med (sys n).init pre < 2147483648) :
    0 ≤ s0.counter ∧ s0.counter ≤ taken n .med (sys n).init pre ∧ fetchers n ts s0 := by
  have hl : ∀ t, (sys n).init.loc t = (if t < n then Loc.wE .high else .idle) := fun _ => rfl
  have hz : weigh counts ts (sys n).init = 0 := weigh_zero fun t _ => by rw [hl]; split <;> rfl
  have h := counter_run ts hn hw pre e0 ⟨place_init n, fun t h => by rw [hl] at h; split at h <;> cases h⟩ hc
    (Int.le_refl (0 : Int)) (by rw [hz]; show (0 : Int) + _ + _ < _; omega)
  have h2 := h.2.1
  rw [hz] at h2
  have h2' : s0.counter + weigh counts ts s0 ≤ 0 + ((0 : Nat) : Int) + taken n .med (sys n).init pre := h2
  exact ⟨h.1, by omega, h.2.2⟩

/-- C118, partial: fewer than 2^31 medium priority blocks are taken before (the counter is an `int`, see
`starvation_violation`).  `ts`: the worker threads and the clients that call `getWorkBlock`.  If during a part `as` of an
execution the queue of low priority blocks is never empty and the ratio never above `R`, then the number of medium priority
blocks taken is at most `R + T` for each low priority block taken, plus the same for each thread that was already fetching a
low priority block at the start and once for the start itself; `T` is the number of threads that fetch. -/
theorem low_share_partial (R : Nat) (ts : List Nat) (hn : ts.Nodup) (pre as : List (Act Op)) {s0 s : State}
    {h0 h : List (Event Op Out)} (e0 : (sys n).run (sys n).init pre = some (s0, h0)) (e : (sys n).run s0 as = some (s, h))
    (hts : ∀ t, t < n ∨ .call t .get ∈ pre ++ as → t ∈ ts) (hlow : always n (fun s => s.low.1 ≠ [] ∧ s.ratio ≤ R) s0 as)
    (hb : R + taken n .med (sys n).init pre + ts.length < 2147483648) :
    taken n .med s0 as ≤ (R + ts.length) * (1 + taken n .low s0 as + ts.length) := by
  obtain ⟨c0, c1, hf⟩ := start_counter ts hn (fun t h => hts t (.inl h)) pre e0 (fun t h => hts t (.inr (by simp [h]))) (by omega)
  have w1 : weigh (commits R) ts s0 ≤ ts.length := weigh_le (commits_le R) ts s0
  have w2 : weigh resets ts s0 ≤ ts.length := weigh_le (fun l => by cases l <;> simp [resets]) ts s0
  have h := share_run (R := R) (B := max (R : Int) s0.counter) ts hn (fun t h => hts t (.inl h)) (by omega) as (by omega) (by omega) e hf
    (fun t h => hts t (.inr (by simp [h]))) hlow c0 (by omega)
  have h1 : (R + ts.length) * (1 + taken n .low s0 as + weigh resets ts s0) ≤ (R + ts.length) * (1 + taken n .low s0 as + ts.length) :=
    Nat.mul_le_mul_left _ (by omega)
  have h2 : ((R : Int) + ts.length) * ((1 + taken n .low s0 as + weigh resets ts s0 : Nat) : Int) =
    (((R + ts.length) * (1 + taken n .low s0 as + weigh resets ts s0) : Nat) : Int) := by push_cast; rfl
  rw [h2] at h
  omega

/-- C118, partial as above, if no fetch is under way at the start: `R + T` medium priority blocks for each low priority block
taken, and once for the start. -/
theorem low_share_idle_partial (R : Nat) (ts : List Nat) (hn : ts.Nodup) (pre as : List (Act Op)) {s0 s : State}
    {h0 h : List (Event Op Out)} (e0 : (sys n).run (sys n).init pre = some (s0, h0)) (e : (sys n).run s0 as = some (s, h))
    (hts : ∀ t, t < n ∨ .call t .get ∈ pre ++ as → t ∈ ts) (hidle : ∀ t, inFetch (s0.loc t) = false)
    (hlow : always n (fun s => s.low.1 ≠ [] ∧ s.ratio ≤ R) s0 as)
    (hb : R + taken n .med (sys n).init pre + ts.length < 2147483648) :
    taken n .med s0 as ≤ (R + ts.length) * (1 + taken n .low s0 as) := by
  obtain ⟨c0, c1, hf⟩ := start_counter ts hn (fun t h => hts t (.inl h)) pre e0 (fun t h => hts t (.inr (by simp [h]))) (by omega)
  have w1 : weigh (commits R) ts s0 ≤ ts.length := weigh_le (commits_le R) ts s0
  have w2 : weigh resets ts s0 = 0 := weigh_zero fun t _ => by
    have := hidle t
    revert this
    cases s0.loc t <;> simp [resets, inFetch]
  have h := share_run (R := R) (B := max (R : Int) s0.counter) ts hn (fun t h => hts t (.inl h)) (by omega) as (by omega) (by omega) e hf
    (fun t h => hts t (.inr (by simp [h]))) hlow c0 (by omega)
  have h2 : ((R : Int) + ts.length) * ((1 + taken n .low s0 as + weigh resets ts s0 : Nat) : Int) =
    (((R + ts.length) * (1 + taken n .low s0 as + weigh resets ts s0) : Nat) : Int) := by push_cast; rfl
  rw [h2, w2] at h
  simp only [Nat.add_zero] at h
  omega

/-- Starvation when fetches overlap (partial as above): a low priority block waits for at most `R + T` medium priority ones, if
no fetch is under way at the start: when more medium priority blocks have been taken, a low priority one has been, too. -/
theorem low_not_starved_partial (R : Nat) (ts : List Nat) (hn : ts.Nodup) (pre as : List (Act Op)) {s0 s : State}
    {h0 h : List (Event Op Out)} (e0 : (sys n).run (sys n).init pre = some (s0, h0)) (e : (sys n).run s0 as = some (s, h))
    (hts : ∀ t, t < n ∨ .call t .get ∈ pre ++ as → t ∈ ts) (hidle : ∀ t, inFetch (s0.loc t) = false)
    (hlow : always n (fun s => s.low.1 ≠ [] ∧ s.ratio ≤ R) s0 as)
    (hb : R + taken n .med (sys n).init pre + ts.length < 2147483648) (hm : R + ts.length < taken n .med s0 as) :
    0 < taken n .low s0 as := by
  have h := low_share_idle_partial R ts hn pre as e0 e hts hidle hlow hb
  cases hz : taken n .low s0 as with
  | zero => rw [hz] at h; omega
  | succ k => omega

/-- `always`, computed -/
def alwaysB (n : Nat) (P : State → Bool) (s : State) : List (Act Op) → Bool
  | [] => P s
  | a :: as => P s && match (sys n).exec s a with
    | none => true
    | some (s', _) => alwaysB n P s' as

theorem always_of {P : State → Bool} {Q : State → Prop} (h : ∀ s, P s = true → Q s) :
    ∀ (as : List (Act Op)) (s : State), alwaysB n P s as = true → always n Q s as
  | [], s, e => h s e
  | a :: as, s, e => by
    simp only [alwaysB, Bool.and_eq_true] at e
    refine ⟨h s e.1, ?_⟩
    cases hx : (sys n).exec s a with
    | none => trivial
    | some p =>
      have e2 := e.2
      rw [hx] at e2
      exact always_of h as p.1 e2

/-- a ratio of 1, two medium and three low priority blocks are added, and the first medium one is fetched -/
def turnsPre : List (Act Op) :=
  begin 1 (.setRatio 1) 2 ++ begin 1 (.add (some (.task 1)) .medium) 5 ++ begin 1 (.add (some (.task 2)) .medium) 5 ++
    begin 1 (.add (some (.task 3)) .low) 5 ++ begin 1 (.add (some (.task 4)) .low) 5 ++ begin 1 (.add (some (.task 5)) .low) 5 ++
    begin 2 .get 6

/-- clients 2 and 3 both read the counter and the ratio before either takes a block -/
def turnsAs : List (Act Op) := begin 2 .get 3 ++ begin 3 .get 3 ++ go 2 4 ++ go 3 4

/-- The turns of C64 fail when fetches overlap: with ratio 1 two low priority blocks are taken although a medium priority block
is queued all the time and none is taken between.  (Two clients read the counter before either resets it.) -/
theorem turns_overlap_violation : ∃ s0 h0 s h, (sys 1).run (sys 1).init turnsPre = some (s0, h0) ∧
    (sys 1).run s0 turnsAs = some (s, h) ∧ (∀ t, inFetch (s0.loc t) = false) ∧
    always 1 (fun s => s.ratio = 1 ∧ s.med.1 ≠ [] ∧ s.low.1 ≠ []) s0 turnsAs ∧
    (traffic 1 .low s0 turnsAs).2 = [some (.task 3), some (.task 4)] ∧ (traffic 1 .med s0 turnsAs).2 = [] := by
  refine ⟨_, _, _, _, rfl, rfl, fun t => ?_, ?_, rfl, rfl⟩
  · match t with
    | 0 => rfl
    | 1 => rfl
    | 2 => rfl
    | t + 3 => rfl
  · refine always_of (P := fun s => s.ratio == 1 && !s.med.1.isEmpty && !s.low.1.isEmpty) (fun s h => ?_) _ _ rfl
    simp at h
    exact ⟨h.1.1, h.1.2, h.2⟩

/-- `low_share_partial`, `low_share_idle_partial`: the same execution and one more fetch, `ts` the worker and clients 2 and 3. -/
example : ∃ s0 h0 s h, (sys 1).run (sys 1).init turnsPre = some (s0, h0) ∧
    (sys 1).run s0 (turnsAs ++ begin 2 .get 6) = some (s, h) ∧
    (∀ t, t < 1 ∨ .call t .get ∈ turnsPre ++ (turnsAs ++ begin 2 .get 6) → t ∈ [0, 2, 3]) ∧
    always 1 (fun s => s.low.1 ≠ [] ∧ s.ratio ≤ (1 : Nat)) s0 (turnsAs ++ begin 2 .get 6) ∧
    1 + taken 1 .med (sys 1).init turnsPre + [0, 2, 3].length < 2147483648 ∧
    taken 1 .med s0 (turnsAs ++ begin 2 .get 6) = 1 ∧ taken 1 .low s0 (turnsAs ++ begin 2 .get 6) = 2 := by
  refine ⟨_, _, _, _, rfl, rfl, ?_, ?_, by decide, rfl, rfl⟩
  · intro t h
    rcases h with h | h
    · simp; omega
    · simp [turnsPre, turnsAs, begin, go] at h ⊢
      omega
  · refine always_of (P := fun s => s.ratio == 1 && !s.low.1.isEmpty) (fun s h => ?_) _ _ rfl
    simp at h
    exact ⟨h.2, by omega⟩

/-- six medium and six low priority blocks with ratio 1, fetched by client 2 -/
def mixedPre : List (Act Op) :=
  begin 1 (.setRatio 1) 2 ++
    begin 1 (.addVector ((List.range 6).map fun i => some (.task i)) .medium) 3 ++
    begin 1 (.addVector ((List.range 6).map fun i => some (.task (10 + i))) .low) 3

def mixedAs : List (Act Op) :=
  begin 2 .get 6 ++ begin 2 .get 7 ++ begin 2 .get 6 ++ begin 2 .get 7 ++ begin 2 .get 6 ++ begin 2 .get 7 ++ begin 2 .get 6

/-- `low_not_starved_partial`: the worker and client 2 -/
example : ∃ s0 h0 s h, (sys 1).run (sys 1).init mixedPre = some (s0, h0) ∧ (sys 1).run s0 mixedAs = some (s, h) ∧
    (∀ t, t < 1 ∨ .call t .get ∈ mixedPre ++ mixedAs → t ∈ [0, 2]) ∧ (∀ t, inFetch (s0.loc t) = false) ∧
    always 1 (fun s => s.low.1 ≠ [] ∧ s.ratio ≤ (1 : Nat)) s0 mixedAs ∧
    1 + taken 1 .med (sys 1).init mixedPre + [0, 2].length < 2147483648 ∧
    1 + [0, 2].length < 4 ∧ taken 1 .med s0 mixedAs = 4 ∧ taken 1 .low s0 mixedAs = 3 := by
  refine ⟨_, _, _, _, rfl, rfl, ?_, fun t => ?_, ?_, by decide, by decide, rfl, rfl⟩
  · intro t h
    rcases h with h | h
    · simp; omega
    · simp [mixedPre, mixedAs, begin, go] at h ⊢
      omega
  · match t with
    | 0 => rfl
    | 1 => rfl
    | t + 2 => rfl
  · refine always_of (P := fun s => s.ratio == 1 && !s.low.1.isEmpty) (fun s h => ?_) _ _ rfl
    simp at h
    exact ⟨h.2, by omega⟩

end Verif.WorkQueue
