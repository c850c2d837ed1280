import Verif.AirLock.WeakLemmas

/-
The properties C125, C126: AirLock in the C++ memory model (Verif/AirLock/WeakModel.lean), where reads of `loaded` may yield
older values and calls are ordered by "happens before" only.
-/
namespace Verif.AirLock
open Verif.Conc

variable {α : Type}

/-! ### Happens before -/

/-- In every execution, "happens before" is a strict partial order, compatible with the order of the steps, and contains the
order of the calls and returns of each thread; `h` is the history of these events. -/
theorem happensBefore_order (as : List (Act (Op α))) (w : Weak α) (h : List (Event (Op α) (Out α))) (e : (weak α).run (weak α).init as = some (w, h)) :
    (∀ m n, happensBefore w.log m n → m < n) ∧
    (∀ l m n, happensBefore w.log l m → happensBefore w.log m n → happensBefore w.log l n) ∧
    (∀ m n a b, (m, a) ∈ (weak α).stamped 1 (weak α).init as → (n, b) ∈ (weak α).stamped 1 (weak α).init as → a.thread = b.thread → m < n →
      happensBefore w.log m n) ∧
    ((weak α).stamped 1 (weak α).init as).map Prod.snd = h := by
  obtain ⟨cur, gs, I⟩ := Inv.init.run as e
  have O := Ordered.init.run as e
  have lt : ∀ m n, happensBefore w.log m n → m < n := by
    rintro m n ⟨hne, k, h1, h2⟩
    have := (I.log _ _ h1).2.1 _ h2
    omega
  refine ⟨lt, ?_, ?_, Sys.stamped_events _ _ _ _ _ _ e⟩
  · rintro l m n h1 h2
    have h3 := lt _ _ h1
    have h4 := lt _ _ h2
    obtain ⟨_, k, h5, h6⟩ := h1
    obtain ⟨_, k', h7, h8⟩ := h2
    exact ⟨by omega, k', h7, (I.log _ _ h7).2.2.sub h8 h5 h6⟩
  · intro m n a b ha hb ht hlt
    obtain ⟨k, h1, h2⟩ := O.order m n a b (List.mem_append_right _ ha) (List.mem_append_right _ hb) ht hlt
    exact ⟨by omega, k, h1, h2⟩

/-! ### C125 linearizability with respect to happens before -/

/-- the values loaded -/
def loaded : List (Entry (Op α) (Out α)) → List α
  | [] => []
  | ⟨_, .tryLoad v, .bool true⟩ :: L => v :: loaded L
  | ⟨_, .load v, .unit⟩ :: L => v :: loaded L
  | _ :: L => loaded L

/-- the values unloaded -/
def unloaded : List (Entry (Op α) (Out α)) → List α
  | [] => []
  | ⟨_, .tryUnload, .val (some x)⟩ :: L => x :: unloaded L
  | _ :: L => unloaded L

theorem runs_exchange (L : List (Entry (Op α) (Out α))) : ∀ {q q' : Option α}, Runs (spec α) q L q' → q.toList ++ loaded L = unloaded L ++ q'.toList := by
  induction L with
  | nil => intro q q' h; cases h; simp [loaded, unloaded]
  | cons x L ih =>
    rintro q q' ⟨q1, h1, h2⟩
    have := ih h2
    obtain ⟨n, op, o⟩ := x
    cases op <;> cases q <;> simp only [spec, slot, Option.some.injEq, Prod.mk.injEq, reduceCtorEq] at h1 <;>
      obtain ⟨rfl, rfl⟩ := h1 <;> simpa [loaded, unloaded] using this

/-- C125: in every execution of the C++ memory model there is one order of the calls, compatible with happens before, in which
the results are those of a buffer with one place; in this order the values loaded are the values unloaded and then at most one
more; and a call that fills or empties the airlock happens before the return of every later call: what a thread has done
before it loads a value is visible to the thread that unloads it. -/
theorem weak_linearizable (as : List (Act (Op α))) (w : Weak α) (h : List (Event (Op α) (Out α))) (e : (weak α).run (weak α).init as = some (w, h)) :
    ∃ L, LinearizedBy (spec α) ((weak α).stamped 1 (weak α).init as) (happensBefore w.log) L ∧
      (∃ r : Option α, loaded L = unloaded L ++ r.toList) ∧
      L.Pairwise fun x y => changes x.op x.out = true →
        ∀ m t, Completed ((weak α).stamped 1 (weak α).init as) y.call m t y.op y.out → happensBefore w.log x.call m := by
  obtain ⟨cur, gs, I⟩ := Inv.init.run as e
  simp only [List.nil_append] at I
  have I : Inv w ((weak α).stamped 1 (weak α).init as) cur gs := I
  have hrun := I.groups.chain.runs
  refine ⟨(gs.flatMap G.ops).map Pt.x, I.hist.linearized I.log ⟨_, hrun⟩, ⟨_, runs_exchange _ hrun⟩, ?_⟩
  rw [List.pairwise_map]
  have key : (gs.flatMap G.ops).Pairwise fun p p' => changes p.x.op p.x.out = true → ∃ k, w.log[p'.at_]? = some k ∧ p.at_ ∈ k := by
    rw [List.pairwise_flatMap]
    constructor
    · intro g hg
      refine List.Pairwise.imp_of_mem ?_ (List.pairwise_of_forall (l := g.ops) (R := fun _ _ => True) fun _ _ => trivial)
      intro p p' hp hp' _ hc
      rw [I.groups.made g hg p hp hc]
      exact I.groups.ops g hg p' hp'
    · refine List.Pairwise.imp_of_mem ?_ I.groups.inc
      rintro g g' hg hg' ⟨_, k, h1, h2⟩ p hp p' hp' hc
      rw [I.groups.made g hg p hp hc]
      obtain ⟨k', h3, h4⟩ := I.groups.ops g' hg' p' hp'
      exact ⟨k', h3, (I.log _ _ h3).2.2.sub h4 h1 h2⟩
  refine List.Pairwise.imp_of_mem ?_ key
  intro p p' hp hp' hpp hc m t hcomp
  obtain ⟨k, h1, h2⟩ := hpp hc
  obtain ⟨p2, h3, h4, km, h5, h6⟩ := I.hist.complete _ _ _ _ _ hcomp
  have hp2 : p2 = p' := I.hist.inj h3 hp' (by rw [h4])
  subst hp2
  obtain ⟨⟨kp, h7, h8⟩, u, h9⟩ := I.hist.pts p hp
  refine ⟨?_, km, h5, ?_⟩
  · intro hm
    have := I.hist.uniq _ _ _ h9 (hm ▸ hcomp.2.1)
    cases this
  · have h10 : p.at_ ∈ km := (I.log _ _ h5).2.2.sub h6 h1 h2
    exact (I.log _ _ h5).2.2.sub h10 h7 h8

/-- thread 0 loads 7; then thread 1, which has not been told of it, asks; its read of `loaded` yields the initial value -/
def staleRun : List (Act (Op Nat)) :=
  .call 0 (.tryLoad 7) :: [.move 0 0, .move 0 0, .move 0 0, .move 0 0, .move 0 1, .move 0 0, .move 0 0] ++ [.call 1 .isLoaded, .move 1 0, .move 1 0]

/-- C125: without happens before an answer may be out of date: isLoaded is called after try_load has returned true, nothing
is unloaded, and it returns false.  So the history is not linearizable in the order of time. -/
theorem weak_stale_violation : ∃ w h, (weak Nat).run (weak Nat).init staleRun = some (w, h) ∧
    h = [.call 0 (.tryLoad 7), .ret 0 (.bool true), .call 1 .isLoaded, .ret 1 (.bool false)] ∧ ¬ Linearizable (spec Nat) h := by
  refine ⟨_, _, rfl, rfl, ?_⟩
  exact not_linearizable (ts := [0, 1]) (by decide) (by decide)

/-- thread 1 has been told of the return of the call (step 8) -/
def toldRun (c : Nat) : List (Act (Op Nat)) :=
  .call 0 (.tryLoad 7) :: [.move 0 0, .move 0 0, .move 0 0, .move 0 0, .move 0 1, .move 0 0, .move 0 0] ++ [.move 1 8, .call 1 .isLoaded, .move 1 c, .move 1 0]

/-- When the loading happens before the question, the initial value cannot be read any more. -/
example : (weak Nat).run (weak Nat).init (toldRun 0) = none ∧
    ∃ w, (weak Nat).run (weak Nat).init (toldRun 1) = some (w, [.call 0 (.tryLoad 7), .ret 0 (.bool true), .call 1 .isLoaded, .ret 1 (.bool true)]) ∧
      happensBefore w.log 1 12 ∧ happensBefore w.log 8 10 := by
  refine ⟨rfl, _, rfl, ⟨by decide, _, rfl, by decide⟩, ⟨by decide, _, rfl, by decide⟩⟩

/-- thread 0 loads 7, thread 1 unloads it -/
def passRun : List (Act (Op Nat)) :=
  .call 0 (.tryLoad 7) :: [.move 0 0, .move 0 0, .move 0 0, .move 0 0, .move 0 1, .move 0 0, .move 0 0] ++
  .call 1 .tryUnload :: [.move 1 1, .move 1 0, .move 1 1, .move 1 0, .move 1 2, .move 1 0, .move 1 0, .move 1 0]

/-- The call of try_load (step 1) happens before the return of try_unload (step 17), but not before its call (step 9). -/
example : ∃ w, (weak Nat).run (weak Nat).init passRun = some (w, [.call 0 (.tryLoad 7), .ret 0 (.bool true), .call 1 .tryUnload, .ret 1 (.val (some 7))]) ∧
    happensBefore w.log 1 17 ∧ ¬ happensBefore w.log 1 9 := by
  refine ⟨_, rfl, ⟨by decide, _, rfl, by decide⟩, ?_⟩
  rintro ⟨_, k, h1, h2⟩
  cases h1
  exact absurd h2 (by decide)

/-! ### C126 no data race, no lost wake-up, no deadlock -/

/-- C126: no two accesses to the stored value are unordered, and only a value that has been loaded is moved out. -/
theorem weak_race_free (w : Weak α) (hw : (weak α).Reachable w) : w.race = false ∧ ∀ t, w.base.loc t ≠ .garbage := by
  obtain ⟨h, cur, gs, I⟩ := reachable_inv hw
  refine ⟨I.race, fun t hg => ?_⟩
  have := I.rel.data
  rw [I.rel.owns.holder hg rfl] at this
  exact this

/-- C126: what the flag `race` of the model means: a step that accesses the stored value is recorded, and the flag is set if
an access recorded before does not happen before this step. -/
theorem weak_race_reported (w w' : Weak α) (t c : Nat) (o : Option (Out α)) (hu : access (w.base.loc t) = .use)
    (hl : ∀ u ∈ w.uses, u < w.log.length) (h : (weak α).move t c w = some (w', o)) : w'.uses = w.log.length :: w.uses ∧
    (w'.race = true ↔ w.race = true ∨ ∃ u ∈ w.uses, ¬ happensBefore w'.log u w.log.length) := by
  have hi : w.base.loc t ≠ .idle := by intro e; rw [e] at hu; cases hu
  have h : Weak.move t c w = some (w', o) := h
  rw [move_busy hi] at h
  simp only [Weak.moveAt, hu, Option.map_eq_some_iff] at h
  obtain ⟨r, -, h⟩ := h
  cases h
  refine ⟨rfl, ?_⟩
  have key : ∀ u ∈ w.uses, (u ∈ w.seen t ↔ happensBefore (w.log ++ [w.log.length :: w.seen t]) u w.log.length) := by
    intro u hu
    have := hl u hu
    simp only [happensBefore, List.getElem?_append_right (Nat.le_refl _), Nat.sub_self, List.getElem?_cons_zero, Option.some.injEq]
    constructor
    · intro hs; exact ⟨by omega, _, rfl, .tail _ hs⟩
    · rintro ⟨-, k, rfl, hk⟩
      rcases List.mem_cons.1 hk with e | hk
      · omega
      · exact hk
  simp only [Weak.tick, List.nil_append, Bool.or_eq_true, Bool.not_eq_true', List.all_eq_false, decide_eq_true_eq]
  constructor
  · rintro (h | ⟨u, hu, h⟩)
    · exact .inl h
    · exact .inr ⟨u, hu, fun c => h ((key u hu).2 c)⟩
  · rintro (h | ⟨u, hu, h⟩)
    · exact .inl h
    · exact .inr ⟨u, hu, fun c => h ((key u hu).1 c)⟩

/-- without the ordering by the lock the flag is set -/
example : ((Weak.moveAt 1 0 { (Weak.init : Weak Nat) with seen := fun _ => [] } (.tData (some 5))).map fun r => r.1.race) = some true := by
  decide

/-- C126: the value of `loaded` that is last in modification order says whether there is a value in the airlock, and a thread
inside the lock can read no other one. -/
theorem weak_locked_reads (w : Weak α) (hw : (weak α).Reachable w) (t c : Nat) (ht : w.base.owner = some t) (hr : access (w.base.loc t) = .read)
    (r : Weak α × Option (Out α)) (h : (weak α).move t c w = some r) : w.mem[c]? = w.mem.getLast? ∧ w.mem.getLast?.map Prod.snd = some w.base.loaded := by
  obtain ⟨h0, cur, gs, I⟩ := reachable_inv hw
  have hh : holds (w.base.loc t) = true := (I.rel.owns t).2 ht
  have hi : w.base.loc t ≠ .idle := by intro e; rw [e] at hh; cases hh
  have h : Weak.move t c w = some r := h
  rw [move_busy hi] at h
  simp only [Weak.moveAt, hr] at h
  split at h
  · cases h
  · rename_i e b hc
    split at h
    · cases h
    · rename_i h1
      rw [I.mem] at hc
      obtain ⟨A, g, B, rfl, hB, rfl, rfl⟩ := map_split hc
      rw [I.mem, hB] at h1
      have h6 := anySeen_false (Bool.eq_false_iff.2 h1)
      have hB : B = [] := by
        cases B with
        | nil => rfl
        | cons g' B =>
          have := I.held g' (by simp)
          simp only [knows, ht] at this
          exact absurd this (h6 g' (by simp))
      subst hB
      have e2 : w.base.loaded = g.val := by
        have : w.base.loaded = (lastQ none (A ++ [g])).isSome := I.rel.data.loaded
        rw [this, lastQ_snoc, I.groups.val g (by simp)]
      rw [I.mem, hc]
      simp [e2]

/-- C126: if the airlock is empty and threads sleep in load, then a loader is awake and on its way, or an unloader is about to
notify (calls of load do not throw). -/
theorem weak_no_lost_wakeup (w : Weak α) (hw : ((weak α).restrict Op.loadSucceeds).Reachable w) (he : w.base.loaded = false) (t : Nat) (ht : asleep w.base t) :
    ∃ u, awakeLoader w.base u ∨ willNotify w.base u :=
  (reachable_awake hw).waits.coming rfl he (by intro h; simp [asleep, h] at ht)

/-- thread 0 loads 7, thread 1 sleeps in load, thread 0 empties the airlock and will notify -/
def sleepRun : List (Act (Op Nat)) :=
  .call 0 (.tryLoad 7) :: [.move 0 0, .move 0 0, .move 0 0, .move 0 0, .move 0 1, .move 0 0, .move 0 0] ++
  .call 1 (.load 8) :: [.move 1 0, .move 1 1, .move 1 1, .move 1 0] ++
  .call 0 .tryUnload :: [.move 0 1, .move 0 0, .move 0 1, .move 0 0, .move 0 2]

/-- A reachable state with a sleeping loader and an empty airlock; the accesses to the value are not at one thread. -/
example : ∃ w, ((weak Nat).restrict Op.loadSucceeds).Reachable w ∧ w.base.loaded = false ∧ asleep w.base 1 ∧ w.uses.length = 3 ∧ w.mem.length = 3 := by
  refine ⟨_, ⟨sleepRun, _, rfl⟩, rfl, ?_, rfl, rfl⟩
  show 1 ∈ [1]
  simp

/-- A thread inside the lock about to read, as `weak_locked_reads` assumes: of the two stores only the last can be read. -/
example : ∃ w, (weak Nat).Reachable w ∧ w.base.owner = some 1 ∧ access (w.base.loc 1) = .read ∧ (weak Nat).move 1 0 w = none ∧
    ((weak Nat).move 1 1 w).isSome = true :=
  ⟨_, ⟨passRun.take 11, _, rfl⟩, rfl, rfl, rfl, rfl⟩

/-- C126: whenever a call is unfinished and not asleep in load, some such call can take its next step. -/
theorem weak_no_deadlock (w : Weak α) (hw : (weak α).Reachable w) (t : Nat) (ht : w.base.loc t ≠ .idle) (ha : ¬ asleep w.base t) :
    ∃ u c, w.base.loc u ≠ .idle ∧ ¬ asleep w.base u ∧ ((weak α).move u c w).isSome = true := by
  obtain ⟨h, cur, gs, I⟩ := reachable_inv hw
  cases ho : w.base.owner with
  | none =>
    obtain ⟨c, hc⟩ := weak_enabled I t (.inr ho) ht
    exact ⟨t, c, ht, ha, hc⟩
  | some u =>
    have hh := (I.rel.owns u).2 ho
    have hi : w.base.loc u ≠ .idle := by intro h; rw [h] at hh; cases hh
    obtain ⟨c, hc⟩ := weak_enabled I u (.inl hh) hi
    refine ⟨u, c, hi, ?_, hc⟩
    intro h
    obtain ⟨v, h⟩ := weak_asleep hw u h
    rw [h] at hh; cases hh

end Verif.AirLock
