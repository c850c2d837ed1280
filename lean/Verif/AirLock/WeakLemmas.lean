import Verif.AirLock.Lemmas
import Verif.AirLock.WeakModel
import Verif.Conc.Clock
import Verif.Conc.Check

/-
Helper lemmas for AirLock in the C++ memory model: the calls grouped by the store to `loaded` that they see, and the
preservation of the invariant.
-/
namespace Verif.AirLock
open Verif.Conc

variable {α : Type} {log : List (List Nat)} {k : List Nat}

theorem slot_changes {q q' : Option α} {op : Op α} {o : Out α} (h : slot q op = some (q', o)) :
    changes op o = (q'.isSome != q.isSome) := by
  cases op <;> cases q <;> simp only [slot, Option.some.injEq, Prod.mk.injEq, reduceCtorEq] at h <;> obtain ⟨rfl, rfl⟩ := h <;> rfl

theorem slot_same {q q' : Option α} {op : Op α} {o : Out α} (h : slot q op = some (q', o)) (hc : q'.isSome = q.isSome) : q' = q := by
  cases op <;> cases q <;> simp only [slot, Option.some.injEq, Prod.mk.injEq, reduceCtorEq] at h <;> obtain ⟨rfl, rfl⟩ := h <;>
    first | rfl | cases hc

/-- A store to `loaded` (its step and value), the slot after it, and the calls that take effect by it or see it. -/
structure G (α : Type) where
  ev : Nat
  val : Bool
  q : Option α
  ops : List (Pt (Op α) (Out α))

/-- the calls lead from one slot to the next -/
def Chain : Option α → List (G α) → Prop
  | _, [] => True
  | q, g :: gs => Runs (spec α) q (g.ops.map (·.x)) g.q ∧ Chain g.q gs

/-- the slot after the last store -/
def lastQ (q : Option α) (gs : List (G α)) : Option α := (gs.getLast?.map G.q).getD q

theorem lastQ_snoc (q : Option α) (gs : List (G α)) (g : G α) : lastQ q (gs ++ [g]) = g.q := by simp [lastQ]

theorem lastQ_cons (q : Option α) (g : G α) (gs : List (G α)) : lastQ q (g :: gs) = lastQ g.q gs := by
  simp only [lastQ]
  cases gs with
  | nil => simp
  | cons a l => rw [List.getLast?_cons_cons]; cases h : (a :: l).getLast? <;> simp_all

theorem Chain.append {q : Option α} {A B : List (G α)} : Chain q (A ++ B) ↔ Chain q A ∧ Chain (lastQ q A) B := by
  induction A generalizing q with
  | nil => simp [Chain, lastQ]
  | cons g A ih => rw [lastQ_cons, List.cons_append]; simp only [Chain, ih, and_assoc]

theorem Chain.runs {q : Option α} {gs : List (G α)} (h : Chain q gs) : Runs (spec α) q ((gs.flatMap G.ops).map (·.x)) (lastQ q gs) := by
  induction gs generalizing q with
  | nil => rfl
  | cons g gs ih =>
    rw [lastQ_cons, List.flatMap_cons, List.map_append]
    exact h.1.append (ih h.2)

/-- what is known of the stores and the calls that see them -/
structure Groups (log : List (List Nat)) (gs : List (G α)) : Prop where
  chain : Chain none gs
  val : ∀ g ∈ gs, g.val = g.q.isSome
  inc : gs.Pairwise fun g g' => g.ev < g'.ev ∧ ∃ k, log[g'.ev]? = some k ∧ g.ev ∈ k
  ops : ∀ g ∈ gs, ∀ p ∈ g.ops, ∃ k, log[p.at_]? = some k ∧ g.ev ∈ k
  made : ∀ g ∈ gs, ∀ p ∈ g.ops, changes p.x.op p.x.out = true → p.at_ = g.ev

theorem Groups.old {gs : List (G α)} (h : Groups log gs) (x : List Nat) : Groups (log ++ [x]) gs where
  chain := h.chain
  val := h.val
  inc := h.inc.imp fun ⟨h1, k, h2, h3⟩ => ⟨h1, k, getElem?_old h2, h3⟩
  ops g hg p hp := by
    obtain ⟨k, h1, h2⟩ := h.ops g hg p hp
    exact ⟨k, getElem?_old h1, h2⟩
  made := h.made

/-- a call that changes nothing sees the store of `g` -/
theorem Groups.see {A B : List (G α)} {g : G α} (h : Groups log (A ++ g :: B)) (hg : g.ev ∈ k) {n : Nat} {op : Op α} {o : Out α} (ho : slot g.q op = some (g.q, o)) :
    Groups (log ++ [k]) (A ++ { g with ops := g.ops ++ [⟨⟨n, op, o⟩, log.length⟩] } :: B) := by
  have h' := h.old k
  have mem : ∀ g', g' ∈ A ++ { g with ops := g.ops ++ [⟨⟨n, op, o⟩, log.length⟩] } :: B →
      g' ∈ A ++ g :: B ∨ g' = { g with ops := g.ops ++ [⟨⟨n, op, o⟩, log.length⟩] } := by
    intro g' hg'
    simp only [List.mem_append, List.mem_cons] at hg' ⊢
    rcases hg' with h1 | h1 | h1
    · exact .inl (.inl h1)
    · exact .inr h1
    · exact .inl (.inr (.inr h1))
  have gm : g ∈ A ++ g :: B := by simp
  refine ⟨?_, ?_, ?_, ?_, ?_⟩
  · have hc := h.chain
    rw [Chain.append] at hc ⊢
    refine ⟨hc.1, ?_, hc.2.2⟩
    simp only [List.map_append]
    exact hc.2.1.append ⟨g.q, ho, rfl⟩
  · intro g' hg'
    rcases mem g' hg' with h1 | rfl
    · exact h.val g' h1
    · exact h.val g gm
  · have hi := h'.inc
    rw [List.pairwise_append, List.pairwise_cons] at hi ⊢
    refine ⟨hi.1, hi.2.1, fun a ha b hb => ?_⟩
    rcases List.mem_cons.1 hb with rfl | hb
    · exact hi.2.2 a ha g (by simp)
    · exact hi.2.2 a ha b (by simp [hb])
  · intro g' hg' p hp
    rcases mem g' hg' with h1 | rfl
    · exact h'.ops g' h1 p hp
    · simp only [List.mem_append, List.mem_singleton] at hp
      rcases hp with hp | rfl
      · exact h'.ops g gm p hp
      · exact ⟨k, getElem?_new _ _, hg⟩
  · intro g' hg' p hp hc
    rcases mem g' hg' with h1 | rfl
    · exact h'.made g' h1 p hp hc
    · simp only [List.mem_append, List.mem_singleton] at hp
      rcases hp with hp | rfl
      · exact h'.made g gm p hp hc
      · simp only [slot_changes ho, bne_self_eq_false, Bool.false_eq_true] at hc

/-- a call takes effect by a store -/
theorem Groups.make {gs : List (G α)} (h : Groups log gs) (hl : ∀ g ∈ gs, g.ev < log.length ∧ g.ev ∈ k) (hn : log.length ∈ k) {n : Nat} {op : Op α} {o : Out α}
    {q' : Option α} (ho : slot (lastQ none gs) op = some (q', o)) : Groups (log ++ [k]) (gs ++ [⟨log.length, q'.isSome, q', [⟨⟨n, op, o⟩, log.length⟩]⟩]) := by
  have h' := h.old k
  refine ⟨?_, ?_, ?_, ?_, ?_⟩
  · rw [Chain.append]
    exact ⟨h.chain, ⟨q', ho, rfl⟩, trivial⟩
  · intro g hg
    rcases List.mem_append.1 hg with hg | hg
    · exact h.val g hg
    · rw [List.mem_singleton.1 hg]
  · rw [List.pairwise_append]
    refine ⟨h'.inc, by simp, fun a ha b hb => ?_⟩
    rw [List.mem_singleton.1 hb]
    exact ⟨(hl a ha).1, k, getElem?_new _ _, (hl a ha).2⟩
  · intro g hg p hp
    rcases List.mem_append.1 hg with hg | hg
    · exact h'.ops g hg p hp
    · rw [List.mem_singleton.1 hg] at hp ⊢
      rw [List.mem_singleton.1 hp]
      exact ⟨k, getElem?_new _ _, hn⟩
  · intro g hg p hp hc
    rcases List.mem_append.1 hg with hg | hg
    · exact h'.made g hg p hp hc
    · rw [List.mem_singleton.1 hg] at hp ⊢
      rw [List.mem_singleton.1 hp]

/-- what happens before the next step under the lock -/
def knows (w : Weak α) : List Nat := match w.base.owner with
  | none => w.door
  | some u => w.seen u

/-- the invariant -/
structure Inv (w : Weak α) (h : List (Nat × Event (Op α) (Out α))) (cur : Nat → Nat) (gs : List (G α)) : Prop where
  log : LogOk w.log
  seen : ∀ t, Known w.log (w.seen t)
  door : Known w.log w.door
  mem : w.mem = gs.map fun g => (g.ev, g.val)
  ne : gs ≠ []
  groups : Groups w.log gs
  held : ∀ g ∈ gs, g.ev ∈ knows w
  used : ∀ u ∈ w.uses, u ∈ knows w
  race : w.race = false
  rel : R w.base ⟨lastQ none gs, fun t => status (w.base.loc t)⟩
  hist : Hist w.log w.seen h (fun t => status (w.base.loc t)) cur (gs.flatMap G.ops)

/-- step `t` of the clocks: it knows `p` too, and publishes what it knows if `pub` -/
structure Ticks (w w' : Weak α) (t : Nat) (p : List Nat) (pub : Bool) : Prop where
  log : w'.log = w.log ++ [w.log.length :: (p ++ w.seen t)]
  seen : w'.seen = upd w.seen t (w.log.length :: (p ++ w.seen t))
  door : w'.door = if pub then w.log.length :: w.seen t else w.door

theorem Inv.knows_ok {w : Weak α} {h cur} {gs : List (G α)} (I : Inv w h cur gs) : Known w.log (knows w) := by
  simp only [knows]; split
  · exact I.door
  · exact I.seen _

theorem Inv.lt {w : Weak α} {h cur} {gs : List (G α)} (I : Inv w h cur gs) {g : G α} (hg : g ∈ gs) : g.ev < w.log.length :=
  I.knows_ok.lt (I.held g hg)

section Tick
variable {w w' : Weak α} {h : List (Nat × Event (Op α) (Out α))} {cur : Nat → Nat} {gs : List (G α)} {t : Nat} {p : List Nat} {pub : Bool}

theorem Inv.doorOk (I : Inv w h cur gs) (T : Ticks w w' t p pub) (hpub : pub = true → p = []) : Known w'.log w'.door := by
  rw [T.door, T.log]
  cases pub with
  | false => exact I.door.old _
  | true => rw [hpub rfl]; exact (I.seen t).step

theorem Inv.logOk (I : Inv w h cur gs) (hp : Known w.log p) (T : Ticks w w' t p pub) : LogOk w'.log := by
  rw [T.log]; exact I.log.step (hp.append (I.seen t))

theorem Inv.seenOk (I : Inv w h cur gs) (hp : Known w.log p) (T : Ticks w w' t p pub) (u : Nat) : Known w'.log (w'.seen u) := by
  rw [T.log, T.seen]
  by_cases hu : u = t
  · subst hu; rw [upd_same]; exact (hp.append (I.seen u)).step
  · rw [upd_ne _ _ hu]; exact (I.seen u).old _

/-- what is known under the lock grows, and contains the steps of its holder -/
theorem Ticks.knows (T : Ticks w w' t p pub) (k : Owns holds w.base.owner w.base.loc) {l l' : Loc α} (hl : w.base.loc t = l) (L : LockStep w.base w'.base t l l')
    (hpub : pub = (holds l && !holds l')) (hp : holds l = false → holds l' = true → p = w.door) :
    (∀ m ∈ knows w, m ∈ knows w') ∧ (holds l = true → w.log.length ∈ AirLock.knows w') := by
  have hown := k t
  rw [hl] at hown
  simp only [AirLock.knows, L.own]
  cases h1 : holds l with
  | true =>
    rw [hown.1 h1]
    cases h2 : holds l' with
    | true =>
      simp only [if_true, T.seen, upd_same]
      exact ⟨fun m hm => by simp [hm], fun _ => by simp⟩
    | false =>
      simp only [h1, h2, Bool.not_false, Bool.and_self] at hpub
      subst hpub
      simp only [Bool.false_eq_true, if_false, if_true, T.door]
      exact ⟨fun m hm => by simp [hm], fun _ => by simp⟩
  | false =>
    refine ⟨?_, nofun⟩
    cases h2 : holds l' with
    | true =>
      rcases L.free h2 with h3 | h3
      · rw [h1] at h3; cases h3
      · simp only [h3, if_true, T.seen, upd_same, hp h1 h2]
        exact fun m hm => by simp [hm]
    | false =>
      simp only [h1, Bool.false_and] at hpub
      subst hpub
      simp only [Bool.false_eq_true, if_false, T.door]
      cases h3 : w.base.owner with
      | none => exact fun m hm => hm
      | some u =>
        have hu : u ≠ t := by
          rintro rfl
          rw [hown.2 h3] at h1; cases h1
        simp only [T.seen, upd_ne _ _ hu]
        exact fun m hm => hm

/-- is `loaded` read without the lock? -/
def peeks : Loc α → Bool
  | .tRead _ | .uRead _ | .iRead => true
  | _ => false

/-- what a step does according to its position -/
theorem stepAt_access {s s' : State α} {t c : Nat} {l : Loc α} {o : Option (Out α)} (h : s.stepAt t c l = some (s', o)) :
    (access l = .unlock → holds l = true ∧ holds (s'.loc t) = false) ∧ (access l ≠ .unlock → holds l = true → holds (s'.loc t) = true) ∧
    (access l = .lock → holds l = false) ∧ (access l ≠ .lock → holds l = false → holds (s'.loc t) = false) ∧
    (access l ≠ .write → s'.loaded = s.loaded) ∧ (access l = .write ∨ access l = .use → holds l = true) ∧
    (access l = .read → holds l = true ∨ peeks l = true) ∧
    (peeks l = false → ∀ op x, status l = .pending op → status (s'.loc t) = .done x → holds l = true) ∧
    (access l = .write → status (s'.loc t) ≠ status l) := by
  cases l <;> (try (rename_i v; cases v)) <;> simp only [State.stepAt, Option.map_eq_some_iff, reduceCtorEq] at h <;>
    first
    | (cases h
       simp [access, holds, peeks, status, State.goto, State.unlock, upd_same] <;> done)
    | (cases h
       rcases Bool.eq_false_or_eq_true s.loaded with hb | hb <;>
         simp [access, holds, peeks, status, State.goto, upd_same, hb] <;> done)
    | (cases h
       cases hb : s.data <;> simp [access, holds, peeks, status, State.goto, upd_same, hb] <;> done)
    | (obtain ⟨s1, h, e⟩ := h; cases e
       obtain ⟨h1, rfl⟩ := lock_some h
       simp [access, holds, peeks, status, upd_same] <;> done)

theorem append_last {gs : List (G α)} (h : gs ≠ []) : ∃ A g, gs = A ++ [g] ∧ lastQ none gs = g.q := by
  rcases List.eq_nil_or_concat gs with h1 | ⟨A, g, rfl⟩
  · exact absurd h1 h
  · rw [List.concat_eq_append]; exact ⟨A, g, rfl, lastQ_snoc _ _ _⟩

theorem flatMap_see (A B : List (G α)) (g : G α) (x : Pt (Op α) (Out α)) :
    (A ++ { g with ops := g.ops ++ [x] } :: B).flatMap G.ops = (A.flatMap G.ops ++ g.ops) ++ x :: B.flatMap G.ops := by simp

theorem flatMap_split (A B : List (G α)) (g : G α) : (A ++ g :: B).flatMap G.ops = (A.flatMap G.ops ++ g.ops) ++ B.flatMap G.ops := by simp

/-- steps that are also steps of the interleaving semantics -/
theorem Inv.sc (I : Inv w h cur gs) {c : Nat} {l : Loc α} {s' : State α} {o : Option (Out α)} (hl : w.base.loc t = l) (hs : w.base.stepAt t c l = some (s', o))
    (hb : w'.base = s') (hp : Known w.log p) (T : Ticks w w' t p (decide (access l = .unlock))) (hpub : access l = .unlock → p = [])
    (hlock : access l = .lock → p = w.door) (hmem : w'.mem = if access l = .write then w.mem ++ [(w.log.length, s'.loaded)] else w.mem)
    (huses : ∀ u ∈ w'.uses, u ∈ w.uses ∨ (u = w.log.length ∧ access l = .use)) (hrace : w'.race = false) (hpk : peeks l = false) :
    ∃ gs', Inv w' (h ++ (retEvents t o).map (w.log.length, ·)) cur gs' := by
  subst hb
  obtain ⟨a1, a2, a3, a4, a5, a6, a7, a8, a9⟩ := stepAt_access hs
  have L := stepAt_locks I.rel.owns hl hs
  have K := T.knows I.rel.owns hl L (by
      by_cases h1 : access l = .unlock
      · simp [h1, a1 h1]
      · cases h2 : holds l with
        | false => simp [h1]
        | true => simp [h1, a2 h1 h2]) (by
      intro h1 h2
      by_cases h3 : access l = .lock
      · exact hlock h3
      · rw [a4 h3 h1] at h2; cases h2)
  have hgs : ∀ g ∈ gs, g.ev ∈ AirLock.knows w' := fun g hg => K.1 _ (I.held g hg)
  have hus : ∀ u ∈ w'.uses, u ∈ AirLock.knows w' := by
    intro u hu
    rcases huses u hu with h1 | ⟨rfl, h1⟩
    · exact K.1 _ (I.used u h1)
    · exact K.2 (a6 (.inr h1))
  have hholds : holds l = true → ∀ g ∈ gs, g.ev ∈ w.seen t := by
    intro h1 g hg
    have h2 := I.held g hg
    have h3 := I.rel.owns t
    rw [hl] at h3
    simp only [AirLock.knows, h3.1 h1] at h2
    exact h2
  have hstat : ∀ x, status (w'.base.loc t) = x → ∀ u, status (w'.base.loc u) = upd (fun t => status (w.base.loc t)) t x u := by
    intro x hx u
    by_cases hu : u = t
    · subst hu; rw [upd_same]; exact hx
    · rw [upd_ne _ _ hu, L.loc, upd_ne _ _ hu]
  have hseen : w.seen t ⊆ w.log.length :: (p ++ w.seen t) := fun x hx => by simp [hx]
  have logOk := I.logOk hp T
  have seenOk := I.seenOk hp T
  have doorOk := I.doorOk T (fun h1 => hpub (of_decide_eq_true h1))
  subst hl
  obtain ⟨q', e, r'⟩ := I.rel.effect hs
  cases e with
  | stays h1 =>
    have hw : access (w.base.loc t) ≠ .write := fun h2 => a9 h2 h1
    rw [if_neg hw] at hmem
    refine ⟨gs, logOk, seenOk, doorOk, hmem.trans I.mem, I.ne, by rw [T.log]; exact I.groups.old _, hgs, hus, hrace, r', ?_⟩
    simp only [retEvents, List.map_nil, List.append_nil, T.log, T.seen]
    refine I.hist.silent hseen fun u => ?_
    rw [hstat _ h1, upd]
    split
    · rename_i h2; rw [h2]
    · rfl
  | @returns x h1 h2 =>
    have hw : access (w.base.loc t) ≠ .write := by rw [h1]; nofun
    rw [if_neg hw] at hmem
    refine ⟨gs, logOk, seenOk, doorOk, hmem.trans I.mem, I.ne, by rw [T.log]; exact I.groups.old _, hgs, hus, hrace, r', ?_⟩
    simp only [retEvents, List.map_cons, List.map_nil, T.log, T.seen]
    refine I.hist.ret hseen (by simp only [h1]; rfl) (hstat _ (by rw [h2]; rfl))
  | @takes op x _ h1 h2 h3 =>
    have hh := a8 hpk _ _ h1 h2
    simp only [retEvents, List.map_nil, List.append_nil]
    by_cases hw : access (w.base.loc t) = .write
    · rw [if_pos hw] at hmem
      have hq : w'.base.loaded = q'.isSome := r'.data.loaded
      refine ⟨gs ++ [⟨w.log.length, q'.isSome, q', [⟨⟨cur t, op, x⟩, w.log.length⟩]⟩], logOk, seenOk, doorOk, by simp [hmem, I.mem, hq], by simp, ?_, ?_, hus, hrace, ?_, ?_⟩
      · rw [T.log]
        exact I.groups.make (fun g hg => ⟨I.lt hg, hseen (hholds hh g hg)⟩) (by simp) h3
      · intro g hg
        rcases List.mem_append.1 hg with hg | hg
        · exact hgs g hg
        · rw [List.mem_singleton.1 hg]; exact K.2 hh
      · rw [lastQ_snoc]; exact r'
      · rw [T.log, T.seen]
        have := I.hist.lin I.log hseen (by simp) (B := []) (List.append_nil _).symm h1 (hstat _ h2) (by simp)
        simpa using this
    · rw [if_neg hw] at hmem
      have hq : q' = lastQ none gs := by
        refine slot_same h3 ?_
        have e1 : w'.base.loaded = q'.isSome := r'.data.loaded
        have e2 : w.base.loaded = (lastQ none gs).isSome := I.rel.data.loaded
        rw [← e1, ← e2]; exact a5 hw
      subst hq
      obtain ⟨A, g, rfl, hg⟩ := append_last I.ne
      have hm : g ∈ A ++ [g] := by simp
      rw [hg] at h3
      refine ⟨A ++ [{ g with ops := g.ops ++ [⟨⟨cur t, op, x⟩, w.log.length⟩] }], logOk, seenOk, doorOk, ?_, by simp, ?_, ?_, hus, hrace, ?_, ?_⟩
      · rw [hmem, I.mem]; simp
      · rw [T.log]
        exact I.groups.see (hseen (hholds hh g hm)) h3
      · intro g' hg'
        rcases List.mem_append.1 hg' with hg' | hg'
        · exact hgs g' (by simp [hg'])
        · rw [List.mem_singleton.1 hg']; exact hgs g hm
      · rw [lastQ_snoc] at r' ⊢; exact r'
      · rw [T.log, T.seen, flatMap_see]
        exact I.hist.lin I.log hseen (by simp) (flatMap_split A [] g) h1 (hstat _ h2) (by simp)

theorem goto_rel {s : State α} {q : Option α} {st : Nat → Status (Op α) (Out α)} (r : R s ⟨q, st⟩) {t : Nat} {l' : Loc α} (h1 : holds (s.loc t) = false) (h2 : holds l' = false)
    (h3 : tearing l' = false) : R (s.goto t l') ⟨q, fun u => status ((s.goto t l').loc u)⟩ := by
  have e : s.owner = if holds l' then some t else if holds (s.loc t) then none else s.owner := by simp [h1, h2]
  refine ⟨fun u => ?_, r.owns.step rfl e (by simp [h2]), fun u => rfl, ?_⟩
  · simp only [State.goto]
    by_cases hu : u = t
    · subst hu; simp only [upd_same]; exact h3
    · simp only [upd_ne _ _ hu]; exact r.whole u
  · have := r.owns.step_holder rfl e
    simp only [State.goto]
    rw [this, h1, h2]; exact r.data

/-- reading `loaded` without the lock -/
theorem Inv.peek (I : Inv w h cur gs) {l' : Loc α} {A B : List (G α)} {g : G α} (hgs : gs = A ++ g :: B) (hB : ∀ g' ∈ B, g'.ev ∉ w.seen t)
    (h1 : holds (w.base.loc t) = false) (h2 : holds l' = false) (h3 : tearing l' = false)
    (hl : status l' = status (w.base.loc t) ∨ ∃ op x, status (w.base.loc t) = .pending op ∧ status l' = .done x ∧ slot g.q op = some (g.q, x))
    (hk : ∃ k, w.log[g.ev]? = some k ∧ p = k) (T : Ticks w w' t p false)
    (hb : w'.base = w.base.goto t l') (hmem : w'.mem = w.mem) (huses : w'.uses = w.uses) (hrace : w'.race = w.race) :
    ∃ gs', Inv w' h cur gs' := by
  obtain ⟨k, hk, rfl⟩ := hk
  have kOk := I.log _ _ hk
  have L : LockStep w.base w'.base t (w.base.loc t) l' := by
    rw [hb]; exact ⟨rfl, by simp [State.goto, h1, h2], by simp [h2]⟩
  have K := (T.knows I.rel.owns rfl L (by simp [h1]) (by simp [h2])).1
  have hseen : w.seen t ⊆ w.log.length :: (p ++ w.seen t) := fun x hx => by simp [hx]
  have hstat : ∀ x, status l' = x → ∀ u, status (w'.base.loc u) = upd (fun t => status (w.base.loc t)) t x u := by
    intro x hx u
    by_cases hu : u = t
    · subst hu; rw [upd_same, L.loc, upd_same]; exact hx
    · rw [upd_ne _ _ hu, L.loc, upd_ne _ _ hu]
  have hus : ∀ u ∈ w'.uses, u ∈ AirLock.knows w' := by rw [huses]; exact fun u hu => K u (I.used u hu)
  have hmem' : w'.mem = gs.map fun g => (g.ev, g.val) := hmem.trans I.mem
  have r' := goto_rel I.rel h1 h2 h3
  rw [← hb] at r'
  have logOk := I.logOk kOk.2.2 T
  have seenOk := I.seenOk kOk.2.2 T
  have doorOk := I.doorOk T nofun
  rcases hl with hl | ⟨op, x, e1, e2, e3⟩
  · refine ⟨gs, logOk, seenOk, doorOk, hmem', I.ne, by rw [T.log]; exact I.groups.old _, fun g hg => K _ (I.held g hg), hus, hrace.trans I.race, r', ?_⟩
    rw [T.log, T.seen]
    refine I.hist.silent hseen fun u => ?_
    rw [hstat _ hl, upd]
    split
    · rename_i h2; rw [h2]
    · rfl
  · subst hgs
    have gm : g ∈ A ++ g :: B := by simp
    have hgk : g.ev ∈ w.log.length :: (p ++ w.seen t) := by simp [kOk.1]
    refine ⟨A ++ { g with ops := g.ops ++ [⟨⟨cur t, op, x⟩, w.log.length⟩] } :: B, logOk, seenOk, doorOk, by rw [hmem']; simp, by simp, ?_, ?_, hus, hrace.trans I.race, ?_, ?_⟩
    · rw [T.log]; exact I.groups.see hgk e3
    · intro g' hg'
      simp only [List.mem_append, List.mem_cons] at hg'
      rcases hg' with h4 | rfl | h4
      · exact K _ (I.held g' (by simp [h4]))
      · exact K _ (I.held g gm)
      · exact K _ (I.held g' (by simp [h4]))
    · have : lastQ none (A ++ { g with ops := g.ops ++ [⟨⟨cur t, op, x⟩, w.log.length⟩] } :: B) = lastQ none (A ++ g :: B) := by
        rcases List.eq_nil_or_concat B with rfl | ⟨B, b, rfl⟩
        · rw [lastQ_snoc, lastQ_snoc]
        · rw [List.concat_eq_append, ← List.cons_append, ← List.append_assoc, lastQ_snoc, ← List.cons_append, ← List.append_assoc, lastQ_snoc]
      rw [this]; exact r'
    · rw [T.log, T.seen, flatMap_see]
      refine I.hist.lin I.log hseen (by simp) (flatMap_split A B g) e1 (hstat _ e2) ?_
      intro p' hp' hm
      obtain ⟨g', hg', hp'⟩ := List.mem_flatMap.1 hp'
      have gm' : g' ∈ A ++ g :: B := by simp [hg']
      obtain ⟨k', h5, h6⟩ := I.groups.ops g' gm' p' hp'
      simp only [List.mem_cons, List.mem_append] at hm
      rcases hm with hm | hm | hm
      · have := (List.getElem?_eq_some_iff.1 h5).1
        omega
      · have h7 := kOk.2.2.sub hm h5 h6
        have h8 := kOk.2.1 _ h7
        have h9 := I.groups.inc
        rw [List.pairwise_append, List.pairwise_cons] at h9
        have := (h9.2.1.1 g' hg').1
        omega
      · exact hB g' hg' ((I.seen t).sub hm h5 h6)

theorem ticks_tick (w0 : Weak α) (hl : w0.log = w.log) (hs : w0.seen = w.seen) (hd : w0.door = w.door) : Ticks w (w0.tick t p) t p false := by
  refine ⟨?_, ?_, ?_⟩ <;> simp [Weak.tick, hl, hs, hd]

theorem map_split {gs : List (G α)} {c : Nat} {e : Nat} {b : Bool} (h : (gs.map fun g => (g.ev, g.val))[c]? = some (e, b)) :
    ∃ A g B, gs = A ++ g :: B ∧ (gs.map fun g => (g.ev, g.val)).drop (c + 1) = B.map (fun g => (g.ev, g.val)) ∧ g.ev = e ∧ g.val = b := by
  rw [List.getElem?_map, Option.map_eq_some_iff] at h
  obtain ⟨g, h1, h2⟩ := h
  obtain ⟨h3, h4⟩ := List.getElem?_eq_some_iff.1 h1
  cases h2
  refine ⟨gs.take c, g, gs.drop (c + 1), ?_, by rw [List.map_drop], rfl, rfl⟩
  rw [← h4, List.getElem_cons_drop, List.take_append_drop]

theorem anySeen_false {m : List (G α)} (h : w.anySeen t (m.map fun g => (g.ev, g.val)) = false) : ∀ g ∈ m, g.ev ∉ w.seen t := by
  intro g hg hm
  simp only [Weak.anySeen] at h
  rw [List.any_eq_false] at h
  exact h (g.ev, g.val) (List.mem_map.2 ⟨g, hg, rfl⟩) (by simpa using hm)

theorem newest_snoc (m : List (Nat × Bool)) (n : Nat) (b : Bool) : Weak.newest (m ++ [(n, b)]) = b := by simp [Weak.newest]

theorem move_busy {w : Weak α} {t c : Nat} (hi : w.base.loc t ≠ .idle) : Weak.move t c w = w.moveAt t c (w.base.loc t) := by
  rw [Weak.move]
  cases hl : w.base.loc t <;> first | rfl | exact absurd hl hi

/-- the kinds of steps: between calls, as in the interleaving semantics, or reading `loaded` without the lock -/
inductive Kind (gs : List (G α)) (w w' : Weak α) (t c : Nat) : Option (Out α) → Prop
  | idle {p : List Nat} : w.base.loc t = .idle → w.log[c]? = some p → w' = w.tick t p → Kind gs w w' t c none
  | sc {p : List Nat} {l : Loc α} {s' : State α} {o : Option (Out α)} : w.base.loc t = l → w.base.stepAt t c l = some (s', o) → w'.base = s' → Known w.log p → Ticks w w' t p (decide (access l = .unlock)) →
    (access l = .unlock → p = []) → (access l = .lock → p = w.door) →
    (w'.mem = if access l = .write then w.mem ++ [(w.log.length, s'.loaded)] else w.mem) →
    (∀ u ∈ w'.uses, u ∈ w.uses ∨ (u = w.log.length ∧ access l = .use)) → w'.race = false → peeks l = false → Kind gs w w' t c o
  | peek {p : List Nat} {l' : Loc α} {A B : List (G α)} {g : G α} : gs = A ++ g :: B → (∀ g' ∈ B, g'.ev ∉ w.seen t) → peeks (w.base.loc t) = true → holds (w.base.loc t) = false → holds l' = false → tearing l' = false →
    (status l' = status (w.base.loc t) ∨ ∃ op x, status (w.base.loc t) = .pending op ∧ status l' = .done x ∧ slot g.q op = some (g.q, x)) →
    (∃ k, w.log[g.ev]? = some k ∧ p = k) → Ticks w w' t p false →
    w'.base = w.base.goto t l' → w'.mem = w.mem → w'.uses = w.uses → w'.race = w.race → Kind gs w w' t c none

theorem Inv.kind (I : Inv w h cur gs) {c : Nat} {o : Option (Out α)} (hm : Weak.move t c w = some (w', o)) : Kind gs w w' t c o := by
  by_cases hi : w.base.loc t = .idle
  · rw [Weak.move, hi] at hm
    simp only [Option.map_eq_some_iff] at hm
    obtain ⟨p, h1, h2⟩ := hm
    cases h2
    exact .idle hi h1 rfl
  have hm' := hm
  rw [move_busy hi] at hm'
  simp only [Weak.moveAt] at hm'
  clear hm
  generalize hl : w.base.loc t = l at hm'
  have hholds : holds l = true → ∀ m ∈ AirLock.knows w, m ∈ w.seen t := by
    intro h1 m hg
    have h3 := I.rel.owns t
    rw [hl] at h3
    simp only [AirLock.knows, h3.1 h1] at hg
    exact hg
  have hpk : access l ≠ .read → peeks l = false := by cases l <;> simp [access, peeks]
  cases ha : access l with
  | nothing =>
    simp only [ha, Option.map_eq_some_iff] at hm'
    obtain ⟨⟨s', o'⟩, h1, h2⟩ := hm'
    cases h2
    exact .sc hl h1 rfl Known.nil (by simp only [ha]; exact ticks_tick _ rfl rfl rfl) (by simp [ha]) (by simp [ha]) (by simp [ha, Weak.tick]) (fun u hu => .inl hu)
      I.race (hpk (by simp [ha]))
  | lock =>
    simp only [ha, Option.map_eq_some_iff] at hm'
    obtain ⟨⟨s', o'⟩, h1, h2⟩ := hm'
    cases h2
    exact .sc hl h1 rfl I.door (by simp only [ha]; exact ticks_tick _ rfl rfl rfl) (by simp [ha]) (by simp) (by simp [ha, Weak.tick]) (fun u hu => .inl hu)
      I.race (hpk (by simp [ha]))
  | unlock =>
    simp only [ha, Option.map_eq_some_iff] at hm'
    obtain ⟨⟨s', o'⟩, h1, h2⟩ := hm'
    cases h2
    exact .sc hl h1 rfl Known.nil (by simp only [ha]; exact ⟨rfl, rfl, rfl⟩) (by simp) (by simp [ha]) (by simp [ha, Weak.tick]) (fun u hu => .inl hu)
      I.race (hpk (by simp [ha]))
  | use =>
    simp only [ha, Option.map_eq_some_iff] at hm'
    obtain ⟨⟨s', o'⟩, h1, h2⟩ := hm'
    cases h2
    have hh := (stepAt_access h1).2.2.2.2.2.1 (.inr ha)
    refine .sc hl h1 rfl Known.nil (by simp only [ha]; exact ticks_tick _ rfl rfl rfl) (by simp [ha]) (by simp [ha]) (by simp [ha, Weak.tick]) ?_ ?_ (hpk (by simp [ha]))
    · intro u hu
      rcases List.mem_cons.1 hu with rfl | hu
      · exact .inr ⟨rfl, ha⟩
      · exact .inl hu
    · have : (w.uses.all fun u => decide (u ∈ w.seen t)) = true := by
        rw [List.all_eq_true]
        intro u hu
        exact decide_eq_true (hholds hh u (I.used u hu))
      simp [Weak.tick, I.race, this]
  | write =>
    simp only [ha] at hm'
    split at hm'
    · cases hm'
    · rename_i h0
      simp only [Option.map_eq_some_iff] at hm'
      obtain ⟨⟨s', o'⟩, h1, h2⟩ := hm'
      cases h2
      have hh := (stepAt_access h1).2.2.2.2.2.1 (.inl ha)
      have h3 : c ≤ w.mem.length := by omega
      have h4 : w.anySeen t (w.mem.drop c) = false := by
        cases h5 : w.anySeen t (w.mem.drop c) with
        | false => rfl
        | true => exact absurd (.inr h5) h0
      have h5 : w.mem.drop c = [] := by
        rw [I.mem, ← List.map_drop] at h4 ⊢
        have h6 := anySeen_false h4
        cases h7 : gs.drop c with
        | nil => rfl
        | cons g B =>
          rw [h7] at h6
          exact absurd (hholds hh _ (I.held g (List.mem_of_mem_drop (by rw [h7]; simp)))) (h6 g (by simp))
      have h6 : w.mem.take c = w.mem := by
        have := List.take_append_drop c w.mem
        rwa [h5, List.append_nil] at this
      simp only [h5, h6, newest_snoc]
      refine .sc hl h1 rfl Known.nil (by simp only [ha]; exact ticks_tick _ rfl rfl rfl) (by simp [ha]) (by simp [ha]) (by simp [ha, Weak.tick])
        (fun u hu => .inl hu) I.race (hpk (by simp [ha]))
  | read =>
    simp only [ha] at hm'
    split at hm'
    · cases hm'
    · rename_i e b hc
      split at hm'
      · cases hm'
      · rename_i h0
        simp only [Option.map_eq_some_iff] at hm'
        obtain ⟨⟨s', o'⟩, h1, h2⟩ := hm'
        cases h2
        rw [I.mem] at hc
        obtain ⟨A, g, B, rfl, hB, rfl, rfl⟩ := map_split hc
        have gm : g ∈ A ++ g :: B := by simp
        rw [I.mem, hB] at h0
        have h6 := anySeen_false (Bool.eq_false_iff.2 h0)
        obtain ⟨k, hk⟩ : ∃ k, w.log[g.ev]? = some k := ⟨_, List.getElem?_eq_getElem (I.lt gm)⟩
        have kOk := I.log _ _ hk
        have hv := I.groups.val g gm
        have A0 := stepAt_access h1
        rw [hk, Option.getD_some]
        rcases A0.2.2.2.2.2.2.1 ha with hh | hpeek
        · have hB : B = [] := by
            cases B with
            | nil => rfl
            | cons g' B => exact absurd (hholds hh _ (I.held g' (by simp))) (h6 g' (by simp))
          subst hB
          have e2 : w.base.loaded = g.val := by
            have : w.base.loaded = (lastQ none (A ++ [g])).isSome := I.rel.data.loaded
            rw [this, lastQ_snoc, hv]
          rw [← e2] at h1
          have e3 : s'.loaded = w.base.loaded := (stepAt_access h1).2.2.2.2.1 (by simp [ha])
          exact .sc hl h1 (by simp only [Weak.tick, ← e3]) kOk.2.2 (by simp only [ha]; exact ticks_tick _ rfl rfl rfl) (by simp [ha]) (by simp [ha]) (by simp [ha, Weak.tick])
            (fun u hu => .inl hu) I.race (by cases l <;> first | rfl | cases hh)
        · have ho : o' = none ∧ ∃ l', s' = State.goto { w.base with loaded := g.val } t l' ∧ holds l' = false ∧ tearing l' = false ∧
              (status l' = status l ∨ ∃ op x, status l = .pending op ∧ status l' = .done x ∧ slot g.q op = some (g.q, x)) := by
            have hw := I.rel.whole t
            rw [hl] at hw
            cases l <;> first | cases hpeek | skip
            · rename_i v
              cases h1
              refine ⟨rfl, _, rfl, ?_⟩
              cases hg : g.val with
              | false => exact ⟨rfl, rfl, .inl rfl⟩
              | true =>
                refine ⟨rfl, rfl, .inr ⟨_, _, rfl, rfl, ?_⟩⟩
                rw [hg] at hv
                cases hq : g.q with
                | none => rw [hq] at hv; cases hv
                | some y => cases v <;> rfl
            · rename_i f
              cases h1
              refine ⟨rfl, _, rfl, ?_⟩
              cases hg : g.val with
              | true => exact ⟨rfl, (by cases f <;> first | rfl | cases hw), .inl rfl⟩
              | false =>
                refine ⟨rfl, rfl, .inr ⟨_, _, rfl, rfl, ?_⟩⟩
                rw [hg] at hv
                cases hq : g.q with
                | some y => rw [hq] at hv; cases hv
                | none => cases f <;> rfl
            · cases h1
              refine ⟨rfl, _, rfl, rfl, rfl, .inr ⟨_, _, rfl, rfl, ?_⟩⟩
              simp only [hv]; rfl
          obtain ⟨rfl, l', rfl, h2, h3, h4⟩ := ho
          exact .peek rfl h6 (by rw [hl]; exact hpeek) (by rw [hl]; cases l <;> first | rfl | cases hpeek) h2 h3 (by rw [hl]; exact h4) ⟨k, hk, rfl⟩ (ticks_tick _ rfl rfl rfl) rfl rfl rfl rfl

theorem Inv.move (I : Inv w h cur gs) {c : Nat} {o : Option (Out α)} (hm : Weak.move t c w = some (w', o)) :
    ∃ gs', Inv w' (h ++ (retEvents t o).map (w.log.length, ·)) cur gs' := by
  cases I.kind hm with
  | @idle p hi h1 e =>
    subst e
    have T : Ticks w (w.tick t p) t p false := ticks_tick w rfl rfl rfl
    have hp := (I.log _ _ h1).2.2
    have L : LockStep w.base (w.tick t p).base t .idle .idle :=
      ⟨by rw [← hi]; exact (upd_self _ _).symm, by simp [holds, Weak.tick], by simp [holds]⟩
    have K := (T.knows I.rel.owns hi L (by simp [holds]) (by simp [holds])).1
    refine ⟨gs, I.logOk hp T, I.seenOk hp T, I.doorOk T nofun, I.mem, I.ne, by rw [T.log]; exact I.groups.old _,
      fun g hg => K _ (I.held g hg), fun u hu => K _ (I.used u hu), I.race, I.rel, ?_⟩
    simp only [retEvents, List.map_nil, List.append_nil, T.log, T.seen]
    exact I.hist.silent (fun x hx => by simp [hx]) fun u => rfl
  | sc h1 h2 h3 h4 h5 h6 h7 h8 h9 h10 h11 => exact I.sc h1 h2 h3 h4 h5 h6 h7 h8 h9 h10 h11
  | peek h1 h2 _ h3 h4 h5 h6 h7 h8 h9 h10 h11 h12 =>
    simp only [retEvents, List.map_nil, List.append_nil]
    exact I.peek h1 h2 h3 h4 h5 h6 h7 h8 h9 h10 h11 h12

theorem Inv.call (I : Inv w h cur gs) {op : Op α} (hc : Weak.call t op w = some w') :
    Inv w' (h ++ [(w.log.length, .call t op)]) (upd cur t w.log.length) gs := by
  simp only [Weak.call] at hc
  split at hc
  · cases hc
  rename_i ht
  simp only [Option.map_eq_some_iff] at hc
  obtain ⟨s', h1, rfl⟩ := hc
  obtain ⟨h2, h3⟩ := I.rel.call (Bool.eq_false_iff.2 ht) h1
  have T : Ticks w (({ w with base := s' } : Weak α).tick t []) t [] false := ticks_tick _ rfl rfl rfl
  have hl : w.base.loc t = .idle := by
    simp only [State.call] at h1
    split at h1
    · rename_i hl; exact hl
    · cases h1
  have e1 : s' = w.base.goto t (State.start op) := by
    simp only [State.call, hl] at h1; cases h1; rfl
  have hst : holds (State.start op) = false := by cases op <;> rfl
  have L : LockStep w.base (({ w with base := s' } : Weak α).tick t []).base t .idle (State.start op) :=
    ⟨by simp only [Weak.tick, e1, State.goto], by simp [Weak.tick, e1, State.goto, hst, show holds (.idle : Loc α) = false from rfl], by simp [hst]⟩
  have K := (T.knows I.rel.owns hl L (by simp [holds]) (by simp [hst])).1
  have hstat : ∀ u, status (s'.loc u) = upd (fun t => status (w.base.loc t)) t (.pending op) u := fun u => (h3.status u).symm
  refine ⟨I.logOk Known.nil T, I.seenOk Known.nil T, I.doorOk T nofun, I.mem, I.ne, by rw [T.log]; exact I.groups.old _,
      fun g hg => K _ (I.held g hg), fun u hu => K _ (I.used u hu), I.race, ?_, ?_⟩
  · have : (fun u => status (s'.loc u)) = upd (fun t => status (w.base.loc t)) t (.pending op) := funext hstat
    simp only [Weak.tick]
    rw [this]; exact h3
  · rw [T.log, T.seen]
    exact I.hist.call (fun x hx => by simp [hx]) (by simp) h2 hstat

theorem Inv.init : Inv (Weak.init : Weak α) [] (fun _ => 0) [⟨0, false, none, []⟩] where
  log := by
    intro n k h
    cases n with
    | zero =>
      cases h
      exact ⟨by simp, by simp, fun m hm => by simp at hm; subst hm; exact ⟨[0], rfl, fun x hx => hx⟩⟩
    | succ n => cases h
  seen _ m hm := by simp [Weak.init] at hm; subst hm; exact ⟨[0], rfl, fun x hx => hx⟩
  door m hm := by simp [Weak.init] at hm; subst hm; exact ⟨[0], rfl, fun x hx => hx⟩
  mem := rfl
  ne := by simp
  groups := ⟨⟨rfl, trivial⟩, by simp, by simp, by simp, by simp⟩
  held := by simp [knows, Weak.init, State.init]
  used := by simp [knows, Weak.init, State.init]
  race := rfl
  rel := R.init
  hist := by
    refine ⟨by simp, by simp, by simp, ?_, ?_, ?_, by simp, by simp, ?_, by simp⟩
    · intro t h; exact absurd rfl h
    · intro t op h; cases h
    · intro t op h; cases h
    · rintro n m t op o ⟨h, _⟩; cases h

end Tick

theorem tick_length (w : Weak α) (t : Nat) (p : List Nat) : (w.tick t p).log.length = w.log.length + 1 := by simp [Weak.tick]

theorem move_length {w w' : Weak α} {t c : Nat} {o : Option (Out α)} (h : Weak.move t c w = some (w', o)) : w'.log.length = w.log.length + 1 := by
  simp only [Weak.move, Weak.moveAt] at h
  repeat' split at h
  all_goals first | cases h; done | skip
  all_goals
    simp only [Option.map_eq_some_iff] at h
    obtain ⟨r, _, h⟩ := h
    cases h
    exact tick_length _ _ _

theorem Inv.run (as : List (Act (Op α))) {w w' : Weak α} {h : List (Nat × Event (Op α) (Out α))} {cur : Nat → Nat} {gs : List (G α)} {ev : List (Event (Op α) (Out α))}
    (I : Inv w h cur gs) (hr : (weak α).run w as = some (w', ev)) :
    ∃ cur' gs', Inv w' (h ++ (weak α).stamped w.log.length w as) cur' gs' := by
  induction as generalizing w h cur gs ev with
  | nil => cases hr; exact ⟨cur, gs, by simpa [Sys.stamped] using I⟩
  | cons a as ih =>
    simp only [Sys.run, Option.bind_eq_some_iff, Option.map_eq_some_iff] at hr
    obtain ⟨⟨w1, h1⟩, e1, ⟨w2, h2⟩, e2, e3⟩ := hr
    cases e3
    have hS := e1
    cases a with
    | call t op =>
      simp only [Sys.exec, Option.map_eq_some_iff] at e1
      obtain ⟨w3, e1, e3⟩ := e1
      cases e3
      have hlen : w1.log.length = w.log.length + 1 := by
        have : Weak.call t op w = some w1 := e1
        simp only [Weak.call] at this
        split at this
        · cases this
        · simp only [Option.map_eq_some_iff] at this
          obtain ⟨s', _, rfl⟩ := this
          exact tick_length _ _ _
      obtain ⟨cur', gs', I'⟩ := ih (I.call e1) e2
      refine ⟨cur', gs', ?_⟩
      simp only [Sys.stamped, hS, List.map_cons, List.map_nil]
      rw [hlen] at I'
      simpa using I'
    | move t c =>
      simp only [Sys.exec, Option.map_eq_some_iff] at e1
      obtain ⟨⟨w3, o⟩, e1, e3⟩ := e1
      cases e3
      obtain ⟨gs1, I1⟩ := I.move e1
      have hlen := move_length e1
      obtain ⟨cur', gs', I'⟩ := ih I1 e2
      refine ⟨cur', gs', ?_⟩
      simp only [Sys.stamped, hS]
      rw [hlen] at I'
      cases o <;> simpa [retEvents] using I'

theorem reachable_inv {w : Weak α} (hw : (weak α).Reachable w) : ∃ h cur gs, Inv w h cur gs := by
  obtain ⟨as, ev, hr⟩ := hw
  obtain ⟨cur, gs, I⟩ := Inv.init.run as hr
  exact ⟨_, cur, gs, I⟩

/-! ### Order of the steps of a thread -/

theorem move_ticks {w w' : Weak α} {t c : Nat} {o : Option (Out α)} (h : Weak.move t c w = some (w', o)) : ∃ p pub, Ticks w w' t p pub := by
  simp only [Weak.move, Weak.moveAt] at h
  repeat' split at h
  all_goals first | cases h; done | skip
  all_goals
    simp only [Option.map_eq_some_iff] at h
    obtain ⟨r, _, h⟩ := h
    cases h
    first
    | exact ⟨_, false, ticks_tick _ rfl rfl rfl⟩
    | exact ⟨[], true, rfl, rfl, rfl⟩

theorem call_ticks {w w' : Weak α} {t : Nat} {op : Op α} (h : Weak.call t op w = some w') : ∃ p pub, Ticks w w' t p pub := by
  simp only [Weak.call] at h
  split at h
  · cases h
  · simp only [Option.map_eq_some_iff] at h
    obtain ⟨r, _, rfl⟩ := h
    exact ⟨_, false, ticks_tick _ rfl rfl rfl⟩

/-- the events of a thread happen one after the other -/
structure Ordered (w : Weak α) (h : List (Nat × Event (Op α) (Out α))) : Prop where
  lt : ∀ n e, (n, e) ∈ h → n < w.log.length
  seen : ∀ n e, (n, e) ∈ h → n ∈ w.seen e.thread
  order : ∀ m n e e', (m, e) ∈ h → (n, e') ∈ h → e.thread = e'.thread → m < n → ∃ k, w.log[n]? = some k ∧ m ∈ k

theorem Ordered.step {w w' : Weak α} {h : List (Nat × Event (Op α) (Out α))} {t : Nat} {p : List Nat} {pub : Bool} (H : Ordered w h) (T : Ticks w w' t p pub)
    {ev : List (Event (Op α) (Out α))} (hev : ∀ e ∈ ev, e.thread = t) : Ordered w' (h ++ ev.map (w.log.length, ·)) := by
  have mem : ∀ n e, (n, e) ∈ h ++ ev.map (w.log.length, ·) → (n, e) ∈ h ∨ (n = w.log.length ∧ e.thread = t) := by
    intro n e he
    rcases List.mem_append.1 he with he | he
    · exact .inl he
    · obtain ⟨e', h1, h2⟩ := List.mem_map.1 he
      cases h2; exact .inr ⟨rfl, hev e h1⟩
  refine ⟨?_, ?_, ?_⟩
  · intro n e he
    rw [T.log, List.length_append]
    rcases mem n e he with he | ⟨rfl, _⟩
    · have := H.lt n e he; simp; omega
    · simp
  · intro n e he
    rw [T.seen]
    by_cases ht : e.thread = t
    · rw [ht, upd_same]
      rcases mem n e he with he | ⟨rfl, _⟩
      · have := H.seen n e he
        rw [ht] at this
        simp [this]
      · simp
    · rw [upd_ne _ _ ht]
      rcases mem n e he with he | ⟨_, h2⟩
      · exact H.seen n e he
      · exact absurd h2 ht
  · intro m n e e' he he' ht hlt
    rw [T.log]
    rcases mem n e' he' with he' | ⟨rfl, h2⟩
    · rcases mem m e he with he | ⟨rfl, _⟩
      · obtain ⟨k, h3, h4⟩ := H.order m n e e' he he' ht hlt
        exact ⟨k, getElem?_old h3, h4⟩
      · have := H.lt n e' he'; omega
    · rcases mem m e he with he | ⟨rfl, _⟩
      · refine ⟨_, getElem?_new _ _, ?_⟩
        have := H.seen m e he
        rw [ht, h2] at this
        simp [this]
      · omega

theorem Ordered.run (as : List (Act (Op α))) {w w' : Weak α} {h : List (Nat × Event (Op α) (Out α))} {ev : List (Event (Op α) (Out α))}
    (H : Ordered w h) (hr : (weak α).run w as = some (w', ev)) : Ordered w' (h ++ (weak α).stamped w.log.length w as) := by
  induction as generalizing w h ev with
  | nil => cases hr; simpa [Sys.stamped] using H
  | cons a as ih =>
    simp only [Sys.run, Option.bind_eq_some_iff, Option.map_eq_some_iff] at hr
    obtain ⟨⟨w1, h1⟩, e1, ⟨w2, h2⟩, e2, e3⟩ := hr
    cases e3
    have hS := e1
    cases a with
    | call t op =>
      simp only [Sys.exec, Option.map_eq_some_iff] at e1
      obtain ⟨w3, e1, e3⟩ := e1
      cases e3
      obtain ⟨p, pub, T⟩ := call_ticks e1
      have := ih (H.step T (ev := [.call t op]) (by simp [Event.thread])) e2
      simp only [Sys.stamped, hS]
      rw [T.log, List.length_append] at this
      simpa using this
    | move t c =>
      simp only [Sys.exec, Option.map_eq_some_iff] at e1
      obtain ⟨⟨w3, o⟩, e1, e3⟩ := e1
      cases e3
      obtain ⟨p, pub, T⟩ := move_ticks e1
      have := ih (H.step T (ev := retEvents t o) (by cases o <;> simp [retEvents, Event.thread])) e2
      simp only [Sys.stamped, hS]
      rw [T.log, List.length_append] at this
      cases o <;> simpa [retEvents] using this

theorem Ordered.init : Ordered (Weak.init : Weak α) [] := ⟨by simp, by simp, by simp⟩

/-! ### Waiting threads -/

theorem peeks_failing {l l' : Loc α} {q : Option α} (hl : peeks l = true) (hh : holds l' = false)
    (h : status l' = status l ∨ ∃ op x, status l = .pending op ∧ status l' = .done x ∧ slot q op = some (q, x)) : failing l' = false := by
  rcases h with h | ⟨op, x, _, h, _⟩
  · cases l <;> first | cases hl | skip
    all_goals
      (try (rename_i v; cases v)) <;> cases l' <;> (try (rename_i v'; cases v')) <;>
        simp_all [status, failing, tryLoadOp, loadOp, unloadOp]
  · cases l' <;> (try (rename_i v'; cases v')) <;> simp_all [status, failing]

/-- the waiting threads, and loads that cannot throw -/
structure Awake (w : Weak α) : Prop where
  inv : ∃ h cur gs, Inv w h cur gs
  waits : Waits true w.base
  fails : ∀ u, failing (w.base.loc u) = false

theorem Awake.move {w w' : Weak α} {t c : Nat} {o : Option (Out α)} (A : Awake w) (h : Weak.move t c w = some (w', o)) : Awake w' := by
  obtain ⟨h0, cur, gs, I⟩ := A.inv
  have hinv : ∃ h cur gs, Inv w' h cur gs := by
    obtain ⟨gs', I'⟩ := I.move h
    exact ⟨_, _, gs', I'⟩
  cases I.kind h with
  | idle h1 h2 h3 => subst h3; exact ⟨hinv, A.waits, A.fails⟩
  | sc h1 h2 h3 =>
    subst h3; subst h1
    refine ⟨hinv, A.waits.move I.rel (fun _ => ?_) h2, failing_move A.fails h2⟩
    have := A.fails t
    cases hl : w.base.loc t <;> rw [hl] at this <;> first | rfl | skip
    rename_i v
    cases v <;> first | rfl | cases this
  | @peek p l' _ _ g h1 h2 h3 h4 h5 h6 h7 h8 h9 h10 =>
    refine ⟨hinv, ?_, ?_⟩
    · rw [h10]
      refine A.waits.stay (l' := l') rfl rfl rfl ?_ fun _ => .inr (.inl ⟨rfl, ?_⟩)
      · intro v hv; rw [hv] at h3; cases h3
      · cases hl : w.base.loc t <;> rw [hl] at h3 <;> first | rfl | cases h3
    · intro u
      rw [h10]
      simp only [State.goto]
      by_cases hu : u = t
      · subst hu; rw [upd_same]; exact peeks_failing h3 h5 h7
      · rw [upd_ne _ _ hu]; exact A.fails u

theorem Awake.call {w w' : Weak α} {t : Nat} {op : Op α} (A : Awake w) (ho : op.loadSucceeds = true) (h : Weak.call t op w = some w') : Awake w' := by
  obtain ⟨h0, cur, gs, I⟩ := A.inv
  have I' := I.call h
  simp only [Weak.call] at h
  split at h
  · cases h
  · simp only [Option.map_eq_some_iff] at h
    obtain ⟨s', h1, rfl⟩ := h
    exact ⟨⟨_, _, gs, I'⟩, A.waits.call h1, failing_call A.fails ho h1⟩

theorem reachable_awake {w : Weak α} (hw : ((weak α).restrict Op.loadSucceeds).Reachable w) : Awake w := by
  refine Sys.invariant (M := (weak α).restrict Op.loadSucceeds) Awake ⟨⟨_, _, _, Inv.init⟩, Waits.init, fun _ => rfl⟩ ?_ ?_ w hw
  · intro w t op w' A h
    simp only [Sys.restrict] at h
    split at h
    · rename_i h1; exact A.call h1 h
    · cases h
  · intro w t c w' o A h
    exact A.move h

/-- sleeping threads are at 68 -/
theorem weak_asleep {w : Weak α} (hw : (weak α).Reachable w) : ∀ t ∈ w.base.waiting, ∃ v, w.base.loc t = .lSleep v := by
  have := Sys.invariant (M := weak α) (fun w => (∃ h cur gs, Inv w h cur gs) ∧ Waits false w.base) ⟨⟨_, _, _, Inv.init⟩, Waits.init⟩ ?_ ?_ w hw
  · exact this.2.asleep
  · rintro w t op w' ⟨⟨h0, cur, gs, I⟩, W⟩ h
    have h : Weak.call t op w = some w' := h
    have I' := I.call h
    simp only [Weak.call] at h
    split at h
    · cases h
    · simp only [Option.map_eq_some_iff] at h
      obtain ⟨s', h1, rfl⟩ := h
      exact ⟨⟨_, _, gs, I'⟩, W.call h1⟩
  · rintro w t c w' o ⟨⟨h0, cur, gs, I⟩, W⟩ h
    obtain ⟨gs', I'⟩ := I.move h
    refine ⟨⟨_, _, gs', I'⟩, ?_⟩
    cases I.kind h with
    | idle h1 h2 h3 => subst h3; exact W
    | sc h1 h2 h3 =>
      subst h3; subst h1
      exact W.move I.rel nofun h2
    | @peek p l' _ _ g h1 h2 h3 h4 h5 h6 h7 h8 h9 h10 =>
      rw [h10]
      refine W.stay (l' := l') rfl rfl rfl ?_ nofun
      intro v hv; rw [hv] at h3; cases h3

/-- a thread whose next step is possible in the interleaving semantics can take it -/
theorem weak_enabled {w : Weak α} {h cur} {gs : List (G α)} (I : Inv w h cur gs) (t : Nat) (h0 : holds (w.base.loc t) = true ∨ w.base.owner = none) (h1 : w.base.loc t ≠ .idle) :
    ∃ c, ((weak α).move t c w).isSome = true := by
  have hg : w.base.loc t ≠ .garbage := by
    intro hg
    have := I.rel.data
    rw [I.rel.owns.holder hg rfl] at this
    exact this
  have hen : ∀ (b : Bool) (c : Nat), (State.stepAt { w.base with loaded := b } t c (w.base.loc t)).isSome = true :=
    fun b c => enabled t c h0 h1 hg
  have hlen : w.mem.length ≠ 0 := by
    rw [I.mem, List.length_map]
    intro h2; exact I.ne (List.length_eq_zero_iff.1 h2)
  obtain ⟨x, hx⟩ : ∃ x, w.mem[w.mem.length - 1]? = some x := ⟨_, List.getElem?_eq_getElem (by omega)⟩
  cases ha : access (w.base.loc t)
  case read =>
    refine ⟨w.mem.length - 1, ?_⟩
    have e : w.mem.length - 1 + 1 = w.mem.length := by omega
    obtain ⟨r, hr⟩ := Option.isSome_iff_exists.1 (hen x.2 (w.mem.length - 1))
    show (Weak.move t _ w).isSome = true
    rw [move_busy h1]
    simp only [Weak.moveAt]
    obtain ⟨e1, b1⟩ := x
    simp only [ha, hx, e, List.drop_length, Weak.anySeen, List.any_nil, Bool.false_eq_true, if_false, hr, Option.map_some, Option.isSome_some]
  case write =>
    refine ⟨w.mem.length, ?_⟩
    obtain ⟨r, hr⟩ := Option.isSome_iff_exists.1 (hen w.base.loaded w.mem.length)
    have hr : w.base.stepAt t w.mem.length (w.base.loc t) = some r := hr
    show (Weak.move t _ w).isSome = true
    rw [move_busy h1]
    simp only [Weak.moveAt]
    simp [ha, Weak.anySeen, hr]
  all_goals
    refine ⟨0, ?_⟩
    obtain ⟨r, hr⟩ := Option.isSome_iff_exists.1 (hen w.base.loaded 0)
    have hr : w.base.stepAt t 0 (w.base.loc t) = some r := hr
    show (Weak.move t _ w).isSome = true
    rw [move_busy h1]
    simp only [Weak.moveAt]
    simp [ha, hr]

end Verif.AirLock
