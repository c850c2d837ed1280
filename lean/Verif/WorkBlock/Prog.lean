import Verif.WorkBlock.ProgSpec
import Verif.WorkBlock.Props

/-
Lemmas for ProgProps.lean: the code refines the specification of programs over several WorkBlocks.
-/
namespace Verif.WorkBlock.Prog

variable {V : Type} {eval : List Nat → Nat → Res V}

/-- The jobs are shared states, different ones for different jobs. -/
structure WRep (w : World V) (m : Nat → Nat) (jobs : List (Option (Res V))) : Prop where
  eq : ∀ j x, jobs[j]? = some x → w.states[m j]? = some x
  inj : ∀ j k, j < jobs.length → k < jobs.length → m j = m k → j = k

theorem WRep.lt {w : World V} {m : Nat → Nat} {jobs : List (Option (Res V))} (h : WRep w m jobs) {j : Nat} (hj : j < jobs.length) :
    m j < w.states.length := by
  have := h.eq j _ (List.getElem?_eq_getElem hj)
  rcases Nat.lt_or_ge (m j) w.states.length with h' | h'
  · exact h'
  · rw [List.getElem?_eq_none h'] at this; cases this

theorem WRep.alloc {w : World V} {m : Nat → Nat} {jobs : List (Option (Res V))} (h : WRep w m jobs) : WRep w.alloc.1 m jobs := by
  refine ⟨fun j x e => ?_, h.inj⟩
  have hj : j < jobs.length := by
    rcases Nat.lt_or_ge j jobs.length with h' | h'
    · exact h'
    · rw [List.getElem?_eq_none h'] at e; cases e
  simp only [World.alloc]
  rw [List.getElem?_append_left (h.lt hj)]
  exact h.eq j x e

theorem WRep.other {w : World V} {m : Nat → Nat} {jobs : List (Option (Res V))} (h : WRep w m jobs) {i : Nat} (r : Res V)
    (hi : ∀ j, j < jobs.length → m j ≠ i) : WRep (w.set i r) m jobs := by
  refine ⟨fun j x e => ?_, h.inj⟩
  have hj : j < jobs.length := by
    rcases Nat.lt_or_ge j jobs.length with h' | h'
    · exact h'
    · rw [List.getElem?_eq_none h'] at e; cases e
  rw [set_other _ _ (Ne.symm (hi j hj))]
  exact h.eq j x e

/-- the jobs after job `j` ends with `r` -/
def settled (jobs : List (Option (Res V))) (j : Nat) (r : Res V) : List (Option (Res V)) :=
  if jobs[j]?.join.isSome then jobs else jobs.set j (some r)

theorem settled_length (jobs : List (Option (Res V))) (j : Nat) (r : Res V) : (settled jobs j r).length = jobs.length := by
  unfold settled; split <;> simp

theorem settled_ne (jobs : List (Option (Res V))) {j k : Nat} (r : Res V) (h : k ≠ j) : (settled jobs j r)[k]? = jobs[k]? := by
  unfold settled
  split
  · rfl
  · exact List.getElem?_set_ne (Ne.symm h)

theorem WRep.settle {w : World V} {m : Nat → Nat} {jobs : List (Option (Res V))} (h : WRep w m jobs) {j : Nat} (hj : j < jobs.length)
    (r : Res V) : WRep (w.set (m j) r) m (settled jobs j r) := by
  refine ⟨fun k x e => ?_, fun a b ha hb => h.inj a b (by rwa [settled_length] at ha) (by rwa [settled_length] at hb)⟩
  have hk : k < jobs.length := by
    rcases Nat.lt_or_ge k jobs.length with h' | h'
    · exact h'
    · rw [List.getElem?_eq_none (by rwa [settled_length])] at e; cases e
  by_cases hkj : k = j
  · subst hkj
    have h1 := h.eq k _ (List.getElem?_eq_getElem hk)
    unfold settled at e
    cases hx : jobs[k] with
    | none =>
      rw [hx] at h1
      rw [List.getElem?_eq_getElem hk, hx] at e
      simp [hk] at e
      rw [set_same _ _ h1, e]
    | some y =>
      rw [hx] at h1
      rw [List.getElem?_eq_getElem hk, hx] at e
      simp only [Option.join_some, Option.isSome_some, if_true, List.getElem?_eq_getElem hk, hx, Option.some.injEq] at e
      subst e
      simp [World.set, h1]
  · rw [settled_ne _ _ hkj] at e
    rw [set_other _ _ (fun c => hkj (h.inj _ _ hk hj c.symm))]
    exact h.eq k x e

theorem WRep.new {w : World V} {m : Nat → Nat} {jobs : List (Option (Res V))} (h : WRep w m jobs) {i : Nat}
    (hn : w.states[i]? = some none) (hi : ∀ j, j < jobs.length → m j ≠ i) : WRep w (upd m jobs.length i) (jobs ++ [none]) := by
  constructor
  · intro j x e
    rcases Nat.lt_trichotomy j jobs.length with h1 | h1 | h1
    · rw [List.getElem?_append_left h1] at e
      have : ¬ j = jobs.length := by omega
      simp only [upd, this, if_false]; exact h.eq j x e
    · subst h1
      simp at e; subst e
      simpa [upd] using hn
    · rw [List.getElem?_eq_none (by simp; omega)] at e; cases e
  · intro j k hj hk e
    simp only [List.length_append, List.length_singleton] at hj hk
    simp only [upd] at e
    split at e <;> split at e
    · omega
    · exact absurd e.symm (hi k (by omega))
    · exact absurd e (hi j (by omega))
    · exact h.inj j k (by omega) (by omega) e

/-- what a name stands for -/
def SRep (m : Nat → Nat) (jobs : List (Option (Res V))) (ob : Option Block) : Slot → Prop
  | .gone => ob = none
  | .hollow fin => ∃ b, ob = some b ∧ b.task.state = none ∧ b.future = none ∧ b.finished = fin ∧ b.loaded = true
  | .live f j => j < jobs.length ∧ ob = some ⟨⟨f, some (m j), true⟩, some (m j), jobs[j]?.join.isSome, true⟩

/-- The state of the code is that of the specification, except for the name `ex` if there is one. -/
structure Rep (m : Nat → Nat) (ex : Option Nat) (s : PS V) (a : User V) : Prop where
  world : WRep s.w m a.jobs
  slot : ∀ v, some v ≠ ex → SRep m a.jobs (s.blocks v) (a.slots v)
  dist : ∀ u v f g j, some u ≠ ex → some v ≠ ex → a.slots u = .live f j → a.slots v = .live g j → u = v
  held : s.held = a.held.map (Option.map m)
  heldLt : ∀ j, some j ∈ a.held → j < a.jobs.length
  log : s.w.log = a.log

theorem Rep.weaken {m : Nat → Nat} {s : PS V} {a : User V} (h : Rep m none s a) (v : Nat) : Rep m (some v) s a :=
  ⟨h.world, fun u _ => h.slot u nofun, fun u w f g j _ _ => h.dist u w f g j nofun nofun, h.held, h.heldLt, h.log⟩

theorem SRep.settled {m : Nat → Nat} {jobs : List (Option (Res V))} {ob : Option Block} {x : Slot} (h : SRep m jobs ob x) {j : Nat}
    (r : Res V) (hx : ∀ f, x ≠ .live f j) : SRep m (settled jobs j r) ob x := by
  cases x with
  | gone => exact h
  | hollow fin => exact h
  | live f k =>
    have hkj : k ≠ j := fun e => hx f (by rw [e])
    refine ⟨by rw [settled_length]; exact h.1, ?_⟩
    rw [settled_ne _ _ hkj]; exact h.2

theorem SRep.new {m : Nat → Nat} {jobs : List (Option (Res V))} {ob : Option Block} {x : Slot} (h : SRep m jobs ob x) (i : Nat) :
    SRep (upd m jobs.length i) (jobs ++ [none]) ob x := by
  cases x with
  | gone => exact h
  | hollow fin => exact h
  | live f k =>
    have h1 := h.1
    have : ¬ k = jobs.length := by omega
    refine ⟨by simp; omega, ?_⟩
    rw [List.getElem?_append_left h1]
    simp only [upd, this, if_false]; exact h.2

theorem settle_jobs (a : User V) (j : Nat) (r : Res V) : (a.settle j r).jobs = settled a.jobs j r := by
  unfold User.settle settled User.ended; split <;> rfl

theorem settle_slots (a : User V) (j : Nat) (r : Res V) : (a.settle j r).slots = a.slots := by
  unfold User.settle; split <;> rfl

theorem settle_held (a : User V) (j : Nat) (r : Res V) : (a.settle j r).held = a.held := by
  unfold User.settle; split <;> rfl

theorem settle_log (a : User V) (j : Nat) (r : Res V) : (a.settle j r).log = a.log := by
  unfold User.settle; split <;> rfl

/-- the job of one block ends -/
theorem Rep.settle {m : Nat → Nat} {s : PS V} {a : User V} (h : Rep m none s a) {v f j : Nat} (hv : a.slots v = .live f j) (r : Res V) :
    Rep m (some v) { s with w := s.w.set (m j) r } (a.settle j r) := by
  have hs := h.slot v nofun
  rw [hv] at hs
  refine ⟨?_, ?_, ?_, ?_, ?_, ?_⟩
  · rw [settle_jobs]; exact h.world.settle hs.1 r
  · intro u hu
    rw [settle_jobs, settle_slots]
    refine (h.slot u nofun).settled r fun g e => hu ?_
    rw [h.dist u v g f j nofun nofun e hv]
  · rw [settle_slots]; exact fun u w f g j _ _ => h.dist u w f g j nofun nofun
  · rw [settle_held]; exact h.held
  · rw [settle_held, settle_jobs, settled_length]; exact h.heldLt
  · rw [settle_log]; exact (set_log _ _ _).trans h.log

/-- the block gives up its job -/
theorem Rep.giveUp {m : Nat → Nat} {s : PS V} {a : User V} (h : Rep m none s a) {v : Nat} {b : Block} (hb : s.blocks v = some b) :
    Rep m (some v) { s with w := s.w.abandon b.task.state } (a.giveUp v) := by
  have hs := h.slot v nofun
  cases hv : a.slots v with
  | gone => rw [hv, hb] at hs; cases hs
  | hollow fin =>
    rw [hv, hb] at hs
    obtain ⟨b', e, h1, -⟩ := hs
    cases e
    simp only [h1, World.abandon, User.giveUp, hv]
    exact h.weaken v
  | live f j =>
    rw [hv, hb] at hs
    cases hs.2
    simp only [World.abandon, User.giveUp, hv]
    exact h.settle hv _

theorem giveUp_slots (a : User V) (v : Nat) : (a.giveUp v).slots = a.slots := by
  unfold User.giveUp; split
  · exact settle_slots _ _ _
  · rfl

theorem giveUp_length (a : User V) (v : Nat) : (a.giveUp v).jobs.length = a.jobs.length := by
  unfold User.giveUp; split
  · rw [settle_jobs, settled_length]
  · rfl

/-- a shared state that is no job is made or set -/
theorem Rep.alloc {m : Nat → Nat} {ex : Option Nat} {s : PS V} {a : User V} (h : Rep m ex s a) :
    Rep m ex { s with w := s.w.alloc.1 } a :=
  ⟨h.world.alloc, h.slot, h.dist, h.held, h.heldLt, h.log⟩

theorem Rep.other {m : Nat → Nat} {ex : Option Nat} {s : PS V} {a : User V} (h : Rep m ex s a) {i : Nat} (r : Res V)
    (hi : ∀ j, j < a.jobs.length → m j ≠ i) : Rep m ex { s with w := s.w.set i r } a :=
  ⟨h.world.other r hi, h.slot, h.dist, h.held, h.heldLt, (set_log _ _ _).trans h.log⟩

/-- the block gets a new job, whose shared state is `i` -/
theorem Rep.newJob {m : Nat → Nat} {v : Nat} {s : PS V} {a : User V} (h : Rep m (some v) s a) {i : Nat} (f : Nat)
    (hn : s.w.states[i]? = some none) (hi : ∀ j, j < a.jobs.length → m j ≠ i) :
    Rep (upd m a.jobs.length i) none { s with blocks := upd s.blocks v (some ⟨⟨f, some i, true⟩, some i, false, true⟩) } (a.newJob v f) := by
  have hsame : ∀ j, j < a.jobs.length → upd m a.jobs.length i j = m j := by
    intro j hj
    have : ¬ j = a.jobs.length := by omega
    simp [upd, this]
  have hlive : ∀ u g j, some u ≠ some v → a.slots u = .live g j → j < a.jobs.length := by
    intro u g j hu e
    have := h.slot u hu
    rw [e] at this; exact this.1
  refine ⟨h.world.new hn hi, ?_, ?_, ?_, ?_, h.log⟩
  · intro u _
    simp only [User.newJob]
    by_cases hu : u = v
    · subst hu
      simp [upd, SRep]
    · simp only [upd, hu, if_false]
      exact (h.slot u (by simpa using hu)).new i
  · intro u w g g' j _ _ e1 e2
    simp only [User.newJob, upd] at e1 e2
    split at e1 <;> split at e2
    · omega
    · rename_i h1 h2
      cases e1
      have := hlive w g' _ (by simpa using h2) e2
      omega
    · rename_i h1 h2
      cases e2
      have := hlive u g _ (by simpa using h1) e1
      omega
    · rename_i h1 h2
      exact h.dist u w g g' j (by simpa using h1) (by simpa using h2) e1 e2
  · simp only [User.newJob]
    rw [h.held]
    apply List.map_congr_left
    intro x hx
    cases x with
    | none => rfl
    | some j => simp [hsame j (h.heldLt j hx)]
  · intro j hj
    have := h.heldLt j hj
    simp [User.newJob]; omega

/-- a name is given a meaning -/
theorem Rep.put {m : Nat → Nat} {v : Nat} {s : PS V} {a : User V} (h : Rep m (some v) s a) {ob : Option Block} {x : Slot}
    (hx : SRep m a.jobs ob x) (hd : ∀ u f g j, u ≠ v → a.slots u = .live f j → x ≠ .live g j) :
    Rep m none { s with blocks := upd s.blocks v ob } { a with slots := upd a.slots v x } := by
  refine ⟨h.world, ?_, ?_, h.held, h.heldLt, h.log⟩
  · intro u _
    by_cases hu : u = v
    · subst hu; simpa [upd] using hx
    · simp only [upd, hu, if_false]; exact h.slot u (by simpa using hu)
  · intro u w f g j _ _ e1 e2
    simp only [upd] at e1 e2
    split at e1 <;> split at e2
    · omega
    · rename_i h1 h2; exact absurd e1 (hd w g f j h2 e2)
    · rename_i h1 h2; exact absurd e2 (hd u f g j h1 e1)
    · rename_i h1 h2; exact h.dist u w f g j (by simpa using h1) (by simpa using h2) e1 e2

theorem upd_self {α : Type} (g : Nat → α) (v : Nat) (x : α) : upd g v x v = x := by simp [upd]

theorem upd_eq {α : Type} (g : Nat → α) (v : Nat) : upd g v (g v) = g := by
  funext y; simp only [upd]; split
  · rename_i h; rw [h]
  · rfl

theorem call_same (s : PS V) {v : Nat} {b : Block} (hb : s.blocks v = some b) (e : Option Exc) :
    s.call v (s.w, b, e) = (s, some (match e with | none => .unit | some e => .throws e)) := by
  have : upd s.blocks v (some b) = s.blocks := by rw [← hb]; exact upd_eq _ _
  cases e <;> simp [PS.call, this]

theorem slot_gone {m : Nat → Nat} {s : PS V} {a : User V} (h : Rep m none s a) (v : Nat) : s.blocks v = none ↔ a.slots v = .gone := by
  have hs := h.slot v nofun
  cases hv : a.slots v with
  | gone => rw [hv] at hs; simp [show s.blocks v = none from hs]
  | hollow fin => rw [hv] at hs; obtain ⟨b, e, -⟩ := hs; simp [e]
  | live f j => rw [hv] at hs; simp [hs.2]

/-- moving the block `u` to `v` -/
theorem Rep.move {m : Nat → Nat} {v u : Nat} {s : PS V} {a a' : User V} (h : Rep m (some v) s a') (hu : u ≠ v) {b : Block}
    (hs : SRep m a.jobs (some b) (a.slots u)) (hb : s.blocks u = some b) (hsl : a'.slots = a.slots)
    (hj : ∀ f j, a.slots u = .live f j → a'.jobs[j]? = a.jobs[j]? ∧ j < a'.jobs.length) :
    Rep m none { s with blocks := upd (upd s.blocks u (some b.moveFrom.2)) v (some b.moveFrom.1) }
      { a' with slots := upd (upd a.slots u (a.remains (a.slots u))) v (a.slots u) } := by
  have hrem : ∀ f j, a.remains (a.slots u) ≠ .live f j := by
    intro f j e
    cases hx : a.slots u <;> rw [hx] at e <;> cases e
  have h1 : Rep m (some v) { s with blocks := upd s.blocks u (some b.moveFrom.2) }
      { a' with slots := upd a.slots u (a.remains (a.slots u)) } := by
    refine ⟨h.world, ?_, ?_, h.held, h.heldLt, h.log⟩
    · intro x hx
      by_cases hxu : x = u
      · subst hxu
        simp only [upd_self]
        cases hy : a.slots x with
        | gone => rw [hy] at hs; cases hs
        | hollow fin =>
          rw [hy] at hs
          obtain ⟨b', e, e1, e2, e3, e4⟩ := hs
          cases e
          exact ⟨_, rfl, rfl, rfl, e3, e4⟩
        | live f j =>
          rw [hy] at hs
          cases hs.2
          exact ⟨_, rfl, rfl, rfl, rfl, rfl⟩
      · simp only [upd, hxu, if_false]; rw [← hsl]; exact h.slot x hx
    · intro x y f g j hx hy e1 e2
      simp only [upd] at e1 e2
      split at e1
      · exact absurd e1 (hrem _ _)
      · split at e2
        · exact absurd e2 (hrem _ _)
        · rw [← hsl] at e1 e2
          exact h.dist x y f g j hx hy e1 e2
  refine h1.put ?_ ?_
  · cases hy : a.slots u with
    | gone => rw [hy] at hs; cases hs
    | hollow fin => rw [hy] at hs; exact hs
    | live f j =>
      rw [hy] at hs
      have := hj f j hy
      refine ⟨this.2, ?_⟩
      simp only [this.1]; exact hs.2
  · intro x f g j hxv e1 e2
    simp only [upd] at e1
    split at e1
    · exact hrem _ _ e1
    · rename_i hxu
      rw [← hsl] at e1
      rw [← hsl] at e2
      exact hxu (h.dist x u f g j (by simpa using hxv) (by simpa using hu) e1 e2)

theorem answer_eq {m : Nat → Nat} {w : World V} {a : User V} (h : WRep w m a.jobs) {x : Option Nat}
    (hx : ∀ j, x = some j → j < a.jobs.length) : w.answer (x.map m) = a.answer x := by
  cases x with
  | none => rfl
  | some j =>
    have hj := hx j rfl
    have := h.eq j _ (List.getElem?_eq_getElem hj)
    simp only [World.answer, Option.map_some, World.read, Option.bind_some, this, User.answer, List.getElem?_eq_getElem hj]

/-- One statement of a program does what the specification says. -/
theorem step_rep {m : Nat → Nat} {s : PS V} {a : User V} (h : Rep m none s a) (op : POp) :
    (s.step eval op).2 = (a.step eval op).2 ∧ ∃ m', Rep m' none (s.step eval op).1 (a.step eval op).1 := by
  have hg := slot_gone h
  have hslot : ∀ v, SRep m a.jobs (s.blocks v) (a.slots v) := fun v => h.slot v nofun
  cases op with
  | make v f =>
    cases hb : s.blocks v with
    | some b =>
      have hv : a.slots v ≠ .gone := fun e => by rw [(hg v).2 e] at hb; cases hb
      simp only [PS.step, hb, User.step, hv, if_false]
      exact ⟨trivial, m, h⟩
    | none =>
      have hv := (hg v).1 hb
      have e : Block.ofFn s.w f = ((s.w.alloc.1.alloc.1).set s.w.states.length .broken,
          some ⟨⟨f, some (s.w.states.length + 1), true⟩, some (s.w.states.length + 1), false, true⟩) := by
        simp [Block.ofFn, Block.ofTask, Block.reset, Task.make, Task.reset, World.alloc, World.abandon, Task.getFuture]
      simp only [PS.step, hb, e, User.step, hv, if_true]
      have hlt : ∀ j, j < a.jobs.length → m j < s.w.states.length := fun j hj => h.world.lt hj
      have h1 := ((((h.weaken v).alloc).alloc).other .broken (i := s.w.states.length) (fun j hj => by have := hlt j hj; omega)).newJob
        (i := s.w.states.length + 1) f (by
          simp only []
          rw [set_other _ _ (by omega)]
          simp [World.alloc]) (fun j hj => by have := hlt j hj; omega)
      exact ⟨trivial, _, h1⟩
  | moveMake v u =>
    cases hb : s.blocks v with
    | some b =>
      have hv : a.slots v ≠ .gone := fun e => by rw [(hg v).2 e] at hb; cases hb
      simp only [PS.step, hb, User.step, hv, false_and, if_false]
      exact ⟨trivial, m, h⟩
    | none =>
      have hv := (hg v).1 hb
      cases hu : s.blocks u with
      | none =>
        simp only [PS.step, hb, hu, User.step, (hg u).1 hu, ne_eq, not_true_eq_false, and_false, if_false]
        exact ⟨trivial, m, h⟩
      | some b =>
        have hu' : a.slots u ≠ .gone := fun e => by rw [(hg u).2 e] at hu; cases hu
        have huv : u ≠ v := fun e => by rw [e, hb] at hu; cases hu
        simp only [PS.step, hb, hu, User.step, hv, hu', ne_eq, not_false_eq_true, and_self, if_true]
        refine ⟨trivial, m, ?_⟩
        have := hslot u
        rw [hu] at this
        refine (h.weaken v).move (a := a) huv this hu rfl fun f j e => ⟨rfl, ?_⟩
        rw [e] at this; exact this.1
  | assign v u =>
    by_cases hvu : v = u
    · simp only [PS.step, User.step, hvu, if_true, ne_eq, not_true_eq_false, false_and, if_false]
      exact ⟨trivial, m, h⟩
    · cases hb : s.blocks v with
      | none =>
        have hv := (hg v).1 hb
        simp only [PS.step, hb, User.step, hvu, hv, if_false, ne_eq, not_true_eq_false, false_and, and_false]
        exact ⟨trivial, m, h⟩
      | some b =>
        have hv : a.slots v ≠ .gone := fun e => by rw [(hg v).2 e] at hb; cases hb
        cases hu : s.blocks u with
        | none =>
          simp only [PS.step, hb, hu, User.step, hvu, (hg u).1 hu, if_false, ne_eq, not_true_eq_false, and_false]
          exact ⟨trivial, m, h⟩
        | some c =>
          have hu' : a.slots u ≠ .gone := fun e => by rw [(hg u).2 e] at hu; cases hu
          simp only [PS.step, hb, hu, User.step, hvu, hv, hu', if_false, ne_eq, not_false_eq_true, and_self, if_true]
          refine ⟨trivial, m, ?_⟩
          have := hslot u
          rw [hu] at this
          refine (h.giveUp hb).move (a := a) (fun e => hvu e.symm) this hu (giveUp_slots a v) fun f j e => ?_
          rw [giveUp_length]
          rw [e] at this
          refine ⟨?_, this.1⟩
          unfold User.giveUp
          split
          · rename_i g k hk
            rw [settle_jobs]
            refine settled_ne _ _ fun ejk => hvu ?_
            subst ejk
            exact h.dist v u g f j nofun nofun hk e
          · rfl
  | destroy v =>
    cases hb : s.blocks v with
    | none =>
      simp only [PS.step, hb, User.step, (hg v).1 hb, if_true]
      exact ⟨trivial, m, h⟩
    | some b =>
      have hv : a.slots v ≠ .gone := fun e => by rw [(hg v).2 e] at hb; cases hb
      simp only [PS.step, hb, User.step, hv, if_false]
      refine ⟨trivial, m, ?_⟩
      have := (h.giveUp hb).put (ob := none) (x := .gone) rfl (fun _ _ _ _ _ _ => nofun)
      rw [giveUp_slots] at this
      exact this
  | execute v =>
    have hs := hslot v
    cases hv : a.slots v with
    | gone =>
      rw [hv] at hs
      simp only [PS.step, show s.blocks v = none from hs, User.step, hv]
      exact ⟨trivial, m, h⟩
    | hollow fin =>
      rw [hv] at hs
      obtain ⟨b, e, e1, e2, e3, e4⟩ := hs
      simp only [PS.step, e, User.step, hv]
      cases fin with
      | true =>
        have : b.execute eval s.w = (s.w, b, none) := by simp [Block.execute, e3]
        rw [this, call_same s e]
        exact ⟨rfl, m, h⟩
      | false =>
        have : b.execute eval s.w = (s.w, b, some .noState) := by simp [Block.execute, e3, e4, Task.run, e1]
        rw [this, call_same s e]
        exact ⟨rfl, m, h⟩
    | live f j =>
      rw [hv] at hs
      obtain ⟨hj, e⟩ := hs
      simp only [PS.step, e, User.step, hv]
      cases hx : a.jobs[j] with
      | some y =>
        have : a.jobs[j]? = some (some y) := by rw [List.getElem?_eq_getElem hj, hx]
        simp only [Block.execute, User.ended, this, Option.join_some, Option.isSome_some, if_true]
        have e' := e
        rw [this] at e'
        simp only [Option.join_some, Option.isSome_some] at e'
        rw [call_same s e']
        exact ⟨rfl, m, h⟩
      | none =>
        have hn : a.jobs[j]? = some none := by rw [List.getElem?_eq_getElem hj, hx]
        have hw := h.world.eq j _ hn
        simp only [Block.execute, User.ended, hn, Option.join_some, Option.isSome_none, Bool.false_eq_true, if_false, if_true, Task.run, hw,
          PS.call]
        refine ⟨trivial, m, ?_⟩
        have h1 : Rep m none { s with w := { s.w with log := s.w.log ++ [f] } } { a with log := a.log ++ [f] } :=
          ⟨⟨h.world.eq, h.world.inj⟩, h.slot, h.dist, h.held, h.heldLt, by simp [h.log]⟩
        have h2 := (h1.settle (v := v) (f := f) (j := j) hv (eval a.log f)).put
          (ob := some ⟨⟨f, some (m j), true⟩, some (m j), true, true⟩) (x := .live f j) ?_ ?_
        · have e2 : upd a.slots v (.live f j) = a.slots := by rw [← hv]; exact upd_eq _ _
          rw [settle_slots] at h2
          simp only [e2] at h2
          have : ({ a.settle j (eval a.log f) with log := a.log ++ [f] } : User V) =
              { ({ a with log := a.log ++ [f] } : User V).settle j (eval a.log f) with slots := a.slots } := by
            simp [User.settle, User.ended, hn]
          rw [this, h.log]
          rw [h.log] at h2
          exact h2
        · rw [settle_jobs]
          refine ⟨by rw [settled_length]; exact hj, ?_⟩
          simp [Prog.settled, hx, hj]
        · intro u g g' k huv e1 e2
          rw [settle_slots] at e1
          cases e2
          exact huv (h.dist u v g f j nofun nofun e1 hv)
  | reset v =>
    have hs := hslot v
    cases hv : a.slots v with
    | gone =>
      rw [hv] at hs
      simp only [PS.step, show s.blocks v = none from hs, User.step, hv]
      exact ⟨trivial, m, h⟩
    | hollow fin =>
      rw [hv] at hs
      obtain ⟨b, e, e1, e2, e3, e4⟩ := hs
      have : b.reset s.w = (s.w, b, some .noState) := by
        simp only [Block.reset, e4, if_true, Task.reset, e1]; rw [← e4]
      simp only [PS.step, e, User.step, hv, this]
      rw [call_same s e]
      exact ⟨rfl, m, h⟩
    | live f j =>
      rw [hv] at hs
      obtain ⟨hj, e⟩ := hs
      have hlt := h.world.lt hj
      simp only [PS.step, e, User.step, hv]
      simp only [Block.reset, if_true, Task.reset, Task.getFuture, Bool.false_eq_true, if_false, PS.call]
      refine ⟨trivial, ?_⟩
      have h1 := h.alloc.giveUp (v := v) e
      refine ⟨_, h1.newJob (i := s.w.states.length) f ?_ ?_⟩
      · simp only [World.abandon]
        rw [set_other _ _ (by omega)]
        simp [World.alloc]
      · intro k hk
        rw [giveUp_length] at hk
        have := h.world.lt hk
        omega
  | update v f =>
    cases hb : s.blocks v with
    | none =>
      simp only [PS.step, hb, User.step, (hg v).1 hb, if_true]
      exact ⟨trivial, m, h⟩
    | some b =>
      have hv : a.slots v ≠ .gone := fun e => by rw [(hg v).2 e] at hb; cases hb
      simp only [PS.step, hb, User.step, hv, if_false]
      simp only [Block.updateWorkFunction, Block.updateTask, Block.reset, Task.make, Bool.false_eq_true, if_false, Task.getFuture, PS.call]
      refine ⟨trivial, ?_⟩
      have h1 := h.alloc.giveUp (v := v) hb
      have hst : ∀ i, b.task.state = some i → i < s.w.states.length := by
        intro i hi
        have hs := hslot v
        cases hx : a.slots v with
        | gone => exact absurd hx hv
        | hollow fin =>
          rw [hx, hb] at hs
          obtain ⟨b', e, e1, -⟩ := hs
          cases e; rw [e1] at hi; cases hi
        | live g j =>
          rw [hx, hb] at hs
          have := h.world.lt hs.1
          cases hs.2
          cases hi; exact this
      refine ⟨_, h1.newJob (i := s.w.states.length) f ?_ ?_⟩
      · simp only []
        cases hi : b.task.state with
        | none => simp [World.abandon, World.alloc]
        | some i =>
          have := hst i hi
          simp only [World.abandon]
          rw [set_other _ _ (by omega)]
          simp [World.alloc]
      · intro k hk
        rw [giveUp_length] at hk
        have := h.world.lt hk
        omega
  | isFinished v =>
    have hs := hslot v
    refine ⟨?_, m, h⟩
    cases hv : a.slots v with
    | gone =>
      rw [hv] at hs
      simp [PS.step, show s.blocks v = none from hs, User.step, hv]
    | hollow fin =>
      rw [hv] at hs
      obtain ⟨b, e, e1, e2, e3, e4⟩ := hs
      simp [PS.step, e, User.step, hv, Block.isFinished, e3]
    | live f j =>
      rw [hv] at hs
      simp [PS.step, hs.2, User.step, hv, Block.isFinished, User.ended]
  | getReturnVal v =>
    have hs := hslot v
    refine ⟨?_, m, h⟩
    cases hv : a.slots v with
    | gone =>
      rw [hv] at hs
      simp [PS.step, show s.blocks v = none from hs, User.step, hv]
    | hollow fin =>
      rw [hv] at hs
      obtain ⟨b, e, e1, e2, e3, e4⟩ := hs
      simp [PS.step, e, User.step, hv, e2, World.answer]
    | live f j =>
      rw [hv] at hs
      simp only [PS.step, hs.2, User.step, hv, Option.bind_some]
      exact answer_eq h.world (x := some j) fun k e => by cases e; exact hs.1
  | getFuture v =>
    have hs := hslot v
    cases hv : a.slots v with
    | gone =>
      rw [hv] at hs
      simp only [PS.step, show s.blocks v = none from hs, User.step, hv]
      exact ⟨trivial, m, h⟩
    | hollow fin =>
      rw [hv] at hs
      obtain ⟨b, e, e1, e2, e3, e4⟩ := hs
      simp only [PS.step, e, User.step, hv, Block.getFuture, e2]
      refine ⟨trivial, m, h.world, h.slot, h.dist, by simp [h.held], ?_, h.log⟩
      intro j hj
      simp at hj; exact h.heldLt j hj
    | live f j =>
      rw [hv] at hs
      simp only [PS.step, hs.2, User.step, hv, Block.getFuture]
      refine ⟨trivial, m, h.world, h.slot, h.dist, by simp [h.held], ?_, h.log⟩
      intro k hk
      simp at hk
      rcases hk with hk | hk
      · exact h.heldLt k hk
      · subst hk; exact hs.1
  | get k =>
    refine ⟨?_, m, h⟩
    simp only [PS.step, User.step, h.held, List.getElem?_map]
    cases hk : a.held[k]? with
    | none => rfl
    | some x =>
      simp only [Option.map_some, Option.bind_some]
      refine answer_eq h.world fun j e => h.heldLt j ?_
      rw [← e]; exact List.mem_of_getElem? hk

theorem init_rep : Rep (V := V) id none PS.init User.init := by
  refine ⟨⟨?_, ?_⟩, ?_, ?_, rfl, ?_, rfl⟩
  · intro j x e; simp [User.init] at e
  · intro j k hj; simp [User.init] at hj
  · intro v _; rfl
  · intro u v f g j _ _ e; cases e
  · intro j hj; simp [User.init] at hj

theorem run_rep (ops : List POp) : ∀ {m : Nat → Nat} {s : PS V} {a : User V}, Rep m none s a →
    (s.run eval ops).2 = (a.run eval ops).2 ∧ ∃ m', Rep m' none (s.run eval ops).1 (a.run eval ops).1 := by
  induction ops with
  | nil => intro m s a h; exact ⟨rfl, m, h⟩
  | cons op ops ih =>
    intro m s a h
    obtain ⟨e1, m1, h1⟩ := step_rep (eval := eval) h op
    obtain ⟨e2, m2, h2⟩ := ih h1
    exact ⟨by simp only [PS.run, User.run, e1, e2], m2, h2⟩

end Verif.WorkBlock.Prog
