import Verif.Block.Vector.ArraysLemmas
import Verif.Block.Vector.Props

/-
C107: the arrays of block pointers of StableBlockVector are neither leaked nor deleted twice.
-/
namespace Verif.Block.Vector
open Verif.Block
variable {X : Type} {N : Nat}

/-- the arrays object `i` has pointers to -/
def TWorld.own (w : TWorld X) (i : Nat) : List Nat := ((w.objs i).map AVec.owned).getD []

/-- Invariant. -/
structure TInv (w : TWorld X) : Prop where
  ok : ∀ i a, w.objs i = some a → a.Ok
  acc : Account w.arrays w.own

theorem TInv.empty : TInv (TWorld.empty : TWorld X) := ⟨by simp [TWorld.empty], Account.empty⟩

theorem TInv.owns {w : TWorld X} (I : TInv w) {i : Nat} {a : AVec} (h : w.objs i = some a) :
    Owns AVec.T w.arrays a := by
  have e : w.own i = a.owned := by simp [TWorld.own, h]
  exact ⟨I.ok i a h, I.acc.wf, by have := I.acc.nodup i; rw [e] at this; exact this, fun x hx => (I.acc.live x).2 ⟨i, by rw [e]; exact hx⟩⟩

/-- One object is replaced. -/
theorem TInv.set {w : TWorld X} (I : TInv w) (i : Nat) {a : AVec} {L : Ledger} (h : Heap X) (ok : a.Ok)
    (f : w.arrays.Frame L (w.own i) a.owned) : TInv ⟨upd w.objs i (some a), h, L⟩ := by
  refine ⟨fun k b hb => ?_, I.acc.update i (by simpa [TWorld.own, upd] using f)
    fun k hk => by simp [TWorld.own, upd, hk]⟩
  by_cases hk : k = i
  · subst hk; simp only [upd_same] at hb; cases hb; exact ok
  · simp only [upd_ne _ _ hk] at hb; exact I.ok k b hb

theorem erase_upd (w : TWorld X) (i : Nat) (o : Option AVec) (h : Heap X) (L : Ledger) :
    TWorld.erase ⟨upd w.objs i o, h, L⟩ = ⟨upd w.erase.objs i (o.map (·.v)), h⟩ := by
  simp only [TWorld.erase, World.mk.injEq, and_true]
  funext k
  simp only [upd]
  split <;> rfl

/-- The step with arrays matches the step without. -/
def Agrees (x : Option (World X × Obs X)) (y : Option (TWorld X × Obs X)) : Prop :=
  match x with
  | none => y = none
  | some (w, o) => ∃ w', y = some (w', o) ∧ w'.erase = w ∧ TInv w'

theorem TInv.on {w : TWorld X} (I : TInv w) (i : Nat) {f : Vec → Option (Vec × Heap X)}
    {g : AVec → Option (AVec × Heap X × Ledger)}
    (s : ∀ a, w.objs i = some a → Same AVec.T w.arrays a (f a.v) (g a)) :
    Agrees ((w.erase.objs i).bind fun v => (f v).map fun r => (⟨upd w.erase.objs i (some r.1), r.2⟩, .done))
      (w.on i g) := by
  unfold TWorld.on
  cases hi : w.objs i with
  | none =>
    have : w.erase.objs i = none := by simp [TWorld.erase, hi]
    rw [this]; exact rfl
  | some a =>
    have : w.erase.objs i = some a.v := by simp [TWorld.erase, hi]
    rw [this]
    simp only [Option.bind_some]
    have s := s a hi
    cases hf : f a.v with
    | none => rw [hf] at s; simp only [Same] at s; rw [s]; exact rfl
    | some r =>
      obtain ⟨v, h⟩ := r
      rw [hf] at s
      obtain ⟨a', L', e, e2, ok, fr⟩ := s
      rw [e]
      subst e2
      exact ⟨_, rfl, erase_upd w i (some a') h L',
        I.set i h ok (by rw [show w.own i = a.owned by simp [TWorld.own, hi]]; exact fr)⟩

/-- a call that reads only -/
theorem TInv.read {w : TWorld X} (I : TInv w) {x : Option (World X × Obs X)}
    (h : ∀ r, x = some r → r.1 = w.erase) : Agrees x (x.map fun r => (w, r.2)) := by
  cases x with
  | none => exact rfl
  | some r => exact ⟨w, rfl, (h r rfl).symm, I⟩

/-- One call. -/
theorem execT_agrees {w : TWorld X} (I : TInv w) (op : Op X) (hn : ∀ i, op.declares = some i → w.objs i = none) :
    Agrees (exec N w.erase op) (execT N w op) := by
  have none' : ∀ {i}, w.objs i = none → w.erase.objs i = none := by
    intro i h; simp [TWorld.erase, h]
  have some' : ∀ {i a}, w.objs i = some a → w.erase.objs i = some a.v := by
    intro i a h; simp [TWorld.erase, h]
  have okDefault : (AVec.default N).Ok := ⟨rfl, rfl, by simp [AVec.default, Vec.default],
    by simp [AVec.default, Vec.default], fun _ => rfl⟩
  cases op with
  | new i =>
    have hi := hn i rfl
    simp only [exec, execT, hi, Option.isNone_none, if_true]
    refine ⟨_, rfl, erase_upd w i (some (.default N)) _ _, I.set i _ okDefault ?_⟩
    simpa [TWorld.own, hi, AVec.owned, AVec.default] using
      Ledger.Frame.refl (o := []) I.acc.wf (by simp) (by simp)
  | newSize i n x =>
    have hi := hn i rfl
    simp only [exec, execT, hi, Option.isNone_none, if_true, AVec.ofSize, Option.map_map]
    show Agrees (Option.map _ (Vec.ofSize N w.heap n x)) _
    cases hv : Vec.ofSize N w.heap n x with
    | none => exact rfl
    | some r =>
      obtain ⟨v, h⟩ := r
      refine ⟨_, rfl, erase_upd w i (some ⟨v, some w.arrays.alloc.1, none⟩) _ _, I.set i _ ?_ ?_⟩
      · have hs : v.dataptr.isSome = true ∧ v.avail ≠ 0 ∧ v.freeblocks = none ∧ v.freeAvail = 0 := by
          have hm : Nat.max ((n >>> N) + 1) 64 ≠ 0 := by
            have : 64 ≤ Nat.max ((n >>> N) + 1) 64 := Nat.le_max_right _ _
            omega
          unfold Vec.ofSize at hv
          simp only at hv
          split at hv
          · simp only [Option.map_eq_some_iff] at hv
            obtain ⟨arr, ha, hv⟩ := hv
            cases hv
            exact ⟨(slotSet_isSome ha).1, hm, rfl, rfl⟩
          · simp only [Option.map_eq_some_iff] at hv
            obtain ⟨⟨arr, h1⟩, ha, hv⟩ := hv
            cases hv
            refine ⟨?_, hm, rfl, rfl⟩
            have key : ∀ (n ii : Nat) (p q : SlotPtr) (last b : Nat) (h h' : Heap X), p.isSome = true →
                Vec.fillBlocks N x last b n ii p h = some (q, h') → q.isSome = true := by
              intro n
              induction n with
              | zero => intro ii p q last b h h' hp e; cases e; exact hp
              | succ n ih =>
                intro ii p q last b h h' hp e
                simp only [Vec.fillBlocks, Option.bind_eq_some_iff] at e
                obtain ⟨p', hp', h2, _, e⟩ := e
                exact ih _ _ _ _ _ _ _ (slotSet_isSome hp').1 e
            exact key _ _ _ _ _ _ _ _ rfl ha
        obtain ⟨s1, s2, s3, s4⟩ := hs
        exact ⟨by simp [s1], by simp [s3], ⟨fun h => absurd h s2, fun h => by rw [h] at s1; cases s1⟩,
          ⟨fun _ => s3, fun _ => s4⟩, fun _ => s3⟩
      · simpa [TWorld.own, hi, AVec.owned] using Ledger.Frame.alloc I.acc.wf
  | copyNew i j =>
    have hi := hn i rfl
    simp only [exec, execT, hi, Option.isNone_none, if_true]
    cases hj : w.objs j with
    | none => rw [none' hj]; exact rfl
    | some b =>
      rw [some' hj]
      simp only [Option.bind_some]
      show Agrees (Option.map _ (Vec.copyCtor N b.v w.heap)) _
      have okb : b.Ok := I.ok j b hj
      unfold Vec.copyCtor AVec.copyCtor
      cases hd : b.v.dataptr with
      | none =>
        refine ⟨_, rfl, erase_upd w i (some (.default N)) _ _, I.set i _ okDefault ?_⟩
        simpa [TWorld.own, hi, AVec.owned, AVec.default] using
          Ledger.Frame.refl (o := []) I.acc.wf (by simp) (by simp)
      | some l =>
        simp only
        have hav : b.v.avail ≠ 0 := fun h => by rw [okb.avail.1 h] at hd; cases hd
        have fr0 := Ledger.Frame.alloc I.acc.wf
        have O : Owns AVec.T w.arrays.alloc.2 ⟨{ Vec.default N with
            dataptr := some (List.replicate b.v.avail none), avail := b.v.avail, slotIdx := -1 },
            some w.arrays.alloc.1, none⟩ := by
          refine ⟨⟨rfl, rfl, by simp [hav], by simp [Vec.default], fun _ => rfl⟩, fr0.wf, by simp [AVec.T, AVec.owned],
            fun x hx => fr0.live x (by simpa [AVec.T, AVec.owned] using hx)⟩
        have s := AVec.assignAll_same (N := N) w.heap b.v O
        cases hf : Vec.assignAll N _ b.v w.heap with
        | none => rw [hf] at s; simp only [Same] at s; rw [s]; exact rfl
        | some r =>
          obtain ⟨v, h⟩ := r
          rw [hf] at s
          obtain ⟨a', L', e, e2, ok, fr⟩ := s
          rw [e]
          subst e2
          refine ⟨_, rfl, erase_upd w i (some a') h L', I.set i h ok ?_⟩
          have : w.own i = [] := by simp [TWorld.own, hi]
          rw [this]
          exact fr0.trans I.acc.wf (by simpa [AVec.T, AVec.owned] using fr)
  | moveNew i j =>
    have hi := hn i rfl
    simp only [exec, execT, hi, Option.isNone_none, if_true]
    cases hj : w.objs j with
    | none => rw [none' hj]; exact rfl
    | some b =>
      rw [some' hj]
      have okb : b.Ok := I.ok j b hj
      have hij : i ≠ j := by rintro rfl; rw [hi] at hj; cases hj
      refine ⟨_, rfl, ?_, ?_, ?_⟩
      · simp only [TWorld.erase, World.mk.injEq, and_true]
        funext k
        simp only [upd]
        split
        · rfl
        · split <;> rfl
      · intro k a ha
        by_cases hkj : k = j
        · subst hkj
          simp only [upd_same] at ha
          cases ha
          exact ⟨rfl, rfl, by simp [AVec.moveCtor, Vec.moveCtor], by simp [AVec.moveCtor, Vec.moveCtor], fun _ => rfl⟩
        · simp only [upd_ne _ _ hkj] at ha
          by_cases hk : k = i
          · subst hk
            simp only [upd_same] at ha
            cases ha
            exact okb
          · simp only [upd_ne _ _ hk] at ha
            exact I.ok k a ha
      · refine I.acc.move (i := i) (j := j) hij (by simp [TWorld.own, hi]) ?_ ?_ fun k hk hk' => ?_
        · simp only [TWorld.own, upd_ne _ _ hij, upd_same, hj]; rfl
        · simp only [TWorld.own, upd_same]; rfl
        · simp only [TWorld.own, upd_ne _ _ hk, upd_ne _ _ hk']
  | copyAssign i j =>
    simp only [exec, execT]
    cases hj : w.objs j with
    | none =>
      rw [none' hj]
      simp only [Option.bind_none, TWorld.on]
      cases w.objs i <;> cases w.erase.objs i <;> exact rfl
    | some b =>
      rw [some' hj]
      exact I.on i fun a ha => AVec.assignAll_same _ _ (I.owns ha)
  | moveAssign i j =>
    simp only [exec, execT]
    cases hi : w.objs i with
    | none => rw [none' hi]; exact rfl
    | some a =>
      rw [some' hi]
      simp only [Option.bind_some]
      cases hj : w.objs j with
      | none => rw [none' hj]; exact rfl
      | some b =>
        rw [some' hj]
        simp only [Option.bind_some, Vec.moveAssign, AVec.moveAssign, Option.map_map]
        rcases AVec.freeAll_same (N := N) w.heap (I.owns hi) with ⟨e1, e2⟩ | ⟨h', L', e1, e2, fr⟩
        · show Agrees (Option.map _ (Vec.freeAll N a.v w.heap)) _
          rw [e1, e2]; exact rfl
        · show Agrees (Option.map _ (Vec.freeAll N a.v w.heap)) _
          rw [e1, e2]
          have okb : b.Ok := I.ok j b hj
          refine ⟨_, rfl, ?_, ?_, ?_⟩
          · simp only [TWorld.erase, World.mk.injEq, and_true]
            funext k
            simp only [upd]
            split
            · rfl
            · split <;> rfl
          · intro k c hc
            simp only at hc
            by_cases hkj : k = j
            · subst hkj
              simp only [upd_same] at hc
              cases hc
              exact ⟨rfl, rfl, by simp, by simp, fun _ => rfl⟩
            · simp only [upd_ne _ _ hkj] at hc
              by_cases hk : k = i
              · subst hk
                simp only [upd_same] at hc
                cases hc
                exact okb
              · simp only [upd_ne _ _ hk] at hc
                exact I.ok k c hc
          · simp only
            -- first the target's arrays are gone
            have C1 : Account L' fun k => if k = i then [] else w.own k :=
              I.acc.update i (by simpa [TWorld.own, hi] using fr) fun k hk => by simp [hk]
            by_cases hij : i = j
            · subst hij
              have : TWorld.own (⟨upd (upd w.objs i (some b)) i (some ⟨{ b.v with freeblocks := none, freeAvail := 0, avail := 0, dataptr := none }, none, none⟩), h', L'⟩ : TWorld X) = fun k => if k = i then [] else w.own k := ?_
              · exact this ▸ C1
              funext k
              by_cases hk : k = i
              · subst hk; simp [TWorld.own, upd, AVec.owned]
              · simp [TWorld.own, upd, hk]
            · refine C1.move (i := i) (j := j) hij (by simp) ?_ ?_ fun k hk hk' => ?_
              · simp only [TWorld.own, upd_ne _ _ hij, upd_same, hj]; rw [if_neg (Ne.symm hij)]
              · simp only [TWorld.own, upd_same]; rfl
              · simp only [TWorld.own, upd_ne _ _ hk, upd_ne _ _ hk']; rw [if_neg hk]
  | destroy i =>
    simp only [exec, execT]
    cases hi : w.objs i with
    | none => rw [none' hi]; exact rfl
    | some a =>
      rw [some' hi]
      simp only [Option.bind_some]
      rcases AVec.freeAll_same (N := N) w.heap (I.owns hi) with ⟨e1, e2⟩ | ⟨h', L', e1, e2, fr⟩
      · show Agrees (Option.map _ (Vec.freeAll N a.v w.heap)) _
        rw [e1, e2]; exact rfl
      · show Agrees (Option.map _ (Vec.freeAll N a.v w.heap)) _
        rw [e1, e2]
        refine ⟨_, rfl, erase_upd w i none _ _, fun k c hc => ?_, I.acc.update i ?_ fun k hk => ?_⟩
        · by_cases hk : k = i
          · subst hk; simp only [upd_same] at hc; cases hc
          · simp only [upd_ne _ _ hk] at hc; exact I.ok k c hc
        · simpa [TWorld.own, hi, upd] using fr
        · simp [TWorld.own, upd, hk]
  | push i x => exact I.on i fun a ha => AVec.pushBack_same _ _ (I.owns ha)
  | pop i => exact I.on i fun a ha => AVec.popBack_same _ (I.owns ha)
  | assign i xs => exact I.on i fun a ha => AVec.assignFrom_same _ _ _ _ (I.owns ha)
  | assignRange i j lo hi =>
    simp only [exec, execT]
    cases hj : w.objs j with
    | none =>
      rw [none' hj]
      simp only [Option.bind_none, TWorld.on]
      cases w.objs i <;> cases w.erase.objs i <;> exact rfl
    | some b =>
      rw [some' hj]
      exact I.on i fun a ha => AVec.assignSub_same _ _ _ _ _ (I.owns ha)
  | moveRange i j lo hi left =>
    simp only [exec, execT]
    cases hj : w.objs j with
    | none =>
      rw [none' hj]
      simp only [Option.bind_none, TWorld.on]
      cases w.objs i <;> cases w.erase.objs i <;> exact rfl
    | some b =>
      rw [some' hj]
      exact I.on i fun a ha => AVec.assignSub_same _ _ _ _ _ (I.owns ha)
  | clear i => exact I.on i fun a ha => AVec.clear_same _ (I.owns ha)
  | shrink i => exact I.on i fun a ha => AVec.shrink_same _ (I.owns ha)
  | set i k x =>
    simp only [execT]
    cases he : exec N w.erase (.set i k x) with
    | none => exact rfl
    | some r =>
      simp only [exec, Option.bind_eq_some_iff, Option.map_eq_some_iff] at he
      obtain ⟨v, hv, h, hh, he⟩ := he
      cases he
      exact ⟨_, rfl, rfl, ⟨I.ok, I.acc⟩⟩
  | size i =>
    exact I.read fun r h => by
      simp only [exec, Option.map_eq_some_iff] at h
      obtain ⟨_, _, h⟩ := h; cases h; rfl
  | empty i =>
    exact I.read fun r h => by
      simp only [exec, Option.map_eq_some_iff] at h
      obtain ⟨_, _, h⟩ := h; cases h; rfl
  | get i k =>
    exact I.read fun r h => by
      simp only [exec, Option.bind_eq_some_iff, Option.map_eq_some_iff] at h
      obtain ⟨_, _, _, _, h⟩ := h; cases h; rfl
  | «at» i k =>
    exact I.read fun r h => by
      simp only [exec, Option.bind_eq_some_iff, Option.map_eq_some_iff] at h
      obtain ⟨_, _, o, _, h⟩ := h; cases o <;> cases h <;> rfl
  | front i =>
    exact I.read fun r h => by
      simp only [exec, Option.bind_eq_some_iff, Option.map_eq_some_iff] at h
      obtain ⟨_, _, _, _, h⟩ := h; cases h; rfl
  | back i =>
    exact I.read fun r h => by
      simp only [exec, Option.bind_eq_some_iff, Option.map_eq_some_iff] at h
      obtain ⟨_, _, _, _, h⟩ := h; cases h; rfl
  | iterate i =>
    exact I.read fun r h => by
      simp only [exec, Option.bind_eq_some_iff, Option.map_eq_some_iff] at h
      obtain ⟨_, _, _, _, h⟩ := h; cases h; rfl

/-- A call that works declares no name in use. -/
theorem execT_declares {w : TWorld X} {op : Op X} {r : TWorld X × Obs X} (h : execT N w op = some r) :
    ∀ i, op.declares = some i → w.objs i = none := by
  intro i hi
  cases op <;> simp only [Op.declares, Option.some.injEq, reduceCtorEq] at hi <;> subst hi <;>
    simp only [execT] at h <;> split at h <;> first | (rename_i h0; simpa using h0) | cases h

theorem TWorld.on_objs {w : TWorld X} {i : Nat} {g : AVec → Option (AVec × Heap X × Ledger)} {r : TWorld X × Obs X}
    (h : w.on i g = some r) : ∀ k, w.objs k = none → r.1.objs k = none := by
  intro k hk
  simp only [TWorld.on, Option.bind_eq_some_iff, Option.map_eq_some_iff] at h
  obtain ⟨a, ha, q, hq, h⟩ := h
  cases h
  have : k ≠ i := by rintro rfl; rw [hk] at ha; cases ha
  simp only [upd_ne _ _ this, hk]

/-- The names in use after a call. -/
theorem execT_names {w : TWorld X} {op : Op X} {r : TWorld X × Obs X} (h : execT N w op = some r) :
    ∀ k, (w.objs k = none ∧ op.declares ≠ some k) ∨ op = .destroy k → r.1.objs k = none := by
  intro k hk
  have up : ∀ {o : Nat → Option AVec} {i : Nat} {a : Option AVec}, o k = none → i ≠ k → upd o i a k = none := by
    intro o i a h1 h2; rw [upd_ne _ _ (Ne.symm h2)]; exact h1
  cases op <;> simp only [Op.declares, ne_eq, Option.some.injEq, reduceCtorEq, or_false, not_false_eq_true,
    and_true, Op.destroy.injEq] at hk <;> simp only [execT] at h
  case new i => split at h <;> cases h; exact up hk.1 hk.2
  case newSize i n x =>
    split at h
    · simp only [Option.map_eq_some_iff] at h
      obtain ⟨q, _, h⟩ := h; cases h; exact up hk.1 hk.2
    · cases h
  case copyNew i j =>
    split at h
    · simp only [Option.bind_eq_some_iff, Option.map_eq_some_iff] at h
      obtain ⟨b, _, q, _, h⟩ := h; cases h; exact up hk.1 hk.2
    · cases h
  case moveNew i j =>
    split at h
    · simp only [Option.map_eq_some_iff] at h
      obtain ⟨b, hb, h⟩ := h; cases h
      have hj : j ≠ k := by rintro rfl; rw [hk.1] at hb; cases hb
      exact up (up hk.1 hk.2) hj
    · cases h
  case moveAssign i j =>
    simp only [Option.bind_eq_some_iff, Option.map_eq_some_iff] at h
    obtain ⟨a, ha, b, hb, q, _, h⟩ := h; cases h
    have hj : j ≠ k := by rintro rfl; rw [hk] at hb; cases hb
    have hi : i ≠ k := by rintro rfl; rw [hk] at ha; cases ha
    exact up (up hk hi) hj
  case destroy i =>
    simp only [Option.bind_eq_some_iff, Option.map_eq_some_iff] at h
    obtain ⟨a, ha, q, _, h⟩ := h; cases h
    by_cases hik : i = k
    · subst hik; exact upd_same _ _ _
    · exact up (hk.resolve_right hik) hik
  case set i k x =>
    simp only [Option.map_eq_some_iff] at h
    obtain ⟨q, _, h⟩ := h; cases h; exact hk
  all_goals first
    | exact TWorld.on_objs h _ hk
    | (simp only [Option.map_eq_some_iff] at h; obtain ⟨q, _, h⟩ := h; cases h; exact hk)

/-- A program that works without the account of arrays works with it. -/
theorem runT_of_run (ops : List (Op X)) : ∀ {w : TWorld X} {used : Nat → Bool}, TInv w →
    (∀ i, used i = false → w.objs i = none) → namesOk used ops = true →
    ∀ r, run N w.erase ops = some r → ∃ w', runT N w ops = some (w', r.2) ∧ w'.erase = r.1 := by
  induction ops with
  | nil => intro w used I hu hn r h; cases h; exact ⟨w, rfl, rfl⟩
  | cons op ops ih =>
    intro w used I hu hn r h
    simp only [run, Option.bind_eq_some_iff, Option.map_eq_some_iff] at h
    obtain ⟨⟨w1, o⟩, h1, ⟨w2, os⟩, h2, h3⟩ := h
    cases h3
    have hd : ∀ i, op.declares = some i → w.objs i = none := by
      intro i hi
      simp only [namesOk, hi, Bool.and_eq_true, Bool.not_eq_true'] at hn
      exact hu i hn.1
    have A := execT_agrees (N := N) I op hd
    rw [h1] at A
    obtain ⟨w1', e, e2, I'⟩ := A
    subst e2
    have nm := execT_names e
    have fin : ∃ used', (∀ i, used' i = false → w1'.objs i = none) ∧ namesOk used' ops = true := by
      cases hop : op.declares with
      | some i =>
        simp only [namesOk, hop, Bool.and_eq_true] at hn
        refine ⟨_, fun k hk => ?_, hn.2⟩
        simp only [Bool.or_eq_false_iff, beq_eq_false_iff_ne] at hk
        exact nm k (.inl ⟨hu k hk.2, by rw [hop]; simpa using Ne.symm hk.1⟩)
      | none =>
        by_cases hdes : ∃ i, op = .destroy i
        · obtain ⟨i, rfl⟩ := hdes
          simp only [namesOk, hop] at hn
          refine ⟨_, fun k hk => ?_, hn⟩
          simp only [Bool.and_eq_false_iff, bne_eq_false_iff_eq] at hk
          rcases hk with rfl | hk
          · exact nm k (.inr rfl)
          · exact nm k (.inl ⟨hu k hk, by rw [hop]; simp⟩)
        · refine ⟨used, fun k hk => nm k (.inl ⟨hu k hk, by rw [hop]; simp⟩), ?_⟩
          cases op <;> simp only [namesOk, Op.declares, reduceCtorEq] at hn hop ⊢ <;> first
            | exact hn
            | exact absurd ⟨_, rfl⟩ hdes
    obtain ⟨used', hu', hn'⟩ := fin
    obtain ⟨w', e', e2'⟩ := ih I' hu' hn' _ h2
    exact ⟨w', by simp [runT, e, e'], e2'⟩

/-- ... and conversely; the account is right at the end. -/
theorem run_of_runT (ops : List (Op X)) : ∀ {w : TWorld X}, TInv w → ∀ r, runT N w ops = some r →
    run N w.erase ops = some (r.1.erase, r.2) ∧ TInv r.1 := by
  induction ops with
  | nil => intro w I r h; cases h; exact ⟨rfl, I⟩
  | cons op ops ih =>
    intro w I r h
    simp only [runT, Option.bind_eq_some_iff, Option.map_eq_some_iff] at h
    obtain ⟨⟨w1, o⟩, h1, ⟨w2, os⟩, h2, h3⟩ := h
    cases h3
    have A := execT_agrees (N := N) I op (execT_declares h1)
    rw [h1] at A
    cases he : exec N w.erase op with
    | none => rw [he] at A; cases A
    | some q =>
      obtain ⟨w0, o0⟩ := q
      rw [he] at A
      obtain ⟨w1', e, e2, I'⟩ := A
      cases e
      subst e2
      obtain ⟨e3, I2⟩ := ih I' _ h2
      exact ⟨by simp [run, he, e3], I2⟩

/-! ## C107 -/

/-- No array is deleted that does not exist: a program (that declares no name twice) in which the code has no other
undefined behaviour runs with the account of arrays, with the same answers and effects. -/
theorem arrays_no_double_delete (N : Nat) (ops : List (Op X)) (hn : namesOk (fun _ => false) ops = true)
    (w : World X) (obs : List (Obs X)) (h : run N World.empty ops = some (w, obs)) :
    ∃ w', runT N TWorld.empty ops = some (w', obs) ∧ w'.erase = w :=
  runT_of_run ops TInv.empty (fun _ _ => rfl) hn _ h

/-- The account changes nothing: what runs with it runs without it in the same way. -/
theorem arrays_faithful (N : Nat) (ops : List (Op X)) (w : TWorld X) (obs : List (Obs X))
    (h : runT N TWorld.empty ops = some (w, obs)) : run N World.empty ops = some (w.erase, obs) :=
  (run_of_runT ops TInv.empty _ h).1

/-- No array is leaked or shared: at every moment of every program each array that exists belongs to exactly one
object, and each pointer of an object is to an array that exists. -/
theorem arrays_owned (N : Nat) (ops : List (Op X)) (w : TWorld X) (obs : List (Obs X))
    (h : runT N TWorld.empty ops = some (w, obs)) :
    (∀ x, x ∈ w.arrays.live ↔ ∃ i a, w.objs i = some a ∧ (a.d = some x ∨ a.f = some x)) ∧
    (∀ x i j a b, w.objs i = some a → w.objs j = some b → (a.d = some x ∨ a.f = some x) →
      (b.d = some x ∨ b.f = some x) → i = j) ∧
    (∀ x i a, w.objs i = some a → a.d = some x → a.f ≠ some x) := by
  have I := (run_of_runT ops TInv.empty _ h).2
  have mem : ∀ {x i a}, w.objs i = some a → (x ∈ w.own i ↔ a.d = some x ∨ a.f = some x) := by
    intro x i a hi
    simp [TWorld.own, hi, AVec.owned]
  refine ⟨fun x => ?_, fun x i j a b hi hj ha hb => ?_, fun x i a hi hd hf => ?_⟩
  · rw [I.acc.live]
    constructor
    · rintro ⟨i, hx⟩
      cases hi : w.objs i with
      | none => simp [TWorld.own, hi] at hx
      | some a => exact ⟨i, a, hi, (mem hi).1 hx⟩
    · rintro ⟨i, a, hi, hx⟩
      exact ⟨i, (mem hi).2 hx⟩
  · by_cases hij : i = j
    · exact hij
    · exact absurd ((mem hj).2 hb) (I.acc.disj i j hij x ((mem hi).2 ha))
  · have nd := (I.owns hi).nodup
    exact (List.nodup_append.1 nd).2.2 x (by simp [hd]) x (by simp [hf]) rfl

/-- When all objects are destroyed no array is left. -/
theorem arrays_no_leak (N : Nat) (ops : List (Op X)) (w : TWorld X) (obs : List (Obs X))
    (h : runT N TWorld.empty ops = some (w, obs)) (hall : ∀ i, w.objs i = none) : w.arrays.live = [] := by
  refine List.eq_nil_iff_forall_not_mem.2 fun x hx => ?_
  obtain ⟨i, a, hi, _⟩ := ((arrays_owned N ops w obs h).1 x).1 hx
  rw [hall i] at hi; cases hi

theorem upd_isSome {α : Type} (w : Nat → Option α) (i : Nat) (a : Option α) (k : Nat) :
    (upd w i a k).isSome = if k = i then a.isSome else (w k).isSome := by
  simp only [upd]; split <;> rfl

/-- the object a call destroys -/
def Op.destroys : Op X → Option Nat
  | .destroy i => some i
  | _ => none

/-- The names in use after a call that is meaningful for sequences. -/
theorem ideal_names {aw : AWorld X} {op : Op X} {r : AWorld X × Obs X} (h : ideal N aw op = some r) :
    (∀ i, op.declares = some i → aw i = none ∧ ∀ k, (r.1 k).isSome = (k == i || (aw k).isSome)) ∧
    (op.declares = none → ∀ k, (r.1 k).isSome = (op.destroys != some k && (aw k).isSome)) := by
  have up : ∀ {i : Nat} {a : AObj X} {b : AObj X}, aw i = some b →
      ∀ k, (upd aw i (some a) k).isSome = (aw k).isSome := by
    intro i a b hb k
    rw [upd_isSome]; split
    · rename_i e; rw [e, hb]; rfl
    · rfl
  have new : ∀ {i : Nat} (a : AObj X) (k : Nat), (upd aw i (some a) k).isSome = (k == i || (aw k).isSome) := by
    intro i a k
    rw [upd_isSome]; split
    · rename_i e; simp [e]
    · rename_i e; simp [e]
  cases op <;> simp only [Op.declares, Op.destroys, Option.some.injEq, reduceCtorEq, false_implies, implies_true,
    true_and, and_true, forall_eq', forall_true_left] <;> simp only [ideal] at h
  case new i =>
    split at h <;> cases h
    rename_i h0
    exact ⟨by simpa using h0, new _⟩
  case newSize i n x =>
    split at h <;> cases h
    rename_i h0
    exact ⟨by simpa using h0, new _⟩
  case copyNew i j =>
    split at h
    · rename_i h0
      simp only [Option.map_eq_some_iff] at h
      obtain ⟨b, hb, h⟩ := h; cases h
      exact ⟨by simpa using h0, new _⟩
    · cases h
  case moveNew i j =>
    split at h
    · rename_i h0
      simp only [Option.map_eq_some_iff] at h
      obtain ⟨b, hb, h⟩ := h; cases h
      refine ⟨by simpa using h0, fun k => ?_⟩
      rw [upd_isSome, new]
      split
      · rename_i e; simp [e, hb]
      · rfl
    · cases h
  case moveAssign i j =>
    split at h
    · cases h
    · simp only [Option.bind_eq_some_iff, Option.map_eq_some_iff] at h
      obtain ⟨a, ha, b, hb, h⟩ := h; cases h
      intro k
      rw [upd_isSome, up ha]
      split
      · rename_i e; simp [e, hb]
      · simp
  case destroy i =>
    simp only [Option.map_eq_some_iff] at h
    obtain ⟨a, ha, h⟩ := h; cases h
    intro k
    rw [upd_isSome]
    split
    · rename_i e; simp [e]
    · rename_i e; simp [Ne.symm e]
  case moveRange i j lo hi left =>
    simp only [Option.bind_eq_some_iff] at h
    obtain ⟨a, ha, b, hb, h⟩ := h
    split at h
    · split at h
      · split at h <;> cases h
        intro k; rw [up ha]; simp
      · cases h
        intro k
        rw [upd_isSome, up ha]
        split
        · rename_i e; simp [e, hb]
        · simp
    · cases h
  case assignRange i j lo hi =>
    simp only [Option.bind_eq_some_iff] at h
    obtain ⟨a, ha, b, hb, h⟩ := h
    split at h <;> cases h
    intro k; rw [up ha]; simp
  case copyAssign i j =>
    simp only [Option.bind_eq_some_iff, Option.map_eq_some_iff] at h
    obtain ⟨a, ha, b, hb, h⟩ := h; cases h
    intro k; rw [up ha]; simp
  case set i l x =>
    simp only [Option.bind_eq_some_iff] at h
    obtain ⟨a, ha, h⟩ := h
    split at h <;> cases h
    intro k; rw [up ha]; simp
  case get i l =>
    simp only [Option.bind_eq_some_iff, Option.map_eq_some_iff] at h
    obtain ⟨a, ha, x, hx, h⟩ := h; cases h; simp
  case front i =>
    simp only [Option.bind_eq_some_iff, Option.map_eq_some_iff] at h
    obtain ⟨a, ha, x, hx, h⟩ := h; cases h; simp
  case back i =>
    simp only [Option.bind_eq_some_iff, Option.map_eq_some_iff] at h
    obtain ⟨a, ha, x, hx, h⟩ := h; cases h; simp
  all_goals
    simp only [Option.map_eq_some_iff] at h
    obtain ⟨a, ha, h⟩ := h; cases h
    first
      | (intro k; rw [up ha]; simp; done)
      | (intro k; simp; done)

/-- The names of programs that are meaningful for sequences are in order. -/
theorem ideal_namesOk (ops : List (Op X)) : ∀ {aw : AWorld X} {used : Nat → Bool},
    (∀ i, used i = (aw i).isSome) → ∀ r, idealRun N aw ops = some r → namesOk used ops = true := by
  induction ops with
  | nil => intros; rfl
  | cons op ops ih =>
    intro aw used hu r h
    simp only [idealRun, Option.bind_eq_some_iff, Option.map_eq_some_iff] at h
    obtain ⟨⟨aw1, o⟩, h1, ⟨aw2, os⟩, h2, h3⟩ := h
    have nm := ideal_names h1
    cases hop : op.declares with
    | some i =>
      obtain ⟨hi, hk⟩ := nm.1 i hop
      simp only [namesOk, hop, hu i, hi, Option.isSome_none, Bool.not_false, Bool.true_and]
      exact ih (fun k => by rw [hk k, hu k]) _ h2
    | none =>
      have hk := nm.2 hop
      by_cases hdes : ∃ i, op = .destroy i
      · obtain ⟨i, rfl⟩ := hdes
        simp only [namesOk, hop]
        refine ih (fun k => ?_) _ h2
        rw [hk k, hu k]
        by_cases hki : k = i
        · simp [hki, Op.destroys]
        · have a1 : ((Op.destroy i : Op X).destroys != some k) = true :=
            bne_iff_ne.2 (by simpa [Op.destroys] using Ne.symm hki)
          have a2 : (k != i) = true := bne_iff_ne.2 hki
          rw [a1, a2]
      · have : namesOk used ops = true := by
          refine ih (fun k => ?_) _ h2
          rw [hk k, hu k]
          have : op.destroys = none := by
            cases op <;> first | rfl | exact absurd ⟨_, rfl⟩ hdes
          simp [this]
        cases op <;> simp only [namesOk, Op.declares, reduceCtorEq] at hop ⊢ <;> first
          | exact this
          | exact absurd ⟨_, rfl⟩ hdes

/-- Vectors that outgrow their arrays are assigned, copied, moved (also over one another) and destroyed; blocks of one
element, so that 65 elements need a second array. -/
def arrayDemo : List (Op Nat) :=
  [.new 0, .assign 0 (List.replicate 66 3), .copyNew 1 0, .pop 0, .pop 0, .moveNew 2 0, .clear 1, .push 1 5,
   .newSize 3 4 1, .moveAssign 3 1, .moveAssign 1 2, .size 1, .destroy 0, .destroy 2]

set_option maxRecDepth 100000 in
example : namesOk (fun _ => false) arrayDemo = true ∧
    (run 0 World.empty arrayDemo).map (·.2.getLast?) = some (some .done) ∧
    (runT 0 TWorld.empty arrayDemo).map (fun r => (r.1.arrays.live.length, r.1.arrays.next)) = some (4, 7) ∧
    (runT 0 TWorld.empty (arrayDemo ++ [.destroy 1, .destroy 3])).map (·.1.arrays.live) = some [] := by decide

/-- With C17-C21: programs that keep to the calls the code handles never misuse an array and answer as sequences do. -/
theorem careful_arrays (N : Nat) (ops : List (Op X)) (aw : AWorld X) (obs : List (Obs X))
    (h : idealRun N noObjs ops = some (aw, obs)) (hc : carefulRun N noObjs ops = true) :
    ∃ w, runT N TWorld.empty ops = some (w, obs) ∧ ((∀ i, aw i = none) → w.arrays.live = []) := by
  obtain ⟨w, us, fs, e, W⟩ := runs ops World.empty noObjs _ _ WInv.empty aw obs h hc
  obtain ⟨w', e', e2⟩ := arrays_no_double_delete N ops (ideal_namesOk ops (fun _ => rfl) _ h) w obs e
  refine ⟨w', e', fun hall => arrays_no_leak N ops w' obs e' fun i => ?_⟩
  have r := W.rep i
  rw [hall i] at r
  have : w.objs i = none := by
    cases ho : w.objs i with
    | none => rfl
    | some v => rw [ho] at r; exact r.elim
  rw [← e2] at this
  simpa [TWorld.erase] using this

example : carefulRun 1 noObjs demo = true ∧ (idealRun 1 noObjs demo).isSome = true := by decide

end Verif.Block.Vector
