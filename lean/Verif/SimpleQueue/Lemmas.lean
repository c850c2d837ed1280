import Verif.Conc.Sim
import Verif.SimpleQueue.Spec

/-
Helper lemmas for SimpleQueue: the simulation relation and its preservation.
-/
namespace Verif.SimpleQueue
open Verif.Conc

variable {α : Type}

/-- Does a thread at this position hold m_pullLock? -/
def holdsPull : Loc α → Bool
  | .pTestPull _ | .pPull _ | .pFlag _ | .pUnPull _ | .pLock2 _ | .pUnPull2 _ | .oCheck _ _ | .oFlag _ | .oBack _ | .oPop _
  | .oUnPull _ | .pUnPullX | .oUnPullX | .kTest _ | .kBack _ | .kUnPull _ | .kUnPullX | .sLock2 | .sPull | .sPush _ | .sUn1 _ | .sUn2 _ | .cLock2 | .cPull | .cPush
  | .cFlag | .cUn1 | .cUn2 | .rLock2 | .rPull | .rPush | .rUn1 | .rUn2 | .aLock2 _ | .aPush _ | .aPull _ | .aFlag _ | .aUn1 | .aUn2 | .crash => true
  | _ => false

/-- Does a thread at this position hold m_pushLock? -/
def holdsPush : Loc α → Bool
  | .pTest _ | .pUnlock _ | .pUnPull2 _ | .pAppend _ | .pUnPush _ | .pUnPushX | .oCheck .testPush _ | .oCheck .swap _
  | .oCheck .unlockSwap _ | .oCheck .setFlag _ | .oCheck .unlockFlag _ | .sPull | .sPush _ | .sUn1 _ | .cPull | .cPush
  | .cFlag | .cUn1 | .rPull | .rPush | .rUn1 | .aPush _ | .aPull _ | .aFlag _ | .aUn1 => true
  | _ => false

/-- Is the thread about to append to pushElements? -/
def isAppend : Loc α → Bool
  | .pAppend _ => true
  | _ => false

/-- the pop that throws, or not, when it finds an element -/
def popOp : Bool → Op α
  | false => .pop
  | true => .popX

/-- the peek that throws, or not, when it finds an element -/
def peekOp : Bool → Op α
  | false => .peek
  | true => .peekX

/-- The state of the call of a thread at this position: where calls take effect.  `flag`: queueEmptyFlag, needed at 203. -/
def status (flag : Bool) : Loc α → Status (Op α) (Out α)
  | .idle => .idle
  | .pLock i | .pTest i | .pUnlock i | .pLockPull i | .pTestPull i | .pPull i | .pFlag i | .pLock2 i | .pUnPull2 i
  | .pAppend i => .pending (.ins i)
  | .pUnPull _ | .pUnPush _ => .done .unit
  | .pUnPullX | .pUnPushX | .oUnPullX | .kUnPullX => .done .threw
  | .oCheck .unlockSwap (.inr x) | .oCheck .reverse (.inr x) | .oCheck .unlockFlag (.inr x) => .done (.val (some x))
  | .oCheck .unlockFlag (.inl _) => .done (.val none)
  | .oFlag x => if flag then .done (.val none) else .pending (popOp x)
  | .oCheck _ (.inl x) => .pending (popOp x)
  | .oLock x | .oBack x => .pending (popOp x)
  | .oCheck _ _ | .oPop _ => .pending .pop
  | .oUnPull r => .done (.val r)
  | .kLock x | .kTest x | .kBack x => .pending (peekOp x)
  | .kUnPull r => .done (.val r)
  | .sLock1 | .sLock2 | .sPull | .sPush _ => .pending .size
  | .sUn1 n | .sUn2 n => .done (.num n)
  | .cLock1 | .cLock2 | .cPull | .cPush | .cFlag => .pending .clear
  | .cUn1 | .cUn2 => .done .unit
  | .rLock1 | .rLock2 | .rPull | .rPush => .pending .reserve
  | .rUn1 | .rUn2 => .done .unit
  | .aLock1 v | .aLock2 v | .aPush v | .aPull v | .aFlag v => .pending (.assign v)
  | .aUn1 | .aUn2 => .done .unit
  | .eRead => .pending .empty
  | .ret o => .done o
  | .crash => .idle

theorem status_flag {l : Loc α} (h : holdsPull l = false) (f f' : Bool) : status f l = status f' l := by
  cases l <;> first | rfl | cases h

/-- The usual relation of the members to the contents `q` and the mark `z` left by pushVector of an empty vector; `a`:
some thread is about to append to pushElements. -/
def Normal (pull push : List α) (flag a : Bool) (q : List α) (z : Bool) : Prop :=
  q = pull.reverse ++ push ∧ (pull = [] → push = [] ∧ a = false) ∧ flag = (pull.isEmpty && !z)

/-- the value has been moved out, the check is not done -/
def Mid (pull push : List α) (flag : Bool) (x : α) (q : List α) : Prop :=
  q = x :: (pull.reverse ++ push) ∧ flag = false

/-- swapped, not reversed -/
def Swapped (pull push : List α) (flag : Bool) (q : List α) : Prop := q = pull ++ push ∧ pull ≠ [] ∧ flag = false

/-- being cleared or assigned -/
def Clearing (flag a : Bool) (q : List α) (z : Bool) : Prop := flag = (q.isEmpty && !z) ∧ a = false

/-- The relation of the members to the contents, depending on the position of the holder of m_pullLock. -/
def Data (pull push : List α) (flag a : Bool) (q : List α) (z : Bool) : Option (Loc α) → Prop
  | some (.pPull _) => Normal pull push flag a q z ∧ pull = []
  | some (.pFlag i) => pull = i.vals.reverse ∧ push = [] ∧ a = false ∧ q = [] ∧ flag = (!z) ∧ i.throws = false
  | some (.pLock2 _) => Normal pull push flag a q z ∧ pull ≠ []
  | some (.pUnPull2 _) => Normal pull push flag a q z ∧ pull ≠ [] ∧ a = false
  | some (.oCheck .lock (.inl _)) => Normal pull push flag a q z ∧ pull = []
  | some (.oCheck .testPush (.inl _)) => Normal pull push flag a q z ∧ pull = []
  | some (.oCheck .setFlag (.inl _)) => Normal pull push flag a q z ∧ pull = []
  | some (.oCheck .unlockFlag (.inl _)) => Normal pull push flag a q z ∧ pull = [] ∧ flag = true
  | some (.oCheck .swap (.inl _)) => False
  | some (.oCheck .unlockSwap (.inl _)) => False
  | some (.oCheck .reverse (.inl _)) => False
  | some (.oFlag _) => Normal pull push flag a q z ∧ (pull = [] → flag = true)
  | some (.oBack _) => Normal pull push flag a q z ∧ pull ≠ []
  | some (.oPop x) => Normal pull push flag a q z ∧ ∃ rest, pull = rest ++ [x]
  | some (.oCheck .test (.inr x)) => Mid pull push flag x q
  | some (.oCheck .lock (.inr x)) => Mid pull push flag x q ∧ pull = []
  | some (.oCheck .testPush (.inr x)) => Mid pull push flag x q ∧ pull = [] ∧ a = false
  | some (.oCheck .swap (.inr x)) => Mid pull push flag x q ∧ pull = [] ∧ push ≠ [] ∧ a = false
  | some (.oCheck .setFlag (.inr x)) => Mid pull push flag x q ∧ pull = [] ∧ push = [] ∧ a = false
  | some (.oCheck .unlockFlag (.inr _)) => Normal pull push flag a q z ∧ pull = []
  | some (.oCheck .unlockSwap (.inr _)) => Swapped pull push flag q ∧ a = false
  | some (.oCheck .reverse (.inr _)) => Swapped pull push flag q
  | some (.kBack _) => Normal pull push flag a q z ∧ pull ≠ []
  | some (.sPush n) => Normal pull push flag a q z ∧ n = pull.length
  | some .cPush => Clearing flag a q z ∧ pull = []
  | some .cFlag => Clearing flag a q z ∧ pull = [] ∧ push = []
  | some (.aPull v) => Clearing flag a q z ∧ push = v.1.1
  | some (.aFlag v) => Clearing flag a q z ∧ push = v.1.1 ∧ pull = v.1.2
  | some .crash => False
  | _ => Normal pull push flag a q z

/-- position of the holder of m_pullLock -/
def State.puller (s : State α) : Option (Loc α) := s.pullOwner.map s.loc

/-- some thread is about to append to pushElements -/
def State.appending (s : State α) : Bool := match s.pushOwner with | some t => isAppend (s.loc t) | none => false

/-- The locks are held by the threads whose position says so. -/
structure Locks (s : State α) : Prop where
  pull : ∀ t, holdsPull (s.loc t) = true ↔ s.pullOwner = some t
  push : ∀ t, holdsPush (s.loc t) = true ↔ s.pushOwner = some t

/-- the simulation relation -/
structure R (s : State α) (g : Ghost (List α × Bool) (Op α) (Out α)) : Prop where
  locks : Locks s
  status : ∀ t, g.st t = status s.flag (s.loc t)
  data : Data s.pull s.push s.flag s.appending g.q.1 g.q.2 s.puller

section
variable {s s' : State α} {t : Nat} {l l' : Loc α}

theorem Locks.puller_eq (k : Locks s) (hl : s.loc t = l) (h : holdsPull l = true) : s.puller = some l := by
  have := (k.pull t).1 (by rw [hl]; exact h)
  simp only [State.puller, this, Option.map_some, hl]

theorem Locks.appending_eq (k : Locks s) (hl : s.loc t = l) (h : holdsPush l = true) : s.appending = isAppend l := by
  have := (k.push t).1 (by rw [hl]; exact h)
  simp only [State.appending, this, hl]

theorem puller_none (h : s.pullOwner = none) : s.puller = none := by simp [State.puller, h]

theorem appending_none (h : s.pushOwner = none) : s.appending = false := by simp [State.appending, h]

/-- a holder of m_pullLock does not hold m_pushLock when another thread, or nobody, does -/
theorem Locks.other (k : Locks s) (h : s.pushOwner = none ∨ (s.pushOwner = some t ∧ s.pullOwner ≠ some t)) {lo : Loc α}
    (ho : s.puller = some lo) : holdsPush lo = false := by
  simp only [State.puller, Option.map_eq_some_iff] at ho
  obtain ⟨u, h1, h2⟩ := ho
  cases hb : holdsPush lo with
  | false => rfl
  | true =>
    have := (k.push u).1 (by rw [h2]; exact hb)
    rcases h with h | ⟨h, h'⟩
    · rw [h] at this; cases this
    · rw [h] at this; cases this; exact absurd h1 h'

/-- a step changes the locks only as its position says -/
structure LockStep (s s' : State α) (t : Nat) (l l' : Loc α) : Prop where
  loc : s'.loc = upd s.loc t l'
  pull : s'.pullOwner = if holdsPull l' then some t else if holdsPull l then none else s.pullOwner
  pullFree : holdsPull l' = true → holdsPull l = true ∨ s.pullOwner = none
  push : s'.pushOwner = if holdsPush l' then some t else if holdsPush l then none else s.pushOwner
  pushFree : holdsPush l' = true → holdsPush l = true ∨ s.pushOwner = none

theorem owner_step {h : Loc α → Bool} {own own' : Option Nat} {loc : Nat → Loc α} (k : ∀ t, h (loc t) = true ↔ own = some t)
    (hl : loc t = l) (e : own' = if h l' then some t else if h l then none else own)
    (f : h l' = true → h l = true ∨ own = none) : ∀ u, h (upd loc t l' u) = true ↔ own' = some u := by
  intro u
  have kt := k t
  rw [hl] at kt
  by_cases hu : u = t
  · subst hu
    rw [upd_same, e]
    cases h1 : h l' with
    | true => simp
    | false =>
      cases h2 : h l with
      | true => simp
      | false =>
        simp only [Bool.false_eq_true, if_false, false_iff]
        intro h3; rw [← kt, h2] at h3; cases h3
  · rw [upd_ne _ _ hu, k u, e]
    cases h1 : h l' with
    | true =>
      simp only [if_true, Option.some.injEq]
      constructor
      · intro h3
        rcases f h1 with h4 | h4
        · rw [kt.1 h4] at h3; cases h3; exact absurd rfl hu
        · rw [h4] at h3; cases h3
      · intro h3; exact absurd h3.symm hu
    | false =>
      cases h2 : h l with
      | true =>
        simp only [Bool.false_eq_true, if_false, if_true]
        constructor
        · intro h3; rw [kt.1 h2] at h3; cases h3; exact absurd rfl hu
        · intro h3; cases h3
      | false => simp

theorem Locks.step (k : Locks s) (hl : s.loc t = l) (c : LockStep s s' t l l') : Locks s' := by
  refine ⟨?_, ?_⟩
  · rw [c.loc]; exact owner_step k.pull hl c.pull c.pullFree
  · rw [c.loc]; exact owner_step k.push hl c.push c.pushFree

theorem Locks.step_puller (k : Locks s) (hl : s.loc t = l) (c : LockStep s s' t l l') :
    s'.puller = if holdsPull l' then some l' else if holdsPull l then none else s.puller := by
  simp only [State.puller, c.pull, c.loc]
  cases h1 : holdsPull l' with
  | true => simp [upd_same]
  | false =>
    cases h2 : holdsPull l with
    | true => simp
    | false =>
      simp only [Bool.false_eq_true, if_false]
      cases h3 : s.pullOwner with
      | none => rfl
      | some u =>
        have : u ≠ t := by
          rintro rfl
          have := (k.pull u).2 h3
          rw [hl, h2] at this; cases this
        simp [upd_ne _ _ this]

theorem Locks.step_appending (k : Locks s) (hl : s.loc t = l) (c : LockStep s s' t l l') :
    s'.appending = if holdsPush l' then isAppend l' else if holdsPush l then false else s.appending := by
  simp only [State.appending, c.push, c.loc]
  cases h1 : holdsPush l' with
  | true => simp [upd_same]
  | false =>
    cases h2 : holdsPush l with
    | true => simp
    | false =>
      simp only [Bool.false_eq_true, if_false]
      cases h3 : s.pushOwner with
      | none => rfl
      | some u =>
        have : u ≠ t := by
          rintro rfl
          have := (k.push u).2 h3
          rw [hl, h2] at this; cases this
        simp [upd_ne _ _ this]

theorem upd_self {β : Type} (f : Nat → β) (t : Nat) : upd f t (f t) = f := by
  funext u; simp only [upd]; split
  · rename_i h; rw [h]
  · rfl

/-- A step inside a call preserves the relation. -/
theorem R.advance {q : List α × Bool} {st : Nat → Status (Op α) (Out α)} (r : R s ⟨q, st⟩) (hl : s.loc t = l)
    (c : LockStep s s' t l l') (hf : s'.flag = s.flag ∨ holdsPull l = true)
    (hd : Data s.pull s.push s.flag s.appending q.1 q.2 s.puller → ∃ q' z',
      Data s'.pull s'.push s'.flag (if holdsPush l' then isAppend l' else if holdsPush l then false else s.appending) q' z'
        (if holdsPull l' then some l' else if holdsPull l then none else s.puller) ∧
      ((SimpleQueue.status s'.flag l' = SimpleQueue.status s.flag l ∧ (q', z') = q) ∨ ∃ op,
        SimpleQueue.status s.flag l = .pending op ∧ SimpleQueue.status s'.flag l' = .done (actual q op).2 ∧
        (q', z') = (actual q op).1)) :
    ∃ tr g', TSteps (actualSpec α) ⟨q, st⟩ tr g' ∧ erase tr = retEvents t none ∧ R s' g' := by
  obtain ⟨q', z', hd', hq⟩ := hd r.data
  have hst : st t = SimpleQueue.status s.flag l := by rw [← hl]; exact r.status t
  have fin : R s' ⟨(q', z'), upd st t (SimpleQueue.status s'.flag l')⟩ := by
    refine ⟨r.locks.step hl c, ?_, ?_⟩
    · intro u
      simp only [c.loc]
      by_cases hu : u = t
      · subst hu; simp only [upd_same]
      · simp only [upd_ne _ _ hu]
        refine (r.status u).trans ?_
        rcases hf with hf | hf
        · rw [hf]
        · apply status_flag
          cases hh : holdsPull (s.loc u) with
          | false => rfl
          | true =>
            have h1 := (r.locks.pull u).1 hh
            have h2 := (r.locks.pull t).1 (by rw [hl]; exact hf)
            rw [h2] at h1; cases h1; exact absurd rfl hu
    · rw [r.locks.step_puller hl c, r.locks.step_appending hl c]; exact hd'
  rcases hq with ⟨h1, rfl⟩ | ⟨op, h1, h2, h3⟩
  · refine ⟨[], _, rfl, rfl, ?_⟩
    rwa [h1, ← hst, upd_self] at fin
  · refine ⟨[.lin t op (actual q op).2], _, ⟨_, TStep.lin (hst.trans h1) rfl, rfl⟩, rfl, ?_⟩
    rwa [h2, h3] at fin

/-! ### the pushing side -/

theorem Data.noAppend {pull push : List α} {flag a : Bool} {q : List α} {z : Bool} {O : Option (Loc α)}
    (h : Data pull push flag a q z O) : Data pull push flag false q z O := by
  cases O with
  | none => simp only [Data, Normal] at h ⊢; grind
  | some l =>
    cases l with
    | oCheck c r => cases c <;> cases r <;> simp only [Data, Normal, Mid] at h ⊢ <;> grind
    | _ => simp only [Data, Normal, Clearing] at h ⊢ <;> grind

theorem Data.beginAppend {pull push : List α} {flag a : Bool} {q : List α} {z : Bool} {O : Option (Loc α)}
    (h : Data pull push flag a q z O) (hp : push ≠ []) (ho : ∀ l, O = some l → holdsPush l = false) :
    Data pull push flag true q z O := by
  cases O with
  | none => simp only [Data, Normal] at h ⊢; grind
  | some l =>
    have ho := ho l rfl
    cases l with
    | oCheck c r => cases c <;> cases r <;> simp only [Data, Normal, Mid, holdsPush] at h ho ⊢ <;> grind
    | _ => simp only [Data, Normal, Clearing, holdsPush] at h ho ⊢ <;> grind

theorem Data.append {pull push : List α} {flag : Bool} {q vs : List α} {z : Bool} {O : Option (Loc α)}
    (h : Data pull push flag true q z O) :
    Data pull (push ++ vs) flag false (q ++ vs) (q.isEmpty && vs.isEmpty) O := by
  have hn : Normal pull push flag true q z → Normal pull (push ++ vs) flag false (q ++ vs) (q.isEmpty && vs.isEmpty) := by
    rintro ⟨rfl, h2, rfl⟩
    cases pull with
    | nil => simp at h2
    | cons x xs => refine ⟨by simp, by simp, by simp⟩
  cases O with
  | none => exact hn h
  | some l =>
    cases l with
    | oCheck c r =>
      cases c <;> cases r <;> simp only [Data, Mid, Swapped] at h ⊢ <;>
        first
        | exact h.elim
        | exact hn h
        | exact ⟨hn h.1, h.2⟩
        | (have := h.2.2; simp at this; done)
        | (obtain ⟨⟨h1, h2⟩, h3, h4, h5⟩ := h; cases h5; done)
        | (obtain ⟨rfl, rfl⟩ := h; simp; done)
        | (obtain ⟨⟨rfl, rfl⟩, rfl⟩ := h; simp; done)
        | (obtain ⟨h1, h2⟩ := h; cases h2; done)
        | (obtain ⟨rfl, h1, rfl⟩ := h; simp [h1]; done)
    | _ =>
      simp only [Data, Clearing] at h ⊢ <;>
        first
        | exact h.elim
        | exact hn h
        | exact ⟨hn h.1, h.2⟩
        | (obtain ⟨h1, h2, h3, h4⟩ := h; cases h3; done)
        | (obtain ⟨h1, h2, h3⟩ := h; cases h3; done)
        | (obtain ⟨⟨h1, h2⟩, h3⟩ := h; cases h2; done)

/-- what empty() sees -/
theorem Data.flag {pull push : List α} {flag a : Bool} {q : List α} {z : Bool} {O : Option (Loc α)}
    (h : Data pull push flag a q z O) : flag = (q.isEmpty && !z) := by
  have hn : Normal pull push flag a q z → flag = (q.isEmpty && !z) := by
    rintro ⟨rfl, h1, rfl⟩
    cases pull <;> simp_all
  cases O with
  | none => exact hn h
  | some l =>
    cases l with
    | oCheck c r =>
      cases c <;> cases r <;> simp only [Data, Mid, Swapped] at h <;>
        first
        | exact hn h
        | exact hn h.1
        | exact h.elim
        | (obtain ⟨rfl, rfl⟩ := h; rfl)
        | (obtain ⟨⟨rfl, rfl⟩, _⟩ := h; rfl)
        | (obtain ⟨rfl, h1, rfl⟩ := h; cases pull <;> simp_all)
        | (obtain ⟨⟨rfl, h1, rfl⟩, _⟩ := h; cases pull <;> simp_all)
    | _ =>
      simp only [Data, Clearing] at h <;>
        first
        | exact hn h
        | exact hn h.1
        | exact h.elim
        | (obtain ⟨h1, h2, h3, rfl, h4, h5⟩ := h; simp [h4])
        | exact h.1.1

end
end Verif.SimpleQueue
