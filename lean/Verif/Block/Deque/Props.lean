import Verif.Block.Deque.World

/-
Property theorems for StableBlockDeque (C26-C32).

`ideal`/`idealRun` (Spec.lean) is the meaning of a program over plain sequences, `run` its execution
on the model of the code, where `none` is undefined behaviour or a broken object lifecycle.
`P.memmove` says that `std::copy` to a later overlapping range works, `P.triv` that elements have trivial
destructors (Model.lean).
-/
namespace Verif.Block.Deque
open Verif.Block
variable {X : Type}

/-- No objects yet. -/
abbrev noObjs : AWorld X := fun _ => none

/-- Calls without an exclusion: construction (default or with a positive size), destruction, pushes and pops at
both ends, shrink_to_fit, element assignment and queries; clear() if destructors are trivial. -/
def Op.simple (P : Pol) : Op X → Bool
  | .copyNew _ _ | .moveNew _ _ | .copyAssign _ _ | .moveAssign _ _ | .iterate _ | .assign _ _
  | .assignRange _ _ _ _ | .moveRange _ _ _ _ _ => false
  | .newSize _ n _ => n != 0
  | .clear _ => P.triv
  | _ => true

theorem simple_noMove {P : Pol} {op : Op X} (h : op.simple P = true) : op.noMove = true := by
  cases op <;> simp_all [Op.simple, Op.noMove]

theorem simple_careful {P : Pol} {N : Nat} (hN : 1 ≤ N) (hP : P.memmove = true) {w : World X} (fa : AllFA N w)
    {op : Op X} (hs : op.simple P = true) : careful P N w op = true := by
  have key : ∀ i v, w.objs i = some v → v.usable N = true ∧ (v.dataptr.isSome = true ∨ v.free.idx = 0) := by
    intro i v hv
    have := fa i v hv
    rw [Deq.usable]
    cases hd : v.dataptr with
    | some l => simp
    | none => simpa using this hd
  cases op <;> simp only [Op.simple, Bool.false_eq_true] at hs <;> simp only [careful]
  case newSize => exact hs
  case push i x =>
    cases hv : w.objs i with
    | none => rfl
    | some v => exact (key i v hv).1
  case pushFront i x =>
    cases hv : w.objs i with
    | none => rfl
    | some v =>
      have := (key i v hv).2
      simp only [Option.all_some, hP, Bool.true_or, Bool.and_true, Bool.or_eq_true, Bool.and_eq_true, beq_iff_eq,
        decide_eq_true_eq]
      rcases this with h | h
      · exact .inl h
      · exact .inr ⟨h, hN⟩
  case clear i =>
    cases hv : w.objs i with
    | none => rfl
    | some v => simp [hs]
  case shrink i =>
    cases hv : w.objs i with
    | none => rfl
    | some v => simpa using (key i v hv).2

theorem simple_carefulRun {P : Pol} {N : Nat} (hN : 1 ≤ N) (hP : P.memmove = true) (ops : List (Op X)) :
    ∀ (w : World X) (aw : AWorld X) us fs, WInv N w aw us fs → AllFA N w →
    (∀ op, op ∈ ops → op.simple P = true) → ∀ r, idealRun aw ops = some r →
    carefulRun P N w ops = true ∧ ∀ w' obs, run P N w ops = some (w', obs) → AllFA N w' := by
  induction ops with
  | nil =>
    intro w aw us fs _ fa _ r _
    refine ⟨rfl, ?_⟩
    intro w' obs h; cases h; exact fa
  | cons op ops ih =>
    intro w aw us fs W fa hb r h
    simp only [idealRun, Option.bind_eq_some_iff, Option.map_eq_some_iff] at h
    obtain ⟨⟨aw1, o⟩, h1, ⟨aw2, os⟩, h2, h3⟩ := h
    have c1 := simple_careful hN hP fa (hb op (by simp))
    obtain ⟨w1, us1, fs1, e1, W1, _, hf⟩ := step P w aw us fs W op aw1 o h1 c1
    obtain ⟨h4, h5⟩ := ih w1 aw1 us1 fs1 W1 (hf (simple_noMove (hb op (by simp))) fa)
      (fun p hp => hb p (by simp [hp])) _ h2
    refine ⟨by rw [carefulRun, c1, e1]; exact h4, ?_⟩
    intro w' obs he
    simp only [run, e1, Option.bind_some, Option.map_eq_some_iff] at he
    obtain ⟨s, hs, he⟩ := he
    cases he
    exact h5 _ _ hs

theorem allFA_empty {N : Nat} : AllFA N (World.empty : World X) := by intro i v h; cases h

theorem run_append {P : Pol} {N : Nat} (p q : List (Op X)) : ∀ {w : World X},
    run P N w (p ++ q) = (run P N w p).bind fun r => (run P N r.1 q).map fun s => (s.1, r.2 ++ s.2) := by
  induction p with
  | nil => intro w; simp only [List.nil_append, run, Option.bind_some]; cases run P N w q <;> rfl
  | cons op p ih =>
    intro w
    simp only [List.cons_append, run]
    cases exec P N w op with
    | none => rfl
    | some r =>
      simp only [Option.bind_some, ih]
      cases run P N r.1 p with
      | none => rfl
      | some s =>
        simp only [Option.bind_some, Option.map_some]
        cases run P N s.1 q <;> rfl

theorem careful_split {P : Pol} {N : Nat} : ∀ (p q : List (Op X)) (w : World X), carefulRun P N w (p ++ q) = true →
    carefulRun P N w p = true ∧ ∀ w' obs, run P N w p = some (w', obs) → carefulRun P N w' q = true := by
  intro p
  induction p with
  | nil => intro q w h; refine ⟨rfl, ?_⟩; intro w' obs he; cases he; exact h
  | cons op p ih =>
    intro q w h
    rw [List.cons_append, carefulRun, Bool.and_eq_true] at h
    rw [carefulRun]
    cases he : exec P N w op with
    | none => simp [h.1, run, he]
    | some r =>
      rw [he] at h
      obtain ⟨i1, i2⟩ := ih q r.1 h.2
      refine ⟨by simp [h.1, i1], ?_⟩
      intro w' obs hr
      simp only [run, he, Option.bind_some, Option.map_eq_some_iff] at hr
      obtain ⟨s, hs, hr⟩ := hr
      cases hr
      exact i2 _ _ hs

/-! ## C26: a double-ended sequence -/

/-- C26: for every block size exponent N ≥ 1 and every finite history of construction, pushes and pops at both ends,
shrink_to_fit, element assignment, clear (trivial destructors), queries and destruction, on any number of deques,
the code runs without undefined behaviour and answers every call as a plain sequence does.
Missing from the full claim: assign, and clear for elements with destructors; they are covered, as far as they
work, by `programs_partial`, and do not always work: `clear_violation`, `assign_full_violation`. -/
theorem sequence_partial (P : Pol) (hP : P.memmove = true) (N : Nat) (hN : 1 ≤ N) (ops : List (Op X))
    (hb : ∀ op, op ∈ ops → op.simple P = true)
    (aw : AWorld X) (obs : List (Obs X)) (h : idealRun noObjs ops = some (aw, obs)) :
    ∃ w, run P N World.empty ops = some (w, obs) := by
  obtain ⟨w, _, _, e, _⟩ := runs P ops World.empty noObjs _ _ WInv.empty aw obs h
    (simple_carefulRun hN hP ops _ _ _ _ WInv.empty allFA_empty hb _ h).1
  exact ⟨w, e⟩

/-- A history crossing block boundaries at both ends, with blocks of two elements. -/
def demo : List (Op Nat) :=
  [.new 0, .pop 0, .popFront 0, .push 0 1, .push 0 2, .push 0 3, .pushFront 0 4, .pushFront 0 5, .pushFront 0 6, .front 0,
   .back 0, .at 0 2, .at 0 6, .popFront 0, .popFront 0, .popFront 0, .popFront 0, .front 0, .size 0, .pop 0, .pop 0,
   .empty 0, .pushFront 0 7, .push 0 8, .push 0 9, .set 0 1 3, .get 0 1, .shrink 0, .clear 0, .size 0, .pushFront 0 2,
   .back 0, .newSize 1 5 4, .pop 1, .pushFront 1 6, .at 1 0, .at 1 5]

/-- common libraries, element type int -/
def libInt : Pol := ⟨true, true⟩
/-- common libraries, elements with destructors -/
def libObj : Pol := ⟨true, false⟩

example : (∀ op, op ∈ demo → op.simple libInt = true) ∧ (idealRun noObjs demo).map (·.2) =
    some [.done, .done, .done, .done, .done, .done, .done, .done, .done, .val 6, .val 3, .val 4, .threw, .done, .done,
      .done, .done, .val 2, .num 2, .done, .done, .bool true, .done, .done, .done, .done, .val 3, .done, .done, .num 0,
      .done, .val 2, .done, .done, .done, .val 6, .threw] := by decide

/-- The same answers come from the model of the code. -/
example : (run libInt 1 World.empty demo).map (·.2) = (idealRun noObjs demo).map (·.2) := by decide

/-- C26, C28, C29, C30, restricted: any program over any number of deques with all calls behaves as over sequences, for
any block size, provided every call is a careful one.  Missing: what `careful` excludes, see the violations
below. -/
theorem programs_partial (P : Pol) (N : Nat) (ops : List (Op X)) (aw : AWorld X) (obs : List (Obs X))
    (h : idealRun noObjs ops = some (aw, obs)) (hc : carefulRun P N World.empty ops = true) :
    ∃ w, run P N World.empty ops = some (w, obs) := by
  obtain ⟨w, _, _, e, _⟩ := runs P ops World.empty noObjs _ _ WInv.empty aw obs h hc
  exact ⟨w, e⟩

/-- A program with every kind of copy and move. -/
def demo2 : List (Op Nat) :=
  [.new 0, .iterate 0, .push 0 1, .push 0 2, .pushFront 0 3, .iterate 0, .copyNew 1 0, .pushFront 1 4, .set 1 1 9,
   .iterate 0, .iterate 1, .moveNew 2 1, .iterate 2, .size 1, .copyAssign 0 2, .iterate 0, .destroy 1,
   .moveAssign 2 0, .iterate 2, .push 2 5, .assign 2 [6, 7], .iterate 2, .assign 2 [1, 2, 3, 4, 5], .clear 2, .iterate 2, .assign 2 [3],
   .destroy 0, .front 2, .newSize 3 7 8, .popFront 3, .copyAssign 2 3, .iterate 2, .destroy 2, .destroy 3]

example : carefulRun libObj 1 World.empty demo2 = true ∧ (idealRun noObjs demo2).map (·.2) = some
    [.done, .vals [], .done, .done, .done, .vals [3, 1, 2], .done, .done, .done, .vals [3, 1, 2], .vals [4, 9, 1, 2], .done,
     .vals [4, 9, 1, 2], .num 0, .done, .vals [4, 9, 1, 2], .done, .done, .vals [4, 9, 1, 2], .done, .done, .vals [6, 7], .done,
     .done, .vals [], .done, .done, .val 3, .done, .done, .done, .vals [8, 8, 8, 8, 8, 8], .done, .done] := by
  decide +kernel

/-- C26 violation: clear() on a deque whose elements are all in its first block destroys cells below the first
element that hold no element. -/
theorem clear_violation :
    (idealRun noObjs [Op.new 0, .push 0 1, .clear 0]).map (·.2) = some [.done, .done, .done] ∧
    (run libObj 2 World.empty [Op.new 0, .push 0 1]).isSome = true ∧
    (run libObj 2 World.empty [Op.new 0, .push 0 1, .clear 0]).isNone = true := by decide

/-- C26 violation: after enough push_back calls to fill the array of block pointers, assign() reads beyond it. -/
theorem assign_full_violation :
    (idealRun noObjs (Op.new 0 :: List.replicate 67 (.push 0 1) ++ [.assign 0 [2]])).isSome = true ∧
    (run libInt 1 World.empty (Op.new 0 :: List.replicate 67 (.push 0 1))).isSome = true ∧
    (run libInt 1 World.empty (Op.new 0 :: List.replicate 67 (.push 0 1) ++ [.assign 0 [2]])).isNone = true := by
  decide +kernel

/-- With blocks of one element (N = 0), which C26 leaves out, the first push_front writes before its block. -/
theorem pushFront_small_violation :
    (run libInt 0 World.empty [Op.new 0, .pushFront 0 1]).isNone = true := by decide

/-- Where `std::copy` may not be used on an overlapping later range, 61 push_front calls on a new deque reach
undefined behaviour (60 do not). -/
theorem pushFront_overlap_violation (triv : Bool) :
    (run ⟨false, triv⟩ 1 World.empty (Op.new 0 :: List.replicate 61 (.pushFront 0 1))).isSome = true ∧
    (run ⟨false, triv⟩ 1 World.empty (Op.new 0 :: List.replicate 62 (.pushFront 0 1))).isNone = true := by
  cases triv <;> decide +kernel

/-! ## C31: checked access -/

/-- C31: in every state reached by a careful program, `at(k)` throws iff `k ≥ size()` and otherwise returns
element `k`, and front and back return the first and last element.
Missing: states reached by other programs, see `sized_zero_violation`. -/
theorem checked_access_partial (P : Pol) (N : Nat) (ops : List (Op X))
    (aw : AWorld X) (obs : List (Obs X)) (h : idealRun noObjs ops = some (aw, obs))
    (hc : carefulRun P N World.empty ops = true) (i : Nat) (a : List X) (ha : aw i = some a) (k : Nat) :
    ∃ w, run P N World.empty ops = some (w, obs) ∧
      exec P N w (.size i) = some (w, .num a.length) ∧
      (∀ hk : k < a.length, exec P N w (.at i k) = some (w, .val a[k]) ∧ exec P N w (.get i k) = some (w, .val a[k])) ∧
      (a.length ≤ k → exec P N w (.at i k) = some (w, .threw)) ∧
      (∀ hp : 0 < a.length, exec P N w (.front i) = some (w, .val a[0]) ∧
        exec P N w (.back i) = some (w, .val a[a.length - 1])) := by
  obtain ⟨w, us, fs, e, W⟩ := runs P ops World.empty noObjs _ _ WInv.empty aw obs h hc
  obtain ⟨v, hv, r⟩ := W.getSome ha
  refine ⟨w, e, ?_⟩
  rcases r with ⟨F, f1, bz, c⟩ | ⟨nl, h1, h2, h3⟩
  · refine ⟨by simp only [exec, hv, Option.map_some, Deq.size, c.len], fun hk => ⟨?_, ?_⟩, fun hk => ?_, fun hp => ⟨?_, ?_⟩⟩
    · simp only [exec, hv, Option.bind_some, Deq.at?]
      rw [if_neg (by rw [← c.len]; omega), c.get_eq hk]; rfl
    · simp only [exec, hv, Option.bind_some, c.get_eq hk, Option.map_some]
    · simp only [exec, hv, Option.bind_some, Deq.at?]
      rw [if_pos (by rw [← c.len]; omega)]; rfl
    · simp only [exec, hv, Option.bind_some, c.front_eq hp, Option.map_some]
    · simp only [exec, hv, Option.bind_some, c.back_eq hp, Option.map_some]
  · subst h3
    refine ⟨by simp only [exec, hv, Option.map_some, Deq.size, nl.cs, List.length_nil], by simp, fun hk => ?_, by simp⟩
    simp only [exec, hv, Option.bind_some, Deq.at?]
    rw [if_pos (by rw [nl.cs]; omega)]; rfl

example : carefulRun libObj 1 World.empty [Op.new 0, .push 0 1, .pushFront 0 2, .pushFront 0 3] = true ∧
    ((idealRun noObjs [Op.new 0, .push 0 1, .pushFront 0 2, .pushFront 0 3]).bind fun r => r.1 0) = some [3, 2, 1] := by decide

/-! ## C32: the array of block pointers -/

/-- C32: after any history of the simple calls (in particular any mixture of pushes and pops at both ends), every deque
that has memory has its first and last block slots inside its array of block pointers, and every slot from
the first to the last points to a live block of its own.  (That no step on the way used a slot
outside the array is part of `sequence_partial`: it would have been `none`.) -/
theorem slots_in_bounds (P : Pol) (hP : P.memmove = true) (N : Nat) (hN : 1 ≤ N) (ops : List (Op X))
    (hb : ∀ op, op ∈ ops → op.simple P = true)
    (aw : AWorld X) (obs : List (Obs X)) (h : idealRun noObjs ops = some (aw, obs)) :
    ∃ w, run P N World.empty ops = some (w, obs) ∧
      ∀ i v, w.objs i = some v → ∀ l, v.dataptr = some l →
        l.length = v.avail ∧ 0 ≤ v.front ∧ v.front ≤ v.back ∧ v.back < (v.avail : Int) ∧
        ∀ s : Nat, v.front ≤ s → (s : Int) ≤ v.back → ∃ b, l[s]? = some (some b) ∧ w.heap.live b = true ∧
          ∀ t : Nat, v.front ≤ t → (t : Int) ≤ v.back → l[t]? = some (some b) → t = s := by
  obtain ⟨w, us, fs, e, W⟩ := runs P ops World.empty noObjs _ _ WInv.empty aw obs h
    (simple_carefulRun hN hP ops _ _ _ _ WInv.empty allFA_empty hb _ h).1
  refine ⟨w, e, fun i v hv l hl => ?_⟩
  have := W.rep i
  rw [hv] at this
  cases ha : aw i with
  | none => rw [ha] at this; exact this.elim
  | some a =>
    rw [ha] at this
    rcases this with ⟨F, f1, bz, c⟩ | ⟨nl, _⟩
    · obtain ⟨l', hl', hlen, hle, hent⟩ := c.arr.ex
      rw [hl] at hl'; cases hl'
      have hne := c.ne
      have hf := c.front
      have hbk := c.back
      refine ⟨hlen, by omega, by omega, by omega, ?_⟩
      intro s h1 h2
      have hs : s - F < (us i).length := by omega
      have hg := List.getElem?_eq_getElem hs
      refine ⟨(us i)[s - F], ?_, c.grid.live _ (Grid.mem hg), ?_⟩
      · rw [← hent (s - F) _ hg]; congr 1; omega
      · intro t h3 h4 h5
        have ht : t - F < (us i).length := by omega
        have hg' := List.getElem?_eq_getElem ht
        have h6 := hent (t - F) _ hg'
        rw [show F + (t - F) = t by omega, h5] at h6
        simp only [Option.some.injEq] at h6
        have := us_inj c.grid.nodup hg (h6 ▸ hg')
        omega
    · rw [nl.ptr] at hl; cases hl

/-- the 62nd push_front moves the pointers inside the array, 67 push_backs then enlarge it -/
example : ((run libInt 1 World.empty (Op.new 0 :: List.replicate 61 (.pushFront 0 1))).bind fun r =>
      (r.1.objs 0).map fun v => (v.front, v.back, v.avail)) = some (0, 30, 64) ∧
    ((run libInt 1 World.empty (Op.new 0 :: List.replicate 62 (.pushFront 0 1))).bind fun r =>
      (r.1.objs 0).map fun v => (v.front, v.back, v.avail)) = some (16, 47, 64) ∧
    ((run libInt 1 World.empty (Op.new 0 :: (List.replicate 62 (.pushFront 0 1) ++ List.replicate 67 (.push 0 1)))).bind fun r =>
      (r.1.objs 0).map fun v => (v.front, v.back, v.avail)) = some (4, 68, 128) := by decide +kernel

/-! ## C28: lifecycle -/

/-- C28: any history of simple calls after which all deques have been destroyed runs without a lifecycle fault
(each element is constructed in a dead cell of a live block, read, assigned and destroyed only while
alive; a block is freed only while allocated and with no live element in it: everything else is `none`)
and leaves no block allocated, hence no element alive.
Missing: what `simple` leaves out; see `lifecycle_programs_partial`, `clear_violation`, `sized_zero_violation`. -/
theorem lifecycle_partial (P : Pol) (hP : P.memmove = true) (N : Nat) (hN : 1 ≤ N) (ops : List (Op X))
    (hb : ∀ op, op ∈ ops → op.simple P = true)
    (aw : AWorld X) (obs : List (Obs X)) (h : idealRun noObjs ops = some (aw, obs)) (hend : ∀ i, aw i = none) :
    ∃ w, run P N World.empty ops = some (w, obs) ∧ ∀ b, w.heap.live b = false := by
  obtain ⟨w, us, fs, e, W⟩ := runs P ops World.empty noObjs _ _ WInv.empty aw obs h
    (simple_carefulRun hN hP ops _ _ _ _ WInv.empty allFA_empty hb _ h).1
  refine ⟨w, e, fun b => ?_⟩
  cases hl : w.heap.live b with
  | false => rfl
  | true =>
    obtain ⟨i, hi⟩ := W.noleak b hl
    obtain ⟨_, h1, h2⟩ := W.getNone (hend i)
    rw [h1, h2] at hi; simp at hi

/-- C28 with copies, moves, assign and clear; missing is what `careful` excludes. -/
theorem lifecycle_programs_partial (P : Pol) (N : Nat) (ops : List (Op X))
    (aw : AWorld X) (obs : List (Obs X)) (h : idealRun noObjs ops = some (aw, obs))
    (hc : carefulRun P N World.empty ops = true) (hend : ∀ i, aw i = none) :
    ∃ w, run P N World.empty ops = some (w, obs) ∧ ∀ b, w.heap.live b = false := by
  obtain ⟨w, us, fs, e, W⟩ := runs P ops World.empty noObjs _ _ WInv.empty aw obs h hc
  refine ⟨w, e, fun b => ?_⟩
  cases hl : w.heap.live b with
  | false => rfl
  | true =>
    obtain ⟨i, hi⟩ := W.noleak b hl
    obtain ⟨_, h1, h2⟩ := W.getNone (hend i)
    rw [h1, h2] at hi; simp at hi

example : ((idealRun noObjs (demo ++ [.destroy 0, .destroy 1])).map fun r => ((r.1 0).isNone, (r.1 1).isNone)) =
    some (true, true) := by decide
example : ((idealRun noObjs demo2).map fun r =>
    ((r.1 0).isNone, (r.1 1).isNone, (r.1 2).isNone, (r.1 3).isNone)) = some (true, true, true, true) := by decide
/-- and while they are alive there are blocks -/
example : ((run libInt 1 World.empty demo).map fun r => r.1.heap.live 0) = some true := by decide

/-! ## C27: references stay valid -/

/-- Calls that do not overwrite elements of object `k` or replace it: on `k` itself only pushes and pops at both ends,
shrink_to_fit and queries, or being copied from; on other objects anything. -/
def Op.gentle (k : Nat) : Op X → Bool
  | .new i | .newSize i _ _ | .copyNew i _ | .copyAssign i _ | .destroy i | .assign i _ | .clear i | .set i _ _
  | .assignRange i _ _ _ => i != k
  | .moveNew i j | .moveAssign i j | .moveRange i j _ _ _ => i != k && j != k
  | _ => true

/-- Follows element `n` of object `k` through a history of gentle calls, giving its final index; `none` if
the element is removed or a call is not gentle. -/
def follow (k : Nat) : Nat → AWorld X → List (Op X) → Option Nat
  | n, aw, [] => if n < ((aw k).getD []).length then some n else none
  | n, aw, op :: ops =>
    if n < ((aw k).getD []).length ∧ op.gentle k = true then
      (ideal aw op).bind fun r => (op.newIdx k n).bind fun m => follow k m r.1 ops
    else none

theorem gentle_rebinds {k : Nat} {op : Op X} (h : op.gentle k = true) : ¬ op.rebinds k := by
  cases op <;> simp_all [Op.gentle, Op.rebinds]

/-- a gentle call keeps the value -/
theorem gentle_value {k n m : Nat} {op : Op X} (h : op.gentle k = true) {aw aw' : AWorld X} {o : Obs X}
    (hi : ideal aw op = some (aw', o)) (hn : op.newIdx k n = some m) {a : List X} (ha : aw k = some a) (hl : n < a.length)
    {a' : List X} (ha' : aw' k = some a') (hl' : m < a'.length) : a'[m] = a[n] := by
  have other : ∀ (i : Nat) (x : Option (List X)), i ≠ k → aw' = upd aw i x → m = n → a'[m] = a[n] := by
    intro i x hik he hmn
    subst hmn
    rw [he, upd_ne _ _ (Ne.symm hik), ha] at ha'
    cases ha'; rfl
  have same : aw' = aw → m = n → a'[m] = a[n] := by
    intro he hmn
    subst hmn
    rw [he, ha] at ha'
    cases ha'; rfl
  have nidx : (∀ x, op ≠ .pushFront k x) → op ≠ .popFront k → m = n := newIdx_other hn
  cases op <;> simp only [Op.gentle, bne_iff_ne, ne_eq, Bool.and_eq_true] at h <;>
    simp only [ideal, Option.map_eq_some_iff, Option.bind_eq_some_iff] at hi
  case new i =>
    split at hi <;> cases hi
    exact other i _ h rfl (nidx (by simp) (by simp))
  case newSize i j x =>
    split at hi <;> cases hi
    exact other i _ h rfl (nidx (by simp) (by simp))
  case copyNew i j =>
    split at hi <;> [skip; cases hi]
    simp only [Option.map_eq_some_iff] at hi
    obtain ⟨b, _, hi⟩ := hi
    cases hi
    exact other i _ h rfl (nidx (by simp) (by simp))
  case moveNew i j =>
    split at hi <;> [skip; cases hi]
    simp only [Option.map_eq_some_iff] at hi
    obtain ⟨b, _, hi⟩ := hi
    cases hi
    have := nidx (by simp) (by simp)
    subst this
    rw [upd_ne _ _ (Ne.symm h.2), upd_ne _ _ (Ne.symm h.1), ha] at ha'
    cases ha'; rfl
  case copyAssign i j =>
    obtain ⟨b, _, c, _, hi⟩ := hi
    cases hi
    exact other i _ h rfl (nidx (by simp) (by simp))
  case moveAssign i j =>
    split at hi <;> [cases hi; skip]
    simp only [Option.map_eq_some_iff, Option.bind_eq_some_iff] at hi
    obtain ⟨b, _, c, _, hi⟩ := hi
    cases hi
    have := nidx (by simp) (by simp)
    subst this
    rw [upd_ne _ _ (Ne.symm h.2), upd_ne _ _ (Ne.symm h.1), ha] at ha'
    cases ha'; rfl
  case set i j x =>
    obtain ⟨b, _, hi⟩ := hi
    split at hi <;> cases hi
    exact other i _ h rfl (nidx (by simp) (by simp))
  case assignRange i j lo up =>
    obtain ⟨b, _, c, _, hi⟩ := hi
    split at hi <;> cases hi
    exact other i _ h rfl (nidx (by simp) (by simp))
  case moveRange i j lo up left =>
    obtain ⟨b, _, c, _, hi⟩ := hi
    split at hi <;> [skip; cases hi]
    have hmn := nidx (by simp) (by simp)
    split at hi
    · split at hi <;> cases hi
      exact other i _ h.1 rfl hmn
    · cases hi
      subst hmn
      rw [upd_ne _ _ (Ne.symm h.2), upd_ne _ _ (Ne.symm h.1), ha] at ha'
      cases ha'; rfl
  case push i x =>
    obtain ⟨b, hb, hi⟩ := hi
    cases hi
    have hmn := nidx (by simp) (by simp)
    by_cases hik : i = k
    · subst hik; subst hmn
      rw [upd_same] at ha'
      rw [ha] at hb; cases hb; cases ha'
      exact List.getElem_append_left hl
    · exact other i _ hik rfl hmn
  case pushFront i x =>
    obtain ⟨b, hb, hi⟩ := hi
    cases hi
    by_cases hik : i = k
    · subst hik
      simp only [Op.newIdx, if_true, Option.some.injEq] at hn
      subst hn
      rw [upd_same] at ha'
      rw [ha] at hb; cases hb; cases ha'
      rfl
    · exact other i _ hik rfl (nidx (by simp [hik]) (by simp))
  case pop i =>
    obtain ⟨b, hb, hi⟩ := hi
    cases hi
    have hmn := nidx (by simp) (by simp)
    by_cases hik : i = k
    · subst hik; subst hmn
      rw [upd_same] at ha'
      rw [ha] at hb; cases hb; cases ha'
      simp
    · exact other i _ hik rfl hmn
  case popFront i =>
    obtain ⟨b, hb, hi⟩ := hi
    cases hi
    by_cases hik : i = k
    · subst hik
      simp only [Op.newIdx, if_true] at hn
      split at hn <;> cases hn
      rw [upd_same] at ha'
      rw [ha] at hb; cases hb; cases ha'
      simp only [List.getElem_tail]
      congr 1; omega
    · exact other i _ hik rfl (nidx (by simp) (by simp [hik]))
  case get i j =>
    obtain ⟨b, _, x, _, hi⟩ := hi
    cases hi; exact same rfl (nidx (by simp) (by simp))
  case front i =>
    obtain ⟨b, _, x, _, hi⟩ := hi
    cases hi; exact same rfl (nidx (by simp) (by simp))
  case back i =>
    obtain ⟨b, _, x, _, hi⟩ := hi
    cases hi; exact same rfl (nidx (by simp) (by simp))
  all_goals
    obtain ⟨b, hb, hi⟩ := hi
    cases hi
    first
      | exact same rfl (nidx (by simp) (by simp))
      | exact other _ _ h rfl (nidx (by simp) (by simp))

theorem addr_eq {N : Nat} {w : World X} {aw us fs} (W : WInv N w aw us fs) {i k : Nat} {a : List X}
    (ha : aw i = some a) (hk : k < a.length) :
    ∃ c, c.1 ∈ us i ∧ w.addr N i k = some c ∧ w.heap.read (blockSize N) c.1 c.2 = some a[k] := by
  obtain ⟨v, hv, r⟩ := W.getSome ha
  rcases r with ⟨F, f1, bz, c⟩ | ⟨nl, h1, h2, h3⟩
  · obtain ⟨b, hb, hc⟩ := c.cell_eq hk
    refine ⟨(b, (f1 + k) % blockSize N), List.mem_of_getElem? hb, by simp only [World.addr, hv, Option.bind_some, hc], ?_⟩
    have := c.get_eq hk
    unfold Deq.get at this
    rw [hc] at this
    simpa using this
  · subst h3; simp at hk

theorem follow_lt {k n m : Nat} {aw : AWorld X} {ops : List (Op X)} (h : follow k n aw ops = some m) :
    ∃ a, aw k = some a ∧ n < a.length := by
  have : n < ((aw k).getD []).length := by
    cases ops with
    | nil =>
      simp only [follow] at h
      split at h <;> [assumption; cases h]
    | cons op ops =>
      simp only [follow] at h
      split at h <;> [(rename_i hh; exact hh.1); cases h]
  cases ha : aw k with
  | none => rw [ha] at this; simp at this
  | some a => rw [ha] at this; exact ⟨a, rfl, this⟩

theorem follow_run {P : Pol} {N k : Nat} (ops : List (Op X)) : ∀ (w : World X) (aw : AWorld X) us fs (n m : Nat),
    WInv N w aw us fs → follow k n aw ops = some m → carefulRun P N w ops = true →
    ∃ w' aw' obs us' fs', run P N w ops = some (w', obs) ∧ idealRun aw ops = some (aw', obs) ∧ WInv N w' aw' us' fs' ∧
      w'.addr N k m = w.addr N k n ∧
      ∃ a a', aw k = some a ∧ aw' k = some a' ∧ ∃ (h1 : n < a.length) (h2 : m < a'.length), a'[m] = a[n] := by
  induction ops with
  | nil =>
    intro w aw us fs n m W hf _
    obtain ⟨a, ha, hl⟩ := follow_lt hf
    simp only [follow] at hf
    split at hf <;> cases hf
    exact ⟨w, aw, [], us, fs, rfl, rfl, W, rfl, a, a, ha, ha, hl, hl, rfl⟩
  | cons op ops ih =>
    intro w aw us fs n m W hf hc
    obtain ⟨a, ha, hl⟩ := follow_lt hf
    simp only [follow] at hf
    split at hf <;> [skip; cases hf]
    rename_i hg
    simp only [Option.bind_eq_some_iff] at hf
    obtain ⟨⟨aw1, o⟩, h1, n1, h2, h3⟩ := hf
    simp only at h3
    rw [carefulRun, Bool.and_eq_true] at hc
    obtain ⟨w1, us1, fs1, e1, W1, hk, _⟩ := step P w aw us fs W op aw1 o h1 hc.1
    rw [e1] at hc
    obtain ⟨a1, ha1, hl1⟩ := follow_lt h3
    obtain ⟨w', aw', os, us', fs', e', hi', W', had, b, a', hb, ha', g1, g2, g3⟩ := ih w1 aw1 us1 fs1 n1 m W1 h3 hc.2
    rw [ha1] at hb; cases hb
    refine ⟨w', aw', o :: os, us', fs', by simp only [run, e1, Option.bind_some, e', Option.map_some],
      by simp only [idealRun, h1, Option.bind_some, hi', Option.map_some], W', ?_, a, a', ha, ha', hl, g2, ?_⟩
    · rw [had]; exact hk k n n1 a a1 (gentle_rebinds hg.2) ha ha1 h2 hl hl1
    · rw [g3]; exact gentle_value hg.2 h1 h2 ha hl ha1 hl1

/-- C27: from any state reached by a careful history, follow element `n` of deque `k` through any careful history of
gentle calls that does not remove it: its address is the same before and after, and holds the same value.
Missing from the full claim: what `careful` excludes, for instance the first push_front when N = 0. -/
theorem references_stable_partial (P : Pol) (N : Nat) (pre post : List (Op X)) (k n m : Nat)
    (aw : AWorld X) (obs : List (Obs X)) (h : idealRun noObjs pre = some (aw, obs))
    (hc : carefulRun P N World.empty (pre ++ post) = true) (hf : follow k n aw post = some m) :
    ∃ w w' obs' c a, run P N World.empty pre = some (w, obs) ∧ run P N w post = some (w', obs') ∧ aw k = some a ∧
      w.addr N k n = some c ∧ w'.addr N k m = some c ∧
      w.heap.read (2 ^ N) c.1 c.2 = a[n]? ∧ w'.heap.read (2 ^ N) c.1 c.2 = a[n]? ∧ n < a.length := by
  obtain ⟨c1, c2⟩ := careful_split pre post World.empty hc
  obtain ⟨w, us, fs, e, W⟩ := runs P pre World.empty noObjs _ _ WInv.empty aw obs h c1
  obtain ⟨w', aw', os, us', fs', e', hi', W', had, a, a', ha, ha', g1, g2, g3⟩ :=
    follow_run post w aw us fs n m W hf (c2 w obs e)
  obtain ⟨c, _, hc1, hr1⟩ := addr_eq W ha g1
  obtain ⟨c', _, hc1', hr1'⟩ := addr_eq W' ha' g2
  have : c' = c := by rw [had, hc1] at hc1'; exact (Option.some.inj hc1').symm
  subst this
  refine ⟨w, w', os, c', a, e, e', ha, hc1, hc1', ?_, ?_, g1⟩
  · rw [← blockSize_eq, hr1, List.getElem?_eq_getElem]
  · rw [← blockSize_eq, hr1', g3, List.getElem?_eq_getElem]

/-- C27 for N ≥ 1 and simple calls: no further condition. -/
theorem references_stable_simple_partial (P : Pol) (hP : P.memmove = true) (N : Nat) (hN : 1 ≤ N)
    (pre post : List (Op X)) (hb : ∀ op, op ∈ pre ++ post → op.simple P = true) (k n m : Nat)
    (aw : AWorld X) (obs : List (Obs X)) (h : idealRun noObjs pre = some (aw, obs)) (hf : follow k n aw post = some m) :
    ∃ w w' obs' c a, run P N World.empty pre = some (w, obs) ∧ run P N w post = some (w', obs') ∧ aw k = some a ∧
      w.addr N k n = some c ∧ w'.addr N k m = some c ∧
      w.heap.read (2 ^ N) c.1 c.2 = a[n]? ∧ w'.heap.read (2 ^ N) c.1 c.2 = a[n]? ∧ n < a.length := by
  have hpost : ∃ r, idealRun aw post = some r := by
    clear h hb
    induction post generalizing aw n with
    | nil => exact ⟨_, rfl⟩
    | cons op ops ih =>
      simp only [follow] at hf
      split at hf <;> [skip; cases hf]
      simp only [Option.bind_eq_some_iff] at hf
      obtain ⟨r, h1, n1, _, h3⟩ := hf
      obtain ⟨s, hs⟩ := ih n1 r.1 h3
      exact ⟨(s.1, r.2 :: s.2), by simp only [idealRun, h1, Option.bind_some, hs, Option.map_some]⟩
  obtain ⟨r, hr⟩ := hpost
  have app : ∀ (p q : List (Op X)) (a b c : AWorld X) o1 o2, idealRun a p = some (b, o1) →
      idealRun b q = some (c, o2) → idealRun a (p ++ q) = some (c, o1 ++ o2) := by
    intro p
    induction p with
    | nil => intro q a b c o1 o2 h1 h2; cases h1; simpa using h2
    | cons op p ih =>
      intro q a b c o1 o2 h1 h2
      simp only [idealRun, Option.bind_eq_some_iff, Option.map_eq_some_iff] at h1
      obtain ⟨⟨aw1, o⟩, e1, ⟨aw2, os⟩, e2, e3⟩ := h1
      cases e3
      simp only [List.cons_append, idealRun, e1, Option.bind_some, ih q _ _ _ _ _ e2 h2, Option.map_some]
  exact references_stable_partial P N pre post k n m aw obs h
    (simple_carefulRun hN hP _ _ _ _ _ WInv.empty allFA_empty hb _ (app _ _ _ _ _ _ _ h hr)).1 hf

/-- Element 1 (value 2) ends at index 4 after growth and shrinkage at both ends. -/
example : (idealRun noObjs [Op.new 0, .push 0 1, .push 0 2]).isSome = true ∧
    follow 0 1 (upd noObjs 0 (some [1, 2]))
      [.push 0 3, .pushFront 0 4, .pushFront 0 5, .pop 0, .popFront 0, .shrink 0, .pushFront 0 6, .pushFront 0 7, .push 0 8] =
      some 4 := by decide
example : follow 0 1 (upd noObjs 0 (some [1, 2])) [Op.popFront 0, .popFront 0] = none ∧
    follow 0 1 (upd noObjs 0 (some [1, 2])) [Op.pop 0, .push 0 3] = none := by decide

/-! ## C29: iteration -/

/-- C29: whatever careful history led to deque `i`, iterating from begin to end stops after size() steps having seen
exactly its elements in order, unless the last block is full and its slot is the last of the pointer array, or `i`
was moved from.
Missing: those cases, see `iterate_full_violation` and `moved_from_iterate_violation`. -/
theorem iteration_partial (P : Pol) (N : Nat) (ops : List (Op X)) (aw : AWorld X) (obs : List (Obs X))
    (h : idealRun noObjs ops = some (aw, obs)) (hc : carefulRun P N World.empty ops = true)
    (i : Nat) (a : List X) (ha : aw i = some a) :
    ∃ w v, run P N World.empty ops = some (w, obs) ∧ w.objs i = some v ∧
      (v.iterable N = true → exec P N w (.iterate i) = some (w, .vals a)) := by
  obtain ⟨w, us, fs, e, W⟩ := runs P ops World.empty noObjs _ _ WInv.empty aw obs h hc
  obtain ⟨v, hv, r⟩ := W.getSome ha
  refine ⟨w, v, e, hv, fun hi => ?_⟩
  simp only [exec, hv, Option.bind_some, iterate_drep r hi, Option.map_some]

theorem end_loaded {N : Nat} {v : Deq} {e : Iter} (h : v.end? N = some e) : Iter.Loaded v.dataptr e := by
  simp only [Deq.end?] at h
  split at h
  · split at h <;> exact Iter.make_loaded h
  · exact Iter.make_loaded h

theorem begin_loaded {N : Nat} {v : Deq} {b : Iter} (h : v.begin? N = some b) : Iter.Loaded v.dataptr b := by
  simp only [Deq.begin?] at h
  split at h
  · exact end_loaded h
  · split at h <;> exact Iter.make_loaded h

/-- a loop with ends of different constness sees what the ordinary loop sees -/
theorem iterateMixed_eq {N : Nat} {v : Deq} {h : Heap X} {xs : List X} (junk swap : Bool) (e : v.iterate N h = some xs) :
    v.iterateMixed N junk swap h = some xs := by
  simp only [Deq.iterate, Option.bind_eq_some_iff] at e
  obtain ⟨b, hb, l, hl, hc⟩ := e
  simp only [Deq.iterateMixed, hb, hl, Option.bind_some]
  exact Iter.collectMixed_eq junk swap (end_loaded hl) (begin_loaded hb) hc

/-- C29: so does a loop that compares a constant iterator with a non-constant end, or conversely, in either order
(`junk`: what comparing a never written block pointer with null gives). -/
theorem iteration_mixed_partial (P : Pol) (N : Nat) (ops : List (Op X)) (aw : AWorld X) (obs : List (Obs X))
    (h : idealRun noObjs ops = some (aw, obs)) (hc : carefulRun P N World.empty ops = true)
    (i : Nat) (a : List X) (ha : aw i = some a) :
    ∃ w v, run P N World.empty ops = some (w, obs) ∧ w.objs i = some v ∧
      (v.iterable N = true → ∀ junk swap, v.iterateMixed N junk swap w.heap = some a) := by
  obtain ⟨w, us, fs, e, W⟩ := runs P ops World.empty noObjs _ _ WInv.empty aw obs h hc
  obtain ⟨v, hv, r⟩ := W.getSome ha
  exact ⟨w, v, e, hv, fun hi junk swap => iterateMixed_eq junk swap (iterate_drep r hi)⟩

/-- C29 exactly: a deque with memory, in a state reached by a careful program, cannot be iterated if the last block is full and
has the last slot of the pointer array. -/
theorem iteration_exact (P : Pol) (N : Nat) (ops : List (Op X)) (aw : AWorld X) (obs : List (Obs X))
    (h : idealRun noObjs ops = some (aw, obs)) (hc : carefulRun P N World.empty ops = true)
    (i : Nat) (a : List X) (ha : aw i = some a) (hne : a ≠ []) :
    ∃ w v, run P N World.empty ops = some (w, obs) ∧ w.objs i = some v ∧
      (v.iterable N = false ↔ exec P N w (.iterate i) = none) := by
  obtain ⟨w, us, fs, e, W⟩ := runs P ops World.empty noObjs _ _ WInv.empty aw obs h hc
  obtain ⟨v, hv, r⟩ := W.getSome ha
  refine ⟨w, v, e, hv, ?_⟩
  rcases r with ⟨F, f1, bz, c⟩ | ⟨nl, h1, h2, h3⟩
  · constructor
    · intro hi
      obtain ⟨l, hl, _⟩ := c.ptr
      rw [Deq.iterable, hl] at hi
      simp only [Option.isSome_some, if_true, Bool.not_eq_false', Bool.and_eq_true, beq_iff_eq] at hi
      have he := c.end_full hi.1 hi.2
      simp only [exec, hv, Option.bind_some, Option.map_eq_none_iff, Deq.iterate, he, Option.bind_none]
      cases v.begin? N <;> rfl
    · intro hn
      cases hi : v.iterable N with
      | false => rfl
      | true =>
        simp only [exec, hv, Option.bind_some, c.iterate_eq (iterable_iff.1 hi), Option.map_some] at hn
        cases hn
  · exact absurd h3 hne

example : carefulRun libObj 1 World.empty [Op.new 0, .push 0 1, .pushFront 0 2, .pushFront 0 3] = true ∧
    ((run libObj 1 World.empty [Op.new 0, .push 0 1, .pushFront 0 2, .pushFront 0 3]).bind fun r =>
      (r.1.objs 0).map (Deq.iterable 1)) = some true := by decide

/-- C29 violation: 67 push_back calls on a new deque with blocks of two elements, then iterate. -/
theorem iterate_full_violation :
    (idealRun noObjs (Op.new 0 :: List.replicate 67 (.push 0 1) ++ [.iterate 0])).isSome = true ∧
    (run libInt 1 World.empty (Op.new 0 :: List.replicate 66 (.push 0 1) ++ [.iterate 0])).isSome = true ∧
    (run libInt 1 World.empty (Op.new 0 :: List.replicate 67 (.push 0 1))).isSome = true ∧
    (run libInt 1 World.empty (Op.new 0 :: List.replicate 67 (.push 0 1) ++ [.iterate 0])).isNone = true := by
  decide +kernel

/-- C29, C30 violation: begin() on a moved-from deque dereferences a null pointer. -/
theorem moved_from_iterate_violation :
    (idealRun noObjs [Op.new 0, .push 0 1, .moveNew 1 0, .iterate 0]).map (·.2) = some [.done, .done, .done, .vals []] ∧
    (run libInt 2 World.empty [Op.new 0, .push 0 1, .moveNew 1 0, .size 0]).isSome = true ∧
    (run libInt 2 World.empty [Op.new 0, .push 0 1, .moveNew 1 0, .iterate 0]).isNone = true := by decide

/-! ## C30: sized construction, copies, moves -/

/-- C30, copies: a copy-constructed deque has the source's elements, in cells whose addresses differ from all of the
source's, and any further careful program on both behaves as over sequences.
Missing: copies of deques without memory (`copy_default_violation`) and of deques that cannot be iterated. -/
theorem copy_partial (P : Pol) (N : Nat) (pre post : List (Op X)) (i j : Nat)
    (aw aw1 : AWorld X) (obs : List (Obs X)) (h : idealRun noObjs pre = some (aw, obs))
    (h1 : ideal aw (.copyNew i j) = some (aw1, .done))
    (aw2 : AWorld X) (obs2 : List (Obs X)) (h2 : idealRun aw1 post = some (aw2, obs2))
    (hc : carefulRun P N World.empty (pre ++ .copyNew i j :: post) = true) :
    ∃ w1 a, run P N World.empty (pre ++ [.copyNew i j]) = some (w1, obs ++ [.done]) ∧ aw1 i = some a ∧ aw1 j = some a ∧
      (∀ n, n < a.length → ∃ c, w1.addr N i n = some c ∧ w1.heap.read (2 ^ N) c.1 c.2 = a[n]? ∧
        ∀ l, l < a.length → w1.addr N j l ≠ some c) ∧
      ∃ w2, run P N w1 post = some (w2, obs2) := by
  obtain ⟨c1, c2⟩ := careful_split pre _ World.empty hc
  obtain ⟨w, us, fs, e, W⟩ := runs P pre World.empty noObjs _ _ WInv.empty aw obs h c1
  have c3 := c2 w obs e
  rw [carefulRun, Bool.and_eq_true] at c3
  obtain ⟨w1, us1, fs1, e1, W1, _, _⟩ := step P w aw us fs W _ aw1 .done h1 c3.1
  rw [e1] at c3
  obtain ⟨w2, _, _, e2, _⟩ := runs P post w1 aw1 us1 fs1 W1 aw2 obs2 h2 c3.2
  simp only [ideal, Option.isNone_iff_eq_none] at h1
  split at h1 <;> [skip; cases h1]
  rename_i hn
  simp only [Option.map_eq_some_iff] at h1
  obtain ⟨a, ha, h1⟩ := h1
  have hij : i ≠ j := by rintro rfl; rw [hn] at ha; cases ha
  cases h1
  refine ⟨w1, a, ?_, upd_same _ _ _, by rw [upd_ne _ _ (Ne.symm hij)]; exact ha, ?_, w2, e2⟩
  · rw [run_append, e]; simp only [Option.bind_some, run, e1, Option.map_some]
  · intro n hn
    obtain ⟨c, g1, g2, g3⟩ := addr_eq W1 (upd_same _ _ _) hn
    refine ⟨c, g2, by rw [← blockSize_eq, g3, List.getElem?_eq_getElem], ?_⟩
    intro l hl heq
    obtain ⟨c', g1', g2', g3'⟩ := addr_eq W1 (i := j) (a := a) (by rw [upd_ne _ _ (Ne.symm hij)]; exact ha) hl
    rw [g2'] at heq
    cases heq
    exact W1.disj i j hij _ (List.mem_append_left _ g1) (List.mem_append_left _ g1')

example : carefulRun libObj 1 World.empty ([Op.new 0, .push 0 1, .pushFront 0 2, .push 0 3] ++
      .copyNew 1 0 :: [.push 1 5, .iterate 0, .destroy 0, .iterate 1, .destroy 1]) = true ∧
    (idealRun noObjs ([Op.new 0, .push 0 1, .pushFront 0 2, .push 0 3] ++
      .copyNew 1 0 :: [.push 1 5, .iterate 0, .destroy 0, .iterate 1, .destroy 1])).map (·.2) =
      some [.done, .done, .done, .done, .done, .done, .vals [2, 1, 3], .done, .vals [2, 1, 3, 5], .done] := by decide +kernel

theorem WInvR.getAt {P : Pol} {N : Nat} {w : World X} {aw us fs} {O : Others X} (W : WInvR O N w aw us fs) {i : Nat} {a : List X}
    (ha : aw i = some a) : exec P N w (.size i) = some (w, .num a.length) ∧
      ∀ k x, a[k]? = some x → exec P N w (.get i k) = some (w, .val x) := by
  obtain ⟨v, hv, r⟩ := W.getSome ha
  refine ⟨by simp only [exec, hv, Option.map_some, Deq.size, r.csize], fun k x hx => ?_⟩
  obtain ⟨hk, rfl⟩ := List.getElem?_eq_some_iff.1 hx
  rcases r with ⟨F, f1, bz, c⟩ | ⟨nl, h1, h2, h3⟩
  · simp only [exec, hv, Option.bind_some, c.get_eq hk, Option.map_some]
  · subst h3; simp at hk

/-- C76, `vi.assign(vj.begin() + lo, vj.begin() + hi)`, also for `i = j`: afterwards `vi` has exactly the elements
`lo, ..., hi - 1` which `vj` had before, every other deque is unchanged, and any further careful program behaves
as over sequences.
Missing: calls that are not `careful`: the source's last block is full and has the last slot of the pointer array and the
range ends at its end (`range_full_undefined`), the target is in that state and not empty (`assign_full_violation`), or a
moved-from deque. -/
theorem range_assign_partial (P : Pol) (N : Nat) (pre post : List (Op X)) (i j lo hi : Nat)
    (aw : AWorld X) (obs : List (Obs X)) (h : idealRun noObjs pre = some (aw, obs))
    (hc : carefulRun P N World.empty (pre ++ [.assignRange i j lo hi]) = true)
    (a b : List X) (ha : aw i = some a) (hb : aw j = some b) (hlo : lo ≤ hi) (hhi : hi ≤ b.length) :
    ∃ w w1 aw1, run P N World.empty pre = some (w, obs) ∧ exec P N w (.assignRange i j lo hi) = some (w1, .done) ∧
      exec P N w1 (.size i) = some (w1, .num (hi - lo)) ∧
      (∀ k x, k < hi - lo → b[lo + k]? = some x → exec P N w1 (.get i k) = some (w1, .val x)) ∧
      (∀ l c, l ≠ i → aw l = some c → exec P N w1 (.size l) = some (w1, .num c.length) ∧
        ∀ k x, c[k]? = some x → exec P N w1 (.get l k) = some (w1, .val x)) ∧
      ideal aw (.assignRange i j lo hi) = some (aw1, .done) ∧
      ∀ aw2 obs2, idealRun aw1 post = some (aw2, obs2) → carefulRun P N w1 post = true →
        ∃ w2, run P N w1 post = some (w2, obs2) := by
  obtain ⟨c1, c2⟩ := careful_split pre _ World.empty hc
  obtain ⟨w, us, fs, e, W⟩ := runs P pre World.empty noObjs _ _ WInv.empty aw obs h c1
  have c3 := c2 w obs e
  rw [carefulRun, Bool.and_eq_true] at c3
  have hid : ideal aw (.assignRange i j lo hi) = some (upd aw i (some ((b.take hi).drop lo)), .done) := by
    simp only [ideal, ha, hb, Option.bind_some]
    rw [if_pos ⟨hlo, hhi⟩]
  obtain ⟨w1, us1, fs1, e1, W1, _, _⟩ := step P w aw us fs W _ _ _ hid c3.1
  have g := W1.getAt (P := P) (upd_same aw i _)
  refine ⟨w, w1, _, e, e1, ?_, fun k x hk hx => g.2 k x ?_, fun l c hl hlc => ?_, hid, fun aw2 obs2 h2 hc2 => ?_⟩
  · rw [g.1]; simp only [List.length_drop, List.length_take, Nat.min_eq_left hhi]
  · rw [List.getElem?_drop, List.getElem?_take_of_lt (by omega)]; exact hx
  · exact W1.getAt (by rw [upd_ne _ _ hl]; exact hlc)
  · obtain ⟨w2, _, _, e2, _⟩ := runs P post w1 _ us1 fs1 W1 aw2 obs2 h2 hc2
    exact ⟨w2, e2⟩

/-- C76, `vi.move_assign(vj.begin() + lo, vj.begin() + hi)` between different deques, where moving from the elements
leaves `left` in them: `vi` has the old elements `lo, ..., hi - 1` of `vj`, `vj` keeps its size and its other elements
and holds `left` in that range, and every other deque is unchanged.
Missing: as for `range_assign_partial`. -/
theorem range_move_partial (P : Pol) (N : Nat) (pre post : List (Op X)) (i j lo hi : Nat) (left : List X)
    (aw : AWorld X) (obs : List (Obs X)) (h : idealRun noObjs pre = some (aw, obs))
    (hc : carefulRun P N World.empty (pre ++ [.moveRange i j lo hi left]) = true) (hij : i ≠ j)
    (a b : List X) (ha : aw i = some a) (hb : aw j = some b)
    (hlo : lo ≤ hi) (hhi : hi ≤ b.length) (hl : left.length = hi - lo) :
    ∃ w w1 aw1, run P N World.empty pre = some (w, obs) ∧ exec P N w (.moveRange i j lo hi left) = some (w1, .done) ∧
      exec P N w1 (.size i) = some (w1, .num (hi - lo)) ∧
      (∀ k x, k < hi - lo → b[lo + k]? = some x → exec P N w1 (.get i k) = some (w1, .val x)) ∧
      exec P N w1 (.size j) = some (w1, .num b.length) ∧
      (∀ k x, k < lo ∨ hi ≤ k → b[k]? = some x → exec P N w1 (.get j k) = some (w1, .val x)) ∧
      (∀ k y, left[k]? = some y → exec P N w1 (.get j (lo + k)) = some (w1, .val y)) ∧
      (∀ l c, l ≠ i → l ≠ j → aw l = some c → exec P N w1 (.size l) = some (w1, .num c.length) ∧
        ∀ k x, c[k]? = some x → exec P N w1 (.get l k) = some (w1, .val x)) ∧
      ideal aw (.moveRange i j lo hi left) = some (aw1, .done) ∧
      ∀ aw2 obs2, idealRun aw1 post = some (aw2, obs2) → carefulRun P N w1 post = true →
        ∃ w2, run P N w1 post = some (w2, obs2) := by
  obtain ⟨c1, c2⟩ := careful_split pre _ World.empty hc
  obtain ⟨w, us, fs, e, W⟩ := runs P pre World.empty noObjs _ _ WInv.empty aw obs h c1
  have c3 := c2 w obs e
  rw [carefulRun, Bool.and_eq_true] at c3
  have hid : ideal aw (.moveRange i j lo hi left) = some (upd (upd aw i (some ((b.take hi).drop lo)))
      j (some (b.take lo ++ left ++ b.drop hi)), .done) := by
    simp only [ideal, ha, hb, Option.bind_some]
    rw [if_pos ⟨hlo, hhi, hl⟩, if_neg hij]
  obtain ⟨w1, us1, fs1, e1, W1, _, _⟩ := step P w aw us fs W _ _ _ hid c3.1
  have g := W1.getAt (P := P) (i := i) (a := (b.take hi).drop lo) (by rw [upd_ne _ _ hij, upd_same])
  have g2 := W1.getAt (P := P) (upd_same _ j _)
  have hlt : (b.take lo).length = lo := by rw [List.length_take]; omega
  have hlt2 : (b.take lo ++ left).length = hi := by rw [List.length_append, hlt]; omega
  refine ⟨w, w1, _, e, e1, ?_, fun k x hk hx => g.2 k x ?_, ?_, fun k x hk hx => g2.2 k x ?_,
    fun k y hy => g2.2 _ y ?_, fun l c hli hlj hlc => ?_, hid, fun aw2 obs2 h2 hc2 => ?_⟩
  · rw [g.1]; simp only [List.length_drop, List.length_take, Nat.min_eq_left hhi]
  · rw [List.getElem?_drop, List.getElem?_take_of_lt (by omega)]; exact hx
  · rw [g2.1]
    simp only [List.length_append, List.length_drop, hlt, hl]
    congr 3; omega
  · rcases hk with hk | hk
    · rw [List.append_assoc, List.getElem?_append_left (by omega), List.getElem?_take_of_lt hk]; exact hx
    · rw [List.getElem?_append_right (by omega), hlt2, List.getElem?_drop, show hi + (k - hi) = k by omega]; exact hx
  · have := (List.getElem?_eq_some_iff.1 hy).1
    rw [List.append_assoc, List.getElem?_append_right (by omega), hlt, List.getElem?_append_left (by omega),
      show lo + k - lo = k by omega]
    exact hy
  · exact W1.getAt (by rw [upd_ne _ _ hlj, upd_ne _ _ hli]; exact hlc)
  · obtain ⟨w2, _, _, e2, _⟩ := runs P post w1 _ us1 fs1 W1 aw2 obs2 h2 hc2
    exact ⟨w2, e2⟩

/-- The excluded case of C76 is undefined: for a deque that cannot be iterated `begin() + size()` reads beyond the array of
block pointers. -/
theorem range_full_undefined (P : Pol) (N : Nat) (ops : List (Op X)) (aw : AWorld X) (obs : List (Obs X))
    (h : idealRun noObjs ops = some (aw, obs)) (hc : carefulRun P N World.empty ops = true)
    (i j lo : Nat) (b : List X) (hb : aw j = some b) (hne : b ≠ []) :
    ∃ w v, run P N World.empty ops = some (w, obs) ∧ w.objs j = some v ∧
      (v.iterable N = false → exec P N w (.assignRange i j lo b.length) = none) := by
  obtain ⟨w, us, fs, e, W⟩ := runs P ops World.empty noObjs _ _ WInv.empty aw obs h hc
  obtain ⟨v, hv, r⟩ := W.getSome hb
  refine ⟨w, v, e, hv, fun hi => ?_⟩
  rcases r with ⟨F, f1, bz, c⟩ | ⟨nl, h1, h2, h3⟩
  · have hB := blockSize_pos N
    obtain ⟨l, hl, hlen⟩ := c.ptr
    rw [Deq.iterable, hl] at hi
    simp only [Option.isSome_some, if_true, Bool.not_eq_false', Bool.and_eq_true, beq_iff_eq] at hi
    obtain ⟨it, hb', d⟩ := c.begin_eq (List.length_pos_iff.2 hne)
    have hbz : bz = blockSize N := by have := c.bsz; omega
    have hav : F + (us j).length = v.avail := by have := c.back; omega
    have : it.add (blockSize N) v.dataptr b.length = none := by
      refine d.add_none hB ?_
      have hs := c.size
      rw [hbz] at hs
      rw [show F * blockSize N + f1 + b.length = (F + (us j).length) * blockSize N by rw [Nat.add_mul]; omega,
        Nat.mul_div_cancel _ hB, hl, Option.getD_some, hlen, hav]
      exact Nat.le_refl _
    simp only [exec, hv, Option.bind_some, Deq.assignSub, hb', this]
    cases w.objs i with
    | none => rfl
    | some _ => cases it.add (blockSize N) v.dataptr lo <;> rfl
  · exact absurd h3 hne

/-- The state occurs: 67 push_back calls on a new deque with blocks of two elements. -/
example : ((run libInt 1 World.empty (Op.new 0 :: .new 1 :: List.replicate 67 (.push 0 1))).bind fun r =>
      (r.1.objs 0).map fun v => (v.iterable 1, (exec libInt 1 r.1 (.assignRange 1 0 3 67)).isNone,
        (exec libInt 1 r.1 (.assignRange 1 0 3 66)).isSome)) = some (false, true, true) := by decide +kernel

/-- Ranges between deques with blocks of two elements, crossing blocks, growing and shrinking the target, moving,
and from a deque to itself. -/
def demo3 : List (Op Nat) :=
  [.new 0, .assign 0 [3, 4, 5, 6, 7], .pushFront 0 2, .pushFront 0 1, .new 1, .assignRange 1 0 1 6, .iterate 1,
   .assignRange 1 0 2 4, .iterate 1, .iterate 0, .moveRange 1 0 2 6 [0, 0, 0, 0], .iterate 1, .iterate 0,
   .assignRange 1 1 1 3, .iterate 1, .moveRange 0 0 3 7 [9, 9, 9, 9], .iterate 0, .assignRange 0 0 0 0, .iterate 0,
   .new 2, .assignRange 1 2 0 0, .iterate 1, .copyAssign 0 0, .iterate 0, .destroy 0, .destroy 1, .destroy 2]

example : carefulRun libObj 1 World.empty demo3 = true ∧ (idealRun noObjs demo3).map (·.2) = some
    [.done, .done, .done, .done, .done, .done, .vals [2, 3, 4, 5, 6], .done, .vals [3, 4], .vals [1, 2, 3, 4, 5, 6, 7], .done,
     .vals [3, 4, 5, 6], .vals [1, 2, 0, 0, 0, 0, 7], .done, .vals [4, 5], .done, .vals [0, 0, 0, 7], .done, .vals [],
     .done, .done, .vals [], .done, .vals [], .done, .done, .done] := by decide +kernel

example : (run libObj 1 World.empty demo3).map (·.2) = (idealRun noObjs demo3).map (·.2) := by decide +kernel

/-- C30, moves: after move construction or move assignment the target has the source's elements at the source's old
addresses, the source reports itself empty, and any further careful program behaves as over sequences.
Missing: use of the moved-from deque, see `moved_from_push_violation` and `moved_from_iterate_violation`. -/
theorem move_partial (P : Pol) (N : Nat) (pre post : List (Op X)) (i j : Nat) (op : Op X)
    (hop : op = .moveNew i j ∨ op = .moveAssign i j)
    (aw : AWorld X) (obs : List (Obs X)) (h : idealRun noObjs pre = some (aw, obs))
    (hc : carefulRun P N World.empty (pre ++ op :: post) = true) (b : List X) (hb : aw j = some b)
    (aw1 : AWorld X) (h1 : ideal aw op = some (aw1, .done))
    (aw2 : AWorld X) (obs2 : List (Obs X)) (h2 : idealRun aw1 post = some (aw2, obs2)) :
    ∃ w w1, run P N World.empty pre = some (w, obs) ∧ exec P N w op = some (w1, .done) ∧ aw1 i = some b ∧
      (∀ n, n < b.length → ∃ c, w.addr N j n = some c ∧ w1.addr N i n = some c ∧
        w1.heap.read (2 ^ N) c.1 c.2 = b[n]?) ∧
      exec P N w1 (.size j) = some (w1, .num 0) ∧
      ∃ w2, run P N w1 post = some (w2, obs2) := by
  obtain ⟨c1, c2⟩ := careful_split pre _ World.empty hc
  obtain ⟨w, us, fs, e, W⟩ := runs P pre World.empty noObjs _ _ WInv.empty aw obs h c1
  have c3 := c2 w obs e
  rw [carefulRun, Bool.and_eq_true] at c3
  obtain ⟨w1, us1, fs1, e1, W1, _, _⟩ := step P w aw us fs W _ aw1 .done h1 c3.1
  rw [e1] at c3
  obtain ⟨w2, _, _, e2, _⟩ := runs P post w1 aw1 us1 fs1 W1 aw2 obs2 h2 c3.2
  have key : aw1 i = some b ∧ ∀ n, w1.addr N i n = w.addr N j n := by
    obtain ⟨v, hv, _⟩ := W.getSome hb
    rcases hop with rfl | rfl
    · simp only [ideal, Option.isNone_iff_eq_none] at h1
      split at h1 <;> [skip; cases h1]
      rename_i hn
      have hij : i ≠ j := by rintro rfl; rw [hn] at hb; cases hb
      simp only [hb, Option.map_some, Option.some.injEq, Prod.mk.injEq] at h1
      simp only [exec, hv, Option.map_some, Option.some.injEq, Prod.mk.injEq] at e1
      refine ⟨by rw [← h1.1, upd_ne _ _ hij, upd_same], fun n => ?_⟩
      rw [← e1.1]; simp only [World.addr, upd_ne _ _ hij, upd_same, hv]; rfl
    · simp only [ideal] at h1
      split at h1 <;> [cases h1; skip]
      rename_i hij
      simp only [hb, Option.map_some, Option.bind_eq_some_iff, Option.some.injEq, Prod.mk.injEq] at h1
      obtain ⟨_, _, h1, _⟩ := h1
      simp only [exec, hv, Option.bind_some, Deq.moveAssign, Option.bind_eq_some_iff, Option.map_eq_some_iff, Prod.mk.injEq] at e1
      obtain ⟨u, hu, r, ⟨h', _, hr⟩, e1, _⟩ := e1
      refine ⟨by rw [← h1, upd_ne _ _ hij, upd_same], fun n => ?_⟩
      rw [← e1, ← hr]; simp only [World.addr, upd_ne _ _ hij, upd_same, hv]
  refine ⟨w, w1, e, e1, key.1, ?_, ?_, w2, e2⟩
  · intro n hn
    obtain ⟨c, _, g2, g3⟩ := addr_eq W hb hn
    obtain ⟨c', _, g2', g3'⟩ := addr_eq W1 key.1 hn
    rw [key.2, g2] at g2'
    cases g2'
    exact ⟨c, g2, by rw [key.2]; exact g2, by rw [← blockSize_eq, g3', List.getElem?_eq_getElem]⟩
  · have hj : aw1 j = some [] := by
      rcases hop with rfl | rfl
      · simp only [ideal] at h1
        split at h1 <;> [skip; cases h1]
        simp only [hb, Option.map_some, Option.some.injEq, Prod.mk.injEq] at h1
        rw [← h1.1, upd_same]
      · simp only [ideal] at h1
        split at h1 <;> [cases h1; skip]
        simp only [hb, Option.map_some, Option.bind_eq_some_iff, Option.some.injEq, Prod.mk.injEq] at h1
        obtain ⟨_, _, h1, _⟩ := h1
        rw [← h1, upd_same]
    obtain ⟨v, hv, r⟩ := W1.getSome hj
    have : v.csize = 0 := by
      rcases r with ⟨_, _, _, c⟩ | ⟨nl, _⟩
      · exact c.len.symm
      · exact nl.cs
    simp only [exec, hv, Option.map_some, Deq.size, this]

example : carefulRun libObj 1 World.empty ([Op.new 0, .push 0 1, .pushFront 0 2, .new 1, .push 1 7] ++
      .moveAssign 1 0 :: [.iterate 1, .empty 0, .destroy 0, .push 1 3, .iterate 1]) = true ∧
    (idealRun noObjs ([Op.new 0, .push 0 1, .pushFront 0 2, .new 1, .push 1 7] ++
      .moveAssign 1 0 :: [.iterate 1, .empty 0, .destroy 0, .push 1 3, .iterate 1])).map (·.2) =
      some [.done, .done, .done, .done, .done, .done, .vals [2, 1], .bool true, .done, .done, .vals [2, 1, 3]] := by
  decide +kernel

/-- C30, sized construction: for n > 0, in any careful context, `StableBlockDeque v(n, x)` is n copies of x, at n
different addresses, and goes on as a sequence. Missing: n = 0, see `sized_zero_violation`. -/
theorem sized_partial (P : Pol) (N : Nat) (pre post : List (Op X)) (i n : Nat) (hn : 0 < n) (x : X)
    (aw aw1 : AWorld X) (obs : List (Obs X)) (h : idealRun noObjs pre = some (aw, obs))
    (h1 : ideal aw (.newSize i n x) = some (aw1, .done))
    (aw2 : AWorld X) (obs2 : List (Obs X)) (h2 : idealRun aw1 post = some (aw2, obs2))
    (hc : carefulRun P N World.empty pre = true) :
    ∃ w w1, run P N World.empty pre = some (w, obs) ∧ exec P N w (.newSize i n x) = some (w1, .done) ∧
      exec P N w1 (.size i) = some (w1, .num n) ∧
      (∀ k, k < n → ∃ c, w1.addr N i k = some c ∧ w1.heap.read (2 ^ N) c.1 c.2 = some x) ∧
      (carefulRun P N w1 post = true → ∃ w2, run P N w1 post = some (w2, obs2)) := by
  obtain ⟨w, us, fs, e, W⟩ := runs P pre World.empty noObjs _ _ WInv.empty aw obs h hc
  obtain ⟨w1, us1, fs1, e1, W1, _, _⟩ := step P w aw us fs W _ aw1 .done h1 (by simp [careful]; omega)
  have hi : aw1 i = some (List.replicate n x) := by
    simp only [ideal] at h1
    split at h1 <;> cases h1
    exact upd_same _ _ _
  refine ⟨w, w1, e, e1, ?_, ?_, ?_⟩
  · obtain ⟨v, hv, r⟩ := W1.getSome hi
    rcases r with ⟨_, _, _, c⟩ | ⟨_, _, _, h3⟩
    · have := c.len
      rw [List.length_replicate] at this
      simp only [exec, hv, Option.map_some, Deq.size, ← this]
    · have := congrArg List.length h3
      simp at this; omega
  · intro k hk
    obtain ⟨c, _, g2, g3⟩ := addr_eq W1 hi (k := k) (by simpa using hk)
    exact ⟨c, g2, by rw [← blockSize_eq, g3]; simp⟩
  · intro hc2
    obtain ⟨w2, _, _, e2, _⟩ := runs P post w1 aw1 us1 fs1 W1 aw2 obs2 h2 hc2
    exact ⟨w2, e2⟩

example : (ideal (noObjs : AWorld Nat) (.newSize 0 5 7)).map (·.2) = some .done := by decide

/-- C30 violation: `StableBlockDeque v(0)`, then push_back and front() reads a cell that holds no element. -/
theorem sized_zero_violation :
    (idealRun noObjs [Op.newSize 0 0 9, .push 0 1, .front 0]).map (·.2) = some [.done, .done, .val 1] ∧
    (run libInt 2 World.empty [Op.newSize 0 0 9, .push 0 1]).isSome = true ∧
    (run libInt 2 World.empty [Op.newSize 0 0 9, .push 0 1, .front 0]).isNone = true ∧
    (run libInt 2 World.empty [Op.newSize 0 0 9, .push 0 1, .at 0 0]).isNone = true := by decide

/-- C30 violation: the same for a copy of a default-constructed deque. -/
theorem copy_default_violation :
    (idealRun noObjs [Op.new 1, .copyNew 0 1, .push 0 1, .front 0]).map (·.2) = some [.done, .done, .done, .val 1] ∧
    (run libInt 2 World.empty [Op.new 1, .copyNew 0 1, .push 0 1]).isSome = true ∧
    (run libInt 2 World.empty [Op.new 1, .copyNew 0 1, .push 0 1, .front 0]).isNone = true := by decide

/-- C30 violation: push_back on a moved-from deque. -/
theorem moved_from_push_violation :
    (idealRun noObjs [Op.new 0, .push 0 1, .moveNew 1 0, .push 0 2]).map (·.2) = some [.done, .done, .done, .done] ∧
    (run libInt 2 World.empty [Op.new 0, .push 0 1, .moveNew 1 0, .push 0 2]).isNone = true := by decide

end Verif.Block.Deque
