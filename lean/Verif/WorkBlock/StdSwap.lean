import Verif.WorkBlock.ProgSpec

/-
C166: `std::swap(bi, bj)` of two WorkBlocks, that is `WorkBlock t(std::move(bi)); bi = std::move(bj); bj = std::move(t);`
and the end of the life of `t`, with the defaulted move operations (WorkQueue.hpp:65, 83, 165-166).
-/
namespace Verif.WorkBlock.StdSwap
open Verif.WorkBlock

variable {V : Type} {eval : List Nat → Nat → Res V}

/-- `std::swap(bi, bj)` with the temporary object `t` -/
def swapOps (t i j : Nat) : List POp := [.moveMake t i, .assign i j, .assign j t, .destroy t]

/-- the other of the two blocks `i` and `j`; any other block itself -/
def other (i j x : Nat) : Nat := if x = i then j else if x = j then i else x

/-- a statement with its blocks renamed by `σ` -/
def rename (σ : Nat → Nat) : POp → POp
  | .make v f => .make (σ v) f
  | .moveMake v u => .moveMake (σ v) (σ u)
  | .assign v u => .assign (σ v) (σ u)
  | .destroy v => .destroy (σ v)
  | .execute v => .execute (σ v)
  | .reset v => .reset (σ v)
  | .update v f => .update (σ v) f
  | .isFinished v => .isFinished (σ v)
  | .getReturnVal v => .getReturnVal (σ v)
  | .getFuture v => .getFuture (σ v)
  | .get k => .get k

/-- the same with the blocks `i` and `j` exchanged -/
def exchanged (s : PS V) (i j : Nat) : PS V := ⟨s.w, fun x => s.blocks (other i j x), s.held⟩

theorem other_other (i j x : Nat) : other i j (other i j x) = x := by
  unfold other; repeat' split <;> simp_all

theorem other_inj (i j x y : Nat) : other i j x = other i j y ↔ x = y :=
  ⟨fun h => by rw [← other_other i j x, h, other_other], fun h => by rw [h]⟩

theorem upd_renamed {A : Type} (f : Nat → A) (i j x : Nat) (a : A) :
    upd (fun y => f (other i j y)) x a = fun y => upd f (other i j x) a (other i j y) := by
  funext y
  simp only [upd, other_inj]

theorem call_exchanged (s : PS V) (i j v : Nat) (r : World V × Block × Option Exc) :
    (exchanged s i j).call v r = (exchanged (s.call (other i j v) r).1 i j, (s.call (other i j v) r).2) := by
  obtain ⟨w, b, e⟩ := r
  cases e <;> simp [PS.call, exchanged, upd_renamed]

/-- a statement on exchanged blocks is the statement with exchanged names -/
theorem step_exchanged (s : PS V) (i j : Nat) (op : POp) :
    (exchanged s i j).step eval op =
      (exchanged (s.step eval (rename (other i j) op)).1 i j, (s.step eval (rename (other i j) op)).2) := by
  cases op with
  | make v f =>
    simp only [PS.step, rename, exchanged]
    cases s.blocks (other i j v) with
    | some b => rfl
    | none =>
      simp only
      cases Block.ofFn s.w f with
      | mk w b => cases b <;> simp [upd_renamed]
  | moveMake v u =>
    simp only [PS.step, rename, exchanged]
    cases s.blocks (other i j v) <;> cases s.blocks (other i j u) <;> simp [upd_renamed]
  | assign v u =>
    simp only [PS.step, rename, exchanged, other_inj]
    split
    · rfl
    · cases s.blocks (other i j v) <;> cases s.blocks (other i j u) <;> simp [upd_renamed]
  | destroy v =>
    simp only [PS.step, rename, exchanged]
    cases s.blocks (other i j v) <;> simp [upd_renamed]
  | execute v =>
    simp only [PS.step, rename]
    change (match s.blocks (other i j v) with | some b => (exchanged s i j).call v (b.execute eval s.w) | none => (exchanged s i j, none)) = _
    cases s.blocks (other i j v) with
    | none => rfl
    | some b => exact call_exchanged s i j v _
  | reset v =>
    simp only [PS.step, rename]
    change (match s.blocks (other i j v) with | some b => (exchanged s i j).call v (b.reset s.w) | none => (exchanged s i j, none)) = _
    cases s.blocks (other i j v) with
    | none => rfl
    | some b => exact call_exchanged s i j v _
  | update v f =>
    simp only [PS.step, rename]
    change (match s.blocks (other i j v) with | some b => (exchanged s i j).call v (b.updateWorkFunction s.w f) | none => (exchanged s i j, none)) = _
    cases s.blocks (other i j v) with
    | none => rfl
    | some b => exact call_exchanged s i j v _
  | isFinished v => rfl
  | getReturnVal v => rfl
  | getFuture v =>
    simp only [PS.step, rename, exchanged]
    cases s.blocks (other i j v) <;> rfl
  | get k => rfl

theorem run_exchanged (i j : Nat) (ops : List POp) : ∀ s : PS V, (exchanged s i j).run eval ops =
    (exchanged (s.run eval (ops.map (rename (other i j)))).1 i j, (s.run eval (ops.map (rename (other i j)))).2) := by
  induction ops with
  | nil => intro s; rfl
  | cons op ops ih => intro s; simp only [PS.run, List.map_cons, step_exchanged, ih]

/-! ## C166 -/

/-- C166.  `std::swap` of any two WorkBlocks, in whatever state they are (also moved from), exchanges them and does nothing else:
no function is run, no result set, no promise broken, and the futures taken before are as they were. -/
theorem swap_exact (s : PS V) (t i j : Nat) (a b : Block) (ha : s.blocks i = some a) (hb : s.blocks j = some b)
    (ht : s.blocks t = none) (hij : i ≠ j) :
    s.run eval (swapOps t i j) = (exchanged s i j, [some .unit, some .unit, some .unit, some .unit]) := by
  have hti : t ≠ i := by rintro rfl; rw [ha] at ht; cases ht
  have htj : t ≠ j := by rintro rfl; rw [hb] at ht; cases ht
  have hji : j ≠ i := fun h => hij h.symm
  simp only [swapOps, PS.run, PS.step, ha, hb, ht, upd, Block.moveFrom, Block.moveAssign, World.abandon, hti, hti.symm, htj,
    htj.symm, hij, hji, if_true, if_false, exchanged, Prod.mk.injEq, and_true, PS.mk.injEq, true_and]
  funext x
  by_cases h1 : x = t
  · subst h1; simp [upd, other, hti, htj, ht]
  · by_cases h2 : x = i
    · subst h2; simp [upd, other, h1, hb, hij]
    · by_cases h3 : x = j
      · subst h3; simp [upd, other, h1, h2, ha]
      · simp [upd, other, h1, h2, h3]

/-- C166.  What a program sees: after `std::swap(bi, bj)` it has the answers, and runs the functions in the order, of the program
that uses `bi` for `bj` and `bj` for `bi` without the swap. -/
theorem swap_seen (pre post : List POp) (t i j : Nat) (a b : Block) (ha : (PS.init.run eval pre).1.blocks i = some a)
    (hb : (PS.init.run eval pre).1.blocks j = some b) (ht : (PS.init.run eval pre).1.blocks t = none) (hij : i ≠ j) :
    let s : PS V := (PS.init.run eval pre).1
    let s' := (s.run eval (swapOps t i j)).1
    (s'.run eval post).2 = (s.run eval (post.map (rename (other i j)))).2 ∧
      (s'.run eval post).1.w.log = (s.run eval (post.map (rename (other i j)))).1.w.log := by
  simp only
  rw [swap_exact _ t i j a b ha hb ht hij, run_exchanged]
  exact ⟨rfl, rfl⟩

/-- Block 0 has been run, block 1 has not; both have futures.  After the swap block 0 can be run, and block 1 is finished. -/
example : (PS.init.run (fun log f => (.value (10 * f + log.length) : Res Nat))
    ([.make 0 7, .make 1 8, .getFuture 0, .getFuture 1, .execute 0] ++ swapOps 2 0 1 ++
      [.isFinished 0, .isFinished 1, .get 0, .get 1, .execute 0, .get 1, .getReturnVal 0, .getReturnVal 1])).2.drop 9 =
    [some (.bool false), some (.bool true), some (.result (.value 70)), some .blocks, some .unit, some (.result (.value 81)),
      some (.result (.value 81)), some (.result (.value 70))] := by decide

end Verif.WorkBlock.StdSwap
