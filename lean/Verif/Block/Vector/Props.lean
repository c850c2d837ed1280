import Verif.Block.Vector.World

/-
Property theorems for StableBlockVector (C17-C23).

`ideal`/`idealRun` (Spec.lean) is the meaning of a program over plain sequences, `run` its execution
on the model of the code, where `none` is undefined behaviour or a broken object lifecycle.
-/
namespace Verif.Block.Vector
open Verif.Block Vec
variable {X : Type}

/-- No objects yet. -/
abbrev noObjs : AWorld X := fun _ => none

/-- Calls other than copies, moves and iteration: construction, destruction and everything a
client does with one vector. -/
def Op.basic : Op X → Bool
  | .copyNew _ _ | .moveNew _ _ | .copyAssign _ _ | .moveAssign _ _ | .iterate _ | .assignRange _ _ _ _
  | .moveRange _ _ _ _ _ => false
  | _ => true

def neverMoved (aw : AWorld X) : Prop := ∀ i a, aw i = some a → a.moved = false

theorem basic_careful {N : Nat} {aw : AWorld X} (hm : neverMoved aw) {op : Op X} (hb : op.basic = true)
    {aw' : AWorld X} {o : Obs X} (hi : ideal N aw op = some (aw', o)) :
    careful N aw op = true ∧ neverMoved aw' := by
  have key : ∀ (i : Nat) (a : AObj X), a.moved = false → neverMoved (upd aw i (some a)) := by
    intro i a ha k b hb
    by_cases hk : k = i
    · subst hk; rw [upd_same] at hb; cases hb; exact ha
    · rw [upd_ne _ _ hk] at hb; exact hm k b hb
  have kn : ∀ (i : Nat), neverMoved (upd aw i none) := by
    intro i k b hb
    by_cases hk : k = i
    · subst hk; rw [upd_same] at hb; cases hb
    · rw [upd_ne _ _ hk] at hb; exact hm k b hb
  cases op <;> simp only [Op.basic, Bool.false_eq_true] at hb <;>
    simp only [ideal, Option.map_eq_some_iff, Option.bind_eq_some_iff] at hi
  case new i => split at hi <;> [(cases hi; exact ⟨rfl, key _ _ rfl⟩); cases hi]
  case newSize i n x => split at hi <;> [(cases hi; exact ⟨rfl, key _ _ rfl⟩); cases hi]
  case destroy i => obtain ⟨a, ha, hi⟩ := hi; cases hi; exact ⟨rfl, kn _⟩
  case set i k x =>
    obtain ⟨a, ha, hi⟩ := hi
    split at hi <;> [skip; cases hi]
    cases hi
    exact ⟨by simp [careful, ha, hm i a ha], key _ _ (hm i a ha)⟩
  case get i k =>
    obtain ⟨a, ha, x, hx, hi⟩ := hi
    cases hi
    exact ⟨by simp [careful, ha, hm i a ha], hm⟩
  case front i =>
    obtain ⟨a, ha, x, hx, hi⟩ := hi
    cases hi
    exact ⟨by simp [careful, ha, hm i a ha], hm⟩
  case back i =>
    obtain ⟨a, ha, x, hx, hi⟩ := hi
    cases hi
    exact ⟨by simp [careful, ha, hm i a ha], hm⟩
  all_goals
    obtain ⟨a, ha, hi⟩ := hi
    cases hi
    first
      | exact ⟨by simp [careful, ha, hm _ a ha], key _ _ (hm _ a ha)⟩
      | exact ⟨by simp [careful, ha, hm _ a ha], hm⟩

theorem basic_carefulRun {N : Nat} (ops : List (Op X)) : ∀ (aw : AWorld X), neverMoved aw →
    (∀ op, op ∈ ops → op.basic = true) → ∀ r, idealRun N aw ops = some r → carefulRun N aw ops = true := by
  induction ops with
  | nil => intro aw _ _ r _; rfl
  | cons op ops ih =>
    intro aw hm hb r h
    simp only [idealRun, Option.bind_eq_some_iff, Option.map_eq_some_iff] at h
    obtain ⟨⟨aw1, o⟩, h1, ⟨aw2, os⟩, h2, h3⟩ := h
    obtain ⟨c1, m1⟩ := basic_careful hm (hb op (by simp)) h1
    rw [carefulRun, c1, h1]
    simpa using ih aw1 m1 (fun p hp => hb p (by simp [hp])) _ h2

/-! ## C17, C23: a vector is a sequence -/

/-- C17 (and C23): for every block size exponent, element type and finite history of construction,
push, pop, assign, clear, shrink_to_fit, element assignment, queries and destruction that respects
the preconditions of sequences, the code runs without undefined behaviour and answers every call as
a plain sequence does. -/
theorem sequence (N : Nat) (ops : List (Op X)) (hb : ∀ op, op ∈ ops → op.basic = true)
    (aw : AWorld X) (obs : List (Obs X)) (h : idealRun N noObjs ops = some (aw, obs)) :
    ∃ w, run N World.empty ops = some (w, obs) := by
  obtain ⟨w, _, _, e, _⟩ := runs ops World.empty noObjs _ _ WInv.empty aw obs h
    (basic_carefulRun ops noObjs (by intro i a h; cases h) hb _ h)
  exact ⟨w, e⟩

/-- A history crossing block boundaries in both directions, with blocks of two elements. -/
def demo : List (Op Nat) :=
  [.new 0, .push 0 1, .push 0 2, .push 0 3, .push 0 4, .push 0 5, .pop 0, .pop 0, .back 0, .push 0 6,
   .set 0 1 9, .get 0 1, .at 0 3, .at 0 4, .size 0, .assign 0 [7, 8], .front 0, .shrink 0, .clear 0,
   .empty 0, .push 0 3, .back 0, .newSize 1 5 4, .pop 1, .push 1 6, .at 1 4, .at 1 5]

example : (∀ op, op ∈ demo → op.basic = true) ∧ (idealRun 1 noObjs demo).map (·.2) =
    some [.done, .done, .done, .done, .done, .done, .done, .done, .val 3, .done, .done, .val 9, .val 6,
      .threw, .num 4, .done, .val 7, .done, .done, .bool true, .done, .val 3, .done, .done, .done, .val 6,
      .threw] := by decide

/-- The same answers come from the model of the code. -/
example : (run 1 World.empty demo).map (·.2) = (idealRun 1 noObjs demo).map (·.2) := by decide

/-- C23: in every state reached by such a history, `at(k)` throws iff `k ≥ size()` and otherwise returns
element `k`. -/
theorem checked_at (N : Nat) (ops : List (Op X)) (hb : ∀ op, op ∈ ops → op.basic = true)
    (aw : AWorld X) (obs : List (Obs X)) (h : idealRun N noObjs ops = some (aw, obs))
    (i : Nat) (a : AObj X) (ha : aw i = some a) (k : Nat) :
    ∃ w, run N World.empty ops = some (w, obs) ∧
      exec N w (.size i) = some (w, .num a.elems.length) ∧
      (∀ hk : k < a.elems.length, exec N w (.at i k) = some (w, .val a.elems[k]) ∧
        exec N w (.get i k) = some (w, .val a.elems[k])) ∧
      (a.elems.length ≤ k → exec N w (.at i k) = some (w, .threw)) ∧
      (∀ hp : 0 < a.elems.length, exec N w (.front i) = some (w, .val a.elems[0]) ∧
        exec N w (.back i) = some (w, .val a.elems[a.elems.length - 1])) := by
  have hc := basic_carefulRun ops noObjs (by intro i a h; cases h) hb _ h
  obtain ⟨w, us, fs, e, W⟩ := runs ops World.empty noObjs _ _ WInv.empty aw obs h hc
  have hm : neverMoved aw := by
    clear e W hc ha
    have : ∀ (ops : List (Op X)) (aw0 : AWorld X) obs, neverMoved aw0 → (∀ op, op ∈ ops → op.basic = true) →
        idealRun N aw0 ops = some (aw, obs) → neverMoved aw := by
      intro ops
      induction ops with
      | nil => intro aw0 obs hm _ h; cases h; exact hm
      | cons op ops ih =>
        intro aw0 obs hm hb h
        simp only [idealRun, Option.bind_eq_some_iff, Option.map_eq_some_iff] at h
        obtain ⟨⟨aw1, o⟩, h1, ⟨aw2, os⟩, h2, h3⟩ := h
        cases h3
        exact ih aw1 os (basic_careful hm (hb op (by simp)) h1).2 (fun p hp => hb p (by simp [hp])) h2
    exact this ops noObjs obs (by intro i a h; cases h) hb h
  obtain ⟨v, hv, c, hr, hu⟩ := W.getLive ha (hm i a ha)
  refine ⟨w, e, by simp only [exec, hv, Option.map_some, Vec.size, c.len], fun hk => ⟨?_, ?_⟩, fun hk => ?_,
    fun hp => ⟨?_, ?_⟩⟩
  · simp only [exec, hv, Option.bind_some, at?]
    rw [if_neg (by rw [← c.len]; omega), c.get_eq hk]; rfl
  · simp only [exec, hv, Option.bind_some, c.get_eq hk, Option.map_some]
  · simp only [exec, hv, Option.bind_some, at?]
    rw [if_pos (by rw [← c.len]; omega)]; rfl
  · simp only [exec, hv, Option.bind_some, c.front_eq hp, Option.map_some]
  · simp only [exec, hv, Option.bind_some, c.back_eq hp, Option.map_some]

example : ((idealRun 1 noObjs demo).bind fun r => (r.1 1).map (·.elems)) = some [4, 4, 4, 4, 6] := by decide

/-- C23: `shrink_to_fit` changes no observable: the rest of any history gives the same answers with and
without it. -/
theorem shrink_invisible (N : Nat) (pre post : List (Op X)) (i : Nat)
    (hb : ∀ op, op ∈ pre ++ post → op.basic = true)
    (aw : AWorld X) (obs1 obs2 : List (Obs X))
    (h1 : idealRun N noObjs pre = some (aw, obs1)) (hi : aw i ≠ none)
    (aw2 : AWorld X) (h2 : idealRun N aw post = some (aw2, obs2)) :
    (∃ w, run N World.empty (pre ++ post) = some (w, obs1 ++ obs2)) ∧
    ∃ w, run N World.empty (pre ++ .shrink i :: post) = some (w, obs1 ++ .done :: obs2) := by
  have app : ∀ (p q : List (Op X)) (a b c : AWorld X) o1 o2, idealRun N a p = some (b, o1) →
      idealRun N b q = some (c, o2) → idealRun N a (p ++ q) = some (c, o1 ++ o2) := by
    intro p
    induction p with
    | nil => intro q a b c o1 o2 h1 h2; cases h1; simpa using h2
    | cons op p ih =>
      intro q a b c o1 o2 h1 h2
      simp only [idealRun, Option.bind_eq_some_iff, Option.map_eq_some_iff] at h1
      obtain ⟨⟨aw1, o⟩, e1, ⟨aw2, os⟩, e2, e3⟩ := h1
      cases e3
      simp only [List.cons_append, idealRun, e1, Option.bind_some, ih q _ _ _ _ _ e2 h2, Option.map_some]
  constructor
  · exact sequence N _ hb _ _ (app _ _ _ _ _ _ _ h1 h2)
  · refine sequence N _ ?_ aw2 _ (app _ _ _ _ _ _ _ h1 ?_)
    · intro op hop
      simp only [List.mem_append, List.mem_cons] at hop
      rcases hop with h | rfl | h
      · exact hb op (by simp [h])
      · rfl
      · exact hb op (by simp [h])
    · cases ha : aw i with
      | none => exact absurd ha hi
      | some a =>
        simp only [idealRun, ideal, ha, Option.map_some, Option.bind_some, h2]

example : ((idealRun 1 noObjs demo).bind fun r => r.1 0).isSome = true := by decide

/-! ## Programs with copies, moves and iteration -/

/-- C17, C20, C21, C22, restricted: any program over any number of vectors, including copy and move construction and
assignment, iteration from begin to end, and destruction, behaves as the program over sequences, provided
every call is a careful one.
Missing from the full claims: exactly the calls `careful` excludes, which misbehave, see
`iterate_full_violation`, `copy_emptied_violation`, `moved_from_push_violation` and `moved_from_size_violation`. -/
theorem programs_partial (N : Nat) (ops : List (Op X)) (aw : AWorld X) (obs : List (Obs X))
    (h : idealRun N noObjs ops = some (aw, obs)) (hc : carefulRun N noObjs ops = true) :
    ∃ w, run N World.empty ops = some (w, obs) := by
  obtain ⟨w, _, _, e, _⟩ := runs ops World.empty noObjs _ _ WInv.empty aw obs h hc
  exact ⟨w, e⟩

/-- A program with every kind of copy and move. -/
def demo2 : List (Op Nat) :=
  [.new 0, .iterate 0, .copyNew 4 0, .push 0 1, .push 0 2, .push 0 3, .iterate 0, .copyNew 1 0, .push 1 4, .set 1 0 9,
   .iterate 0, .iterate 1, .moveNew 2 1, .iterate 2, .copyAssign 0 2, .iterate 0, .destroy 1,
   .moveAssign 2 0, .iterate 2, .push 2 5, .iterate 2, .moveAssign 0 2, .iterate 0, .destroy 2, .destroy 0,
   .push 4 8, .iterate 4, .destroy 4]

example : carefulRun 1 noObjs demo2 = true ∧ (idealRun 1 noObjs demo2).map (·.2) = some
    [.done, .vals [], .done, .done, .done, .done, .vals [1, 2, 3], .done, .done, .done,
     .vals [1, 2, 3], .vals [9, 2, 3, 4], .done, .vals [9, 2, 3, 4], .done, .vals [9, 2, 3, 4], .done,
     .done, .vals [9, 2, 3, 4], .done, .vals [9, 2, 3, 4, 5], .done, .vals [9, 2, 3, 4, 5], .done, .done,
     .done, .vals [8], .done] := by decide

/-! ## C19: lifecycle -/

/-- C19: any history of basic calls after which all vectors have been destroyed runs without a lifecycle fault
(each element is constructed in a dead cell of a live block, read, assigned and destroyed only while
alive; a block is freed only while allocated and with no live element in it: everything else is `none`)
and leaves no block allocated, hence no element alive. -/
theorem lifecycle (N : Nat) (ops : List (Op X)) (hb : ∀ op, op ∈ ops → op.basic = true)
    (aw : AWorld X) (obs : List (Obs X)) (h : idealRun N noObjs ops = some (aw, obs))
    (hend : ∀ i, aw i = none) :
    ∃ w, run N World.empty ops = some (w, obs) ∧ ∀ b, w.heap.live b = false := by
  obtain ⟨w, us, fs, e, W⟩ := runs ops World.empty noObjs _ _ WInv.empty aw obs h
    (basic_carefulRun ops noObjs (by intro i a h; cases h) hb _ h)
  refine ⟨w, e, fun b => ?_⟩
  cases hl : w.heap.live b with
  | false => rfl
  | true =>
    obtain ⟨i, hi⟩ := W.noleak b hl
    obtain ⟨_, h1, h2⟩ := W.getNone (hend i)
    rw [h1, h2] at hi; simp at hi

/-- C19 with copies and moves; what is missing is what `careful` excludes. -/
theorem lifecycle_copies_partial (N : Nat) (ops : List (Op X))
    (aw : AWorld X) (obs : List (Obs X)) (h : idealRun N noObjs ops = some (aw, obs))
    (hc : carefulRun N noObjs ops = true) (hend : ∀ i, aw i = none) :
    ∃ w, run N World.empty ops = some (w, obs) ∧ ∀ b, w.heap.live b = false := by
  obtain ⟨w, us, fs, e, W⟩ := runs ops World.empty noObjs _ _ WInv.empty aw obs h hc
  refine ⟨w, e, fun b => ?_⟩
  cases hl : w.heap.live b with
  | false => rfl
  | true =>
    obtain ⟨i, hi⟩ := W.noleak b hl
    obtain ⟨_, h1, h2⟩ := W.getNone (hend i)
    rw [h1, h2] at hi; simp at hi

/-- objects end as `none`: for the two programs -/
example : ((idealRun 1 noObjs (demo ++ [.destroy 0, .destroy 1])).map fun r => ((r.1 0).isNone, (r.1 1).isNone)) =
    some (true, true) := by decide
example : ((idealRun 1 noObjs demo2).map fun r =>
    ((r.1 0).isNone, (r.1 1).isNone, (r.1 2).isNone, (r.1 4).isNone)) = some (true, true, true, true) := by decide

/-- and while they are alive there are blocks -/
example : ((run 1 World.empty demo).map fun r => r.1.heap.live 0) = some true := by decide

/-! ## C18: references stay valid -/

/-- Object `i` stays the same object and has more than `k` elements before and after each call. -/
def keeps (N i k : Nat) : AWorld X → List (Op X) → Prop
  | aw, [] => ∃ a, aw i = some a ∧ k < a.elems.length
  | aw, op :: ops => (∃ a, aw i = some a ∧ k < a.elems.length) ∧ ¬ op.rebinds i ∧
      ∃ r, ideal N aw op = some r ∧ keeps N i k r.1 ops

theorem addr_eq {N : Nat} {w : World X} {aw us fs} (W : WInv N w aw us fs) {i k : Nat} {a : AObj X}
    (ha : aw i = some a) (hk : k < a.elems.length) (hm : a.moved = false) :
    ∃ b, (us i)[k / blockSize N]? = some b ∧ w.addr N i k = some (b, k % blockSize N) ∧
      w.heap.read (blockSize N) b (k % blockSize N) = some a.elems[k] := by
  obtain ⟨v, hv, c, _⟩ := W.getLive ha hm
  obtain ⟨b, hb, hc⟩ := c.cell_eq (c.len ▸ hk)
  refine ⟨b, hb, by simp only [World.addr, hv, Option.bind_some, hc], ?_⟩
  have := c.get_eq hk
  unfold Vec.get at this
  rw [hc] at this
  simpa using this

theorem prefix_get {a b : List Nat} (h : a <+: b ∨ b <+: a) {k x y : Nat} (h1 : a[k]? = some x)
    (h2 : b[k]? = some y) : x = y := by
  rcases h with ⟨t, rfl⟩ | ⟨t, rfl⟩
  · rw [List.getElem?_append_left (List.getElem?_eq_some_iff.1 h1).1] at h2
    exact Option.some_inj.1 (h1.symm.trans h2)
  · rw [List.getElem?_append_left (List.getElem?_eq_some_iff.1 h2).1] at h1
    exact Option.some_inj.1 (h1.symm.trans h2)

theorem addr_stable_run {N i k : Nat} (ops : List (Op X)) : ∀ (w : World X) (aw : AWorld X) us fs, WInv N w aw us fs →
    keeps N i k aw ops → carefulRun N aw ops = true → (∀ a, aw i = some a → a.moved = false) →
    ∃ w' aw' us' fs' obs, idealRun N aw ops = some (aw', obs) ∧ run N w ops = some (w', obs) ∧ WInv N w' aw' us' fs' ∧
      ∃ a', aw' i = some a' ∧ a'.moved = false ∧ ∃ hk : k < a'.elems.length, w'.addr N i k = w.addr N i k ∧
      ∃ c, w.addr N i k = some c ∧ w'.heap.read (blockSize N) c.1 c.2 = some a'.elems[k] := by
  induction ops with
  | nil =>
    intro w aw us fs W hk hc hm
    obtain ⟨a, ha, hl⟩ := hk
    obtain ⟨b, _, h2, h3⟩ := addr_eq W ha hl (hm a ha)
    exact ⟨w, aw, us, fs, [], rfl, rfl, W, a, ha, hm a ha, hl, rfl, _, h2, h3⟩
  | cons op ops ih =>
    intro w aw us fs W hk hc hm
    obtain ⟨⟨a, ha, hl⟩, hr, ⟨aw1, o⟩, hi, hk'⟩ := hk
    rw [carefulRun, hi] at hc
    simp only [Bool.and_eq_true] at hc
    obtain ⟨w1, us1, fs1, e1, W1, hp, _⟩ := step w aw us fs W op aw1 o hi hc.1
    have hk1 : ∃ a1, aw1 i = some a1 ∧ k < a1.elems.length := by
      cases ops with
      | nil => exact hk'
      | cons _ _ => exact hk'.1
    obtain ⟨a1, ha1, hl1⟩ := hk1
    have hm1 : a1.moved = false := by
      have hma := hm a ha
      have uk : ∀ (j : Nat) (x : Option (AObj X)), upd aw j x i = some a1 → (i = j ∧ x = some a1) ∨ a1.moved = false := by
        intro j x h
        by_cases hij : i = j
        · subst hij; rw [upd_same] at h; exact .inl ⟨rfl, h⟩
        · rw [upd_ne _ _ hij, ha] at h; cases h; exact .inr hma
      cases op <;> simp only [Op.rebinds, not_or] at hr <;>
        simp only [ideal, Option.map_eq_some_iff, Option.bind_eq_some_iff] at hi
      case new j =>
        split at hi <;> [cases hi; cases hi]
        rcases uk _ _ ha1 with ⟨_, h⟩ | h
        · cases h; rfl
        · exact h
      case newSize j n x =>
        split at hi <;> [cases hi; cases hi]
        rcases uk _ _ ha1 with ⟨_, h⟩ | h
        · cases h; rfl
        · exact h
      case copyNew j l =>
        split at hi <;> [skip; cases hi]
        simp only [Option.map_eq_some_iff] at hi
        obtain ⟨b, hb, hi⟩ := hi
        cases hi
        rcases uk _ _ ha1 with ⟨_, h⟩ | h
        · cases h; rfl
        · exact h
      case moveNew j l =>
        split at hi <;> [skip; cases hi]
        simp only [Option.map_eq_some_iff] at hi
        obtain ⟨b, hb, hi⟩ := hi
        cases hi
        rw [upd_ne _ _ (Ne.symm hr.2), upd_ne _ _ (Ne.symm hr.1), ha] at ha1
        cases ha1; exact hma
      case copyAssign j l =>
        obtain ⟨b, hb, c, hc, hi⟩ := hi
        cases hi
        rcases uk _ _ ha1 with ⟨rfl, h⟩ | h
        · cases h; rw [ha] at hb; cases hb; exact hma
        · exact h
      case assignRange j l lo up =>
        obtain ⟨b, hb, c, hc, hi⟩ := hi
        split at hi <;> [skip; cases hi]
        cases hi
        rcases uk _ _ ha1 with ⟨rfl, h⟩ | h
        · cases h; rw [ha] at hb; cases hb; exact hma
        · exact h
      case moveRange j l lo up left _ =>
        obtain ⟨b, hb, c, hd, hi⟩ := hi
        split at hi <;> [skip; cases hi]
        split at hi
        · split at hi <;> [skip; cases hi]
          cases hi
          rcases uk _ _ ha1 with ⟨rfl, h⟩ | h
          · cases h; rw [ha] at hb; cases hb; exact hma
          · exact h
        · cases hi
          by_cases hil : i = l
          · subst hil; rw [upd_same] at ha1; cases ha1
            rw [ha] at hd; cases hd; exact hma
          · rw [upd_ne _ _ hil] at ha1
            rcases uk _ _ ha1 with ⟨rfl, h⟩ | h
            · cases h; rw [ha] at hb; cases hb; exact hma
            · exact h
      case moveAssign j l =>
        split at hi <;> [cases hi; skip]
        simp only [Option.map_eq_some_iff, Option.bind_eq_some_iff] at hi
        obtain ⟨b, hb, c, hc, hi⟩ := hi
        cases hi
        rw [upd_ne _ _ (Ne.symm hr.2), upd_ne _ _ (Ne.symm hr.1), ha] at ha1
        cases ha1; exact hma
      case destroy j =>
        obtain ⟨b, hb, hi⟩ := hi
        cases hi
        rcases uk _ _ ha1 with ⟨_, h⟩ | h
        · cases h
        · exact h
      case set j l x =>
        obtain ⟨b, hb, hi⟩ := hi
        split at hi <;> [skip; cases hi]
        cases hi
        rcases uk _ _ ha1 with ⟨rfl, h⟩ | h
        · cases h; rw [ha] at hb; cases hb; exact hma
        · exact h
      case get j l =>
        obtain ⟨b, hb, x, hx, hi⟩ := hi
        cases hi; rw [ha] at ha1; cases ha1; exact hma
      case front j =>
        obtain ⟨b, hb, x, hx, hi⟩ := hi
        cases hi; rw [ha] at ha1; cases ha1; exact hma
      case back j =>
        obtain ⟨b, hb, x, hx, hi⟩ := hi
        cases hi; rw [ha] at ha1; cases ha1; exact hma
      all_goals
        obtain ⟨b, hb, hi⟩ := hi
        cases hi
        first
          | (rcases uk _ _ ha1 with ⟨rfl, h⟩ | h
             · cases h; rw [ha] at hb; cases hb; exact hma
             · exact h)
          | (rw [ha] at ha1; cases ha1; exact hma)
    obtain ⟨b, g1, h2, h3⟩ := addr_eq W ha hl (hm a ha)
    obtain ⟨b1, g1', h2', h3'⟩ := addr_eq W1 ha1 hl1 hm1
    have hbb := prefix_get (hp i hr) g1 g1'
    subst hbb
    obtain ⟨w', aw', us', fs', os, r1, r2, W', a', ha', hm', hl', e', c, hc', rd⟩ :=
      ih w1 aw1 us1 fs1 W1 hk' hc.2 (fun x hx => by rw [ha1] at hx; cases hx; exact hm1)
    refine ⟨w', aw', us', fs', o :: os, ?_, ?_, W', a', ha', hm', hl', ?_, c, ?_, rd⟩
    · simp only [idealRun, hi, Option.bind_some, r1, Option.map_some]
    · simp only [run, e1, Option.bind_some, r2, Option.map_some]
    · rw [e', h2', h2]
    · rw [h2, ← h2', hc']

/-- C18: take any program prefix `pre`, an element `k` of vector `i`, and any continuation `post` in which `i` is not
destroyed, moved or rebuilt and never loses element `k` (pushes, pops, shrink_to_fit, element assignment,
assign, iteration, copying, and anything on other vectors).  Then `&v[k]` is the same before and after, and
reading through the old address gives the current element `k`. -/
theorem references_stable (N : Nat) (pre post : List (Op X)) (i k : Nat)
    (aw : AWorld X) (obs : List (Obs X)) (h : idealRun N noObjs pre = some (aw, obs))
    (hc : carefulRun N noObjs pre = true) (a : AObj X) (ha : aw i = some a) (hm : a.moved = false)
    (hk : keeps N i k aw post) (hc2 : carefulRun N aw post = true) :
    ∃ w w' aw' obs' a' c, run N World.empty pre = some (w, obs) ∧ run N w post = some (w', obs') ∧
      idealRun N aw post = some (aw', obs') ∧ aw' i = some a' ∧
      w.addr N i k = some c ∧ w'.addr N i k = some c ∧
      w'.heap.read (2 ^ N) c.1 c.2 = a'.elems[k]? := by
  obtain ⟨w, us, fs, e, W⟩ := runs pre World.empty noObjs _ _ WInv.empty aw obs h hc
  obtain ⟨w', aw', us', fs', os, r1, r2, W', a', ha', hm', hl', e', c, hc', rd⟩ :=
    addr_stable_run post w aw us fs W hk hc2 (fun x hx => by rw [ha] at hx; cases hx; exact hm)
  refine ⟨w, w', aw', os, a', c, e, r2, r1, ha', hc', by rw [e', hc'], ?_⟩
  rw [← blockSize_eq, rd, List.getElem?_eq_getElem hl']

/-- The calls C18 speaks about. -/
def Op.growShrink (i : Nat) : Op X → Bool
  | .push j _ | .pop j | .shrink j => j == i
  | _ => false

/-- C18 in the words of the property: through pushes, pops that leave element `k`, and shrink_to_fit, from any
state a history of basic calls reaches, element `k` keeps its address and its value. -/
theorem references_keep_value (N : Nat) (pre post : List (Op X)) (i k : Nat) (x : X)
    (hb : ∀ op, op ∈ pre → op.basic = true) (hp : ∀ op, op ∈ post → op.growShrink i = true)
    (aw : AWorld X) (obs : List (Obs X)) (h : idealRun N noObjs pre = some (aw, obs))
    (a : AObj X) (ha : aw i = some a) (hx : a.elems[k]? = some x) (hk : keeps N i k aw post) :
    ∃ w w' obs' c, run N World.empty pre = some (w, obs) ∧ run N w post = some (w', obs') ∧
      w.addr N i k = some c ∧ w'.addr N i k = some c ∧
      w.heap.read (2 ^ N) c.1 c.2 = some x ∧ w'.heap.read (2 ^ N) c.1 c.2 = some x := by
  have hc := basic_carefulRun pre noObjs (by intro i a h; cases h) hb _ h
  have hb2 : ∀ op, op ∈ post → op.basic = true := by
    intro op hop
    have := hp op hop
    cases op <;> simp_all [Op.growShrink, Op.basic]
  have hm : neverMoved aw := by
    have : ∀ (ops : List (Op X)) (aw0 : AWorld X) obs, neverMoved aw0 → (∀ op, op ∈ ops → op.basic = true) →
        idealRun N aw0 ops = some (aw, obs) → neverMoved aw := by
      intro ops
      induction ops with
      | nil => intro aw0 obs hm _ h; cases h; exact hm
      | cons op ops ih =>
        intro aw0 obs hm hb h
        simp only [idealRun, Option.bind_eq_some_iff, Option.map_eq_some_iff] at h
        obtain ⟨⟨aw1, o⟩, h1, ⟨aw2, os⟩, h2, h3⟩ := h
        cases h3
        exact ih aw1 os (basic_careful hm (hb op (by simp)) h1).2 (fun p hp => hb p (by simp [hp])) h2
    exact this pre noObjs obs (by intro i a h; cases h) hb h
  obtain ⟨hkl, rfl⟩ := List.getElem?_eq_some_iff.1 hx
  have hir : ∃ r, idealRun N aw post = some r := by
    clear h hc hm ha hx hb hb2 hp
    induction post generalizing aw with
    | nil => exact ⟨_, rfl⟩
    | cons op ops ih =>
      obtain ⟨_, _, r, h1, h2⟩ := hk
      obtain ⟨s, hs⟩ := ih r.1 h2
      exact ⟨(s.1, r.2 :: s.2), by simp only [idealRun, h1, Option.bind_some, hs, Option.map_some]⟩
  obtain ⟨r, hir⟩ := hir
  have hc2 := basic_carefulRun post aw hm hb2 _ hir
  obtain ⟨w, us, fs, e, W⟩ := runs pre World.empty noObjs _ _ WInv.empty aw obs h hc
  obtain ⟨w', aw', us', fs', os, r1, r2, W', a', ha', hm', hl', e', c, hc', rd⟩ :=
    addr_stable_run post w aw us fs W hk hc2 (fun x hx => hm i x hx)
  obtain ⟨b, _, h2, h3⟩ := addr_eq W ha hkl (hm i a ha)
  rw [hc'] at h2
  cases h2
  refine ⟨w, w', os, _, e, r2, hc', by rw [e', hc'], by rw [← blockSize_eq]; exact h3, ?_⟩
  rw [← blockSize_eq, rd]
  -- the ideal element is unchanged
  have val : ∀ (ops : List (Op X)) (aw0 : AWorld X) (a0 : AObj X) os, (∀ op, op ∈ ops → op.growShrink i = true) →
      keeps N i k aw0 ops → aw0 i = some a0 → idealRun N aw0 ops = some (aw', os) → a'.elems[k]? = a0.elems[k]? := by
    intro ops
    induction ops with
    | nil => intro aw0 a0 os _ _ h0 h; cases h; rw [ha'] at h0; cases h0; rfl
    | cons op ops ih =>
      intro aw0 a0 os hp hk h0 h
      obtain ⟨⟨a2, ha2, hl2⟩, _, ⟨aw1, o⟩, h1, hk'⟩ := hk
      rw [h0] at ha2; cases ha2
      simp only [idealRun, h1, Option.bind_some, Option.map_eq_some_iff] at h
      obtain ⟨⟨_, os'⟩, h2, h3⟩ := h
      cases h3
      have hk1 : ∃ a1, aw1 i = some a1 ∧ k < a1.elems.length := by
        cases ops with
        | nil => exact hk'
        | cons _ _ => exact hk'.1
      obtain ⟨a1, ha1, hl1⟩ := hk1
      rw [ih aw1 a1 _ (fun p hp' => hp p (by simp [hp'])) hk' ha1 h2]
      have hop := hp op (by simp)
      cases op <;> simp only [Op.growShrink, Bool.false_eq_true, beq_iff_eq] at hop
      all_goals
        subst hop
        simp only [ideal, h0, Option.map_some, Option.some.injEq, Prod.mk.injEq] at h1
        obtain ⟨rfl, _⟩ := h1
      · rw [upd_same] at ha1; cases ha1
        simp only; rw [List.getElem?_append_left hl2]
      · rw [upd_same] at ha1; cases ha1
        simp only at hl1 ⊢
        rw [List.getElem?_dropLast, if_pos (by simpa using hl1)]
      · rw [h0] at ha1; cases ha1; rfl
  have := val post aw a os hp hk ha r1
  rw [List.getElem?_eq_getElem hl', List.getElem?_eq_getElem hkl] at this
  exact this

/-- Element 1 survives crossing blocks, popping back into its own block, and growing again. -/
example : (idealRun 1 noObjs [Op.new 0, .push 0 1, .push 0 2]).isSome = true ∧
    keeps 1 0 1 (upd noObjs 0 (some ⟨[1, 2], 64, false⟩))
      [.push 0 3, .push 0 4, .push 0 5, .pop 0, .pop 0, .shrink 0, .pop 0, .push 0 6] := by
  refine ⟨by decide, ?_⟩
  simp [keeps, Op.rebinds, ideal, upd]

/-! ## C20: iteration -/

/-- C20: whatever careful history led to vector `i`, iterating from begin to end stops after size() steps having seen
exactly its elements in order, unless all reserved block slots are exactly full.
Missing: that case, see `iterate_full_violation`. -/
theorem iteration_partial (N : Nat) (ops : List (Op X)) (aw : AWorld X) (obs : List (Obs X))
    (h : idealRun N noObjs ops = some (aw, obs)) (hc : carefulRun N noObjs ops = true)
    (i : Nat) (a : AObj X) (ha : aw i = some a) (hm : a.moved = false) (hit : a.iterable N = true) :
    ∃ w, run N World.empty ops = some (w, obs) ∧ exec N w (.iterate i) = some (w, .vals a.elems) := by
  obtain ⟨w, us, fs, e, W⟩ := runs ops World.empty noObjs _ _ WInv.empty aw obs h hc
  obtain ⟨v, hv, c, hr, hu⟩ := W.getLive ha hm
  exact ⟨w, e, by simp only [exec, hv, Option.bind_some, c.iterate hu (iterable_core hit hr), Option.map_some]⟩

/-- full blocks, partly full ones and the empty vector are covered -/
example : AObj.iterable 2 (⟨[1, 2, 3, 4], 64, false⟩ : AObj Nat) = true ∧
    AObj.iterable 2 (⟨[], 0, false⟩ : AObj Nat) = true := by decide

theorem end_loaded {N : Nat} {v : Vec} {e : Iter} (h : v.end? N = some e) : Iter.Loaded v.dataptr e := by
  simp only [Vec.end?] at h
  split at h
  · split at h <;> exact Iter.make_loaded h
  · exact Iter.make_loaded h

theorem begin_loaded {N : Nat} {v : Vec} {b : Iter} (h : v.begin? N = some b) : Iter.Loaded v.dataptr b := by
  simp only [Vec.begin?] at h
  split at h
  · exact end_loaded h
  · exact Iter.make_loaded h

/-- a loop with ends of different constness sees what the ordinary loop sees -/
theorem iterateMixed_eq {N : Nat} {v : Vec} {h : Heap X} {xs : List X} (junk swap : Bool) (e : v.iterate N h = some xs) :
    v.iterateMixed N junk swap h = some xs := by
  simp only [Vec.iterate, Option.bind_eq_some_iff] at e
  obtain ⟨b, hb, l, hl, hc⟩ := e
  simp only [Vec.iterateMixed, hb, hl, Option.bind_some]
  exact Iter.collectMixed_eq junk swap (end_loaded hl) (begin_loaded hb) hc

/-- C20: so does a loop that compares a constant iterator with a non-constant end, or conversely, in either order
(`junk`: what comparing a never written block pointer with null gives). -/
theorem iteration_mixed_partial (N : Nat) (ops : List (Op X)) (aw : AWorld X) (obs : List (Obs X))
    (h : idealRun N noObjs ops = some (aw, obs)) (hc : carefulRun N noObjs ops = true)
    (i : Nat) (a : AObj X) (ha : aw i = some a) (hm : a.moved = false) (hit : a.iterable N = true) :
    ∃ w v, run N World.empty ops = some (w, obs) ∧ w.objs i = some v ∧
      ∀ junk swap, v.iterateMixed N junk swap w.heap = some a.elems := by
  obtain ⟨w, us, fs, e, W⟩ := runs ops World.empty noObjs _ _ WInv.empty aw obs h hc
  obtain ⟨v, hv, c, hr, hu⟩ := W.getLive ha hm
  exact ⟨w, v, e, hv, fun junk swap => iterateMixed_eq junk swap (c.iterate hu (iterable_core hit hr))⟩

/-- C20 is false in the remaining case: whenever a reached vector exactly fills the block slots it has reserved,
iterating over it (even forming `end()`) reads beyond the array of block pointers. -/
theorem iterate_full_undefined (N : Nat) (ops : List (Op X)) (aw : AWorld X) (obs : List (Obs X))
    (h : idealRun N noObjs ops = some (aw, obs)) (hc : carefulRun N noObjs ops = true)
    (i : Nat) (a : AObj X) (ha : aw i = some a) (hm : a.moved = false) (h0 : 0 < a.reserved)
    (hf : a.elems.length = a.reserved * 2 ^ N) :
    ∃ w, run N World.empty ops = some (w, obs) ∧ exec N w (.iterate i) = none := by
  obtain ⟨w, us, fs, e, W⟩ := runs ops World.empty noObjs _ _ WInv.empty aw obs h hc
  obtain ⟨v, hv, c, hr, hu⟩ := W.getLive ha hm
  refine ⟨w, e, ?_⟩
  simp only [exec, hv, Option.bind_some]
  rw [(c.iterate_full (by omega) (by rw [hr, blockSize_eq]; exact hf)).1]; rfl

theorem idealRun_pushes (N : Nat) (x : X) (n : Nat) : ∀ (aw : AWorld X) (xs : List X) (r : Nat),
    aw 0 = some ⟨xs, r, false⟩ → xs.length + n ≤ r * 2 ^ N →
    ∃ aw' obs, idealRun N aw (List.replicate n (.push 0 x)) = some (aw', obs) ∧
      aw' 0 = some ⟨xs ++ List.replicate n x, r, false⟩ := by
  induction n with
  | zero => intro aw xs r h _; exact ⟨aw, [], rfl, by simpa using h⟩
  | succ n ih =>
    intro aw xs r h hl
    obtain ⟨aw', obs, e, h'⟩ := ih (upd aw 0 (some ⟨xs ++ [x], r, false⟩)) (xs ++ [x]) r (upd_same _ _ _)
      (by simp; omega)
    refine ⟨aw', .done :: obs, ?_, ?_⟩
    · have : reservePush N r xs.length = r := by rw [reservePush, if_neg (by omega)]
      simp only [List.replicate_succ, idealRun, ideal, h, Option.map_some, Option.bind_some, this, e]
    · rw [h', List.replicate_succ, List.append_assoc]; rfl

/-- C20 violation, reachable for every block size: push 64 blocks worth of elements on a new vector and iterate. -/
theorem iterate_full_violation (N : Nat) (x : X) :
    ∃ w obs, run N World.empty (.new 0 :: List.replicate (64 * 2 ^ N) (.push 0 x)) = some (w, obs) ∧
      exec N w (.size 0) = some (w, .num (64 * 2 ^ N)) ∧ exec N w (.iterate 0) = none := by
  have hp : 0 < 2 ^ N := Nat.two_pow_pos N
  obtain ⟨m, hm⟩ : ∃ m, 64 * 2 ^ N = m + 1 := ⟨64 * 2 ^ N - 1, by omega⟩
  obtain ⟨aw, obs, e, h⟩ := idealRun_pushes N x m (upd (upd noObjs 0 (some ⟨[], 0, false⟩)) 0 (some ⟨[x], 64, false⟩))
    [x] 64 (upd_same _ _ _) (by simp; omega)
  have hrun : idealRun N noObjs (.new 0 :: List.replicate (64 * 2 ^ N) (.push 0 x)) =
      some (aw, .done :: .done :: obs) := by
    rw [hm]
    simp only [List.replicate_succ, idealRun, ideal, Option.isNone_none, if_true, Option.bind_some, upd_same,
      Option.map_some, List.length_nil, reservePush, List.nil_append, Nat.zero_mul, e]
  have hb : ∀ op, op ∈ (Op.new 0 :: List.replicate (64 * 2 ^ N) (Op.push 0 x)) → op.basic = true := by
    intro op hop
    simp only [List.mem_cons, List.mem_replicate] at hop
    rcases hop with rfl | ⟨_, rfl⟩ <;> rfl
  have hc := basic_carefulRun _ noObjs (by intro i a h; cases h) hb _ hrun
  have hlen : ([x] ++ List.replicate m x).length = 64 * 2 ^ N := by simp; omega
  obtain ⟨w, r1, r2⟩ := iterate_full_undefined N _ aw _ hrun hc 0 _ h rfl (by simp) hlen
  obtain ⟨w', r1', r3, _⟩ := checked_at N _ hb aw _ hrun 0 _ h 0
  rw [r1] at r1'; cases r1'
  refine ⟨w, _, r1, ?_, r2⟩
  rw [r3, hlen]

/-! ## C21: copies -/

/-- C21, restricted: after a careful program and a copy construction, the copy has the source's elements at
addresses different from all of the source's, and the whole remains a state in which any further careful
program behaves as over sequences (so later changes to one do not show in the other, and both can be destroyed).
Missing: copies of vectors that are empty but have reserved memory (`copy_emptied_violation`), or exactly fill
it. -/
theorem copy_partial (N : Nat) (pre post : List (Op X)) (i j : Nat)
    (aw : AWorld X) (obs : List (Obs X))
    (h : idealRun N noObjs (pre ++ [.copyNew i j]) = some (aw, obs))
    (hc : carefulRun N noObjs (pre ++ [.copyNew i j]) = true)
    (aw2 : AWorld X) (obs2 : List (Obs X)) (h2 : idealRun N aw post = some (aw2, obs2))
    (hc2 : carefulRun N aw post = true) :
    ∃ w a b, run N World.empty (pre ++ [.copyNew i j]) = some (w, obs) ∧ aw i = some a ∧ aw j = some b ∧
      a.elems = b.elems ∧
      (∀ k, k < a.elems.length → ∃ c, w.addr N i k = some c ∧
        w.heap.read (2 ^ N) c.1 c.2 = b.elems[k]? ∧ ∀ l, l < b.elems.length → w.addr N j l ≠ some c) ∧
      ∃ w2, run N w post = some (w2, obs2) := by
  obtain ⟨w, us, fs, e, W⟩ := runs _ World.empty noObjs _ _ WInv.empty aw obs h hc
  have last : ∀ (ops : List (Op X)) (aw0 : AWorld X) obs, idealRun N aw0 (ops ++ [.copyNew i j]) = some (aw, obs) →
      carefulRun N aw0 (ops ++ [.copyNew i j]) = true →
      ∃ b, b.moved = false ∧ i ≠ j ∧ aw j = some b ∧ aw i = some { b with moved := false } := by
    intro ops
    induction ops with
    | nil =>
      intro aw0 obs h hc
      simp only [List.nil_append, idealRun, ideal, Option.bind_eq_some_iff, Option.map_some, Option.isNone_iff_eq_none,
        Option.some.injEq, Prod.mk.injEq] at h
      obtain ⟨r, h1, h2, h3⟩ := h
      split at h1 <;> [skip; cases h1]
      rename_i hn
      simp only [Option.map_eq_some_iff] at h1
      obtain ⟨b, hb, h1⟩ := h1
      have hij : i ≠ j := by rintro rfl; rw [hn] at hb; cases hb
      subst h1; subst h2
      simp only [List.nil_append, carefulRun, careful, hb, Option.any_some, Bool.and_eq_true, Bool.not_eq_true'] at hc
      exact ⟨b, hc.1.1.1, hij, by simp only [upd_ne _ _ (Ne.symm hij), hb], upd_same _ _ _⟩
    | cons op ops ih =>
      intro aw0 obs h hc
      simp only [List.cons_append, idealRun, Option.bind_eq_some_iff, Option.map_eq_some_iff] at h
      obtain ⟨⟨aw1, o⟩, e1, ⟨aw2, os⟩, e2, e3⟩ := h
      cases e3
      simp only [List.cons_append, carefulRun, e1, Bool.and_eq_true] at hc
      exact ih aw1 os e2 hc.2
  obtain ⟨b, hmb, hij, hbj, hai⟩ := last pre noObjs obs h hc
  obtain ⟨w2, _, _, e2, _⟩ := runs post w aw us fs W aw2 obs2 h2 hc2
  refine ⟨w, _, b, e, hai, hbj, rfl, ?_, w2, e2⟩
  intro k hk
  obtain ⟨c, g1, g2, g3⟩ := addr_eq W hai hk rfl
  refine ⟨_, g2, by rw [← blockSize_eq, g3, List.getElem?_eq_getElem], ?_⟩
  intro l hl heq
  obtain ⟨c', g1', g2', g3'⟩ := addr_eq W hbj hl hmb
  rw [g2'] at heq
  simp only [Option.some.injEq, Prod.mk.injEq] at heq
  rw [heq.1] at g1'
  exact W.disj i j hij c (List.mem_append_left _ (List.mem_of_getElem? g1))
    (List.mem_append_left _ (List.mem_of_getElem? g1'))

example : carefulRun 1 noObjs ([Op.new 0, .push 0 1, .push 0 2, .push 0 3] ++ [.copyNew 1 0]) = true ∧
    ((idealRun 1 noObjs ([Op.new 0, .push 0 1, .push 0 2, .push 0 3] ++ [.copyNew 1 0])).bind fun r =>
      (idealRun 1 r.1 [.push 1 5, .iterate 0, .destroy 0, .iterate 1, .destroy 1]).map (·.2)) =
      some [.done, .vals [1, 2, 3], .done, .vals [1, 2, 3, 5], .done] := by decide

/-- C21 violation: copying a vector that was used and emptied gives a vector whose destruction, and whose
clear(), read the array of block pointers at index -1. -/
theorem copy_emptied_violation :
    (idealRun 2 noObjs [Op.new 0, .push 0 1, .pop 0, .copyNew 1 0, .size 1, .destroy 1]).map (·.2) =
      some [.done, .done, .done, .done, .num 0, .done] ∧
    (run 2 World.empty [Op.new 0, .push 0 1, .pop 0, .copyNew 1 0, .size 1]).isSome = true ∧
    (run 2 World.empty [Op.new 0, .push 0 1, .pop 0, .copyNew 1 0, .size 1, .destroy 1]).isNone = true ∧
    (run 2 World.empty [Op.new 0, .push 0 1, .pop 0, .copyNew 1 0, .size 1, .clear 1]).isNone = true := by
  decide

/-! ## C76: assigning a range of another vector, or of the vector itself -/

theorem WInvR.getAt {N : Nat} {w : World X} {aw us fs} {O : Others X} (W : WInvR O N w aw us fs) {i : Nat} {a : AObj X} (ha : aw i = some a)
    (hm : a.moved = false) : exec N w (.size i) = some (w, .num a.elems.length) ∧
      ∀ k x, a.elems[k]? = some x → exec N w (.get i k) = some (w, .val x) := by
  obtain ⟨v, hv, c, _, _⟩ := W.getLive ha hm
  refine ⟨by simp only [exec, hv, Option.map_some, Vec.size, c.len], fun k x hx => ?_⟩
  obtain ⟨hk, rfl⟩ := List.getElem?_eq_some_iff.1 hx
  simp only [exec, hv, Option.bind_some, c.get_eq hk, Option.map_some]

/-- C76, `vi.assign(vj.begin() + lo, vj.begin() + hi)`, also for `i = j`: afterwards `vi` has exactly the elements
`lo, ..., hi - 1` which `vj` had before, every other vector is unchanged, and any further careful program behaves
as over sequences.
Missing: ranges ending at the end of a vector whose reserved block slots are exactly full, where the iterator itself
cannot be formed, see `range_full_undefined`, and moved-from vectors. -/
theorem range_assign_partial (N : Nat) (pre post : List (Op X)) (i j lo hi : Nat)
    (aw : AWorld X) (obs : List (Obs X)) (h : idealRun N noObjs pre = some (aw, obs))
    (hc : carefulRun N noObjs pre = true)
    (a b : AObj X) (ha : aw i = some a) (hb : aw j = some b) (hma : a.moved = false) (hmb : b.moved = false)
    (hlo : lo ≤ hi) (hhi : hi ≤ b.elems.length) (hf : b.reserved = 0 ∨ hi < b.reserved * 2 ^ N) :
    ∃ w w1 aw1, run N World.empty pre = some (w, obs) ∧ exec N w (.assignRange i j lo hi) = some (w1, .done) ∧
      exec N w1 (.size i) = some (w1, .num (hi - lo)) ∧
      (∀ k x, k < hi - lo → b.elems[lo + k]? = some x → exec N w1 (.get i k) = some (w1, .val x)) ∧
      (∀ l c, l ≠ i → aw l = some c → c.moved = false → exec N w1 (.size l) = some (w1, .num c.elems.length) ∧
        ∀ k x, c.elems[k]? = some x → exec N w1 (.get l k) = some (w1, .val x)) ∧
      ideal N aw (.assignRange i j lo hi) = some (aw1, .done) ∧
      ∀ aw2 obs2, idealRun N aw1 post = some (aw2, obs2) → carefulRun N aw1 post = true →
        ∃ w2, run N w1 post = some (w2, obs2) := by
  obtain ⟨w, us, fs, e, W⟩ := runs pre World.empty noObjs _ _ WInv.empty aw obs h hc
  have hid : ideal N aw (.assignRange i j lo hi) = some (upd aw i (some ⟨(b.elems.take hi).drop lo,
      reservePushes N a.reserved a.elems.length (hi - lo - a.elems.length), a.moved⟩), .done) := by
    simp only [ideal, ha, hb, Option.bind_some]
    rw [if_pos ⟨hlo, hhi⟩]
  have hcar : careful N aw (.assignRange i j lo hi) = true := by
    simp only [careful, ha, hb, Option.any_some, hma, hmb, Bool.not_false, Bool.true_and, decide_eq_true_eq]
    exact hf
  obtain ⟨w1, us1, fs1, e1, W1, _, _⟩ := step w aw us fs W _ _ _ hid hcar
  have g := W1.getAt (upd_same aw i _) hma
  refine ⟨w, w1, _, e, e1, ?_, fun k x hk hx => g.2 k x ?_, fun l c hl hlc hmc => ?_, hid, fun aw2 obs2 h2 hc2 => ?_⟩
  · rw [g.1]; simp only [List.length_drop, List.length_take, Nat.min_eq_left hhi]
  · rw [List.getElem?_drop, List.getElem?_take_of_lt (by omega)]; exact hx
  · exact W1.getAt (by rw [upd_ne _ _ hl]; exact hlc) hmc
  · obtain ⟨w2, _, _, e2, _⟩ := runs post w1 _ us1 fs1 W1 aw2 obs2 h2 hc2
    exact ⟨w2, e2⟩

/-- C76, `vi.move_assign(vj.begin() + lo, vj.begin() + hi)` between different vectors, where moving from the elements
leaves `left` in them: `vi` has the old elements `lo, ..., hi - 1` of `vj`, `vj` keeps its size and its other elements
and holds `left` in that range, and every other vector is unchanged.
Missing: as for `range_assign_partial`. -/
theorem range_move_partial (N : Nat) (pre post : List (Op X)) (i j lo hi : Nat) (left : List X)
    (aw : AWorld X) (obs : List (Obs X)) (h : idealRun N noObjs pre = some (aw, obs))
    (hc : carefulRun N noObjs pre = true) (hij : i ≠ j)
    (a b : AObj X) (ha : aw i = some a) (hb : aw j = some b) (hma : a.moved = false) (hmb : b.moved = false)
    (hlo : lo ≤ hi) (hhi : hi ≤ b.elems.length) (hl : left.length = hi - lo)
    (hf : b.reserved = 0 ∨ hi < b.reserved * 2 ^ N) :
    ∃ w w1 aw1, run N World.empty pre = some (w, obs) ∧ exec N w (.moveRange i j lo hi left) = some (w1, .done) ∧
      exec N w1 (.size i) = some (w1, .num (hi - lo)) ∧
      (∀ k x, k < hi - lo → b.elems[lo + k]? = some x → exec N w1 (.get i k) = some (w1, .val x)) ∧
      exec N w1 (.size j) = some (w1, .num b.elems.length) ∧
      (∀ k x, k < lo ∨ hi ≤ k → b.elems[k]? = some x → exec N w1 (.get j k) = some (w1, .val x)) ∧
      (∀ k y, left[k]? = some y → exec N w1 (.get j (lo + k)) = some (w1, .val y)) ∧
      (∀ l c, l ≠ i → l ≠ j → aw l = some c → c.moved = false →
        exec N w1 (.size l) = some (w1, .num c.elems.length) ∧
        ∀ k x, c.elems[k]? = some x → exec N w1 (.get l k) = some (w1, .val x)) ∧
      ideal N aw (.moveRange i j lo hi left) = some (aw1, .done) ∧
      ∀ aw2 obs2, idealRun N aw1 post = some (aw2, obs2) → carefulRun N aw1 post = true →
        ∃ w2, run N w1 post = some (w2, obs2) := by
  obtain ⟨w, us, fs, e, W⟩ := runs pre World.empty noObjs _ _ WInv.empty aw obs h hc
  have hid : ideal N aw (.moveRange i j lo hi left) = some (upd (upd aw i (some ⟨(b.elems.take hi).drop lo,
      reservePushes N a.reserved a.elems.length (hi - lo - a.elems.length), a.moved⟩))
      j (some { b with elems := b.elems.take lo ++ left ++ b.elems.drop hi }), .done) := by
    simp only [ideal, ha, hb, Option.bind_some]
    rw [if_pos ⟨hlo, hhi, hl⟩, if_neg hij]
  have hcar : careful N aw (.moveRange i j lo hi left) = true := by
    simp only [careful, ha, hb, Option.any_some, hma, hmb, Bool.not_false, Bool.true_and, decide_eq_true_eq]
    exact hf
  obtain ⟨w1, us1, fs1, e1, W1, _, _⟩ := step w aw us fs W _ _ _ hid hcar
  have g := W1.getAt (i := i) (a := ⟨(b.elems.take hi).drop lo,
    reservePushes N a.reserved a.elems.length (hi - lo - a.elems.length), a.moved⟩)
    (by rw [upd_ne _ _ hij, upd_same]) hma
  have g2 := W1.getAt (upd_same _ j _) hmb
  have hlt : (b.elems.take lo).length = lo := by rw [List.length_take]; omega
  have hlt2 : (b.elems.take lo ++ left).length = hi := by rw [List.length_append, hlt]; omega
  refine ⟨w, w1, _, e, e1, ?_, fun k x hk hx => g.2 k x ?_, ?_, fun k x hk hx => g2.2 k x ?_,
    fun k y hy => g2.2 _ y ?_, fun l c hli hlj hlc hmc => ?_, hid, fun aw2 obs2 h2 hc2 => ?_⟩
  · rw [g.1]; simp only [List.length_drop, List.length_take, Nat.min_eq_left hhi]
  · rw [List.getElem?_drop, List.getElem?_take_of_lt (by omega)]; exact hx
  · rw [g2.1]
    simp only [List.length_append, List.length_drop, hlt, hl]
    congr 3; omega
  · rcases hk with hk | hk
    · rw [List.append_assoc, List.getElem?_append_left (by omega), List.getElem?_take_of_lt hk]; exact hx
    · rw [List.getElem?_append_right (by omega), hlt2, List.getElem?_drop, show hi + (k - hi) = k by omega]; exact hx
  · have := (List.getElem?_eq_some_iff.1 hy).1
    rw [List.append_assoc, List.getElem?_append_right (by omega), hlt, List.getElem?_append_left (by omega),
      show lo + k - lo = k by omega]
    exact hy
  · exact W1.getAt (by rw [upd_ne _ _ hlj, upd_ne _ _ hli]; exact hlc) hmc
  · obtain ⟨w2, _, _, e2, _⟩ := runs post w1 _ us1 fs1 W1 aw2 obs2 h2 hc2
    exact ⟨w2, e2⟩

/-- The ranges excluded above have undefined behaviour: the end iterator of such a range is computed by reading
beyond the array of block pointers. -/
theorem range_full_undefined (N : Nat) (ops : List (Op X)) (aw : AWorld X) (obs : List (Obs X))
    (h : idealRun N noObjs ops = some (aw, obs)) (hc : carefulRun N noObjs ops = true)
    (i j lo : Nat) (b : AObj X) (hb : aw j = some b) (hmb : b.moved = false) (h0 : 0 < b.reserved)
    (hf : b.elems.length = b.reserved * 2 ^ N) :
    ∃ w, run N World.empty ops = some (w, obs) ∧ exec N w (.assignRange i j lo b.elems.length) = none := by
  obtain ⟨w, us, fs, e, W⟩ := runs ops World.empty noObjs _ _ WInv.empty aw obs h hc
  obtain ⟨v, hv, c, hr, hu⟩ := W.getLive hb hmb
  refine ⟨w, e, ?_⟩
  have hB := blockSize_pos N
  obtain ⟨it, hb, d⟩ := c.begin_denotes hu (by omega)
  have : it.add (blockSize N) v.dataptr b.elems.length = none :=
    d.add_none hB (by rw [c.arr.len, Nat.zero_add, hf, blockSize_eq, Nat.mul_div_cancel _ (by rwa [← blockSize_eq]), hr]; exact Nat.le_refl _)
  simp only [exec, hv, Option.bind_some, Vec.assignSub, hb, this]
  cases w.objs i with
  | none => rfl
  | some _ => simp

/-- Ranges between vectors with blocks of two elements, crossing blocks, growing and shrinking the target, moving,
and from a vector to itself. -/
def demo3 : List (Op Nat) :=
  [.new 0, .assign 0 [1, 2, 3, 4, 5, 6, 7], .new 1, .assignRange 1 0 1 6, .iterate 1, .assignRange 1 0 2 4, .iterate 1,
   .iterate 0, .moveRange 1 0 2 6 [0, 0, 0, 0], .iterate 1, .iterate 0, .assignRange 1 1 1 3, .iterate 1,
   .moveRange 0 0 3 7 [9, 9, 9, 9], .iterate 0, .assignRange 0 0 0 0, .iterate 0, .destroy 0, .iterate 1, .destroy 1]

example : carefulRun 1 noObjs demo3 = true ∧ (idealRun 1 noObjs demo3).map (·.2) = some
    [.done, .done, .done, .done, .vals [2, 3, 4, 5, 6], .done, .vals [3, 4], .vals [1, 2, 3, 4, 5, 6, 7], .done,
     .vals [3, 4, 5, 6], .vals [1, 2, 0, 0, 0, 0, 7], .done, .vals [4, 5], .done, .vals [0, 0, 0, 7], .done, .vals [],
     .done, .vals [4, 5], .done] := by decide

example : (run 1 World.empty demo3).map (·.2) = (idealRun 1 noObjs demo3).map (·.2) := by decide

/-! ## C22: moves -/

/-- C22, restricted: after move construction or move assignment the target has the source's elements at the
source's old addresses, and any further careful program (which may destroy or assign to the source, but not
use it otherwise) behaves as over sequences.
Missing: other use of the moved-from vector, see `moved_from_push_violation` and `moved_from_size_violation`. -/
theorem move_partial (N : Nat) (pre post : List (Op X)) (i j : Nat) (op : Op X)
    (hop : op = .moveNew i j ∨ op = .moveAssign i j)
    (aw : AWorld X) (obs : List (Obs X)) (h : idealRun N noObjs pre = some (aw, obs))
    (hc : carefulRun N noObjs pre = true) (b : AObj X) (hb : aw j = some b) (hm : b.moved = false)
    (aw1 : AWorld X) (h1 : ideal N aw op = some (aw1, .done)) (hc1 : careful N aw op = true)
    (aw2 : AWorld X) (obs2 : List (Obs X)) (h2 : idealRun N aw1 post = some (aw2, obs2))
    (hc2 : carefulRun N aw1 post = true) :
    ∃ w w1, run N World.empty pre = some (w, obs) ∧ exec N w op = some (w1, .done) ∧ aw1 i = some b ∧
      (∀ k, k < b.elems.length → ∃ c, w.addr N j k = some c ∧ w1.addr N i k = some c ∧
        w1.heap.read (2 ^ N) c.1 c.2 = b.elems[k]?) ∧
      ∃ w2, run N w1 post = some (w2, obs2) := by
  obtain ⟨w, us, fs, e, W⟩ := runs pre World.empty noObjs _ _ WInv.empty aw obs h hc
  obtain ⟨w1, us1, fs1, e1, W1, _, ht⟩ := step w aw us fs W op aw1 .done h1 hc1
  obtain ⟨w2, _, _, e2, _⟩ := runs post w1 aw1 us1 fs1 W1 aw2 obs2 h2 hc2
  have hi : aw1 i = some b := by
    rcases hop with rfl | rfl
    · simp only [ideal, Option.isNone_iff_eq_none] at h1
      split at h1 <;> [skip; cases h1]
      rename_i hn
      have hij : i ≠ j := by rintro rfl; rw [hn] at hb; cases hb
      simp only [hb, Option.map_some, Option.some.injEq, Prod.mk.injEq] at h1
      rw [← h1.1, upd_ne _ _ hij, upd_same]
    · simp only [ideal] at h1
      split at h1 <;> [cases h1; skip]
      rename_i hij
      simp only [hb, Option.map_some, Option.bind_eq_some_iff, Option.some.injEq, Prod.mk.injEq] at h1
      obtain ⟨_, _, h1, _⟩ := h1
      rw [← h1, upd_ne _ _ hij, upd_same]
  refine ⟨w, w1, e, e1, hi, ?_, w2, e2⟩
  intro k hk
  obtain ⟨c, g1, g2, g3⟩ := addr_eq W hb hk hm
  obtain ⟨c', g1', g2', g3'⟩ := addr_eq W1 hi hk hm
  rw [ht i j hop, g1] at g1'
  cases g1'
  exact ⟨_, g2, g2', by rw [← blockSize_eq, g3', List.getElem?_eq_getElem]⟩

example : careful 1 (upd (upd noObjs 0 (some ⟨[1, 2, 3], 64, false⟩)) 1 (some ⟨[4], 64, false⟩)) (.moveAssign 1 0) = true ∧
    (ideal 1 (upd (upd noObjs 0 (some ⟨[1, 2, 3], 64, false⟩)) 1 (some ⟨[4], 64, false⟩)) (.moveAssign 1 0)).map (·.2) =
      some .done := by decide

/-- C22 violation: push_back on a move-constructed-from vector writes through a null array of blocks. -/
theorem moved_from_push_violation :
    (idealRun 2 noObjs [Op.new 0, .push 0 1, .moveNew 1 0, .push 0 2, .size 0]).map (·.2) =
      some [.done, .done, .done, .done, .num 1] ∧
    (run 2 World.empty [Op.new 0, .push 0 1, .moveNew 1 0, .push 0 2]).isNone = true := by decide

/-- C22 violation: a vector that has been move-assigned from still reports its old size. -/
theorem moved_from_size_violation :
    (idealRun 2 noObjs [Op.new 0, .push 0 1, .new 1, .moveAssign 1 0, .size 0]).map (·.2) =
      some [.done, .done, .done, .done, .num 0] ∧
    (run 2 World.empty [Op.new 0, .push 0 1, .new 1, .moveAssign 1 0, .size 0]).map (·.2) =
      some [.done, .done, .done, .done, .num 1] := by decide

end Verif.Block.Vector
