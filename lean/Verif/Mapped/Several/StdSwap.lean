import Verif.Mapped.Several.Model
import Verif.Mapped.Vector.Props

/-
C163: `std::swap(ti, tj)` of MappedVector or DualMappedVector objects, that is
`T t(std::move(ti)); ti = std::move(tj); tj = std::move(t);` and the end of the life of `t`, with the implicitly defined
move operations, for any state in which moved-from maps are left.
In a swap of an object with itself, `ti = std::move(ti)` is applied to a moved-from object; the model takes it to stay moved
from (the standard leaves its value unspecified); it is assigned to next.
-/
namespace Verif.Mapped.Several
open Verif.Mapped
open Verif.Mapped.Vector (Ideal Obs)
open Verif.Block
open Verif.Block.Vector (Vec upd)

variable {S T M H C V : Type}

/-- `std::swap(ti, tj)` with the temporary object `t`. -/
def swapOps (t i j : Nat) : List (Op C) := [.moveNew t i, .moveAssign i j, .moveAssign j t, .destroy t]

/-- the other of the two objects `i` and `j`; any other object itself -/
def other (i j x : Nat) : Nat := if x = i then j else if x = j then i else x

/-- a call with its objects renamed by `σ` -/
def Op.rename (σ : Nat → Nat) : Op C → Op C
  | .new a => .new (σ a)
  | .copyNew a b => .copyNew (σ a) (σ b)
  | .moveNew a b => .moveNew (σ a) (σ b)
  | .copyAssign a b => .copyAssign (σ a) (σ b)
  | .moveAssign a b => .moveAssign (σ a) (σ b)
  | .destroy a => .destroy (σ a)
  | .call a c => .call (σ a) c

theorem other_other (i j x : Nat) : other i j (other i j x) = x := by
  unfold other; repeat' split <;> simp_all

theorem other_inj (i j x y : Nat) : other i j x = other i j y ↔ x = y :=
  ⟨fun h => by rw [← other_other i j x, h, other_other], fun h => by rw [h]⟩

/-- what `std::swap` needs of the storage: a moved-from storage can be assigned to and destroyed without touching memory -/
structure Swaps (μ : Multi S T H) : Prop where
  take : ∀ s, (μ.move s).1 = s
  assign : ∀ s t h, ∃ u, μ.moveAssign (μ.move s).2 t h = some (t, u, h) ∧
    ∀ s', ∃ u', μ.moveAssign u s' h = some (s', u', h) ∧ μ.destroy u' h = some h

theorem vectors_swaps (V : Type) : Swaps (vectors V) := ⟨fun _ => rfl, fun _ _ _ => ⟨[], rfl, fun _ => ⟨[], rfl, rfl⟩⟩⟩

theorem stables_swaps (N : Nat) (V : Type) : Swaps (stables N V) :=
  ⟨fun _ => rfl, fun _ _ _ => ⟨_, rfl, fun _ => ⟨_, rfl, rfl⟩⟩⟩

/-- the worlds `w` and `w'` are the same, `σ x` being in `w'` what `x` is in `w` -/
structure Same (σ : Nat → Nat) (w w' : World T M H) : Prop where
  objs : ∀ x, w.objs x = w'.objs (σ x)
  maps : ∀ x, w.objs x ≠ none → w.maps x = w'.maps (σ x)
  mem : w.mem = w'.mem

theorem Same.put {i j : Nat} {w w' : World T M H} (s : Same (other i j) w w') (x : Nat) (o : Option T) (m m' : M) (h : H)
    (hm : o ≠ none → m = m') :
    Same (other i j) ⟨upd w.objs x o, put w.maps x m, h⟩ ⟨upd w'.objs (other i j x) o, Several.put w'.maps (other i j x) m', h⟩ := by
  refine ⟨fun y => ?_, fun y hy => ?_, rfl⟩
  · simp only [upd, other_inj]; split
    · rfl
    · exact s.objs y
  · simp only [upd, Several.put, other_inj] at hy ⊢
    split
    · next e => rw [if_pos e] at hy; exact hm hy
    · next e => rw [if_neg e] at hy; exact s.maps y hy

/-- renamed calls on the same worlds do the same -/
theorem Same.exec {i j : Nat} {w w' : World T M H} (s : Same (other i j) w w') (μ : Multi S T H) (code : Code S M C V)
    (left : M → M) (op : Op C) :
    match Several.exec μ code left w op, Several.exec μ code left w' (op.rename (other i j)) with
    | some r, some r' => r.2 = r'.2 ∧ Same (other i j) r.1 r'.1
    | none, none => True
    | _, _ => False := by
  obtain ⟨objs, maps, mem⟩ := w
  obtain ⟨objs', maps', mem'⟩ := w'
  have hmem : mem = mem' := s.mem
  subst hmem
  have ho : ∀ x, objs' (other i j x) = objs x := fun x => (s.objs x).symm
  cases op with
  | new x => exact ⟨rfl, s.put x _ _ _ _ fun _ => rfl⟩
  | copyNew x y =>
    simp only [Several.exec, Op.rename, ho]
    cases hy : objs y with
    | none => trivial
    | some a =>
      simp only [Option.bind_some]
      cases μ.copy a mem with
      | none => trivial
      | some r => exact ⟨rfl, s.put x _ _ _ _ fun _ => s.maps y (by simp [hy])⟩
  | moveNew x y =>
    simp only [Several.exec, Op.rename, ho]
    cases hy : objs y with
    | none => trivial
    | some a =>
      have hm := s.maps y (by simp [hy])
      refine ⟨rfl, ((s.put x _ _ _ mem fun _ => hm).put y _ _ _ _ fun _ => ?_)⟩
      exact congrArg left hm
  | copyAssign x y =>
    simp only [Several.exec, Op.rename, ho]
    cases hx : objs x with
    | none => trivial
    | some b =>
      cases hy : objs y with
      | none => trivial
      | some a =>
        simp only [Option.bind_some]
        cases μ.copyAssign b a mem with
        | none => trivial
        | some r => exact ⟨rfl, s.put x _ _ _ _ fun _ => s.maps y (by simp [hy])⟩
  | moveAssign x y =>
    simp only [Several.exec, Op.rename, ho]
    cases hx : objs x with
    | none => trivial
    | some b =>
      cases hy : objs y with
      | none => trivial
      | some a =>
        simp only [Option.bind_some]
        cases μ.moveAssign b a mem with
        | none => trivial
        | some r =>
          have hm := s.maps y (by simp [hy])
          exact ⟨rfl, ((s.put x _ _ _ mem fun _ => hm).put y _ _ _ _ fun _ => congrArg left hm)⟩
  | destroy x =>
    simp only [Several.exec, Op.rename, ho]
    cases hx : objs x with
    | none => trivial
    | some b =>
      simp only [Option.bind_some]
      cases μ.destroy b mem with
      | none => trivial
      | some h =>
        refine ⟨rfl, fun y => ?_, fun y hy => ?_, rfl⟩
        · simp only [upd, other_inj]; split
          · rfl
          · exact s.objs y
        · simp only [upd] at hy
          split at hy
          · exact absurd rfl hy
          · exact s.maps y hy
  | call x c =>
    simp only [Several.exec, Op.rename, ho]
    cases hx : objs x with
    | none => trivial
    | some b =>
      have hm : maps x = maps' (other i j x) := s.maps x (by simp [hx])
      simp only [Option.bind_some, hm]
      cases code.exec (μ.join b mem) (maps' (other i j x)) c with
      | none => trivial
      | some r => exact ⟨rfl, s.put x _ _ _ _ fun _ => rfl⟩

theorem Same.run {i j : Nat} (μ : Multi S T H) (code : Code S M C V) (left : M → M) (ops : List (Op C)) :
    ∀ {w w' : World T M H}, Same (other i j) w w' →
    (Several.run μ code left w ops).map (·.2) =
      (Several.run μ code left w' (ops.map (Op.rename (other i j)))).map (·.2) := by
  induction ops with
  | nil => intros; rfl
  | cons op ops ih =>
    intro w w' s
    have h := s.exec μ code left op
    simp only [List.map_cons, Several.run]
    revert h
    cases Several.exec μ code left w op <;> cases Several.exec μ code left w' (op.rename (other i j)) <;> intro h
    · rfl
    · cases h
    · cases h
    · rename_i r r'
      obtain ⟨h1, h2⟩ := h
      have := ih h2
      simp only [Option.bind_some, Option.map_map]
      revert this
      cases Several.run μ code left r.1 ops <;>
        cases Several.run μ code left r'.1 (ops.map (Op.rename (other i j))) <;> intro this
      · rfl
      · cases this
      · cases this
      · simp only [Option.map_some, Option.some.injEq, Function.comp] at this ⊢
        rw [h1, this]

theorem swap_same {μ : Multi S T H} (hμ : Swaps μ) (code : Code S M C V) (left : M → M) (w : World T M H) (t i j : Nat)
    (a b : T) (ha : w.objs i = some a) (hb : w.objs j = some b) (ht : w.objs t = none) :
    ∃ w', run μ code left w (swapOps t i j) = some (w', [.done, .done, .done, .done]) ∧ Same (other i j) w' w := by
  have hti : t ≠ i := by rintro rfl; rw [ha] at ht; cases ht
  have htj : t ≠ j := by rintro rfl; rw [hb] at ht; cases ht
  by_cases hij : i = j
  · subst hij
    obtain ⟨u, e1, h⟩ := hμ.assign a (μ.move a).2 w.mem
    obtain ⟨u', e2, e3⟩ := h a
    refine ⟨⟨upd (upd (upd (upd (upd (upd (upd w.objs t (some a)) i (some (μ.move a).2)) i (some (μ.move a).2)) i (some u)) i
        (some a)) t (some u')) t none,
      put (put (put (put (put (put w.maps t (w.maps i)) i (left (w.maps i))) i (left (w.maps i))) i (left (left (w.maps i)))) i
        (w.maps i)) t (left (w.maps i)), w.mem⟩, ?_, ?_⟩
    · simp [swapOps, run, exec, ha, upd, put, hμ.take, e1, e2, e3, hti, hti.symm]
    · refine ⟨fun x => ?_, fun x hx => ?_, rfl⟩
      · by_cases h1 : x = t
        · subst h1; simp [upd, other, hti, ht]
        · by_cases h2 : x = i
          · subst h2; simp [upd, other, h1, ha]
          · simp [upd, other, h1, h2]
      · by_cases h1 : x = t
        · subst h1; simp [upd] at hx
        · by_cases h2 : x = i
          · subst h2; simp [put, other, h1]
          · simp [put, other, h1, h2]
  have hji : j ≠ i := fun h => hij h.symm
  obtain ⟨u, e1, h⟩ := hμ.assign a b w.mem
  obtain ⟨u', e2, e3⟩ := h a
  refine ⟨⟨upd (upd (upd (upd (upd (upd (upd w.objs t (some a)) i (some (μ.move a).2)) i (some b)) j (some u)) j (some a)) t
      (some u')) t none,
    put (put (put (put (put (put w.maps t (w.maps i)) i (left (w.maps i))) i (w.maps j)) j (left (w.maps j))) j (w.maps i)) t
      (left (w.maps i)), w.mem⟩, ?_, ?_⟩
  · simp [swapOps, run, exec, ha, hb, upd, put, hμ.take, e1, e2, e3, hti, hti.symm, htj, htj.symm, hij, hji]
  · refine ⟨fun x => ?_, fun x hx => ?_, rfl⟩
    · by_cases h1 : x = t
      · subst h1; simp [upd, other, hti, htj, ht]
      · by_cases h2 : x = i
        · subst h2; simp [upd, other, h1, hb, hij]
        · by_cases h3 : x = j
          · subst h3; simp [upd, other, h1, h2, ha]
          · simp [upd, other, h1, h2, h3]
    · by_cases h1 : x = t
      · subst h1; simp [upd] at hx
      · by_cases h2 : x = i
        · subst h2; simp [put, other, h1, hij, htj, hti, hti.symm]
        · by_cases h3 : x = j
          · subst h3; simp [put, other, h1, h2, hti, htj]
          · simp [put, other, h1, h2, h3]

/-! ## C163 -/

/-- C163, vector storage (`code` is that of MappedVector or DualMappedVector): `std::swap` exchanges two containers, in
whatever state they are (also moved from; also one container with itself): every program sees afterwards what it would have seen without the exchange with the two names exchanged,
and is undefined behaviour exactly if that is. -/
theorem swap_vector {V M C : Type} (code : Code (List V) M C V)
    (left : M → M) (w : World (List V) M Unit) (t i j : Nat) (hi : w.objs i ≠ none) (hj : w.objs j ≠ none) (ht : w.objs t = none)
    (post : List (Op C)) :
    ∃ w', run (vectors V) code left w (swapOps t i j) = some (w', [.done, .done, .done, .done]) ∧
      (∀ x, w'.objs x = w.objs (other i j x)) ∧ w'.mem = w.mem ∧
      (run (vectors V) code left w' post).map (·.2) =
        (run (vectors V) code left w (post.map (Op.rename (other i j)))).map (·.2) := by
  obtain ⟨a, ha⟩ := Option.ne_none_iff_exists'.1 hi
  obtain ⟨b, hb⟩ := Option.ne_none_iff_exists'.1 hj
  obtain ⟨w', e, s⟩ := swap_same (vectors_swaps V) code left w t i j a b ha hb ht
  exact ⟨w', e, s.objs, s.mem, s.run _ code left post⟩

/-- C163, stable storage: the same; moreover no element is constructed, moved or destroyed and no memory is allocated or
freed, so references to elements stay valid. -/
theorem swap_stable (N : Nat) {V M C : Type} (code : Code (Vec × Heap V) M C V)
    (left : M → M) (w : World Vec M (Heap V)) (t i j : Nat) (hi : w.objs i ≠ none) (hj : w.objs j ≠ none) (ht : w.objs t = none)
    (post : List (Op C)) :
    ∃ w', run (stables N V) code left w (swapOps t i j) = some (w', [.done, .done, .done, .done]) ∧
      (∀ x, w'.objs x = w.objs (other i j x)) ∧ w'.mem = w.mem ∧
      (run (stables N V) code left w' post).map (·.2) =
        (run (stables N V) code left w (post.map (Op.rename (other i j)))).map (·.2) := by
  obtain ⟨a, ha⟩ := Option.ne_none_iff_exists'.1 hi
  obtain ⟨b, hb⟩ := Option.ne_none_iff_exists'.1 hj
  obtain ⟨w', e, s⟩ := swap_same (stables_swaps N V) code left w t i j a b ha hb ht
  exact ⟨w', e, s.objs, s.mem, s.run _ code left post⟩

/-- Two containers are exchanged; the library leaves moved-from maps as they are. -/
example :
    (program (stables 1 Nat) (Code.mapped (Verif.Mapped.Vector.stableEnv 1 MapImpl.atEnd none)) id
      ([.new 0, .new 1, .call 0 (.insert 7 70), .call 1 (.insert 8 80), .call 1 (.insert 9 90)] ++ swapOps 2 0 1 ++
       [.call 0 (.find 9), .call 0 .size, .call 1 (.find 7), .call 1 (.find 8)])).map (fun r => r.2.drop 9) =
      some [.found (some 90), .num 2, .found (some 70), .found none] := by
  decide +kernel

end Verif.Mapped.Several
