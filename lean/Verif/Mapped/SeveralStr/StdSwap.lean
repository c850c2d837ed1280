import Verif.Mapped.SeveralStr.Model
import Verif.Mapped.Str.Props
import Verif.Mapped.Several.StdSwap

/-
C165: `std::swap(ti, tj)` of StringMappedVector or DualStringMappedVector objects (Verif/Mapped/Several/StdSwap.lean), with
the implicitly defined move operations, for any state in which moved-from maps are left.
In a swap of an object with itself, `ti = std::move(ti)` is applied to a moved-from object; the model takes it to stay moved
from (the standard leaves its value unspecified); it is assigned to next.
-/
namespace Verif.Mapped.SeveralStr
open Verif.Mapped
open Verif.Mapped.Vector (Obs)
open Verif.Mapped.Several (Multi Op put swapOps other other_inj Swaps vectors stables vectors_swaps stables_swaps)
open Verif.Mapped.Str (View)
open Verif.Block
open Verif.Block.Vector (Vec upd)

variable {S T M H C V : Type}

/-- the object `x` exists -/
def World.exists (w : World T M H) (x : Nat) : Prop := w.objs x ≠ none ∧ w.names x ≠ none

/-- there is no object `x` -/
def World.free (w : World T M H) (x : Nat) : Prop := w.objs x = none ∧ w.names x = none

/-- the worlds `w` and `w'` are the same, `σ x` being in `w'` what `x` is in `w` -/
structure Same (σ : Nat → Nat) (w w' : World T M H) : Prop where
  objs : ∀ x, w.objs x = w'.objs (σ x)
  names : ∀ x, w.names x = w'.names (σ x)
  maps : ∀ x, w.objs x ≠ none → w.maps x = w'.maps (σ x)
  mem : w.mem = w'.mem
  strings : w.strings = w'.strings

theorem Same.put {i j : Nat} {w w' : World T M H} (s : Same (other i j) w w') (x : Nat) (o : Option T) (n : Option Vec)
    (m m' : M) (h : H) (q : Heap String) (hm : o ≠ none → m = m') :
    Same (other i j) ⟨upd w.objs x o, upd w.names x n, put w.maps x m, h, q⟩
      ⟨upd w'.objs (other i j x) o, upd w'.names (other i j x) n, Several.put w'.maps (other i j x) m', h, q⟩ := by
  refine ⟨fun y => ?_, fun y => ?_, fun y hy => ?_, rfl, rfl⟩
  · simp only [upd, other_inj]; split
    · rfl
    · exact s.objs y
  · simp only [upd, other_inj]; split
    · rfl
    · exact s.names y
  · simp only [upd, Several.put, other_inj] at hy ⊢
    split
    · next e => rw [if_pos e] at hy; exact hm hy
    · next e => rw [if_neg e] at hy; exact s.maps y hy

/-- renamed calls on the same worlds do the same -/
theorem Same.exec {i j : Nat} {w w' : World T M H} (s : Same (other i j) w w') (μ : Multi S T H) (N : Nat)
    (code : Code S M C V) (left : M → M) (op : Op C) :
    match SeveralStr.exec μ N code left w op, SeveralStr.exec μ N code left w' (op.rename (other i j)) with
    | some r, some r' => r.2 = r'.2 ∧ Same (other i j) r.1 r'.1
    | none, none => True
    | _, _ => False := by
  obtain ⟨objs, names, maps, mem, strings⟩ := w
  obtain ⟨objs', names', maps', mem', strings'⟩ := w'
  have hmem : mem = mem' := s.mem
  subst hmem
  have hstr : strings = strings' := s.strings
  subst hstr
  have ho : ∀ x, objs' (other i j x) = objs x := fun x => (s.objs x).symm
  have hn : ∀ x, names' (other i j x) = names x := fun x => (s.names x).symm
  cases op with
  | new x => exact ⟨rfl, s.put x _ _ _ _ _ _ fun _ => rfl⟩
  | copyNew x y =>
    simp only [SeveralStr.exec, Several.Op.rename, ho, hn]
    cases hy : objs y with
    | none => trivial
    | some a =>
      cases names y with
      | none => trivial
      | some n =>
        simp only [Option.bind_some]
        cases μ.copy a mem with
        | none => trivial
        | some r =>
          simp only [Option.bind_some]
          cases n.copyCtor N strings with
          | none => trivial
          | some q => exact ⟨rfl, s.put x _ _ _ _ _ _ fun _ => s.maps y (by simp [hy])⟩
  | moveNew x y =>
    simp only [SeveralStr.exec, Several.Op.rename, ho, hn]
    cases hy : objs y with
    | none => trivial
    | some a =>
      cases names y with
      | none => trivial
      | some n =>
        have hm := s.maps y (by simp [hy])
        exact ⟨rfl, ((s.put x _ _ _ _ mem strings fun _ => hm).put y _ _ _ _ _ _ fun _ => congrArg left hm)⟩
  | copyAssign x y =>
    simp only [SeveralStr.exec, Several.Op.rename, ho, hn]
    cases objs x with
    | none => trivial
    | some b =>
      cases hy : objs y with
      | none => trivial
      | some a =>
        cases names x with
        | none => trivial
        | some n =>
          cases names y with
          | none => trivial
          | some p =>
            simp only [Option.bind_some]
            cases μ.copyAssign b a mem with
            | none => trivial
            | some r =>
              simp only [Option.bind_some]
              cases Vec.copyAssign N n p strings with
              | none => trivial
              | some q => exact ⟨rfl, s.put x _ _ _ _ _ _ fun _ => s.maps y (by simp [hy])⟩
  | moveAssign x y =>
    simp only [SeveralStr.exec, Several.Op.rename, ho, hn]
    cases objs x with
    | none => trivial
    | some b =>
      cases hy : objs y with
      | none => trivial
      | some a =>
        cases names x with
        | none => trivial
        | some n =>
          cases names y with
          | none => trivial
          | some p =>
            simp only [Option.bind_some]
            cases μ.moveAssign b a mem with
            | none => trivial
            | some r =>
              simp only [Option.bind_some]
              cases Vec.moveAssign N n p strings with
              | none => trivial
              | some q =>
                have hm := s.maps y (by simp [hy])
                exact ⟨rfl, ((s.put x _ _ _ _ mem strings fun _ => hm).put y _ _ _ _ _ _ fun _ => congrArg left hm)⟩
  | destroy x =>
    simp only [SeveralStr.exec, Several.Op.rename, ho, hn]
    cases objs x with
    | none => trivial
    | some b =>
      cases names x with
      | none => trivial
      | some n =>
        simp only [Option.bind_some]
        cases μ.destroy b mem with
        | none => trivial
        | some h =>
          simp only [Option.bind_some]
          cases n.freeAll N strings with
          | none => trivial
          | some q =>
            refine ⟨rfl, fun y => ?_, fun y => ?_, fun y hy => ?_, rfl, rfl⟩
            · simp only [upd, other_inj]; split
              · rfl
              · exact s.objs y
            · simp only [upd, other_inj]; split
              · rfl
              · exact s.names y
            · simp only [upd] at hy
              split at hy
              · exact absurd rfl hy
              · exact s.maps y hy
  | call x c =>
    simp only [SeveralStr.exec, Several.Op.rename, ho, hn]
    cases hx : objs x with
    | none => trivial
    | some b =>
      cases names x with
      | none => trivial
      | some n =>
        have hm : maps x = maps' (other i j x) := s.maps x (by simp [hx])
        simp only [Option.bind_some, hm]
        cases code.exec (μ.join b mem) n strings (maps' (other i j x)) c with
        | none => trivial
        | some r => exact ⟨rfl, s.put x _ _ _ _ _ _ fun _ => rfl⟩

theorem Same.run {i j : Nat} (μ : Multi S T H) (N : Nat) (code : Code S M C V) (left : M → M) (ops : List (Op C)) :
    ∀ {w w' : World T M H}, Same (other i j) w w' →
    (SeveralStr.run μ N code left w ops).map (·.2) =
      (SeveralStr.run μ N code left w' (ops.map (Several.Op.rename (other i j)))).map (·.2) := by
  induction ops with
  | nil => intros; rfl
  | cons op ops ih =>
    intro w w' s
    have h := s.exec μ N code left op
    simp only [List.map_cons, SeveralStr.run]
    revert h
    cases SeveralStr.exec μ N code left w op <;>
      cases SeveralStr.exec μ N code left w' (op.rename (other i j)) <;> intro h
    · rfl
    · cases h
    · cases h
    · rename_i r r'
      obtain ⟨h1, h2⟩ := h
      have := ih h2
      simp only [Option.bind_some, Option.map_map]
      revert this
      cases SeveralStr.run μ N code left r.1 ops <;>
        cases SeveralStr.run μ N code left r'.1 (ops.map (Several.Op.rename (other i j))) <;> intro this
      · rfl
      · cases this
      · cases this
      · simp only [Option.map_some, Option.some.injEq, Function.comp] at this ⊢
        rw [h1, this]

theorem swap_same {μ : Multi S T H} (hμ : Swaps μ) (N : Nat) (code : Code S M C V) (left : M → M) (w : World T M H)
    (t i j : Nat) (hi : w.exists i) (hj : w.exists j) (ht : w.free t) :
    ∃ w', run μ N code left w (swapOps t i j) = some (w', [.done, .done, .done, .done]) ∧ Same (other i j) w' w := by
  obtain ⟨a, ha⟩ := Option.ne_none_iff_exists'.1 hi.1
  obtain ⟨na, hna⟩ := Option.ne_none_iff_exists'.1 hi.2
  obtain ⟨b, hb⟩ := Option.ne_none_iff_exists'.1 hj.1
  obtain ⟨nb, hnb⟩ := Option.ne_none_iff_exists'.1 hj.2
  obtain ⟨ht, hnt⟩ := ht
  have hti : t ≠ i := by rintro rfl; rw [ha] at ht; cases ht
  have htj : t ≠ j := by rintro rfl; rw [hb] at ht; cases ht
  have f0 : na.moveCtor.1 = na := rfl
  by_cases hij : i = j
  · subst hij
    obtain ⟨u, e1, h⟩ := hμ.assign a (μ.move a).2 w.mem
    obtain ⟨u', e2, e3⟩ := h a
    obtain ⟨v, f1, g⟩ := (stables_swaps N String).assign na na.moveCtor.2 w.strings
    obtain ⟨v', f2, f3⟩ := g na
    have f1' : Vec.moveAssign N na.moveCtor.2 na.moveCtor.2 w.strings = some (na.moveCtor.2, v, w.strings) := f1
    have f2' : Vec.moveAssign N v na w.strings = some (na, v', w.strings) := f2
    have f3' : v'.freeAll N w.strings = some w.strings := f3
    refine ⟨⟨upd (upd (upd (upd (upd (upd (upd w.objs t (some a)) i (some (μ.move a).2)) i (some (μ.move a).2)) i (some u)) i
        (some a)) t (some u')) t none,
      upd (upd (upd (upd (upd (upd (upd w.names t (some na)) i (some na.moveCtor.2)) i (some na.moveCtor.2)) i (some v)) i
        (some na)) t (some v')) t none,
      put (put (put (put (put (put w.maps t (w.maps i)) i (left (w.maps i))) i (left (w.maps i))) i (left (left (w.maps i)))) i
        (w.maps i)) t (left (w.maps i)), w.mem, w.strings⟩, ?_, ?_⟩
    · simp [swapOps, run, exec, ha, hna, upd, put, hμ.take, f0, e1, e2, e3, f1', f2', f3', hti, hti.symm]
    · refine ⟨fun x => ?_, fun x => ?_, fun x hx => ?_, rfl, rfl⟩
      · by_cases h1 : x = t
        · subst h1; simp [upd, other, hti, ht]
        · by_cases h2 : x = i
          · subst h2; simp [upd, other, h1, ha]
          · simp [upd, other, h1, h2]
      · by_cases h1 : x = t
        · subst h1; simp [upd, other, hti, hnt]
        · by_cases h2 : x = i
          · subst h2; simp [upd, other, h1, hna]
          · simp [upd, other, h1, h2]
      · by_cases h1 : x = t
        · subst h1; simp [upd] at hx
        · by_cases h2 : x = i
          · subst h2; simp [put, other, h1]
          · simp [put, other, h1, h2]
  have hji : j ≠ i := fun h => hij h.symm
  obtain ⟨u, e1, h⟩ := hμ.assign a b w.mem
  obtain ⟨u', e2, e3⟩ := h a
  obtain ⟨v, f1, g⟩ := (stables_swaps N String).assign na nb w.strings
  obtain ⟨v', f2, f3⟩ := g na
  have f1' : Vec.moveAssign N na.moveCtor.2 nb w.strings = some (nb, v, w.strings) := f1
  have f2' : Vec.moveAssign N v na w.strings = some (na, v', w.strings) := f2
  have f3' : v'.freeAll N w.strings = some w.strings := f3
  refine ⟨⟨upd (upd (upd (upd (upd (upd (upd w.objs t (some a)) i (some (μ.move a).2)) i (some b)) j (some u)) j (some a)) t
      (some u')) t none,
    upd (upd (upd (upd (upd (upd (upd w.names t (some na)) i (some na.moveCtor.2)) i (some nb)) j (some v)) j (some na)) t
      (some v')) t none,
    put (put (put (put (put (put w.maps t (w.maps i)) i (left (w.maps i))) i (w.maps j)) j (left (w.maps j))) j (w.maps i)) t
      (left (w.maps i)), w.mem, w.strings⟩, ?_, ?_⟩
  · simp [swapOps, run, exec, ha, hb, hna, hnb, upd, put, hμ.take, f0, e1, e2, e3, f1', f2', f3', hti, hti.symm, htj,
      htj.symm, hij, hji]
  · refine ⟨fun x => ?_, fun x => ?_, fun x hx => ?_, rfl, rfl⟩
    · by_cases h1 : x = t
      · subst h1; simp [upd, other, hti, htj, ht]
      · by_cases h2 : x = i
        · subst h2; simp [upd, other, h1, hb, hij]
        · by_cases h3 : x = j
          · subst h3; simp [upd, other, h1, h2, ha]
          · simp [upd, other, h1, h2, h3]
    · by_cases h1 : x = t
      · subst h1; simp [upd, other, hti, htj, hnt]
      · by_cases h2 : x = i
        · subst h2; simp [upd, other, h1, hnb, hij]
        · by_cases h3 : x = j
          · subst h3; simp [upd, other, h1, h2, hna]
          · simp [upd, other, h1, h2, h3]
    · by_cases h1 : x = t
      · subst h1; simp [upd] at hx
      · by_cases h2 : x = i
        · subst h2; simp [put, other, h1, hij]
        · by_cases h3 : x = j
          · subst h3; simp [put, other, h1, h2]
          · simp [put, other, h1, h2, h3]

/-! ## C165 -/

/-- C165, vector storage (`code` is that of StringMappedVector or DualStringMappedVector): `std::swap` exchanges two
containers, in whatever state they are (also moved from; also one container with itself), and neither makes nor moves a string: every program sees
afterwards what it would have seen without the exchange with the two names exchanged, and is undefined behaviour exactly if
that is. -/
theorem swap_vector (N : Nat) {V M C : Type} (code : Code (List V) M C V) (left : M → M) (w : World (List V) M Unit)
    (t i j : Nat) (hi : w.exists i) (hj : w.exists j) (ht : w.free t) (post : List (Op C)) :
    ∃ w', run (vectors V) N code left w (swapOps t i j) = some (w', [.done, .done, .done, .done]) ∧
      (∀ x, w'.objs x = w.objs (other i j x) ∧ w'.names x = w.names (other i j x)) ∧ w'.strings = w.strings ∧
      (run (vectors V) N code left w' post).map (·.2) =
        (run (vectors V) N code left w (post.map (Several.Op.rename (other i j)))).map (·.2) := by
  obtain ⟨w', e, s⟩ := swap_same (vectors_swaps V) N code left w t i j hi hj ht
  exact ⟨w', e, fun x => ⟨s.objs x, s.names x⟩, s.strings, s.run _ N code left post⟩

/-- C165, stable storage: the same; moreover no element is constructed, moved or destroyed, so references to elements stay
valid. -/
theorem swap_stable (N : Nat) {V M C : Type} (code : Code (Vec × Heap V) M C V) (left : M → M) (w : World Vec M (Heap V))
    (t i j : Nat) (hi : w.exists i) (hj : w.exists j) (ht : w.free t) (post : List (Op C)) :
    ∃ w', run (stables N V) N code left w (swapOps t i j) = some (w', [.done, .done, .done, .done]) ∧
      (∀ x, w'.objs x = w.objs (other i j x) ∧ w'.names x = w.names (other i j x)) ∧ w'.strings = w.strings ∧
      w'.mem = w.mem ∧
      (run (stables N V) N code left w' post).map (·.2) =
        (run (stables N V) N code left w (post.map (Several.Op.rename (other i j)))).map (·.2) := by
  obtain ⟨w', e, s⟩ := swap_same (stables_swaps N V) N code left w t i j hi hj ht
  exact ⟨w', e, fun x => ⟨s.objs x, s.names x⟩, s.strings, s.mem, s.run _ N code left post⟩

/-- Two containers are exchanged; the library leaves moved-from maps as they are. -/
example :
    (program (vectors Nat) 1 (Code.mapped (Str.unstableEnv 1 MapImpl.atEnd (fun s => s.length))) id
      ([.new 0, .new 1, .call 0 (.insert "a" 70), .call 1 (.insert "b" 80), .call 1 (.insert "cc" 90)] ++ swapOps 2 0 1 ++
       [.call 0 (.find "cc"), .call 0 .size, .call 1 (.find "a"), .call 1 (.find "b")])).map (fun r => r.2.drop 9) =
      some [.found (some 90), .num 2, .found (some 70), .found none] := by
  decide +kernel

end Verif.Mapped.SeveralStr
