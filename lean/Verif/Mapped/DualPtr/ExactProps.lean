import Verif.Mapped.DualPtr.Exact
import Verif.Mapped.DualPtr.Props

/-
Property C130: what DualMappedPointerVector does in every history.
-/
namespace Verif.Mapped.DualPtr
open Verif.Mapped
open Verif.Mapped.Pointer (Objs Obs Entry Ideal count)

variable {K1 K2 V : Type} [DecidableEq K1] [DecidableEq K2]

/-- C130: in every program, also one that uses the calls C44 excludes, all calls return what the description says, and
the program is undefined exactly if the description says so. -/
theorem exact_history (E : Env K1 K2) (ops : List (Op K1 K2 V)) :
    (run E World.init ops).map (·.2) = (actualRun E empty ops).map (·.2) := by
  rcases exact_run (E := E) ops (Inv.init (K1 := K1) (K2 := K2) (V := V)) with ⟨h1, h2⟩ | ⟨a, os, w, h1, h2, _⟩
  · rw [h2, empty, h1]; rfl
  · rw [h2, empty, h1]; rfl

/-- C130: after every program with defined behaviour the elements have the objects, and the search terms refer to the
positions, that the description says; the objects in existence are exactly those of the elements; no two elements share
an object; no element has two terms of one type; no term is attached to two elements. -/
theorem exact_state (E : Env K1 K2) (ops : List (Op K1 K2 V)) (w : World K1 K2 V) (os : List (Obs V))
    (h : run E World.init ops = some (w, os)) :
    ∃ a, actualRun E empty ops = some (a, os) ∧ w.pv.data = a.entries.map (fun e => e.obj.map (·.1)) ∧
      (∀ k i, FMap.find w.pv.lookup1 k = some i ↔ ∃ e, a.entries[i]? = some e ∧ .inl k ∈ e.keys) ∧
      (∀ k i, FMap.find w.pv.lookup2 k = some i ↔ ∃ e, a.entries[i]? = some e ∧ .inr k ∈ e.keys) ∧
      (∀ p x, w.heap.val p = some x ↔ ∃ e ∈ a.entries, e.obj = some (p, x)) ∧
      (∀ (i j : Nat) (p : Nat) (x y : V), (a.entries[i]?).bind (·.obj) = some (p, x) →
        (a.entries[j]?).bind (·.obj) = some (p, y) → i = j) ∧
      (∀ e ∈ a.entries, (∀ k k', .inl k ∈ e.keys → .inl k' ∈ e.keys → k = k') ∧
        (∀ k k', .inr k ∈ e.keys → .inr k' ∈ e.keys → k = k')) ∧
      ∀ (i j : Nat) (e f : Entry (K1 ⊕ K2) V) (k : K1 ⊕ K2), a.entries[i]? = some e → a.entries[j]? = some f → k ∈ e.keys → k ∈ f.keys → i = j := by
  rcases exact_run (E := E) ops (Inv.init (K1 := K1) (K2 := K2) (V := V)) with ⟨_, h2⟩ | ⟨a, os', w', h1, h2, v⟩
  · rw [h2] at h; cases h
  · rw [h2] at h; cases h
    refine ⟨a, h1, v.base.data, fun k i => ?_, fun k i => ?_, fun p x => ?_, fun i j p x y hi hj => ?_, v.one, ?_⟩
    · rw [← lookup_inl v.base, lookup_iff v.base]
    · rw [← lookup_inr v.base, lookup_iff v.base]
    · rw [v.base.own.val]
      simp only [List.mem_map]
    · refine v.base.own.uniq i j p x y ?_ ?_
      · obtain ⟨e, h3, h4⟩ := Option.bind_eq_some_iff.1 hi
        simp [h3, h4]
      · obtain ⟨e, h3, h4⟩ := Option.bind_eq_some_iff.1 hj
        simp [h3, h4]
    · intro i j e f k he hf hk hk'
      have h3 := (lookup_iff v.base k i).2 ⟨e, he, hk⟩
      have h4 := (lookup_iff v.base k j).2 ⟨f, hf, hk'⟩
      rw [h3] at h4; cases h4; rfl

/-- Destroying the container after any program with defined behaviour leaves no object. -/
theorem exact_no_leak (E : Env K1 K2) (ops : List (Op K1 K2 V)) (w : World K1 K2 V) (os : List (Obs V))
    (h : run E World.init ops = some (w, os)) :
    ∃ h', w.heap.deleteAll w.pv.data = some h' ∧ ∀ p, h'.val p = none := by
  rcases exact_run (E := E) ops (Inv.init (K1 := K1) (K2 := K2) (V := V)) with ⟨_, h2⟩ | ⟨a, os', w', h1, h2, v⟩
  · rw [h2] at h; cases h
  · rw [h2] at h; cases h
    obtain ⟨h', e, o, _⟩ := v.base.own.deleteAll
    have hd : w.pv.data = (a.entries.map (·.obj)).map (Option.map (·.1)) := by rw [List.map_map]; exact v.base.data
    refine ⟨h', by rw [hd]; exact e, fun p => ?_⟩
    cases hp : h'.val p with
    | none => rfl
    | some x => exact absurd ((o.val p x).1 hp) (by simp)

section
variable {E : Env K1 K2} {w : World K1 K2 V} {a : Ideal (K1 ⊕ K2) V}

/-- what a search returns -/
theorem exec_find (v : Inv w a) (k : K1 ⊕ K2) : exec E w (.find k) = some (w, .ptr (objOf a k)) := by
  have := find_inv v.base k
  cases k with
  | inl k =>
    rw [lookup_inl v.base] at this
    have : (w.pv.find1 k).bind (fun p => w.heap.read p) = some (objOf a (.inl k)) := this
    obtain ⟨p, h1, h2⟩ := Option.bind_eq_some_iff.1 this
    simp only [exec, h1, Option.bind_some, h2, Option.map_some]
  | inr k =>
    rw [lookup_inr v.base] at this
    have : (w.pv.find2 k).bind (fun p => w.heap.read p) = some (objOf a (.inr k)) := this
    obtain ⟨p, h1, h2⟩ := Option.bind_eq_some_iff.1 this
    simp only [exec, h1, Option.bind_some, h2, Option.map_some]

theorem objOf_lookup {k : K1 ⊕ K2} {p : Nat × V} (h : objOf a k = some p) : ∃ i, a.lookup k = some i := by
  rw [obj_of] at h
  obtain ⟨i, h1, _⟩ := Option.bind_eq_some_iff.1 h
  exact ⟨i, h1⟩

end

/-- Every history: inserting with a first term by which an object is found leaves that term on the old object, although
the insertion succeeds; only the second term finds the new object. -/
theorem insert_keeps_first (E : Env K1 K2) (pre : List (Op K1 K2 V)) (w w' : World K1 K2 V) (os : List (Obs V))
    (h : run E World.init pre = some (w, os)) (k1 : K1) (k2 : K2) (x : V) (p : Nat × V) (i : Nat)
    (h' : run E w [.find (.inl k1), .insert k1 k2 x] = some (w', [.ptr (some p), .index (some i)])) :
    exec E w' (.find (.inl k1)) = some (w', .ptr (some p)) ∧
    ∃ q, w.heap.val q = none ∧ exec E w' (.find (.inr k2)) = some (w', .ptr (some (q, x))) ∧
      exec E w' (.get i) = some (w', .ptr (some (q, x))) := by
  rcases exact_run (E := E) pre (Inv.init (K1 := K1) (K2 := K2) (V := V)) with ⟨_, h2⟩ | ⟨a, os', w0, _, h2, v⟩
  · rw [h2] at h; cases h
  rw [h2] at h; cases h
  simp only [run, exec_find v, Option.bind_some] at h'
  rcases exact_step (E := E) v (.insert k1 k2 x) with ⟨_, h3⟩ | ⟨a1, o, w1, h3, h4, v1⟩
  · rw [h3] at h'; cases h'
  rw [h4] at h'
  simp only [Option.bind_some, Option.map_some, Option.some.injEq, Prod.mk.injEq, List.cons.injEq, and_true,
    Obs.ptr.injEq] at h'
  obtain ⟨rfl, hp, rfl⟩ := h'
  obtain ⟨j, hj⟩ := objOf_lookup hp
  have hjl := lookup_lt v.base hj
  simp only [actual, hj, Option.isSome_some, true_and] at h3
  cases hk : a.lookup (.inr k2) with
  | some j' => rw [hk] at h3; cases h3
  | none =>
    rw [hk] at h3
    simp only [Option.isSome_none, Bool.false_eq_true, if_false, added, hj, hk, Option.some.injEq, Prod.mk.injEq,
      Obs.index.injEq] at h3
    obtain ⟨rfl, rfl⟩ := h3
    have hlast : (a.append (some x) [.inr k2]).entries[a.entries.length]? = some ⟨some (a.made, x), [.inr k2]⟩ := by
      simp [Ideal.append]
    have hl2 := (lookup_iff v1.base (.inr k2) a.entries.length).2 ⟨_, hlast, by simp⟩
    obtain ⟨e, he, hke⟩ := (lookup_iff v.base (.inl k1) j).1 hj
    have he' : (a.append (some x) [.inr k2]).entries[j]? = some e := by
      simp only [Ideal.append]; rw [List.getElem?_append_left hjl]; exact he
    have hl1 := (lookup_iff v1.base (.inl k1) j).2 ⟨_, he', hke⟩
    refine ⟨?_, a.made, ?_, ?_, ?_⟩
    · rw [exec_find v1, obj_of, hl1, Option.bind_some, he']
      rw [obj_of, hj, Option.bind_some, he] at hp
      rw [hp]
    · have := v.base.own.val_fresh
      have hn : w.heap.next = a.made := v.base.next
      rw [← hn]; exact this
    · rw [exec_find v1, obj_of, hl2, Option.bind_some, hlast]; rfl
    · obtain ⟨w2, e2, _⟩ := step (E := E) v1 (op := .get a.entries.length) rfl rfl
      have : w2 = w1 := by
        simp only [exec, Option.bind_eq_some_iff, Option.map_eq_some_iff] at e2
        obtain ⟨_, _, _, _, h6⟩ := e2
        cases h6; rfl
      subst this
      rw [e2, hlast]; rfl

/-- Every history: an object inserted with a first term only cannot be removed by it without harm: if a default constructed
second term has no determinate value, the removal is undefined; if it has one, no object is found by it afterwards. -/
theorem removal_takes_default (E : Env K1 K2) (pre : List (Op K1 K2 V)) (w w1 : World K1 K2 V) (os : List (Obs V))
    (h : run E World.init pre = some (w, os)) (k : K1) (x : V) (i : Nat)
    (h' : exec E w (.insertOne (.inl k) x) = some (w1, .index (some i))) :
    (E.unset2 = none → exec E w1 (.remove (.inl k)) = none) ∧
    ∀ d, E.unset2 = some d → ∃ w2, exec E w1 (.remove (.inl k)) = some (w2, .done) ∧
      exec E w2 (.find (.inr d)) = some (w2, .ptr none) := by
  rcases exact_run (E := E) pre (Inv.init (K1 := K1) (K2 := K2) (V := V)) with ⟨_, h2⟩ | ⟨a, os', w0, _, h2, v⟩
  · rw [h2] at h; cases h
  rw [h2] at h; cases h
  rcases exact_step (E := E) v (.insertOne (.inl k) x) with ⟨_, h3⟩ | ⟨a1, o, w3, h3, h4, v1⟩
  · rw [h3] at h'; cases h'
  rw [h4] at h'; cases h'
  simp only [actual, ideal] at h3
  cases hk : a.lookup (.inl k) with
  | some j => rw [hk] at h3; cases h3
  | none =>
    rw [hk] at h3; cases h3
    have hlast : (a.append (some x) [.inl k]).entries[a.entries.length]? = some ⟨some (a.made, x), [.inl k]⟩ := by
      simp [Ideal.append]
    have hl := (lookup_iff v1.base (.inl k) a.entries.length).2 ⟨_, hlast, by simp⟩
    have hact : actual E (a.append (some x) [.inl k]) (.remove (.inl k)) =
        (E.unset2.map fun d => detach { a.append (some x) [.inl k] with
          entries := (a.append (some x) [.inl k]).entries.eraseIdx a.entries.length } (.inr d)).map (·, .done) := by
      simp only [actual, hl, hlast, forget2]; rfl
    rcases exact_step (E := E) v1 (.remove (.inl k)) with ⟨h5, h6⟩ | ⟨a2, o, w2, h5, h6, v2⟩
    · refine ⟨fun _ => h6, fun d hd => ?_⟩
      rw [hact, hd] at h5; cases h5
    · refine ⟨fun hn => ?_, fun d hd => ?_⟩
      · rw [hact, hn] at h5; cases h5
      · rw [hact, hd] at h5; cases h5
        refine ⟨w2, h6, ?_⟩
        rw [exec_find v2, obj_of]
        have hn : (detach { a.append (some x) [.inl k] with
            entries := (a.append (some x) [.inl k]).entries.eraseIdx a.entries.length } (.inr d)).lookup (.inr d) = none := by
          refine lookup_of_none v2 fun e he => ?_
          simp only [detach, List.mem_map] at he
          obtain ⟨e0, _, rfl⟩ := he
          simp
        rw [hn]; rfl

/-- One term in use at an insertion, an element without second term removed, default term of another element lost. -/
def demoExact : List (Op Nat Nat Nat) :=
  [.insert 1 0 10, .find (.inl 1), .insert 1 2 20, .find (.inl 1), .find (.inr 2), .insertPtr 3 2 (some 30), .find (.inr 2),
   .insertOne (.inl 4) 40, .find (.inr 0), .remove (.inl 4), .find (.inr 0), .removeIndex 1, .find (.inl 1), .remove (.inl 3),
   .apply, .insert 1 0 50, .find (.inr 0), .size]

example : (run env0 World.init demoExact).map (·.2) = some
    [.index (some 0), .ptr (some (0, 10)), .index (some 1), .ptr (some (0, 10)), .ptr (some (1, 20)), .index (some 2),
     .ptr (some (1, 20)), .index (some 3), .ptr (some (0, 10)), .done, .ptr none, .done, .ptr (some (0, 10)), .done,
     .ptrs [some (0, 10)], .index (some 1), .ptr (some (4, 50)), .num 2] := by decide +kernel
example : actualRun env0 empty demoExact = some (⟨[⟨some (0, 10), [.inl 1]⟩, ⟨some (4, 50), [.inr 0]⟩], 5⟩,
    [.index (some 0), .ptr (some (0, 10)), .index (some 1), .ptr (some (0, 10)), .ptr (some (1, 20)), .index (some 2),
     .ptr (some (1, 20)), .index (some 3), .ptr (some (0, 10)), .done, .ptr none, .done, .ptr (some (0, 10)), .done,
     .ptrs [some (0, 10)], .index (some 1), .ptr (some (4, 50)), .num 2]) := by decide +kernel
/-- a program on which the description differs from what one wants -/
example : (idealRun empty demoExact).map (·.2) ≠ (actualRun env0 empty demoExact).map (·.2) := by decide +kernel
/-- an undefined program -/
example : actualRun envInt empty ([.insertOne (.inl 1) 10, .remove (.inl 1)] : List (Op Nat Nat Nat)) = none := by decide

end Verif.Mapped.DualPtr
