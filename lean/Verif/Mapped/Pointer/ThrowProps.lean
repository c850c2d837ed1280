import Verif.Mapped.Pointer.Throw
import Verif.Mapped.Pointer.Props
import Verif.Mapped.RemoveThrow

/-
C91, C92, C95: exceptions inside calls of a MappedPointerVector.
-/
namespace Verif.Mapped.Pointer
open Verif.Mapped

variable {K V : Type} [DecidableEq K]

/-- States a program can reach if any call may throw, at any point, and goes on; `a` is what the container should hold:
calls that throw leave what `left` says. -/
inductive Reached (I : MapImpl K) (unset : Option K) : World K V → Ideal K V → Prop where
  | start : Reached I unset World.init Ideal.empty
  | call {w w' a a' op o} (h : Reached I unset w a) (hc : careful unset a op = true)
      (hi : ideal a op = some (a', o)) (he : exec I unset w op = some (w', o)) : Reached I unset w' a'
  | threw {w w' a a' op o f} (h : Reached I unset w a) (hc : careful unset a op = true)
      (hi : ideal a op = some (a', o)) (he : execFault I unset w op f = some (true, w')) :
      Reached I unset w' (left a op f)

variable {I : MapImpl K} {unset : Option K}

theorem Reached.inv {w : World K V} {a : Ideal K V} (h : Reached I unset w a) : Inv w a := by
  induction h with
  | start => exact Inv.init
  | call _ hc hi he v =>
    obtain ⟨m1, e1, v1⟩ := step (I := I) v hc hi
    rw [he] at e1; cases e1
    exact v1
  | threw _ hc hi he v =>
    rcases fails (I := I) v hc hi with ⟨m1, e1, v1⟩ | ⟨m1, e1, _⟩
    · rw [he] at e1; cases e1
      exact v1
    · rw [he] at e1; cases e1

/-! ## C91: the container and the objects after an exception -/

/-- C91: whatever throws in whatever call, either the call did not get to it and is an ordinary one, or the container then
holds what `left` says. -/
theorem failure_partial (I : MapImpl K) (unset : Option K) (w : World K V) (a : Ideal K V) (h : Reached I unset w a)
    (op : Op K V) (f : Fault) (hc : careful unset a op = true) (a' : Ideal K V) (o : Obs V)
    (hi : ideal a op = some (a', o)) :
    (∃ w', execFault I unset w op f = some (false, w') ∧ exec I unset w op = some (w', o)) ∨
    (∃ w', execFault I unset w op f = some (true, w') ∧ Reached I unset w' (left a op f)) := by
  rcases fails (I := I) (f := f) h.inv hc hi with ⟨w1, e1, _⟩ | h1
  · exact .inr ⟨w1, e1, .threw h hc hi e1⟩
  · exact .inl h1

/-- C91: after any number of exceptions every careful program goes on as the specification says. -/
theorem after_failures_partial (I : MapImpl K) (unset : Option K) (w : World K V) (a : Ideal K V)
    (h : Reached I unset w a) (ops : List (Op K V)) (a' : Ideal K V) (os : List (Obs V))
    (hi : idealRun a ops = some (a', os)) (hc : carefulRun unset a ops = true) :
    ∃ w', run I unset w ops = some (w', os) ∧ Reached I unset w' a' := by
  induction ops generalizing w a os with
  | nil => cases hi; exact ⟨w, rfl, h⟩
  | cons op ops ih =>
    simp only [idealRun, Option.bind_eq_some_iff, Option.map_eq_some_iff] at hi
    obtain ⟨⟨a1, o⟩, h1, ⟨a2, os2⟩, h2, h3⟩ := hi
    cases h3
    simp only [carefulRun, h1, Bool.and_eq_true] at hc
    obtain ⟨m1, e1, _⟩ := step (I := I) h.inv hc.1 h1
    obtain ⟨m2, e2, R⟩ := ih m1 a1 (.call h hc.1 h1 e1) _ h2 hc.2
    exact ⟨m2, by simp only [run, e1, Option.bind_some, e2, Option.map_some], R⟩

/-- C91: no exception leaks or destroys an object: the objects in existence are always exactly those of the elements, no
two elements share one, and destroying the container destroys each of them once and leaves none. -/
theorem failures_no_leak (I : MapImpl K) (unset : Option K) (w : World K V) (a : Ideal K V) (h : Reached I unset w a) :
    (∀ p x, w.heap.val p = some x ↔ ∃ e ∈ a.entries, e.obj = some (p, x)) ∧
    (∀ (i j : Nat) (p : Nat) (x y : V), (a.entries[i]?).bind (·.obj) = some (p, x) →
      (a.entries[j]?).bind (·.obj) = some (p, y) → i = j) ∧
    ∃ h', w.heap.deleteAll w.pv.data = some h' ∧ ∀ p, h'.val p = none := by
  have v := h.inv
  refine ⟨fun p x => ?_, fun i j p x y hi hj => ?_, ?_⟩
  · rw [v.own.val]; simp
  · obtain ⟨e1, h1, h2⟩ := Option.bind_eq_some_iff.1 hi
    obtain ⟨e2, h3, h4⟩ := Option.bind_eq_some_iff.1 hj
    exact v.own.uniq i j p x y (by simp [h1, h2]) (by simp [h3, h4])
  · obtain ⟨h', e, o, _⟩ := v.own.deleteAll
    refine ⟨h', ?_, fun p => ?_⟩
    · rw [v.data]; simpa [List.map_map, Function.comp_def] using e
    · cases hv : h'.val p with
      | none => rfl
      | some x => exact absurd ((o.val p x).1 hv) (by simp)

/-- An insertion whose object cannot be made, one for which the storage cannot grow, one whose key cannot be stored. -/
example :
    ((run MapImpl.atEnd none (World.init : World Nat Nat) [.insert 1 10, .insertPtr 2 (some 20)]).bind fun r =>
      (execFault MapImpl.atEnd none r.1 (.insert 3 30) .make).bind fun s =>
      (execFault MapImpl.atEnd none s.2 (.insertPtr 4 (some 40)) .store).bind fun t =>
      (execFault MapImpl.atEnd none t.2 (.assign 5 50) .map).bind fun u =>
      (run MapImpl.atEnd none u.2 [.apply, .find 5, .find 2, .insert 5 51, .find 5]).map fun x => ([s.1, t.1, u.1], x.2)) =
    some ([true, true, true], [.ptrs [some (0, 10), some (1, 20), some (3, 50)], .ptr none, .ptr (some (1, 20)),
      .index (some 3), .ptr (some (4, 51))]) := by decide

/-! ## C92: calls that throw have no effect -/

/-- C92, as far as it holds: if the object cannot be made or the storage cannot grow, or a search term cannot be added,
the container holds what it held. -/
theorem no_effect_partial (a : Ideal K V) (op : Op K V) (f : Fault)
    (hf : f = .make ∨ f = .store ∨ ∃ k i, op = .addTerm k i) : (left a op f).entries = a.entries := by
  rcases hf with rfl | rfl | ⟨k, i, rfl⟩
  · cases op <;> rfl
  · cases op <;> rfl
  · cases f <;> rfl

/-- C92, as far as it holds, as the client sees it: after such a call the same objects exist, with the same values, and
every search and every traversal finds the same ones. -/
theorem no_effect_client_partial (I : MapImpl K) (unset : Option K) (w w' : World K V) (a : Ideal K V) (h : Reached I unset w a)
    (op : Op K V) (f : Fault) (hc : careful unset a op = true) (a' : Ideal K V) (o : Obs V)
    (hi : ideal a op = some (a', o)) (hl : f = .make ∨ f = .store ∨ ∃ k i, op = .addTerm k i)
    (he : execFault I unset w op f = some (true, w')) :
    (∀ p, w'.heap.val p = w.heap.val p) ∧
    ∀ op', (op' = .apply ∨ op' = .size ∨ (∃ k, op' = .find k) ∨ ∃ i, op' = .get i) →
      (exec I unset w' op').map (·.2) = (exec I unset w op').map (·.2) := by
  have hn := no_effect_partial a op f hl
  have R : Reached I unset w' (left a op f) := .threw h hc hi he
  refine ⟨fun p => ?_, fun op' hop => ?_⟩
  · apply Option.ext
    intro x
    rw [(failures_no_leak I unset w' _ R).1 p x, (failures_no_leak I unset w a h).1 p x, hn]
  · have key : ∀ (b : Ideal K V) (v : World K V), Reached I unset v b → ∀ b' o', ideal b op' = some (b', o') →
        (exec I unset v op').map (·.2) = some o' := by
      intro b v Rv b' o' hb
      obtain ⟨w1, e1, _⟩ := step (I := I) (unset := unset) Rv.inv (op := op') (by rcases hop with rfl | rfl | ⟨k, rfl⟩ | ⟨i, rfl⟩ <;> rfl) hb
      rw [e1]; rfl
    rcases hop with rfl | rfl | ⟨k, rfl⟩ | ⟨i, rfl⟩
    all_goals
      rw [key _ _ R _ _ rfl, key _ _ h _ _ rfl]
      simp only [hn]

/-- C92: if the storage cannot grow, `insert(k, std::move(p))` and `insert_or_assign(k, std::move(p))` leave the pointer
with the caller. -/
theorem pointer_kept (I : MapImpl K) (m : PV K) (h : Objs V) (k : K) (p : Option Nat) (hk : FMap.find m.lookup k = none) :
    m.insertPtrFault I k p .store = (true, false, m) ∧
    m.insertOrAssignPtrFault I h k p .store = some (true, false, m, h) := by
  simp [PV.insertPtrFault, PV.insertOrAssignPtrFault, hk]
example : FMap.find ([(1, 0)] : FMap Nat) 2 = none := by decide

/-- C92 fails, in every state, if the search term cannot be stored: the call throws, but the caller's pointer has been
moved from, and its object belongs to an element without search term. -/
theorem map_throw_violation (I : MapImpl K) (unset : Option K) (w : World K V) (a : Ideal K V) (h : Reached I unset w a)
    (k : K) (x : V) (hk : ∀ e ∈ a.entries, k ∉ e.keys) (op : Op K V)
    (hop : op = .insertPtr k (some x) ∨ op = .assignPtr k (some x) ∨ op = .insert k x ∨ op = .assign k x) :
    (∀ p, (w.pv.insertPtrFault I k p .map).2.1 = true) ∧
    ∃ w', execFault I unset w op .map = some (true, w') ∧ Reached I unset w' (a.append (some x) []) ∧
      w'.pv.size = a.entries.length + 1 ∧ exec I unset w' (.get a.entries.length) = some (w', .ptr (some (a.made, x))) ∧
      exec I unset w' (.find k) = some (w', .ptr none) := by
  have v := h.inv
  have hf : FMap.find w.pv.lookup k = none := by
    rw [v.binds.none_iff]
    intro ks hks
    obtain ⟨e, he, rfl⟩ := List.mem_map.1 hks
    exact hk e he
  have hl : a.lookup k = none := by rw [v.lookup_eq]; exact hf
  have hleft : left a op .map = a.append (some x) [] := by rcases hop with rfl | rfl | rfl | rfl <;> rfl
  have hid : ideal a op = some (a.append (some x) [k], .index (some a.entries.length)) := by
    rcases hop with rfl | rfl | rfl | rfl <;> simp only [ideal, hl]
  have hcf : careful unset a op = true := by rcases hop with rfl | rfl | rfl | rfl <;> rfl
  refine ⟨fun p => by simp [PV.insertPtrFault, hf], ?_⟩
  rcases failure_partial I unset w a h op .map hcf _ _ hid with ⟨w', e, _⟩ | ⟨w', e, R⟩
  · exfalso
    rcases hop with rfl | rfl | rfl | rfl <;>
      simp [execFault, PV.insertPtrFault, PV.insertFault, PV.insertOrAssignPtrFault, PV.insertOrAssignFault,
        PV.emplaceFault, hf] at e
  · rw [hleft] at R
    have v1 := R.inv
    refine ⟨w', e, R, ?_, ?_, ?_⟩
    · rw [PV.size, v1.size_eq]; simp [Ideal.append]
    · have hi : ideal (a.append (some x) []) (.get a.entries.length) = some (a.append (some x) [], .ptr (some (a.made, x))) := by
        simp [ideal, Ideal.append]
      obtain ⟨w2, e2, _⟩ := step (I := I) (unset := unset) v1 rfl hi
      have : w2 = w' := by
        simp only [exec, Option.bind_eq_some_iff, Option.map_eq_some_iff] at e2
        obtain ⟨p, _, y, _, hy⟩ := e2
        cases hy; rfl
      rw [e2, this]
    · have hn : FMap.find w'.pv.lookup k = none := by
        rw [v1.binds.none_iff]
        intro ks hks
        obtain ⟨e, he, rfl⟩ := List.mem_map.1 hks
        simp only [Ideal.append, List.mem_append, List.mem_singleton] at he
        rcases he with he | rfl
        · exact hk e he
        · simp
      simp [exec, PV.find, hn, Objs.read]

/-- The hypotheses hold, for example, for key 4 after `demo.take 9`. -/
example : ∃ w a, Reached (V := Nat) MapImpl.atEnd none w a ∧ (∀ e ∈ a.entries, 4 ∉ e.keys) ∧ a.entries.length = 5 := by
  obtain ⟨w, _, R⟩ := after_failures_partial (V := Nat) MapImpl.atEnd none _ _ .start (demo.take 9)
    ⟨[⟨some (5, 12), [1]⟩, ⟨some (4, 22), [2]⟩, ⟨some (3, 30), []⟩, ⟨none, [5]⟩, ⟨some (6, 60), [6]⟩], 7⟩
    [.index (some 0), .index (some 1), .index none, .index none, .index (some 2), .index (some 3), .index (some 1),
     .index (some 0), .index (some 4)] (by decide) (by decide)
  exact ⟨w, _, R, by decide, rfl⟩

/-! ## C95 for MappedPointerVector -/

/-- `removeIndex`, MappedPointerVector.hpp:134-152, when the assignment `ind = el2.first` in round `n` of the loop throws
(flag true), if there is one; otherwise an ordinary call. -/
def PV.removeIndexFault (unset : Option K) (m : PV K) (h : Objs V) (index n : Nat) : Option (Bool × PV K × Objs V) :=
  if index < m.data.length ∧ (m.lookup[n]?).map (·.2) = some index then
    (m.eraseAt h index).map fun r => (true, ⟨r.1, lowered true index n m.lookup⟩, r.2)
  else (m.removeIndex unset h index).map fun r => (false, r)

/-- C95 as far as it holds: after an exception in `removeIndex(i)` the objects before `i` are still found under their
search terms, and exactly the object removed has been destroyed. -/
theorem remove_throw_partial (I : MapImpl K) (unset : Option K) (w : World K V) (m' : PV K) (h' : Objs V) (a : Ideal K V)
    (h : Reached I unset w a) (i n : Nat) (ht : w.pv.removeIndexFault unset w.heap i n = some (true, m', h')) :
    (∀ p x, h'.val p = some x ↔ ∃ j e, j ≠ i ∧ a.entries[j]? = some e ∧ e.obj = some (p, x)) ∧
    ∀ j, j < i → ∀ k ob ks, a.entries[j]? = some ⟨ob, ks⟩ → k ∈ ks → m'.find k = some (ob.map (·.1)) := by
  have v := h.inv
  simp only [PV.removeIndexFault] at ht
  split at ht
  · rename_i hc
    have hl : i < a.entries.length := v.size_eq ▸ hc.1
    obtain ⟨h2, e, o⟩ := v.own.erase (i := i) (o := (a.entries[i]).obj) (by simp [List.getElem?_eq_getElem hl])
    have he : w.pv.eraseAt w.heap i = some (w.pv.data.eraseIdx i, h2) := by
      simp only [PV.eraseAt, (v.obj_at hl).1, Option.bind_some, e, Option.map_some]
    rw [he, Option.map_some] at ht
    cases ht
    refine ⟨fun p x => ?_, fun j hj k ob ks hje hk => ?_⟩
    · rw [o.val, List.mem_eraseIdx_iff_getElem?]
      constructor
      · rintro ⟨j, hj, hje⟩
        rw [List.getElem?_map, Option.map_eq_some_iff] at hje
        obtain ⟨e, h1, h2⟩ := hje
        exact ⟨j, e, hj, h1, h2⟩
      · rintro ⟨j, e, hj, h1, h2⟩
        exact ⟨j, hj, by rw [List.getElem?_map, h1, Option.map_some, h2]⟩
    · have hf : FMap.find w.pv.lookup k = some j := (v.binds.iff k j).2 ⟨ks, by simp [hje], hk⟩
      simp only [PV.find, find_lowered true i n _ k j (by omega) hf]
      rw [List.getElem?_eraseIdx, if_pos hj, v.data]
      simp [hje]
  · simp at ht

/-- C95 fails, in every state: `removeIndex(i)` throws while copying a search term `k` of the element; afterwards the object
is gone, but `k` finds the object that followed it. -/
theorem remove_throw_violation (I : MapImpl K) (unset : Option K) (w : World K V) (a : Ideal K V) (h : Reached I unset w a)
    (i : Nat) (k : K) (e f : Entry K V) (he : a.entries[i]? = some e) (hk : k ∈ e.keys) (hf : a.entries[i + 1]? = some f) :
    ∃ n m' h', w.pv.removeIndexFault unset w.heap i n = some (true, m', h') ∧ m'.size + 1 = a.entries.length ∧
      m'.find k = some (f.obj.map (·.1)) := by
  have v := h.inv
  have hl : i < a.entries.length := (List.getElem?_eq_some_iff.1 he).1
  have hfk : FMap.find w.pv.lookup k = some i := (v.binds.iff k i).2 ⟨e.keys, by simp [he], hk⟩
  obtain ⟨n, hn⟩ := position hfk
  obtain ⟨h2, e2, o⟩ := v.own.erase (i := i) (o := (a.entries[i]).obj) (by simp [List.getElem?_eq_getElem hl])
  have hee : w.pv.eraseAt w.heap i = some (w.pv.data.eraseIdx i, h2) := by
    simp only [PV.eraseAt, (v.obj_at hl).1, Option.bind_some, e2, Option.map_some]
  have hld : i < w.pv.data.length := by rw [v.size_eq]; exact hl
  refine ⟨n, ⟨w.pv.data.eraseIdx i, lowered true i n w.pv.lookup⟩, h2, ?_, ?_, ?_⟩
  · simp only [PV.removeIndexFault]
    rw [if_pos ⟨hld, hn⟩, hee, Option.map_some]
  · simp only [PV.size, List.length_eraseIdx, v.size_eq, if_pos hl]; omega
  · simp only [PV.find, find_lowered true i n _ k i (by omega) hfk]
    rw [List.getElem?_eraseIdx, if_neg (by omega), v.data]
    simp [hf]

/-- The hypotheses hold, for example, for the first element after `demo.take 9`. -/
example : ∃ w a, Reached (V := Nat) MapImpl.atEnd none w a ∧ a.entries[0]? = some ⟨some (5, 12), [1]⟩ ∧
    a.entries[1]? = some ⟨some (4, 22), [2]⟩ := by
  obtain ⟨w, _, R⟩ := after_failures_partial (V := Nat) MapImpl.atEnd none _ _ .start (demo.take 9)
    ⟨[⟨some (5, 12), [1]⟩, ⟨some (4, 22), [2]⟩, ⟨some (3, 30), []⟩, ⟨none, [5]⟩, ⟨some (6, 60), [6]⟩], 7⟩
    [.index (some 0), .index (some 1), .index none, .index none, .index (some 2), .index (some 3), .index (some 1),
     .index (some 0), .index (some 4)] (by decide) (by decide)
  exact ⟨w, _, R, rfl, rfl⟩

end Verif.Mapped.Pointer
