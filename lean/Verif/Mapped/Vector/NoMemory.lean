import Verif.Block.Vector.NoMemory
import Verif.Mapped.Vector.Props

/-
C149: removals from a MappedVector with stable storage when there is no memory.  Its elements are in a StableBlockVector, whose `pop_back`
and `clear` are declared noexcept and may have to allocate the array of spare blocks (C146).
-/
namespace Verif.Mapped.Vector
open Verif.Mapped Verif.Block Verif.Block.Vector
variable {K V : Type} [DecidableEq K]

/-! ### Model -/

/-- What happens to a removal when there is no memory. -/
inductive Fate (K V : Type) where
  | returns (m : MV (Vec × Heap V) K) (o : Obs V)
  | terminates

/-- MappedVector.hpp:218-227 calls `pop_back` if `i` is the last element; that asks for memory under the conditions of
StableBlockVector.hpp:161-172 and 400 (`Block.Vector.pop_exact`, C146). -/
def eraseAsks (s : Vec × Heap V) (i : Nat) : Bool := decide (i + 1 = s.1.size) && AVec.popAllocs s.1

/-- The removals: MappedVector.hpp:132-150 and 218-227 (`removeIndex`), 152-167 and 218-227 (`remove`), 206-210 (`clear`). -/
def asks (m : MV (Vec × Heap V) K) : Op K V → Bool
  | .remove k => match FMap.find m.lookup k with
    | some i => eraseAsks m.data i
    | none => false
  | .removeIndex i => eraseAsks m.data i
  | .clear => AVec.clearAllocs m.data.1    -- `Block.Vector.clear_exact`, C146
  | _ => false

/-- A removal when no memory can be had: std::bad_alloc cannot leave `pop_back` and `clear` of StableBlockVector.hpp:159 and 216 (for
elements whose destructor does not throw) and ends the program.  Nothing else in a removal allocates memory. -/
def execNoMemory (E : Env (Vec × Heap V) K V) (m : MV (Vec × Heap V) K) (op : Op K V) : Option (Fate K V) :=
  if asks m op then some .terminates else (exec E m op).map fun r => .returns r.1 r.2

/-- Run `ops`, then `op` when there is no memory. -/
def runNoMemory (E : Env (Vec × Heap V) K V) (ops : List (Op K V)) (op : Op K V) : Option (Fate K V) :=
  (run E (MV.init E) ops).bind fun r => execNoMemory E r.1 op

/-! ### Lemmas -/

theorem eraseAsks_false {N : Nat} {s : Vec × Heap V} {xs : List V} {r i : Nat} (h : StableLaws.Rep N s xs r)
    (hi : i + 1 ≠ xs.length ∨ xs.length % 2 ^ N ≠ 0) : eraseAsks s i = false := by
  obtain ⟨us, fs, c, -⟩ := h
  have hl := c.len
  have hz := c.size
  rw [Vec.blockSize_eq] at hz
  rcases hi with hi | hi
  · have : ¬ (i + 1 = s.1.size) := by rw [Vec.size, ← hl]; exact hi
    simp [eraseAsks, this]
  · have : s.1.bsize ≠ 0 := by
      intro h0
      rw [h0, Nat.add_zero] at hz
      apply hi
      rw [hl]
      have : (s.1.csize + 2 ^ N) % 2 ^ N = 0 := by rw [hz]; exact Nat.mul_mod_left _ _
      simpa using this
    simp [eraseAsks, AVec.popAllocs, this]

theorem clearAllocs_false {N : Nat} {s : Vec × Heap V} {xs : List V} {r : Nat} (h : StableLaws.Rep N s xs r)
    (hi : xs.length < 2 ^ N) : AVec.clearAllocs s.1 = false := by
  obtain ⟨us, fs, c, -⟩ := h
  have hl := c.len
  have hz := c.size
  rw [Vec.blockSize_eq] at hz
  have hu : us.length ≤ 1 := by
    refine Nat.le_of_not_lt fun hlt => ?_
    have : 2 * 2 ^ N ≤ us.length * 2 ^ N := Nat.mul_le_mul_right _ hlt
    omega
  have := c.idx
  by_cases ha : s.1.avail = 0
  · simp [AVec.clearAllocs, ha]
  · have : ¬ (0 < s.1.slotIdx) := by omega
    simp [AVec.clearAllocs, this]

theorem runs_append (E : Env (Vec × Heap V) K V) (ops1 ops2 : List (Op K V)) : ∀ m0 : MV (Vec × Heap V) K, run E m0 (ops1 ++ ops2) =
    (run E m0 ops1).bind fun r => (run E r.1 ops2).map fun s => (s.1, r.2 ++ s.2) := by
  induction ops1 with
  | nil => intro m0; simp [run]
  | cons op1 ops1 ih =>
    intro m0
    simp only [List.cons_append, run, ih]
    cases exec E m0 op1 with
    | none => rfl
    | some q =>
      simp only [Option.bind_some]
      cases run E q.1 ops1 with
      | none => rfl
      | some t => simp only [Option.bind_some, Option.map_some]; cases run E t.1 ops2 <;> simp

/-! ## C149 -/

/-- C149 as far as it holds: after every history of careful calls, a removal works without memory as it does with memory unless it removes the
last element and the number of elements is a multiple of the block size, or clears a container that has filled a block. -/
theorem removal_no_memory_partial (N : Nat) (impl : MapImpl K) (unset : Option K) (ops : List (Op K V)) (a a' : Ideal K V)
    (os : List (Obs V)) (h : idealRun (.stable N) Ideal.empty ops = some (a, os))
    (hc : carefulRun (.stable N) unset Ideal.empty ops = true)
    (op : Op K V) (o : Obs V) (hi : ideal (.stable N) a op = some (a', o)) (hc' : careful (.stable N) unset a op = true)
    (hop : (∃ k, op = .remove k ∧ (a.lookup k ≠ some (a.entries.length - 1) ∨ a.entries.length % 2 ^ N ≠ 0)) ∨
      (∃ i, op = .removeIndex i ∧ (i + 1 ≠ a.entries.length ∨ a.entries.length % 2 ^ N ≠ 0)) ∨
      (op = .clear ∧ a.entries.length < 2 ^ N)) :
    ∃ m', runNoMemory (stableEnv N impl unset) ops op = some (.returns m' o) ∧
      run (stableEnv N impl unset) (MV.init (stableEnv N impl unset)) (ops ++ [op]) = some (m', os ++ [o]) := by
  obtain ⟨m, e, v⟩ := simulate (E := stableEnv N impl unset) (L := stableLawful N V) ops (Inv.init (stableStarts _ _)) hc h
  obtain ⟨m', e', -⟩ := step v hc' hi
  have hr : StableLaws.Rep N m.data (a.entries.map (·.value)) a.reserved := v.rep
  have hasks : asks m op = false := by
    rcases hop with ⟨k, rfl, hk⟩ | ⟨i, rfl, hk⟩ | ⟨rfl, hk⟩
    · rw [v.lookup_eq] at hk
      cases hf : FMap.find m.lookup k with
      | none => simp [asks, hf]
      | some i =>
        simp only [asks, hf]
        apply eraseAsks_false hr
        rw [hf] at hk
        simp only [List.length_map]
        rcases hk with hk | hk
        · left; intro h'; exact hk (by rw [← h']; rfl)
        · right; exact hk
    · exact eraseAsks_false hr (by simpa using hk)
    · exact clearAllocs_false hr (by simpa using hk)
  refine ⟨m', by simp [runNoMemory, e, execNoMemory, hasks, e'], ?_⟩
  simp [runs_append, e, run, e']

/-! ### Violations -/

theorem pushBack_free {N : Nat} {v v' : Vec} {h h' : Heap V} {x : V} (e : v.pushBack N h x = some (v', h')) :
    v'.freeAvail = v.freeAvail := by
  simp only [Vec.pushBack, Option.bind_eq_some_iff, Option.map_eq_some_iff] at e
  obtain ⟨⟨v1, h1⟩, e1, b, -, h2, -, e3⟩ := e
  cases e3
  unfold Vec.blockCheck at e1
  split at e1
  · simp only [Option.bind_eq_some_iff, Option.map_eq_some_iff] at e1
    obtain ⟨⟨b', v2, h3⟩, e4, arr, -, e5⟩ := e1
    cases e5
    have k := AVec.getNewBlock_keep e4
    simp only at k ⊢
    rw [k.2.2.2]
    unfold Vec.growSlots
    split
    · rfl
    · split <;> rfl
  · cases e1; rfl

theorem pushBack_bsize {N : Nat} {v v' : Vec} {h h' : Heap V} {x : V} (e : v.pushBack N h x = some (v', h')) : 0 < v'.bsize := by
  simp only [Vec.pushBack, Option.bind_eq_some_iff, Option.map_eq_some_iff] at e
  obtain ⟨⟨v1, h1⟩, e1, b, -, h2, -, e3⟩ := e
  cases e3
  exact Nat.succ_pos _

/-- Insertions under new search terms. -/
theorem inserted {N : Nat} {impl : MapImpl K} {unset : Option K} (x : V) (ks : List K) : ∀ (m : MV (Vec × Heap V) K) (a : Ideal K V),
    Inv (E := stableEnv N impl unset) (stableLawful N V) m a → m.data.1.freeAvail = 0 → (ks = [] → 0 < m.data.1.bsize) → ks.Nodup →
    (∀ k, k ∈ ks → a.lookup k = none) →
    ∃ m' a' os, run (stableEnv N impl unset) m (ks.map fun k => .insert k x) = some (m', os) ∧
      Inv (E := stableEnv N impl unset) (stableLawful N V) m' a' ∧ m'.data.1.freeAvail = 0 ∧ 0 < m'.data.1.bsize ∧
      a'.entries = a.entries ++ ks.map fun k => ⟨x, [k]⟩ := by
  induction ks with
  | nil => intro m a v hf hb _ _; exact ⟨m, a, [], rfl, v, hf, hb rfl, by simp⟩
  | cons k ks ih =>
    intro m a v hf _ hn hk
    have hk0 := hk k (by simp)
    obtain ⟨m1, e, v1, -⟩ := step v (op := .insert k x) rfl (by simp only [ideal, hk0]; rfl)
    have e0 := e
    rw [v.lookup_eq] at hk0
    simp only [exec, MV.insert, hk0, Option.isSome_none, Bool.false_eq_true, if_false, Option.map_map, Option.map_eq_some_iff] at e0
    obtain ⟨d, e1, e2⟩ := e0
    have hd : m1.data = d := by simpa using (congrArg (fun r => r.1.data) e2).symm
    have hf1 : m1.data.1.freeAvail = 0 := by rw [hd]; exact (pushBack_free (v' := d.1) (h' := d.2) e1).trans hf
    have hb1 : 0 < m1.data.1.bsize := by rw [hd]; exact pushBack_bsize (v' := d.1) (h' := d.2) e1
    obtain ⟨hk1, hn⟩ := List.nodup_cons.1 hn
    obtain ⟨m', a', os, e3, v', hf', hb', ha'⟩ := ih m1 _ v1 hf1 (fun _ => hb1) hn (by
      intro k' hk'
      have h1 := hk k' (by simp [hk'])
      have hne : k' ≠ k := by rintro rfl; exact hk1 hk'
      simp only [Ideal.lookup, List.findIdx?_eq_none_iff] at h1 ⊢
      intro e he
      simp only [Ideal.append, List.mem_append, List.mem_singleton] at he
      rcases he with he | rfl
      · exact h1 e he
      · simpa using hne)
    refine ⟨m', a', _, by simp [run, e, e3]; rfl, v', hf', hb', by simp [ha', Ideal.append]⟩

/-- C149 violation, for every block size and all search terms: insert one element more than a block holds, then clear the container when
there is no memory: the program ends. -/
theorem clear_terminates_violation (N : Nat) (impl : MapImpl K) (unset : Option K) (x : V) (ks : List K) (hn : ks.Nodup)
    (hl : ks.length = 2 ^ N + 1) :
    runNoMemory (stableEnv N impl unset) (ks.map fun k => .insert k x) .clear = some .terminates := by
  obtain ⟨m, a, os, e, v, hf, hb, ha⟩ := inserted x ks _ _ (Inv.init (E := stableEnv N impl unset) (stableStarts N V)) rfl
    (by rintro rfl; simp at hl) hn (by intro k _; rfl)
  have hr : StableLaws.Rep N m.data (a.entries.map (·.value)) a.reserved := v.rep
  obtain ⟨us, fs, c, -⟩ := hr
  have hz := c.size
  have hb2 := c.bsz
  rw [← c.len, List.length_map, ha] at hz
  simp only [List.nil_append, List.length_map, hl] at hz
  rw [Vec.blockSize_eq] at hz hb2
  have hp : 0 < 2 ^ N := Nat.two_pow_pos N
  have hu2 : 2 ≤ us.length := by
    refine Nat.le_of_not_lt fun hlt => ?_
    have : us.length * 2 ^ N ≤ 1 * 2 ^ N := Nat.mul_le_mul_right _ (by omega)
    omega
  have hav : m.data.1.avail ≠ 0 := by
    have := c.avail_pos (by omega); omega
  have hi := c.idx.resolve_right hav
  have : AVec.clearAllocs m.data.1 = true := by
    simp only [AVec.clearAllocs, Bool.and_eq_true, decide_eq_true_eq]
    exact ⟨⟨hav, by omega⟩, by omega⟩
  simp [runNoMemory, e, execNoMemory, asks, this]

/-- C149 violation, for every block size and all search terms: insert one element more than a block holds, remove the last one, and remove the
one before when there is no memory: the program ends. -/
theorem remove_terminates_violation (N : Nat) (impl : MapImpl K) (unset : Option K) (x : V) (ks : List K) (k1 k2 : K)
    (hn : (ks ++ [k1, k2]).Nodup) (hl : ks.length + 1 = 2 ^ N) :
    runNoMemory (stableEnv N impl unset) ((ks ++ [k1, k2]).map (fun k => .insert k x) ++ [.remove k2]) (.remove k1) =
      some .terminates := by
  obtain ⟨m, a, os, e, v, hf, hb, ha⟩ := inserted x (ks ++ [k1, k2]) _ _ (Inv.init (E := stableEnv N impl unset) (stableStarts N V)) rfl
    (by simp) hn (by intro k _; rfl)
  have hr : StableLaws.Rep N m.data (a.entries.map (·.value)) a.reserved := v.rep
  obtain ⟨us, fs, c, -⟩ := hr
  have hz := c.size
  have hb2 := c.bsz
  have hcs := c.len
  have hlen : a.entries.length = 2 ^ N + 1 := by simp [ha]; omega
  rw [List.length_map, hlen] at hcs
  rw [← hcs] at hz
  rw [Vec.blockSize_eq] at hz hb2
  have hp : 0 < 2 ^ N := Nat.two_pow_pos N
  have hu2 : us.length = 2 := by
    rcases Nat.lt_trichotomy us.length 2 with hlt | h | hlt
    · have : us.length * 2 ^ N ≤ 1 * 2 ^ N := Nat.mul_le_mul_right _ (by omega)
      omega
    · exact h
    · have : 3 * 2 ^ N ≤ us.length * 2 ^ N := Nat.mul_le_mul_right _ hlt
      omega
  rw [hu2] at hz
  have hb1 : m.data.1.bsize = 1 := by omega
  have hnd := List.nodup_append.1 hn
  have hent : a.entries = ks.map (fun k => (⟨x, [k]⟩ : Entry K V)) ++ [⟨x, [k1]⟩, ⟨x, [k2]⟩] := by simp [ha]
  have h12 : k1 ≠ k2 := by
    have := hnd.2.1
    simpa using this
  have hk1 : ∀ k, k ∈ ks → k ≠ k1 := fun k hk => hnd.2.2 k hk k1 (by simp)
  have hk2 : ∀ k, k ∈ ks → k ≠ k2 := fun k hk => hnd.2.2 k hk k2 (by simp)
  have hpre : ∀ k', (∀ k, k ∈ ks → k ≠ k') →
      (ks.map (fun k => (⟨x, [k]⟩ : Entry K V))).findIdx? (fun e => decide (k' ∈ e.keys)) = none := by
    intro k' h
    simp only [List.findIdx?_eq_none_iff, List.mem_map]
    rintro _ ⟨k, hk, rfl⟩
    simpa using (h k hk).symm
  have hl2 : a.lookup k2 = some (ks.length + 1) := by
    rw [Ideal.lookup, hent, List.findIdx?_append, hpre k2 hk2]
    simp [List.findIdx?_cons, h12.symm]
    omega
  have hpop : ∃ m2, exec (stableEnv N impl unset) m (.remove k2) = some (m2, .done) ∧
      Inv (E := stableEnv N impl unset) (stableLawful N V) m2 (a.drop (.stable N) (ks.length + 1)) := by
    obtain ⟨m2, e2, v2, -⟩ := step v (op := .remove k2) (a' := a.drop (.stable N) (ks.length + 1)) (o := .done) (by
      simp only [careful, find_of_lookup, hl2, Option.bind_some]
      have : a.entries[ks.length + 1]? = some ⟨x, [k2]⟩ := by
        rw [hent, List.getElem?_append_right (by simp)]
        simp
      simp [this]) (by simp only [ideal, hl2])
    exact ⟨m2, e2, v2⟩
  obtain ⟨m2, e2, v2⟩ := hpop
  have hf2 := v.lookup_eq k2
  rw [hl2] at hf2
  have e3 := e2
  simp only [exec, MV.remove, ← hf2, Option.map_map, Option.map_eq_some_iff] at e3
  obtain ⟨⟨d, b⟩, e4, e5⟩ := e3
  have hd : m2.data = d := by simpa using (congrArg (fun r => r.1.data) e5).symm
  have hd2 : d.1.bsize = 0 ∧ d.1.freeAvail = 0 ∧ d.1.csize = 2 ^ N := by
    have e6 : (if ks.length + 1 + 1 = m.data.1.size then (Vec.popBack N m.data.1 m.data.2).map (fun s => (s, true))
      else some (m.data, false)) = some (d, b) := e4
    rw [if_pos (by rw [Vec.size, ← hcs]; omega), Option.map_eq_some_iff] at e6
    obtain ⟨s, e6, e7⟩ := e6
    cases e7
    rw [Vec.popBack, if_neg (by omega), Vec.popStep, if_pos (by simp [hb1])] at e6
    simp only [Option.bind_some, Option.bind_eq_some_iff, Option.map_eq_some_iff] at e6
    obtain ⟨b, -, h', -, rfl⟩ := e6
    exact ⟨by simp [hb1], hf, by simp [← hcs]⟩
  have hl1 : (a.drop (.stable N) (ks.length + 1)).lookup k1 = some ks.length := by
    have hdr : (a.drop (.stable N) (ks.length + 1)).entries = ks.map (fun k => (⟨x, [k]⟩ : Entry K V)) ++ [⟨x, [k1]⟩] := by
      rw [Ideal.drop, if_neg (by simp [hlen]; omega)]
      simp only [hent]
      rw [List.eraseIdx_append_of_length_le (by simp)]
      simp
    rw [Ideal.lookup, hdr, List.findIdx?_append, hpre k1 hk1]
    simp [List.findIdx?_cons]
  rw [v2.lookup_eq] at hl1
  have hrun : run (stableEnv N impl unset) (MV.init (stableEnv N impl unset))
      ((ks ++ [k1, k2]).map (fun k => .insert k x) ++ [.remove k2]) = some (m2, os ++ [.done]) := by
    rw [runs_append, e]
    simp [run, e2]
  have hask : eraseAsks m2.data ks.length = true := by
    simp only [eraseAsks, AVec.popAllocs, AVec.full, hd, hd2.1, hd2.2.1, hd2.2.2, Vec.size, hl]
    simp
  rw [runNoMemory, hrun, Option.bind_some, execNoMemory, if_pos]
  simp only [asks, hl1, hask]

/-! ### Examples -/

/-- `removal_no_memory_partial`: three elements in blocks of two; the last one is removed. -/
example : ∃ m', runNoMemory (stableEnv 1 MapImpl.atEnd none) [.insert 'a' 1, .insert 'b' 2, .insert 'c' 3] (.remove 'c') =
    some (.returns m' .done) := by
  obtain ⟨m', h, -⟩ := removal_no_memory_partial (K := Char) (V := Nat) 1 MapImpl.atEnd none [.insert 'a' 1, .insert 'b' 2, .insert 'c' 3]
    _ _ _ rfl rfl (.remove 'c') _ rfl (by decide) (Or.inl ⟨'c', rfl, Or.inr (by decide)⟩)
  exact ⟨m', h⟩

/-- `clear_terminates_violation` and `remove_terminates_violation`: blocks of two. -/
example : runNoMemory (V := Nat) (stableEnv 1 MapImpl.atEnd none) [.insert 'a' 7, .insert 'b' 7, .insert 'c' 7] .clear = some .terminates ∧
    runNoMemory (V := Nat) (stableEnv 1 MapImpl.atEnd none) [.insert 'a' 7, .insert 'b' 7, .insert 'c' 7, .remove 'c'] (.remove 'b') =
      some .terminates :=
  ⟨clear_terminates_violation 1 MapImpl.atEnd none 7 ['a', 'b', 'c'] (by decide) rfl,
    remove_terminates_violation 1 MapImpl.atEnd none 7 ['a'] 'b' 'c' (by decide) rfl⟩

end Verif.Mapped.Vector
