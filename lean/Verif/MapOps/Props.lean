import Mathlib.Data.List.Basic
import Verif.MapOps.Model

/-
mapFind: property C69.

The specification: a map is given by a history of insertions and removals; the value stored under a key is what the last
of them that concerned the key (or an equivalent one) left.
-/
namespace Verif.MapOps

variable {K V : Type}

/-! ### Specification -/

/-- What a client did to a map. -/
inductive Op (K V : Type) where
  | put (k : K) (v : V)       -- m[k] = v, m.insert_or_assign(k, v)
  | erase (k : K)             -- m.erase(k)
  | rehash (n : Nat)          -- unordered_map only: m.rehash(n) or an automatic rehash

/-- The value under `k` after a history (most recent call first), `same` being the map's notion of equal keys. -/
def stored (same : K → K → Bool) (k : K) : List (Op K V) → Option V
  | [] => none
  | .put k' v :: ops => if same k' k then some v else stored same k ops
  | .erase k' :: ops => if same k' k then none else stored same k ops
  | .rehash _ :: ops => stored same k ops

/-- `std::map` requires a strict weak ordering. -/
structure StrictWeak (lt : K → K → Bool) : Prop where
  irrefl : ∀ a, lt a a = false
  trans : ∀ a b c, lt a b = true → lt b c = true → lt a c = true
  incomp : ∀ a b c, lt a b = true → lt a c = true ∨ lt c b = true

/-- keys equivalent for a `std::map` -/
def equiv (lt : K → K → Bool) (a b : K) : Bool := !lt a b && !lt b a

/-- `std::unordered_map` requires an equivalence, and equal hashes for equal keys. -/
structure HashEq (hash : K → Nat) (eq : K → K → Bool) : Prop where
  refl : ∀ a, eq a a = true
  symm : ∀ a b, eq a b = true → eq b a = true
  trans : ∀ a b c, eq a b = true → eq b c = true → eq a c = true
  hash : ∀ a b, eq a b = true → hash a = hash b

/-- The map after a history (most recent call first). -/
def omap (lt : K → K → Bool) : List (Op K V) → OMap K V
  | [] => OMap.empty lt
  | .put k v :: ops => (omap lt ops).put k v
  | .erase k :: ops => (omap lt ops).erase k
  | .rehash _ :: ops => omap lt ops

/-- The map after a history (most recent call first), created with `n` + 1 buckets. -/
def umap (hash : K → Nat) (eq : K → K → Bool) (n : Nat) : List (Op K V) → UMap K V
  | [] => UMap.empty hash eq (n + 1)
  | .put k v :: ops => (umap hash eq n ops).put k v
  | .erase k :: ops => (umap hash eq n ops).erase k
  | .rehash n' :: ops => (umap hash eq n ops).rehash (n' + 1)

/-! ### std::map -/

section
variable {lt : K → K → Bool} (o : StrictWeak lt)

/-- entries in strictly ascending order -/
def Sorted (lt : K → K → Bool) (l : List (K × V)) : Prop := l.Pairwise fun a b => lt a.1 b.1 = true

theorem omap_lt (ops : List (Op K V)) : (omap lt ops).lt = lt := by
  induction ops with
  | nil => rfl
  | cons op ops ih => cases op <;> simp only [omap, OMap.put, OMap.erase] <;> first | exact ih | (split <;> [split; skip] <;> exact ih)

/-- find on a sorted list, by recursion -/
def look (lt : K → K → Bool) (k : K) : List (K × V) → Option V
  | [] => none
  | e :: l => if equiv lt e.1 k then some e.2 else look lt k l

theorem look_none_of_lt {k : K} {l : List (K × V)} (h : ∀ e ∈ l, lt k e.1 = true) : look lt k l = none := by
  induction l with
  | nil => rfl
  | cons e l ih =>
    simp only [look, equiv, h e (by simp), Bool.not_true, Bool.and_false, Bool.false_eq_true, if_false]
    exact ih fun e he => h e (List.mem_cons_of_mem _ he)

include o in
theorem find_look (l : List (K × V)) (h : Sorted lt l) (k : K) : ((OMap.mk lt l).find k).map (·.2) = look lt k l := by
  induction l with
  | nil => rfl
  | cons e l ih =>
    obtain ⟨h1, h2⟩ := List.pairwise_cons.1 h
    have ih := ih h2
    simp only [OMap.find, OMap.lowerBound, List.dropWhile_cons] at ih ⊢
    by_cases he : lt e.1 k = true
    · rw [if_pos he, ih]
      simp [look, equiv, he]
    · rw [if_neg he]
      simp only [look, equiv, Bool.not_eq_true] at he ⊢
      by_cases hk : lt k e.1 = true
      · simp only [hk, if_true, Option.map_none, he, Bool.not_true, Bool.and_false, Bool.false_eq_true, if_false]
        rw [look_none_of_lt fun e' h' => o.trans _ _ _ hk (h1 e' h')]
      · simp [hk, he]

include o in
theorem put_ok (l : List (K × V)) (h : Sorted lt l) (k : K) (v : V) :
    Sorted lt ((OMap.mk lt l).put k v).entries ∧
    (∀ x, look lt x ((OMap.mk lt l).put k v).entries = if equiv lt k x then some v else look lt x l) ∧
    (∀ e ∈ ((OMap.mk lt l).put k v).entries, equiv lt e.1 k = true ∨ ∃ v', (e.1, v') ∈ l) := by
  have eqt : ∀ a b, equiv lt a b = true ↔ lt a b = false ∧ lt b a = false := by intro a b; simp [equiv]
  have con : ∀ a b c, equiv lt a b = true → lt b c = true → lt a c = true := by
    intro a b c h1 h2
    rcases o.incomp b c a h2 with h3 | h3
    · rw [((eqt _ _).1 h1).2] at h3; cases h3
    · exact h3
  have noc : ∀ a b c, equiv lt a b = true → lt c b = true → lt c a = true := by
    intro a b c h1 h2
    rcases o.incomp c b a h2 with h3 | h3
    · exact h3
    · rw [((eqt _ _).1 h1).1] at h3; cases h3
  have sym : ∀ a b, equiv lt a b = true → equiv lt b a = true := by
    intro a b h1; rw [eqt] at h1 ⊢; exact ⟨h1.2, h1.1⟩
  have tr : ∀ a b c, equiv lt a b = true → equiv lt b c = true → equiv lt a c = true := by
    intro a b c h1 h2
    rw [eqt]
    constructor
    · cases h3 : lt a c with
      | false => rfl
      | true =>
        have := con b a c (sym _ _ h1) h3
        rw [((eqt _ _).1 h2).1] at this; cases this
    · cases h3 : lt c a with
      | false => rfl
      | true =>
        have := noc b a c (sym _ _ h1) h3
        rw [((eqt _ _).1 h2).2] at this; cases this
  induction l with
  | nil =>
    refine ⟨by simp [OMap.put, OMap.lowerBound, Sorted], fun x => by simp [OMap.put, OMap.lowerBound, look], ?_⟩
    intro e he
    simp [OMap.put, OMap.lowerBound] at he
    subst he
    left; rw [eqt]; exact ⟨o.irrefl _, o.irrefl _⟩
  | cons e l ih =>
    obtain ⟨h1, h2⟩ := List.pairwise_cons.1 h
    obtain ⟨i1, i2, i3⟩ := ih h2
    by_cases he : lt e.1 k = true
    · have hput : ((OMap.mk lt (e :: l)).put k v).entries = e :: ((OMap.mk lt l).put k v).entries := by
        simp only [OMap.put, OMap.lowerBound, List.dropWhile_cons, List.takeWhile_cons, he, if_true]
        split <;> [split; skip] <;> simp
      rw [hput]
      refine ⟨List.pairwise_cons.2 ⟨fun e' h' => ?_, i1⟩, fun x => ?_, fun e' h' => ?_⟩
      · rcases i3 e' h' with h3 | ⟨v', h3⟩
        · exact noc _ _ _ h3 he
        · exact h1 (e'.1, v') h3
      · simp only [look, i2]
        by_cases hx : equiv lt e.1 x = true
        · have : equiv lt k x = false := by
            cases h3 : equiv lt k x with
            | false => rfl
            | true =>
              have := tr _ _ _ hx (sym _ _ h3)
              rw [eqt, he] at this; cases this.1
          simp [hx, this]
        · simp [hx]
      · rcases List.mem_cons.1 h' with rfl | h'
        · exact .inr ⟨_, List.mem_cons_self⟩
        · rcases i3 e' h' with h3 | ⟨v', h3⟩
          · exact .inl h3
          · exact .inr ⟨v', List.mem_cons_of_mem _ h3⟩
    · have he' : lt e.1 k = false := by simpa using he
      by_cases hk : lt k e.1 = true
      · have hput : ((OMap.mk lt (e :: l)).put k v).entries = (k, v) :: e :: l := by
          simp [OMap.put, OMap.lowerBound, he, hk]
        rw [hput]
        refine ⟨List.pairwise_cons.2 ⟨fun e' h' => ?_, h⟩, fun x => rfl, fun e' h' => ?_⟩
        · rcases List.mem_cons.1 h' with rfl | h'
          · exact hk
          · exact o.trans _ _ _ hk (h1 _ h')
        · rcases List.mem_cons.1 h' with rfl | h'
          · left; rw [eqt]; exact ⟨o.irrefl _, o.irrefl _⟩
          · exact .inr ⟨e'.2, h'⟩
      · have hput : ((OMap.mk lt (e :: l)).put k v).entries = (e.1, v) :: l := by
          simp [OMap.put, OMap.lowerBound, he, hk]
        have hek : equiv lt e.1 k = true := by rw [eqt]; exact ⟨he', by simpa using hk⟩
        rw [hput]
        refine ⟨List.pairwise_cons.2 ⟨h1, h2⟩, fun x => ?_, fun e' h' => ?_⟩
        · simp only [look]
          by_cases hx : equiv lt k x = true
          · simp [hx, tr _ _ _ hek hx]
          · have : ¬ equiv lt e.1 x = true := fun h3 => hx (tr _ _ _ (sym _ _ hek) h3)
            simp [hx, this]
        · rcases List.mem_cons.1 h' with rfl | h'
          · exact .inl hek
          · exact .inr ⟨e'.2, List.mem_cons_of_mem _ h'⟩

include o in
theorem erase_look (l : List (K × V)) (k x : K) :
    look lt x (l.filter fun e => lt e.1 k || lt k e.1) = if equiv lt k x then none else look lt x l := by
  have eqt : ∀ a b, equiv lt a b = true ↔ lt a b = false ∧ lt b a = false := by intro a b; simp [equiv]
  have key : ∀ a b c, equiv lt a b = true → equiv lt b c = true → equiv lt a c = true := by
    intro a b c h1 h2
    rw [eqt] at h1 h2 ⊢
    constructor
    · cases h3 : lt a c with
      | false => rfl
      | true => rcases o.incomp _ _ b h3 with h4 | h4 <;> simp_all
    · cases h3 : lt c a with
      | false => rfl
      | true => rcases o.incomp _ _ b h3 with h4 | h4 <;> simp_all
  have sym : ∀ a b, equiv lt a b = true → equiv lt b a = true := by
    intro a b h1; rw [eqt] at h1 ⊢; exact ⟨h1.2, h1.1⟩
  induction l with
  | nil => simp [look]
  | cons e l ih =>
    have hne : (lt e.1 k || lt k e.1) = !equiv lt e.1 k := by simp [equiv]
    rw [List.filter_cons, hne]
    by_cases he : equiv lt e.1 k = true
    · rw [he]
      simp only [Bool.not_true, Bool.false_eq_true, if_false, ih, look]
      by_cases hx : equiv lt k x = true
      · simp [hx]
      · have : ¬ equiv lt e.1 x = true := fun h => hx (key _ _ _ (sym _ _ he) h)
        simp [hx, this]
    · simp only [he, Bool.not_false, if_true, look, ih]
      by_cases hx : equiv lt k x = true
      · have : ¬ equiv lt e.1 x = true := fun h => he (key _ _ _ h (sym _ _ hx))
        simp [hx, this]
      · simp [hx]

include o in
theorem omap_ok (ops : List (Op K V)) : Sorted lt (omap lt ops).entries ∧
    ∀ x, look lt x (omap lt ops).entries = stored (equiv lt) x ops := by
  have eta : ∀ ops : List (Op K V), omap lt ops = ⟨lt, (omap lt ops).entries⟩ := by
    intro ops
    have h := omap_lt (lt := lt) ops
    generalize omap lt ops = m at h
    cases m; cases h; rfl
  induction ops with
  | nil => exact ⟨List.Pairwise.nil, fun x => rfl⟩
  | cons op ops ih =>
    cases op with
    | put k v =>
      have := put_ok o _ ih.1 k v
      rw [← eta] at this
      exact ⟨this.1, fun x => by simp only [omap, stored, this.2.1, ih.2]⟩
    | erase k =>
      have hl := omap_lt (lt := lt) ops
      refine ⟨?_, fun x => ?_⟩
      · simp only [omap, OMap.erase]; exact ih.1.filter _
      · simp only [omap, OMap.erase, stored, hl, erase_look o, ih.2]
    | rehash n => exact ih

/-- C69 for `std::map`: after any history of insertions and removals, `mapFind` returns the value stored under the key
(or an equivalent one), otherwise the default respectively nullopt. -/
theorem mapFind_map (o : StrictWeak lt) (ops : List (Op K V)) (k : K) (d : V) :
    (omap lt ops).mapFindDef k d = (stored (equiv lt) k ops).getD d ∧
    (omap lt ops).mapFind k = stored (equiv lt) k ops := by
  obtain ⟨h1, h2⟩ := omap_ok o ops
  have h3 := find_look o _ h1 k
  have h := omap_lt (lt := lt) ops
  have : OMap.mk lt (omap lt ops).entries = omap lt ops := by
    generalize omap lt ops = m at h
    cases m; cases h; rfl
  rw [this, h2] at h3
  simp only [OMap.mapFindDef, OMap.mapFind, ← h3]
  cases (omap lt ops).find k <;> exact ⟨rfl, rfl⟩

end

/-! ### std::unordered_map -/

section
variable {hash : K → Nat} {eq : K → K → Bool} (o : HashEq hash eq)

/-- every entry is in its bucket, no two entries have equal keys -/
structure UOk (hash : K → Nat) (eq : K → K → Bool) (m : UMap K V) : Prop where
  h : m.hash = hash
  e : m.eq = eq
  pos : 0 < m.buckets.length
  place : ∀ (i : Nat) (b : List (K × V)), m.buckets[i]? = some b → ∀ e ∈ b, hash e.1 % m.buckets.length = i
  uniq : ∀ b ∈ m.buckets, b.Pairwise fun e e' => eq e.1 e'.1 = false

/-- the entry of `k` in a bucket -/
def val (eq : K → K → Bool) (k : K) (b : List (K × V)) : Option V := (b.find? fun e => eq e.1 k).map (·.2)

/-- what `find` yields -/
def got (m : UMap K V) (k : K) : Option V := (m.find k).map (·.2)

theorem got_eq {m : UMap K V} (u : UOk hash eq m) (k : K) {b : List (K × V)} (hb : m.buckets[m.slot k]? = some b) :
    got m k = val eq k b := by
  simp only [got, val, UMap.find, hb, Option.getD_some, u.e]

theorem slot_lt {m : UMap K V} (u : UOk hash eq m) (k : K) : m.slot k < m.buckets.length := Nat.mod_lt _ u.pos

include o in
/-- a bucket of another slot has no entry for `k` -/
theorem modify_ok {m : UMap K V} (u : UOk hash eq m) (k : K) (f : List (K × V) → List (K × V)) (r : Option V)
    (hp : ∀ b, ∀ e ∈ f b, eq e.1 k = true ∨ ∃ e' ∈ b, e'.1 = e.1)
    (hu : ∀ b, (b.Pairwise fun e e' => eq e.1 e'.1 = false) → (f b).Pairwise fun e e' => eq e.1 e'.1 = false)
    (hv : ∀ b, (b.Pairwise fun e e' => eq e.1 e'.1 = false) → ∀ x, val eq x (f b) = if eq k x then r else val eq x b) :
    UOk hash eq { m with buckets := m.buckets.modify (m.slot k) f } ∧
    ∀ x, got { m with buckets := m.buckets.modify (m.slot k) f } x = if eq k x then r else got m x := by
  have hs : ∀ x, UMap.slot { m with buckets := m.buckets.modify (m.slot k) f } x = m.slot x := by
    intro x; simp [UMap.slot]
  have u' : UOk hash eq { m with buckets := m.buckets.modify (m.slot k) f } := by
    refine ⟨u.h, u.e, by simpa using u.pos, ?_, ?_⟩
    · intro i b hb e he
      simp only [List.length_modify]
      rw [List.getElem?_modify] at hb
      cases h0 : m.buckets[i]? with
      | none => rw [h0] at hb; cases hb
      | some b0 =>
        rw [h0] at hb
        by_cases hi : m.slot k = i
        · simp only [hi, if_true, Option.map_eq_map, Option.map_some, Option.some.injEq] at hb
          subst hb
          rcases hp b0 e he with h1 | ⟨e', h1, h2⟩
          · rw [o.hash _ _ h1, ← hi, UMap.slot, u.h]
          · rw [← h2]; exact u.place i b0 h0 e' h1
        · simp only [hi, if_false, Option.map_eq_map, Option.map_some, Option.some.injEq] at hb
          subst hb
          exact u.place i b0 h0 e he
    · intro b hb
      obtain ⟨i, hi⟩ := List.mem_iff_getElem?.1 hb
      rw [List.getElem?_modify] at hi
      cases h0 : m.buckets[i]? with
      | none => rw [h0] at hi; cases hi
      | some b0 =>
        rw [h0] at hi
        have h1 := u.uniq b0 (List.mem_of_getElem? h0)
        by_cases hj : m.slot k = i
        · simp only [hj, if_true, Option.map_eq_map, Option.map_some, Option.some.injEq] at hi
          subst hi; exact hu b0 h1
        · simp only [hj, if_false, Option.map_eq_map, Option.map_some, Option.some.injEq] at hi
          subst hi; exact h1
  refine ⟨u', fun x => ?_⟩
  have hb0 := List.getElem?_eq_getElem (slot_lt u x)
  have hb : ({ m with buckets := m.buckets.modify (m.slot k) f } : UMap K V).buckets[
      UMap.slot { m with buckets := m.buckets.modify (m.slot k) f } x]? =
      some (if m.slot k = m.slot x then f (m.buckets[m.slot x]'(slot_lt u x)) else m.buckets[m.slot x]'(slot_lt u x)) := by
    rw [hs]
    show (m.buckets.modify (m.slot k) f)[m.slot x]? = _
    rw [List.getElem?_modify, hb0]
    by_cases h : m.slot k = m.slot x <;> simp [h]
  rw [got_eq u' x hb, got_eq u x hb0]
  by_cases h : m.slot k = m.slot x
  · rw [if_pos h, hv _ (u.uniq _ (List.getElem_mem _))]
  · rw [if_neg h, if_neg]
    intro hk
    exact h (by rw [UMap.slot, UMap.slot, u.h, o.hash _ _ hk])

theorem val_none {k : K} {b : List (K × V)} (h : ∀ e ∈ b, eq e.1 k = false) : val eq k b = none := by
  simp only [val, Option.map_eq_none_iff, List.find?_eq_none]
  intro e he; simp [h e he]

include o in
theorem val_filter (b : List (K × V)) (k x : K) :
    val eq x (b.filter fun e => !eq e.1 k) = if eq k x then none else val eq x b := by
  induction b with
  | nil => simp [val]
  | cons e b ih =>
    simp only [val] at ih ⊢
    rw [List.filter_cons]
    by_cases he : eq e.1 k = true
    · simp only [he, Bool.not_true, Bool.false_eq_true, if_false, ih, List.find?_cons]
      by_cases hx : eq k x = true
      · simp [hx]
      · have : eq e.1 x = false := by
          cases h3 : eq e.1 x with
          | false => rfl
          | true => exact absurd (o.trans _ _ _ (o.symm _ _ he) h3) hx
        simp [hx, this]
    · simp only [he, Bool.not_false, if_true, List.find?_cons]
      by_cases hx : eq k x = true
      · have : eq e.1 x = false := by
          cases h3 : eq e.1 x with
          | false => rfl
          | true => exact absurd (o.trans _ _ _ h3 (o.symm _ _ hx)) he
        simp only [this, ih, hx, if_true]
      · cases h3 : eq e.1 x
        · simp only [ih, hx]
        · simp [hx]

include o in
theorem val_map (b : List (K × V)) (k x : K) (v : V) (h : b.any (fun e => eq e.1 k) = true) :
    val eq x (b.map fun e => if eq e.1 k then (e.1, v) else e) = if eq k x then some v else val eq x b := by
  have hfst : ∀ e : K × V, (if eq e.1 k then (e.1, v) else e).1 = e.1 := by intro e; split <;> rfl
  by_cases hx : eq k x = true
  · rw [if_pos hx]
    induction b with
    | nil => cases h
    | cons e b ih =>
      simp only [val, List.map_cons, List.find?_cons, hfst] at ih ⊢
      by_cases he : eq e.1 k = true
      · rw [o.trans _ _ _ he hx]; simp [he]
      · have : eq e.1 x = false := by
          cases h3 : eq e.1 x with
          | false => rfl
          | true => exact absurd (o.trans _ _ _ h3 (o.symm _ _ hx)) he
        rw [this]
        exact ih (by simpa [he] using h)
  · rw [if_neg hx]
    clear h
    induction b with
    | nil => rfl
    | cons e b ih =>
      simp only [val, List.map_cons, List.find?_cons, hfst] at ih ⊢
      cases h3 : eq e.1 x with
      | false => exact ih
      | true =>
        have : ¬ eq e.1 k = true := fun h4 => hx (o.trans _ _ _ (o.symm _ _ h4) h3)
        simp [this]

include o in
theorem put_uok {m : UMap K V} (u : UOk hash eq m) (k : K) (v : V) : UOk hash eq (m.put k v) ∧
    ∀ x, got (m.put k v) x = if eq k x then some v else got m x := by
  have hfst : ∀ e : K × V, (if eq e.1 k then (e.1, v) else e).1 = e.1 := by intro e; split <;> rfl
  have he := u.e
  subst he
  refine modify_ok o u k _ (some v) ?_ ?_ ?_
  · intro b e he
    split at he
    · obtain ⟨e', h1, h2⟩ := List.mem_map.1 he
      exact .inr ⟨e', h1, by rw [← h2, hfst]⟩
    · rcases List.mem_cons.1 he with rfl | he
      · exact .inl (o.refl _)
      · exact .inr ⟨e, he, rfl⟩
  · intro b hb
    split
    · rw [List.pairwise_map]
      refine hb.imp fun {a b} h => ?_
      rw [hfst, hfst]; exact h
    · rename_i hn
      refine List.pairwise_cons.2 ⟨fun e he => ?_, hb⟩
      cases h3 : m.eq k e.1 with
      | false => rfl
      | true => exact absurd (List.any_eq_true.2 ⟨e, he, o.symm _ _ h3⟩) hn
  · intro b _ x
    split
    · rename_i h; exact val_map o b k x v h
    · simp only [val, List.find?_cons]
      cases m.eq k x <;> rfl

include o in
theorem erase_uok {m : UMap K V} (u : UOk hash eq m) (k : K) : UOk hash eq (m.erase k) ∧
    ∀ x, got (m.erase k) x = if eq k x then none else got m x := by
  have he := u.e
  subst he
  refine modify_ok o u k _ none ?_ ?_ ?_
  · intro b e he; exact .inr ⟨e, (List.mem_filter.1 he).1, rfl⟩
  · intro b hb; exact hb.filter _
  · intro b _ x; exact val_filter o b k x

include o in
theorem entries_uniq {m : UMap K V} (u : UOk hash eq m) : m.entries.Pairwise fun e e' => eq e.1 e'.1 = false := by
  unfold UMap.entries
  rw [List.pairwise_flatten]
  refine ⟨u.uniq, ?_⟩
  rw [List.pairwise_iff_getElem]
  intro i j hi hj hij e he e' he'
  cases h3 : eq e.1 e'.1 with
  | false => rfl
  | true =>
    have h1 := u.place i _ (List.getElem?_eq_getElem hi) e he
    have h2 := u.place j _ (List.getElem?_eq_getElem hj) e' he'
    rw [o.hash _ _ h3, h2] at h1
    omega

theorem find_of_uniq (o : HashEq hash eq) {b : List (K × V)} (h : b.Pairwise fun e e' => eq e.1 e'.1 = false) (x : K) (v : V) :
    val eq x b = some v ↔ ∃ e ∈ b, eq e.1 x = true ∧ e.2 = v := by
  induction b with
  | nil => simp [val]
  | cons e b ih =>
    obtain ⟨h1, h2⟩ := List.pairwise_cons.1 h
    have ih := ih h2
    simp only [val, List.find?_cons] at ih ⊢
    cases hx : eq e.1 x with
    | true =>
      simp only [Option.map_some, Option.some.injEq, List.mem_cons, exists_eq_or_imp, hx, true_and]
      constructor
      · intro h; exact .inl h
      · rintro (h | ⟨e', h3, h4, h5⟩)
        · exact h
        · have := h1 e' h3
          rw [o.trans _ _ _ hx (o.symm _ _ h4)] at this; cases this
    | false => simp [hx, ih]

include o in
/-- `find` sees exactly the entries -/
theorem got_iff {m : UMap K V} (u : UOk hash eq m) (x : K) (v : V) :
    got m x = some v ↔ ∃ e ∈ m.entries, eq e.1 x = true ∧ e.2 = v := by
  have hb := List.getElem?_eq_getElem (slot_lt u x)
  rw [got_eq u x hb, find_of_uniq o (u.uniq _ (List.getElem_mem _))]
  constructor
  · rintro ⟨e, h1, h2⟩; exact ⟨e, List.mem_flatten.2 ⟨_, List.getElem_mem _, h1⟩, h2⟩
  · rintro ⟨e, h1, h2, h3⟩
    obtain ⟨b, h4, h5⟩ := List.mem_flatten.1 h1
    obtain ⟨i, hi⟩ := List.mem_iff_getElem?.1 h4
    have hpl := u.place i b hi e h5
    have : m.slot x = i := by rw [← hpl, UMap.slot, u.h, o.hash _ _ h2]
    subst this
    rw [hb] at hi; cases hi
    exact ⟨e, h5, h2, h3⟩

include o in
theorem rehash_uok {m : UMap K V} (u : UOk hash eq m) (n : Nat) : UOk hash eq (m.rehash (n + 1)) ∧
    ∀ x, got (m.rehash (n + 1)) x = got m x := by
  have u' : UOk hash eq (m.rehash (n + 1)) := by
    refine ⟨u.h, u.e, by simp [UMap.rehash], ?_, ?_⟩
    · intro i b hb e he
      simp only [UMap.rehash, List.getElem?_map, Option.map_eq_some_iff] at hb
      obtain ⟨j, h1, rfl⟩ := hb
      obtain ⟨h2, h3⟩ := List.getElem?_eq_some_iff.1 h1
      simp at h3
      subst h3
      have := (List.mem_filter.1 he).2
      simp only [decide_eq_true_eq, u.h] at this
      simpa [UMap.rehash] using this
    · intro b hb
      simp only [UMap.rehash, List.mem_map] at hb
      obtain ⟨j, _, rfl⟩ := hb
      exact (entries_uniq o u).filter _
  refine ⟨u', fun x => ?_⟩
  apply Option.ext
  intro v
  rw [got_iff o u', got_iff o u]
  have hmem : ∀ e, e ∈ (m.rehash (n + 1)).entries ↔ e ∈ m.entries := by
    intro e
    simp only [UMap.entries, UMap.rehash, List.mem_flatten, List.mem_map, List.mem_range]
    constructor
    · rintro ⟨b, ⟨j, _, rfl⟩, h⟩; exact List.mem_flatten.1 (List.mem_filter.1 h).1
    · intro h
      exact ⟨_, ⟨m.hash e.1 % (n + 1), Nat.mod_lt _ (by omega), rfl⟩, List.mem_filter.2 ⟨List.mem_flatten.2 h, by simp⟩⟩
  constructor
  · rintro ⟨e, h1, h2⟩; exact ⟨e, (hmem e).1 h1, h2⟩
  · rintro ⟨e, h1, h2⟩; exact ⟨e, (hmem e).2 h1, h2⟩

include o in
theorem umap_ok (n : Nat) (ops : List (Op K V)) : UOk hash eq (umap hash eq n ops) ∧
    ∀ x, got (umap hash eq n ops) x = stored eq x ops := by
  induction ops with
  | nil =>
    have hb : ∀ b ∈ (UMap.empty (V := V) hash eq (n + 1)).buckets, b = [] := by
      intro b hb; exact (List.mem_replicate.1 hb).2
    have u : UOk hash eq (UMap.empty (V := V) hash eq (n + 1)) := by
      refine ⟨rfl, rfl, by simp [UMap.empty], ?_, ?_⟩
      · intro i b h e he; rw [hb b (List.mem_of_getElem? h)] at he; cases he
      · intro b h; rw [hb b h]; exact .nil
    refine ⟨u, fun x => ?_⟩
    have hg := List.getElem?_eq_getElem (slot_lt u x)
    simp only [umap]
    rw [got_eq u x hg, hb _ (List.getElem_mem _)]; rfl
  | cons op ops ih =>
    cases op with
    | put k v =>
      have := put_uok o ih.1 k v
      exact ⟨this.1, fun x => by simp only [umap, stored, this.2, ih.2]⟩
    | erase k =>
      have := erase_uok o ih.1 k
      exact ⟨this.1, fun x => by simp only [umap, stored, this.2, ih.2]⟩
    | rehash n' =>
      have := rehash_uok o ih.1 n'
      exact ⟨this.1, fun x => by simp only [umap, stored, this.2, ih.2]⟩

/-- C69 for `std::unordered_map`. -/
theorem mapFind_unordered (o : HashEq hash eq) (n : Nat) (ops : List (Op K V)) (k : K) (d : V) :
    (umap hash eq n ops).mapFindDef k d = (stored eq k ops).getD d ∧
    (umap hash eq n ops).mapFind k = stored eq k ops := by
  have h := (umap_ok o n ops).2 k
  simp only [got] at h
  simp only [UMap.mapFindDef, UMap.mapFind, ← h]
  cases (umap hash eq n ops).find k <;> exact ⟨rfl, rfl⟩

end

/-! ### The hypotheses are met -/

/-- `<` on numbers -/
example : StrictWeak (fun a b : Nat => decide (a < b)) :=
  ⟨by simp, by simp only [decide_eq_true_eq]; omega, by simp only [decide_eq_true_eq]; omega⟩
/-- a comparison under which different keys are equivalent (case-insensitive, say) -/
example : StrictWeak (fun a b : Nat => decide (a / 2 < b / 2)) :=
  ⟨by simp, by simp only [decide_eq_true_eq]; omega, by simp only [decide_eq_true_eq]; omega⟩
/-- a hash function with collisions -/
example : HashEq (fun a : Nat => a % 3) (fun a b => decide (a = b)) :=
  ⟨by simp, by simp only [decide_eq_true_eq]; omega, by simp only [decide_eq_true_eq]; omega, by
    intro a b h; simp only [decide_eq_true_eq] at h; rw [h]⟩

/-- a history, most recent call first -/
def demo : List (Op Nat Nat) :=
  [.erase 4, .put 7 70, .rehash 1, .put 1 11, .put 9 90, .put 4 40, .put 1 10, .put 5 50]
example : [1, 4, 5, 7, 9, 12].map (stored (fun a b => decide (a = b)) · demo) =
    [some 11, none, some 50, some 70, some 90, none] := by decide
example : [1, 4, 5, 7, 9, 12].map (fun k => (omap (fun a b => decide (a < b)) demo).mapFindDef k 99) =
    [11, 99, 50, 70, 90, 99] := by decide
example : [1, 4, 5, 7, 9, 12].map (fun k => (umap (fun a => a % 3) (fun a b => decide (a = b)) 4 demo).mapFindDef k 99) =
    [11, 99, 50, 70, 90, 99] := by decide
example : (omap (fun a b : Nat => decide (a / 2 < b / 2)) demo).mapFind 8 = some 90 := by decide

end Verif.MapOps
