import Verif.WorkQueue.Close

/-
C118: the share of the low priority blocks when several threads fetch at the same time.
-/
namespace Verif.WorkQueue
open Verif.Conc State

variable {n t c : Nat} {s s' : State} {o : Option Out} {l : Loc}

/-! ### Weights -/

/-- a fetch that may still take, or has taken and not yet counted, a medium priority block -/
def commits (R : Int) : Loc → Nat
  | .gRat k => if k < R then 1 else 0
  | .gMed | .gInc _ => 1
  | _ => 0

/-- a fetch that has taken a medium priority block and not yet counted it -/
def counts : Loc → Nat
  | .gInc _ => 1
  | _ => 0

/-- a fetch that has taken a low priority block and not yet reset the counter -/
def resets : Loc → Nat
  | .gReset _ => 1
  | _ => 0

/-- how many blocks the next step of a thread takes from queue `q` -/
def takesN (q : Que) (s : State) (l : Loc) : Nat := (if takes q l then (s.que q).1.head?.toList else []).length

theorem not_inFetch (h : inFetch l = false) (R : Int) : commits R l = 0 ∧ counts l = 0 ∧ resets l = 0 ∧ ∀ q, takesN q s l = 0 := by
  cases l <;> first | (cases h; done) | exact ⟨rfl, rfl, rfl, fun q => by simp [takesN, takes]⟩

theorem counter_setQue (s : State) (q : Que) (x) : (s.setQue q x).counter = s.counter := by cases q <;> rfl

theorem counter_notifyOne (s : State) : (notifyOne n c s).counter = s.counter := by
  rcases notifyOne_eq n c s with h | ⟨k, _, hk, h⟩ <;> rw [h] <;> rfl

/-- steps outside getWorkBlock -/
theorem step_outside (h : stepAt n s t c l = some (s', o)) (hl : inFetch l = false) (hp : place n t l) :
    s'.counter = s.counter ∧ (inFetch (s'.loc t) = true → s'.loc t = .gHigh ∧ t < n) := by
  have back : ∀ {s1 : State} {r}, (s1.back t r).counter = s1.counter ∧ inFetch ((s1.back t r).loc t) = false := by
    intro s1 r
    cases r <;> simp [State.back, loc_goto, upd_same, inFetch, goto]
  unfold stepAt at h
  split at h
  all_goals try (cases hl; done)
  all_goals try (split at h)
  all_goals try (split at h)
  all_goals try (split at h)
  all_goals try (simp only [State.lock] at h; split at h)
  all_goals (first | (cases h; done) | skip)
  all_goals obtain ⟨rfl, rfl⟩ := Prod.mk.inj (Option.some.inj h)
  all_goals (try (rw [back.1, back.2]; split <;> simp [counter_notifyOne]; done))
  all_goals (try (rw [back.1, back.2]; simp [counter_notifyOne]; done))
  all_goals (try simp only [got, executed, unlock, loc_goto, upd_same])
  all_goals (try simp only [goto, popped_eq, clear_eq, push_eq, pushVector_eq, counter_setQue, counter_notifyOne, notifyAll, true_and])
  all_goals (try (split))
  all_goals (try (simp [inFetch]; done))
  all_goals (simp [inFetch]; first | exact hp | done)

/-- What a step in getWorkBlock does, while there are low priority blocks: nothing of interest; read a low counter; take a medium priority
block; count it; reset the counter. -/
theorem step_inside' (R : Int) (h : stepAt n s t c l = some (s', o)) (hl : inFetch l = true) (hlow : s.low.1 ≠ []) (hR : s.ratio ≤ R)
    (h0 : 0 ≤ s.counter) (hb : counts l = 1 → s.counter + 1 < 2147483648) :
    (s'.counter = s.counter ∧ commits R (s'.loc t) ≤ commits R l ∧ counts (s'.loc t) = counts l + takesN .med s l ∧
      resets (s'.loc t) ≤ resets l + takesN .low s l) ∨
    (s'.counter = s.counter ∧ s.counter < R ∧ commits R l = 0 ∧ commits R (s'.loc t) = 1 ∧ counts (s'.loc t) = counts l ∧
      resets (s'.loc t) = resets l ∧ takesN .med s l = 0) ∨
    (s'.counter = s.counter + 1 ∧ commits R l = 1 ∧ commits R (s'.loc t) = 0 ∧ counts l = 1 ∧ counts (s'.loc t) = 0 ∧
      resets (s'.loc t) = resets l ∧ takesN .med s l = 0) ∨
    (s'.counter = 0 ∧ commits R l = 0 ∧ commits R (s'.loc t) = 0 ∧ counts l = 0 ∧ counts (s'.loc t) = 0 ∧ resets l = 1 ∧
      resets (s'.loc t) = 0 ∧ takesN .med s l = 0) := by
  have gl : ∀ {s1 : State} {b}, commits R ((got n s1 t b).loc t) = 0 ∧ counts ((got n s1 t b).loc t) = 0 ∧ resets ((got n s1 t b).loc t) = 0 := by
    intro s1 b
    simp only [got, loc_goto, upd_same]
    split <;> exact ⟨rfl, rfl, rfl⟩
  have gc : ∀ {s1 : State} {b}, (got n s1 t b).counter = s1.counter := rfl
  have pc : ∀ q, (s.popped q).counter = s.counter := by intro q; rw [popped_eq, counter_setQue]
  have hlow' : ∃ b bs, s.low.1 = b :: bs := by
    cases hx : s.low.1 with
    | nil => exact absurd hx hlow
    | cons b bs => exact ⟨b, bs, rfl⟩
  obtain ⟨b0, bs0, hlw⟩ := hlow'
  cases l with
  | gHigh =>
    simp only [stepAt] at h
    split at h <;> obtain ⟨rfl, rfl⟩ := Prod.mk.inj (Option.some.inj h)
    · rw [gl.1, gl.2.1, gl.2.2, gc, pc]; exact .inl ⟨rfl, Nat.le_refl _, by simp [counts, takesN, takes], by simp⟩
    · rw [loc_goto, upd_same]; exact .inl ⟨pc _, Nat.le_refl _, by simp [counts, takesN, takes], by simp [resets]⟩
  | gCnt =>
    obtain ⟨rfl, rfl⟩ := Prod.mk.inj (Option.some.inj h)
    rw [loc_goto, upd_same]
    by_cases hk : s.counter < R
    · exact .inr (.inl ⟨rfl, hk, rfl, by simp [commits, hk], rfl, rfl, by simp [takesN, takes]⟩)
    · exact .inl ⟨rfl, by simp [commits, hk], by simp [counts, takesN, takes], by simp [resets]⟩
  | gRat k =>
    obtain ⟨rfl, rfl⟩ := Prod.mk.inj (Option.some.inj h)
    rw [loc_goto, upd_same]
    refine .inl ⟨rfl, ?_, ?_, ?_⟩
    · split
      · exact Nat.zero_le _
      · rename_i hk
        have : k < R := by omega
        simp [commits, this]
    · split <;> simp [counts, takesN, takes]
    · split <;> simp [resets]
  | gLowE =>
    obtain ⟨rfl, rfl⟩ := Prod.mk.inj (Option.some.inj h)
    rw [loc_goto, upd_same]
    have : s.isEmpty .low = false := by rw [isEmpty_eq]; simp [State.que, hlw]
    rw [this]
    exact .inl ⟨rfl, Nat.le_refl _, by simp [counts, takesN, takes], by simp [resets]⟩
  | gLowPop =>
    simp only [stepAt] at h
    have hf : s.front .low = some b0 := by rw [front_eq]; simp [State.que, hlw]
    rw [hf] at h
    obtain ⟨rfl, rfl⟩ := Prod.mk.inj (Option.some.inj h)
    rw [loc_goto, upd_same]
    exact .inl ⟨pc _, Nat.le_refl _, by simp [counts, takesN, takes], by simp [resets, takesN, takes, State.que, hlw]⟩
  | gReset b =>
    obtain ⟨rfl, rfl⟩ := Prod.mk.inj (Option.some.inj h)
    rw [gl.1, gl.2.1, gl.2.2, gc]
    exact .inr (.inr (.inr ⟨rfl, rfl, rfl, rfl, rfl, rfl, rfl, by simp [takesN, takes]⟩))
  | gMed =>
    simp only [stepAt] at h
    split at h <;> obtain ⟨rfl, rfl⟩ := Prod.mk.inj (Option.some.inj h) <;> rename_i hf <;> rw [front_eq] at hf <;> rw [loc_goto, upd_same]
    · exact .inl ⟨pc _, Nat.le_refl _, by simp [counts, takesN, takes, hf], by simp [resets]⟩
    · exact .inl ⟨pc _, Nat.zero_le _, by simp [counts, takesN, takes, hf], by simp [resets]⟩
  | gInc b =>
    obtain ⟨rfl, rfl⟩ := Prod.mk.inj (Option.some.inj h)
    rw [gl.1, gl.2.1, gl.2.2, gc]
    have := hb rfl
    refine .inr (.inr (.inl ⟨?_, rfl, rfl, rfl, rfl, rfl, by simp [takesN, takes]⟩))
    show wrap (s.counter + 1) = _
    unfold wrap; omega
  | gLow =>
    simp only [stepAt] at h
    split at h <;> obtain ⟨rfl, rfl⟩ := Prod.mk.inj (Option.some.inj h) <;> rw [gl.1, gl.2.1, gl.2.2, gc, pc] <;>
      exact .inl ⟨rfl, Nat.zero_le _, by simp [counts, takesN, takes], by simp⟩
  | _ => cases hl

/-! ### Sums -/

/-- the sum of the weights of the threads of a list -/
def weigh (f : Loc → Nat) (ts : List Nat) (s : State) : Nat := (ts.map fun u => f (s.loc u)).sum

theorem weigh_le {f : Loc → Nat} (hf : ∀ l, f l ≤ 1) (ts : List Nat) (s : State) : weigh f ts s ≤ ts.length := by
  induction ts with
  | nil => exact Nat.le_refl _
  | cons t ts ih =>
    have := hf (s.loc t)
    simp only [weigh, List.map_cons, List.sum_cons, List.length_cons] at ih ⊢
    omega

theorem weigh_mono {f g : Loc → Nat} (hf : ∀ l, f l ≤ g l) (ts : List Nat) (s : State) : weigh f ts s ≤ weigh g ts s := by
  induction ts with
  | nil => exact Nat.le_refl _
  | cons t ts ih =>
    have := hf (s.loc t)
    simp only [weigh, List.map_cons, List.sum_cons] at ih ⊢
    omega

theorem weigh_mem {f : Loc → Nat} (ts : List Nat) (ht : t ∈ ts) : f (s.loc t) ≤ weigh f ts s := by
  induction ts with
  | nil => cases ht
  | cons a ts ih =>
    simp only [weigh, List.map_cons, List.sum_cons] at ih ⊢
    rcases List.mem_cons.1 ht with rfl | h
    · omega
    · have := ih h; omega

theorem weigh_eq {f : Loc → Nat} {ts : List Nat} (h : ∀ u ∈ ts, f (s'.loc u) = f (s.loc u)) : weigh f ts s' = weigh f ts s := by
  unfold weigh
  rw [List.map_congr_left h]

theorem weigh_at {f : Loc → Nat} (ts : List Nat) (hn : ts.Nodup) (ht : t ∈ ts) (h : ∀ u, u ≠ t → f (s'.loc u) = f (s.loc u)) :
    weigh f ts s' + f (s.loc t) = weigh f ts s + f (s'.loc t) := by
  induction ts with
  | nil => cases ht
  | cons a ts ih =>
    rw [List.nodup_cons] at hn
    simp only [weigh, List.map_cons, List.sum_cons]
    by_cases e : a = t
    · subst e
      have : weigh f ts s' = weigh f ts s := weigh_eq fun u hu => h u (by rintro rfl; exact hn.1 hu)
      simp only [weigh] at this
      omega
    · have := ih hn.2 (by rcases List.mem_cons.1 ht with h | h
                          · exact absurd h.symm e
                          · exact h)
      have h2 := h a e
      simp only [weigh] at this
      omega

/-- the weights of the other threads do not change -/
theorem step_others {f : Loc → Nat} (hf : f .wSleep = f .wRelock) (h : stepAt n s t c l = some (s', o)) (u : Nat) (hu : u ≠ t) :
    f (s'.loc u) = f (s.loc u) := by
  obtain ⟨a, l', e, w⟩ := step_loc h
  rw [e, upd_ne _ _ hu]
  rcases w.all u with h | ⟨h1, h2⟩
  · rw [h]
  · rw [h1, h2, hf]

/-- threads that fetch -/
def fetchers (n : Nat) (ts : List Nat) (s : State) : Prop := (∀ t, place n t (s.loc t)) ∧ ∀ t, inFetch (s.loc t) = true → t ∈ ts

theorem taken_move {as : List (Act Op)} {h1 : List (Event Op Out)} (q : Que) (e : (sys n).exec s (.move t c) = some (s', h1)) :
    taken n q s (.move t c :: as) = takesN q s (s.loc t) + taken n q s' as := by
  simp only [taken, traffic, e, takesN, List.length_append]

theorem taken_call {op : Op} {as : List (Act Op)} {h1 : List (Event Op Out)} (q : Que) (e : (sys n).exec s (.call t op) = some (s', h1)) :
    taken n q s (.call t op :: as) = taken n q s' as := by
  simp only [taken, traffic, e]

/-- While there are low priority blocks, `R + T` bounds the number of medium priority blocks taken per low priority block. -/
theorem share_run (R : Int) (ts : List Nat) (hn : ts.Nodup) (hw : ∀ t, t < n → t ∈ ts) (hR0 : 0 ≤ R)
    (as : List (Act Op)) : ∀ {B : Int} {s s' : State} {h : List (Event Op Out)}, R ≤ B → B + ts.length < 2147483648 →
    (sys n).run s as = some (s', h) → fetchers n ts s → (∀ t, .call t .get ∈ as → t ∈ ts) →
    always n (fun s => s.low.1 ≠ [] ∧ s.ratio ≤ R) s as → 0 ≤ s.counter → s.counter + weigh (commits R) ts s ≤ B + ts.length →
    (taken n .med s as : Int) + s.counter + weigh counts ts s ≤
      (R + ts.length) * (1 + taken n .low s as + weigh resets ts s : Nat) + (B - R) := by
  have hcc : ∀ l, counts l ≤ commits R l := by
    intro l; cases l <;> simp [counts, commits]
  have hc1 : ∀ l, commits R l ≤ 1 := by
    intro l; cases l <;> simp [commits]
    split <;> omega
  induction as with
  | nil =>
    intro B s s' h hRB hB _ _ _ _ h0 hb
    have := weigh_mono hcc ts s
    have h1 : (R + ts.length) * (1 : Int) ≤ (R + ts.length) * (1 + taken n .low s [] + weigh resets ts s : Nat) := by
      refine Int.mul_le_mul_of_nonneg_left ?_ (by omega)
      omega
    have h2 : taken n .med s [] = 0 := rfl
    omega
  | cons a as ih =>
    intro B s s' h hRB hB e hf hc hal h0 hb
    simp only [Sys.run, Option.bind_eq_some_iff, Option.map_eq_some_iff] at e
    obtain ⟨⟨s1, h1⟩, e1, ⟨s2, h2⟩, e2, e3⟩ := e
    cases e3
    simp only [always, e1] at hal
    obtain ⟨⟨hlow, hR⟩, hal⟩ := hal
    have hc' : ∀ t, .call t .get ∈ as → t ∈ ts := fun t ht => hc t (List.mem_cons_of_mem _ ht)
    cases a with
    | call t op =>
      rw [taken_call _ e1, taken_call _ e1]
      simp only [Sys.exec, Option.map_eq_some_iff] at e1
      obtain ⟨s3, e1, e3⟩ := e1
      cases e3
      obtain ⟨hid, rfl⟩ := call_eq e1
      have hst : ∀ {f : Loc → Nat}, (∀ op, f (start n op) = 0) → f .idle = 0 → weigh f ts (s.goto t (start n op)) = weigh f ts s := by
        intro f hf0 hf1
        refine weigh_eq fun u _ => ?_
        rw [loc_goto]
        by_cases e : u = t
        · subst e; rw [upd_same, hid, hf0, hf1]
        · rw [upd_ne _ _ e]
      have z : ∀ op, commits R (start n op) = 0 ∧ counts (start n op) = 0 ∧ resets (start n op) = 0 := by
        intro op
        cases op with
        | addVector bs p => simp only [start]; split <;> exact ⟨rfl, rfl, rfl⟩
        | _ => exact ⟨rfl, rfl, rfl⟩
      have w1 := hst (f := commits R) (fun op => (z op).1) rfl
      have w2 := hst (f := counts) (fun op => (z op).2.1) rfl
      have w3 := hst (f := resets) (fun op => (z op).2.2) rfl
      have hnt : n ≤ t := by have := hf.1 t; rw [hid] at this; exact this
      have := ih hRB hB e2 ⟨fun u => ?_, fun u hu => ?_⟩ hc' hal h0 (by rw [w1]; exact hb)
      · rw [w2, w3] at this; exact this
      · rw [loc_goto]
        by_cases e : u = t
        · subst e; rw [upd_same]; exact place_start n u op hnt
        · rw [upd_ne _ _ e]; exact hf.1 u
      · rw [loc_goto] at hu
        by_cases e : u = t
        · subst e
          rw [upd_same] at hu
          cases op with
          | get => exact hc u (by simp)
          | addVector bs p => simp only [start] at hu; split at hu <;> cases hu
          | _ => cases hu
        · rw [upd_ne _ _ e] at hu; exact hf.2 u hu
    | move t c =>
      rw [taken_move _ e1, taken_move _ e1]
      simp only [Sys.exec, Option.map_eq_some_iff] at e1
      obtain ⟨⟨s3, r⟩, e1, e3⟩ := e1
      obtain ⟨rfl, rfl⟩ := Prod.mk.inj e3
      simp only at e2 hal ⊢
      have hm : stepAt n s t c (s.loc t) = some (s3, r) := e1
      have hpl : ∀ u, place n u (s3.loc u) := by
        intro u
        by_cases e : u = t
        · subst e; exact step_place hm (hf.1 u)
        · obtain ⟨a, l', e5, w⟩ := step_loc hm
          have := hf.1 u
          rw [e5, upd_ne _ _ e]
          rcases w.all u with h | ⟨h1, h2⟩
          · rw [h]; exact this
          · rw [h2]; rw [h1] at this; exact this
      have hfo : ∀ u, u ≠ t → inFetch (s3.loc u) = true → u ∈ ts := by
        intro u hu hx
        obtain ⟨a, l', e5, w⟩ := step_loc hm
        rw [e5, upd_ne _ _ hu] at hx
        rcases w.all u with h | ⟨h1, h2⟩
        · rw [h] at hx; exact hf.2 u hx
        · rw [h2] at hx; cases hx
      have o1 := fun u hu => step_others (f := commits R) rfl hm u hu
      have o2 := fun u hu => step_others (f := counts) rfl hm u hu
      have o3 := fun u hu => step_others (f := resets) rfl hm u hu
      cases hin : inFetch (s.loc t) with
      | false =>
        obtain ⟨k1, k2⟩ := step_outside hm hin (hf.1 t)
        obtain ⟨g1, g2, g3, g4⟩ := not_inFetch (s := s) hin R
        have z : commits R (s3.loc t) = 0 ∧ counts (s3.loc t) = 0 ∧ resets (s3.loc t) = 0 := by
          cases hx : inFetch (s3.loc t) with
          | true => rw [(k2 hx).1]; exact ⟨rfl, rfl, rfl⟩
          | false => obtain ⟨a, b, c, _⟩ := not_inFetch (s := s) hx R; exact ⟨a, b, c⟩
        have w1 : weigh (commits R) ts s3 = weigh (commits R) ts s := weigh_eq fun u _ => by
          by_cases e : u = t
          · rw [e, z.1, g1]
          · exact o1 u e
        have w2 : weigh counts ts s3 = weigh counts ts s := weigh_eq fun u _ => by
          by_cases e : u = t
          · rw [e, z.2.1, g2]
          · exact o2 u e
        have w3 : weigh resets ts s3 = weigh resets ts s := weigh_eq fun u _ => by
          by_cases e : u = t
          · rw [e, z.2.2, g3]
          · exact o3 u e
        have := ih (s := s3) hRB hB e2 ⟨hpl, fun u hu => by
          by_cases e : u = t
          · subst e; exact hw u (k2 hu).2
          · exact hfo u e hu⟩ hc' hal (by rw [k1]; exact h0) (by rw [k1, w1]; exact hb)
        rw [k1, w2, w3] at this
        rw [g4, g4, Nat.zero_add, Nat.zero_add]
        exact this
      | true =>
        have htm := hf.2 t hin
        have hf1 : fetchers n ts s3 := ⟨hpl, fun u hu => by
          by_cases e : u = t
          · rw [e]; exact htm
          · exact hfo u e hu⟩
        have w1 := weigh_at ts hn htm o1
        have w2 := weigh_at ts hn htm o2
        have w3 := weigh_at ts hn htm o3
        have hle := weigh_le hc1 ts s3
        have hm1 := weigh_mono hcc ts s
        have hB0 : 0 ≤ R + (ts.length : Int) := by omega
        have mul : ∀ {a b : Nat}, a ≤ b → (R + ts.length) * (a : Int) ≤ (R + ts.length) * (b : Int) := by
          intro a b hab
          exact Int.mul_le_mul_of_nonneg_left (by omega) hB0
        have hcnt : counts (s.loc t) = 1 → s.counter + 1 < 2147483648 := by
          intro h
          have h4 : counts (s.loc t) ≤ weigh counts ts s := by
            exact weigh_mem ts htm
          omega
        rcases step_inside' R hm hin hlow hR h0 hcnt with ⟨k1, k2, k3, k4⟩ | ⟨k1, k2, k3, k4, k5, k6, k7⟩ | ⟨k1, k2, k3, k4, k5, k6, k7⟩ |
          ⟨k1, k2, k3, k4, k5, k6, k7, k8⟩
        · have := ih (s := s3) hRB hB e2 hf1 hc' hal (by omega) (by omega)
          have h5 := mul (a := 1 + taken n .low s3 as + weigh resets ts s3)
            (b := 1 + (takesN .low s (s.loc t) + taken n .low s3 as) + weigh resets ts s) (by omega)
          omega
        · have := ih (s := s3) hRB hB e2 hf1 hc' hal (by omega) (by omega)
          have h5 := mul (a := 1 + taken n .low s3 as + weigh resets ts s3)
            (b := 1 + (takesN .low s (s.loc t) + taken n .low s3 as) + weigh resets ts s) (by omega)
          omega
        · have := ih (s := s3) hRB hB e2 hf1 hc' hal (by omega) (by omega)
          have h5 := mul (a := 1 + taken n .low s3 as + weigh resets ts s3)
            (b := 1 + (takesN .low s (s.loc t) + taken n .low s3 as) + weigh resets ts s) (by omega)
          omega
        · have := ih (B := R) (s := s3) (Int.le_refl _) (by omega) e2 hf1 hc' hal (by omega) (by omega)
          have h5 := mul (a := 1 + taken n .low s3 as + weigh resets ts s3 + 1)
            (b := 1 + (takesN .low s (s.loc t) + taken n .low s3 as) + weigh resets ts s) (by omega)
          have h6 : (R + ts.length) * ((1 + taken n .low s3 as + weigh resets ts s3 + 1 : Nat) : Int) =
            (R + ts.length) * ((1 + taken n .low s3 as + weigh resets ts s3 : Nat) : Int) + (R + ts.length) := by
            rw [Int.natCast_add, Int.mul_add]; simp
          omega

/-! ### The counter -/

/-- the counter counts the medium priority blocks taken -/
theorem move_counter (h : stepAt n s t c l = some (s', o)) (h0 : 0 ≤ s.counter) (hb : counts l = 1 → s.counter + 1 < 2147483648) :
    0 ≤ s'.counter ∧ s'.counter + counts (s'.loc t) ≤ s.counter + counts l + takesN .med s l := by
  have gl : ∀ {s1 : State} {b}, counts ((got n s1 t b).loc t) = 0 := by
    intro s1 b
    simp only [got, loc_goto, upd_same]
    split <;> rfl
  have gc : ∀ {s1 : State} {b}, (got n s1 t b).counter = s1.counter := rfl
  have pc : ∀ q, (s.popped q).counter = s.counter := by intro q; rw [popped_eq, counter_setQue]
  cases hin : inFetch l with
  | false =>
    have : s'.counter = s.counter ∧ counts (s'.loc t) = 0 := by
      have back : ∀ {s1 : State} {r}, (s1.back t r).counter = s1.counter ∧ counts ((s1.back t r).loc t) = 0 := by
        intro s1 r
        cases r <;> simp [State.back, loc_goto, upd_same, counts, goto]
      unfold stepAt at h
      split at h
      all_goals try (cases hin; done)
      all_goals try (split at h)
      all_goals try (split at h)
      all_goals try (split at h)
      all_goals try (simp only [State.lock] at h; split at h)
      all_goals (first | (cases h; done) | skip)
      all_goals obtain ⟨rfl, rfl⟩ := Prod.mk.inj (Option.some.inj h)
      all_goals (try (rw [back.1, back.2]; split <;> simp [counter_notifyOne]; done))
      all_goals (try (rw [back.1, back.2]; simp [counter_notifyOne]; done))
      all_goals (try simp only [got, executed, unlock, loc_goto, upd_same])
      all_goals (try simp only [goto, popped_eq, clear_eq, push_eq, pushVector_eq, counter_setQue, counter_notifyOne, notifyAll, true_and])
      all_goals (try (split))
      all_goals (simp [counts])
    rw [this.1, this.2]
    omega
  | true =>
    cases l with
    | gHigh =>
      simp only [stepAt] at h
      split at h <;> obtain ⟨rfl, rfl⟩ := Prod.mk.inj (Option.some.inj h)
      · rw [gl, gc, pc]; omega
      · rw [loc_goto, upd_same]
        have : ((s.popped .high).goto t .gCnt).counter = s.counter := pc _
        rw [this]; simp [counts]; omega
    | gCnt =>
      obtain ⟨rfl, rfl⟩ := Prod.mk.inj (Option.some.inj h)
      rw [loc_goto, upd_same]; simp only [counts, goto]; omega
    | gRat k =>
      obtain ⟨rfl, rfl⟩ := Prod.mk.inj (Option.some.inj h)
      rw [loc_goto, upd_same]
      split <;> simp only [counts, goto] <;> omega
    | gLowE =>
      obtain ⟨rfl, rfl⟩ := Prod.mk.inj (Option.some.inj h)
      rw [loc_goto, upd_same]
      split <;> simp only [counts, goto] <;> omega
    | gLowPop =>
      simp only [stepAt] at h
      split at h <;> obtain ⟨rfl, rfl⟩ := Prod.mk.inj (Option.some.inj h) <;> rw [loc_goto, upd_same]
      · rename_i b _
        have : ((s.popped .low).goto t (.gReset b)).counter = s.counter := pc _
        rw [this]; simp only [counts]; omega
      · have : ((s.popped .low).goto t .gMed).counter = s.counter := pc _
        rw [this]; simp only [counts]; omega
    | gReset b =>
      obtain ⟨rfl, rfl⟩ := Prod.mk.inj (Option.some.inj h)
      rw [gl, gc]
      show (0 : Int) ≤ 0 ∧ (0 : Int) + _ ≤ _
      omega
    | gMed =>
      simp only [stepAt] at h
      split at h <;> obtain ⟨rfl, rfl⟩ := Prod.mk.inj (Option.some.inj h) <;> rename_i hf <;> rw [front_eq] at hf <;> rw [loc_goto, upd_same]
      · rename_i b
        have : ((s.popped .med).goto t (.gInc b)).counter = s.counter := pc _
        rw [this]; simp [counts, takesN, takes, hf]; omega
      · have : ((s.popped .med).goto t .gLow).counter = s.counter := pc _
        rw [this]; simp only [counts]; omega
    | gInc b =>
      obtain ⟨rfl, rfl⟩ := Prod.mk.inj (Option.some.inj h)
      rw [gl, gc]
      have := hb rfl
      have hw : wrap (s.counter + 1) = s.counter + 1 := by unfold wrap; omega
      show 0 ≤ wrap (s.counter + 1) ∧ wrap (s.counter + 1) + _ ≤ _
      rw [hw]; simp only [counts]; omega
    | gLow =>
      simp only [stepAt] at h
      split at h <;> obtain ⟨rfl, rfl⟩ := Prod.mk.inj (Option.some.inj h) <;> rw [gl, gc, pc] <;> omega
    | _ => cases hin

theorem counts_start (op : Op) : counts (start n op) = 0 := by
  cases op with
  | addVector bs p => simp only [start]; split <;> rfl
  | _ => rfl

theorem counter_run (ts : List Nat) (hn : ts.Nodup) (hw : ∀ t, t < n → t ∈ ts) (as : List (Act Op)) :
    ∀ {s s' : State} {h : List (Event Op Out)}, (sys n).run s as = some (s', h) → fetchers n ts s → (∀ t, .call t .get ∈ as → t ∈ ts) →
    0 ≤ s.counter → s.counter + weigh counts ts s + taken n .med s as < 2147483648 →
    0 ≤ s'.counter ∧ s'.counter + weigh counts ts s' ≤ s.counter + weigh counts ts s + taken n .med s as ∧ fetchers n ts s' := by
  induction as with
  | nil =>
    intro s s' h e hf _ h0 hb
    cases e
    exact ⟨h0, by omega, hf⟩
  | cons a as ih =>
    intro s s' h e hf hc h0 hb
    simp only [Sys.run, Option.bind_eq_some_iff, Option.map_eq_some_iff] at e
    obtain ⟨⟨s1, h1⟩, e1, ⟨s2, h2⟩, e2, e3⟩ := e
    cases e3
    have hc' : ∀ t, .call t .get ∈ as → t ∈ ts := fun t ht => hc t (List.mem_cons_of_mem _ ht)
    cases a with
    | call t op =>
      rw [taken_call _ e1] at hb ⊢
      simp only [Sys.exec, Option.map_eq_some_iff] at e1
      obtain ⟨s3, e1, e3⟩ := e1
      obtain ⟨rfl, rfl⟩ := Prod.mk.inj e3
      simp only at e2 hb ⊢
      obtain ⟨hid, rfl⟩ := call_eq e1
      have w : weigh counts ts (s.goto t (start n op)) = weigh counts ts s := weigh_eq fun u _ => by
        rw [loc_goto]
        by_cases e : u = t
        · subst e; rw [upd_same, hid, counts_start]; rfl
        · rw [upd_ne _ _ e]
      have hnt : n ≤ t := by have := hf.1 t; rw [hid] at this; exact this
      have := ih (s := s.goto t (start n op)) e2 ⟨fun u => ?_, fun u hu => ?_⟩ hc' h0 (by rw [w]; exact hb)
      · rw [w] at this; exact this
      · rw [loc_goto]
        by_cases e : u = t
        · subst e; rw [upd_same]; exact place_start n u op hnt
        · rw [upd_ne _ _ e]; exact hf.1 u
      · rw [loc_goto] at hu
        by_cases e : u = t
        · subst e
          rw [upd_same] at hu
          cases op with
          | get => exact hc u (by simp)
          | addVector bs p => simp only [start] at hu; split at hu <;> cases hu
          | _ => cases hu
        · rw [upd_ne _ _ e] at hu; exact hf.2 u hu
    | move t c =>
      rw [taken_move _ e1] at hb ⊢
      simp only [Sys.exec, Option.map_eq_some_iff] at e1
      obtain ⟨⟨s3, r⟩, e1, e3⟩ := e1
      obtain ⟨rfl, rfl⟩ := Prod.mk.inj e3
      simp only at e2 hb ⊢
      have hm : stepAt n s t c (s.loc t) = some (s3, r) := e1
      have o2 := fun u hu => step_others (f := counts) rfl hm u hu
      have hf1 : fetchers n ts s3 := by
        refine ⟨fun u => ?_, fun u hx => ?_⟩
        · by_cases e : u = t
          · subst e; exact step_place hm (hf.1 u)
          · obtain ⟨a, l', e5, w⟩ := step_loc hm
            have := hf.1 u
            rw [e5, upd_ne _ _ e]
            rcases w.all u with h | ⟨h1, h2⟩
            · rw [h]; exact this
            · rw [h2]; rw [h1] at this; exact this
        · by_cases e : u = t
          · subst e
            cases hin : inFetch (s.loc u) with
            | true => exact hf.2 u hin
            | false => exact hw u ((step_outside hm hin (hf.1 u)).2 hx).2
          · obtain ⟨a, l', e5, w⟩ := step_loc hm
            rw [e5, upd_ne _ _ e] at hx
            rcases w.all u with h | ⟨h1, h2⟩
            · rw [h] at hx; exact hf.2 u hx
            · rw [h2] at hx; cases hx
      by_cases htm : t ∈ ts
      · have w2 := weigh_at ts hn htm o2
        have h4 : counts (s.loc t) ≤ weigh counts ts s := weigh_mem ts htm
        obtain ⟨k1, k2⟩ := move_counter hm h0 (by intro h; omega)
        have := ih (s := s3) e2 hf1 hc' k1 (by omega)
        refine ⟨this.1, ?_, this.2.2⟩
        omega
      · have hin : inFetch (s.loc t) = false := by
          cases hx : inFetch (s.loc t) with
          | false => rfl
          | true => exact absurd (hf.2 t hx) htm
        have w2 : weigh counts ts s3 = weigh counts ts s := weigh_eq fun u hu => o2 u (by rintro rfl; exact htm hu)
        have k1 := (step_outside hm hin (hf.1 t)).1
        have := ih (s := s3) e2 hf1 hc' (by omega) (by omega)
        refine ⟨this.1, ?_, this.2.2⟩
        omega

end Verif.WorkQueue
