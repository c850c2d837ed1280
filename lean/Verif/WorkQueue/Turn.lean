import Verif.WorkQueue.Wait

/-
How many low priority blocks are taken while medium priority blocks wait: lemmas.
-/
namespace Verif.WorkQueue
open Verif.Conc State

variable {n t u c : Nat} {s s' : State} {o : Option Out} {l : Loc}

/-- what a thread may take of low priority before the counter has to grow again, times the ratio -/
def credit (r : Nat) (k : Int) : Loc → Nat
  | .gRat i => min r (max i.toNat k.toNat)
  | .gLowE | .gLowPop => r
  | .gReset _ => 0
  | .gLow => r + min r k.toNat
  | _ => min r k.toNat

theorem credit_le (r : Nat) (k : Int) (l : Loc) : credit r k l ≤ 2 * r := by
  cases l <;> simp only [credit] <;> omega

theorem credit_zero (r : Nat) (k : Int) (l : Loc) : credit r 0 l ≤ credit r k l := by
  cases l <;> simp only [credit] <;> omega

theorem credit_succ (r : Nat) (k : Int) (l : Loc) (hk : -2147483648 ≤ k) : credit r (wrap (k + 1)) l ≤ credit r k l + 1 := by
  have : (wrap (k + 1)).toNat ≤ k.toNat + 1 := by unfold wrap; omega
  cases l <;> simp only [credit] <;> omega

theorem credit_out (r : Nat) (k : Int) (hl : inFetch l = false) : credit r k l = min r k.toNat := by
  cases l <;> first | rfl | cases hl

/-- the three kinds of steps, seen from another thread -/
theorem move_turn (h : stepAt n s t c l = some (s', o)) (hp : place n t l) :
    (s'.counter = s.counter ∧ counts (s'.loc t) ≤ counts l + takesN .med s l) ∨
    (s'.counter = 0 ∧ counts (s'.loc t) ≤ counts l + takesN .med s l) ∨
    (s'.counter = wrap (s.counter + 1) ∧ counts (s'.loc t) + 1 ≤ counts l) := by
  have gl : ∀ {s1 : State} {b}, counts ((got n s1 t b).loc t) = 0 := by
    intro s1 b
    simp only [got, loc_goto, upd_same]
    split <;> rfl
  have gc : ∀ {s1 : State} {b}, (got n s1 t b).counter = s1.counter := rfl
  have pc : ∀ q, (s.popped q).counter = s.counter := by intro q; rw [popped_eq, counter_setQue]
  cases hin : inFetch l with
  | false =>
    obtain ⟨h1, h2⟩ := step_outside h hin hp
    refine .inl ⟨h1, ?_⟩
    cases hx : inFetch (s'.loc t) with
    | true => rw [(h2 hx).1]; exact Nat.zero_le _
    | false => rw [(not_inFetch (s := s) hx 0).2.1]; exact Nat.zero_le _
  | true =>
    cases l with
    | gHigh =>
      simp only [stepAt] at h
      split at h <;> obtain ⟨rfl, rfl⟩ := Prod.mk.inj (Option.some.inj h)
      · rw [gl, gc, pc]; exact .inl ⟨rfl, Nat.zero_le _⟩
      · rw [loc_goto, upd_same]; exact .inl ⟨pc _, Nat.zero_le _⟩
    | gCnt =>
      obtain ⟨rfl, rfl⟩ := Prod.mk.inj (Option.some.inj h)
      rw [loc_goto, upd_same]; exact .inl ⟨rfl, Nat.zero_le _⟩
    | gRat k =>
      obtain ⟨rfl, rfl⟩ := Prod.mk.inj (Option.some.inj h)
      rw [loc_goto, upd_same]
      split <;> exact .inl ⟨rfl, Nat.zero_le _⟩
    | gLowE =>
      obtain ⟨rfl, rfl⟩ := Prod.mk.inj (Option.some.inj h)
      rw [loc_goto, upd_same]
      split <;> exact .inl ⟨rfl, Nat.zero_le _⟩
    | gLowPop =>
      simp only [stepAt] at h
      split at h <;> obtain ⟨rfl, rfl⟩ := Prod.mk.inj (Option.some.inj h) <;> rw [loc_goto, upd_same] <;>
        exact .inl ⟨pc _, Nat.zero_le _⟩
    | gReset b =>
      obtain ⟨rfl, rfl⟩ := Prod.mk.inj (Option.some.inj h)
      rw [gl]; exact .inr (.inl ⟨rfl, Nat.zero_le _⟩)
    | gMed =>
      simp only [stepAt] at h
      split at h <;> obtain ⟨rfl, rfl⟩ := Prod.mk.inj (Option.some.inj h) <;> rename_i hf <;> rw [front_eq] at hf <;> rw [loc_goto, upd_same]
      · exact .inl ⟨pc _, by simp [counts, takesN, takes, hf]⟩
      · exact .inl ⟨pc _, Nat.zero_le _⟩
    | gInc b =>
      obtain ⟨rfl, rfl⟩ := Prod.mk.inj (Option.some.inj h)
      rw [gl]; exact .inr (.inr ⟨rfl, Nat.le_refl _⟩)
    | gLow =>
      simp only [stepAt] at h
      split at h <;> obtain ⟨rfl, rfl⟩ := Prod.mk.inj (Option.some.inj h) <;> rw [gl, gc, pc] <;>
        exact .inl ⟨rfl, Nat.zero_le _⟩
    | _ => cases hin

theorem move_lo (h : stepAt n s t c l = some (s', o)) (hp : place n t l) (hlo : -2147483648 ≤ s.counter) : -2147483648 ≤ s'.counter := by
  rcases move_turn h hp with ⟨h, _⟩ | ⟨h, _⟩ | ⟨h, _⟩ <;> rw [h]
  · exact hlo
  · omega
  · unfold wrap; omega

/-- a step of the thread itself -/
theorem move_credit (r : Nat) (h : stepAt n s t c l = some (s', o)) (hp : place n t l) (hmed : s.med.1 ≠ []) (hr : (r : Int) ≤ s.ratio)
    (hlo : -2147483648 ≤ s.counter) :
    r * takesN .low s l + credit r s'.counter (s'.loc t) + counts (s'.loc t) ≤ credit r s.counter l + counts l + takesN .med s l := by
  have gl : ∀ {s1 : State} {b} (k : Int), counts ((got n s1 t b).loc t) = 0 ∧ credit r k ((got n s1 t b).loc t) = min r k.toNat := by
    intro s1 b k
    simp only [got, loc_goto, upd_same]
    split <;> exact ⟨rfl, rfl⟩
  have gc : ∀ {s1 : State} {b}, (got n s1 t b).counter = s1.counter := rfl
  have pc : ∀ q, (s.popped q).counter = s.counter := by intro q; rw [popped_eq, counter_setQue]
  cases hin : inFetch l with
  | false =>
    obtain ⟨h1, h2⟩ := step_outside h hin hp
    have h3 := (not_inFetch (s := s) hin 0).2.2.2 .low
    rw [h1, h3, credit_out r _ hin]
    cases hx : inFetch (s'.loc t) with
    | true => rw [(h2 hx).1]; simp only [credit, counts]; omega
    | false => rw [(not_inFetch (s := s) hx 0).2.1, credit_out r _ hx]; omega
  | true =>
    cases l with
    | gHigh =>
      have h3 : takesN .low s .gHigh = 0 := by simp [takesN, takes]
      simp only [stepAt] at h
      split at h <;> obtain ⟨rfl, rfl⟩ := Prod.mk.inj (Option.some.inj h)
      · rw [(gl 0).1, (gl _).2, gc, pc, h3]; simp only [credit]; omega
      · rw [loc_goto, upd_same, h3]
        have : ((s.popped .high).goto t .gCnt).counter = s.counter := pc _
        rw [this]; simp only [credit, counts]; omega
    | gCnt =>
      have h3 : takesN .low s .gCnt = 0 := by simp [takesN, takes]
      obtain ⟨rfl, rfl⟩ := Prod.mk.inj (Option.some.inj h)
      rw [loc_goto, upd_same, h3]; simp only [credit, counts, goto]; omega
    | gRat k =>
      have h3 : takesN .low s (.gRat k) = 0 := by simp [takesN, takes]
      obtain ⟨rfl, rfl⟩ := Prod.mk.inj (Option.some.inj h)
      rw [loc_goto, upd_same, h3]
      split <;> simp only [credit, counts, goto] <;> omega
    | gLowE =>
      have h3 : takesN .low s .gLowE = 0 := by simp [takesN, takes]
      obtain ⟨rfl, rfl⟩ := Prod.mk.inj (Option.some.inj h)
      rw [loc_goto, upd_same, h3]
      split <;> simp only [credit, counts, goto] <;> omega
    | gLowPop =>
      simp only [stepAt] at h
      split at h <;> obtain ⟨rfl, rfl⟩ := Prod.mk.inj (Option.some.inj h) <;> rename_i hf <;> rw [front_eq] at hf <;> rw [loc_goto, upd_same]
      · have : takesN .low s .gLowPop = 1 := by simp [takesN, takes, hf]
        rw [this]; simp only [credit, counts]; omega
      · rename_i b
        have : ((s.popped .low).goto t .gMed).counter = s.counter := pc _
        have h3 : takesN .low s .gLowPop = 0 := by simp [takesN, takes, hf]
        rw [this, h3]; simp only [credit, counts]; omega
    | gReset b =>
      have h3 : takesN .low s (.gReset b) = 0 := by simp [takesN, takes]
      obtain ⟨rfl, rfl⟩ := Prod.mk.inj (Option.some.inj h)
      rw [(gl 0).1, (gl _).2, gc, h3]; simp
    | gMed =>
      have h3 : takesN .low s .gMed = 0 := by simp [takesN, takes]
      simp only [stepAt] at h
      split at h <;> obtain ⟨rfl, rfl⟩ := Prod.mk.inj (Option.some.inj h) <;> rename_i hf <;> rw [front_eq] at hf <;> rw [loc_goto, upd_same]
      · rename_i b
        have : ((s.popped .med).goto t (.gInc b)).counter = s.counter := pc _
        have h4 : takesN .med s .gMed = 1 := by simp [takesN, takes, hf]
        rw [this, h3, h4]; simp only [credit, counts]; omega
      · rw [List.head?_eq_none_iff] at hf; exact absurd hf hmed
    | gInc b =>
      have h3 : takesN .low s (.gInc b) = 0 := by simp [takesN, takes]
      obtain ⟨rfl, rfl⟩ := Prod.mk.inj (Option.some.inj h)
      rw [(gl 0).1, (gl _).2, gc, h3]
      have := credit_succ r s.counter .idle hlo
      simp only [credit, counts] at this ⊢
      omega
    | gLow =>
      have h3 : takesN .low s .gLow ≤ 1 := by
        simp only [takesN, takes]
        cases (s.que .low).1.head? <;> simp
      have h4 : r * takesN .low s .gLow ≤ r * 1 := Nat.mul_le_mul_left _ h3
      simp only [stepAt] at h
      split at h <;> obtain ⟨rfl, rfl⟩ := Prod.mk.inj (Option.some.inj h) <;> rw [(gl 0).1, (gl _).2, gc, pc] <;> (try simp only [credit]) <;> (try simp only [credit] at *) <;> omega
    | _ => cases hin

/-- how many blocks thread `u` takes from queue `q` -/
def takenBy (n u : Nat) (q : Que) (s : State) : List (Act Op) → Nat
  | [] => 0
  | a :: as =>
    match (sys n).exec s a with
    | none => 0
    | some (s', _) =>
      (match a with
       | .call _ _ => 0
       | .move t _ => if t = u then takesN q s (s.loc t) else 0) + takenBy n u q s' as

theorem fetchers_step (hw : ∀ t, t < n → t ∈ ts) (hm : stepAt n s t c (s.loc t) = some (s', o)) (hf : fetchers n ts s) : fetchers n ts s' := by
  refine ⟨step_places hm hf.1, fun u hx => ?_⟩
  by_cases e : u = t
  · subst e
    cases hin : inFetch (s.loc u) with
    | true => exact hf.2 u hin
    | false => exact hw u ((step_outside hm hin (hf.1 u)).2 hx).2
  · obtain ⟨a, l', e5, w⟩ := step_loc hm
    rw [e5, upd_ne _ _ e] at hx
    rcases w.all u with h | ⟨h1, h2⟩
    · rw [h] at hx; exact hf.2 u hx
    · rw [h2] at hx; cases hx

theorem inFetch_start {op : Op} (h : inFetch (start n op) = true) : op = .get := by
  cases op with
  | get => rfl
  | addVector bs p => simp only [start] at h; split at h <;> cases h
  | _ => cases h

theorem fetchers_call {op : Op} (hid : s.loc t = .idle) (hc : op = .get → t ∈ ts) (hf : fetchers n ts s) :
    fetchers n ts (s.goto t (start n op)) := by
  refine ⟨call_places hid hf.1, fun u hu => ?_⟩
  rw [loc_goto] at hu
  by_cases e : u = t
  · subst e
    rw [upd_same] at hu
    exact hc (inFetch_start hu)
  · rw [upd_ne _ _ e] at hu; exact hf.2 u hu

theorem turn_run (r : Nat) (u : Nat) (ts : List Nat) (hn : ts.Nodup) (hu : u ∈ ts) (hw : ∀ t, t < n → t ∈ ts) (as : List (Act Op)) :
    ∀ {s s' : State} {h : List (Event Op Out)}, (sys n).run s as = some (s', h) → fetchers n ts s → (∀ t, .call t .get ∈ as → t ∈ ts) →
    always n (fun s => s.med.1 ≠ [] ∧ (r : Int) ≤ s.ratio) s as → -2147483648 ≤ s.counter →
    r * takenBy n u .low s as ≤ taken n .med s as + weigh counts ts s + credit r s.counter (s.loc u) := by
  induction as with
  | nil => intros; exact Nat.zero_le _
  | cons a as ih =>
    intro s s' h e hf hc hal hlo
    simp only [Sys.run, Option.bind_eq_some_iff, Option.map_eq_some_iff] at e
    obtain ⟨⟨s1, h1⟩, e1, ⟨s2, h2⟩, e2, e3⟩ := e
    cases e3
    obtain ⟨⟨hmd, hr⟩, hal⟩ := hal
    rw [e1] at hal
    have hc' : ∀ t, .call t .get ∈ as → t ∈ ts := fun t ht => hc t (List.mem_cons_of_mem _ ht)
    have e0 := e1
    cases a with
    | call v op =>
      rw [taken_call _ e1]
      simp only [takenBy, e0, Nat.zero_add]
      simp only [Sys.exec, Option.map_eq_some_iff] at e1
      obtain ⟨s3, e1, e3⟩ := e1
      obtain ⟨rfl, rfl⟩ := Prod.mk.inj e3
      simp only at e2 hal ⊢
      obtain ⟨hid, rfl⟩ := call_eq e1
      have := ih (s := s.goto v (start n op)) e2 (fetchers_call hid (fun h => hc v (by simp [h])) hf) hc' hal hlo
      have w : weigh counts ts (s.goto v (start n op)) = weigh counts ts s := weigh_eq fun x _ => by
        rw [loc_goto]
        by_cases e : x = v
        · subst e; rw [upd_same, hid, counts_start]; rfl
        · rw [upd_ne _ _ e]
      have k : credit r (s.goto v (start n op)).counter ((s.goto v (start n op)).loc u) = credit r s.counter (s.loc u) := by
        show credit r s.counter _ = _
        rw [loc_goto]
        by_cases e : u = v
        · subst e
          rw [upd_same, hid]
          cases op with
          | addVector bs p => simp only [start]; split <;> rfl
          | _ => rfl
        · rw [upd_ne _ _ e]
      omega
    | move v c =>
      rw [taken_move _ e1]
      simp only [takenBy, e0]
      simp only [Sys.exec, Option.map_eq_some_iff] at e1
      obtain ⟨⟨s3, o3⟩, e1, e3⟩ := e1
      obtain ⟨rfl, rfl⟩ := Prod.mk.inj e3
      simp only at e2 hal ⊢
      have hm : stepAt n s v c (s.loc v) = some (s3, o3) := e1
      have := ih (s := s3) e2 (fetchers_step hw hm hf) hc' hal (move_lo hm (hf.1 v) hlo)
      have o2 := fun x hx => step_others (f := counts) rfl hm x hx
      rw [Nat.mul_add]
      by_cases e : v = u
      · subst e
        have w2 := weigh_at ts hn hu o2
        have h4 : counts (s.loc v) ≤ weigh counts ts s := weigh_mem ts hu
        have h5 := move_credit r hm (hf.1 v) hmd hr hlo
        rw [if_pos rfl]
        omega
      · rw [if_neg e, Nat.mul_zero, Nat.zero_add]
        have hlu : credit r s3.counter (s3.loc u) = credit r s3.counter (s.loc u) :=
          step_others (f := credit r s3.counter) rfl hm u (Ne.symm e)
        by_cases htm : v ∈ ts
        · have w2 := weigh_at ts hn htm o2
          have h4 : counts (s.loc v) ≤ weigh counts ts s := weigh_mem ts htm
          have z := credit_zero r s.counter (s.loc u)
          have z2 := credit_succ r s.counter (s.loc u) hlo
          rcases move_turn hm (hf.1 v) with ⟨h5, h6⟩ | ⟨h5, h6⟩ | ⟨h5, h6⟩ <;> rw [h5] at hlu <;> rw [h5] at this <;> omega
        · have hin : inFetch (s.loc v) = false := by
            cases hx : inFetch (s.loc v) with
            | false => rfl
            | true => exact absurd (hf.2 v hx) htm
          have w2 : weigh counts ts s3 = weigh counts ts s := weigh_eq fun x hx => o2 x (by rintro rfl; exact htm hx)
          have k1 := (step_outside hm hin (hf.1 v)).1
          rw [k1] at hlu this
          omega

/-- what the threads take adds up -/
theorem takenBy_sum (q : Que) (ts : List Nat) (hn : ts.Nodup) (hw : ∀ t, t < n → t ∈ ts) (as : List (Act Op)) :
    ∀ {s s' : State} {h : List (Event Op Out)}, (sys n).run s as = some (s', h) → fetchers n ts s → (∀ t, .call t .get ∈ as → t ∈ ts) →
    taken n q s as = (ts.map fun u => takenBy n u q s as).sum := by
  have zero : ∀ ts : List Nat, (ts.map fun _ => 0).sum = 0 := by intro ts; induction ts <;> simp_all
  have one : ∀ (ts : List Nat) (v k : Nat) (f : Nat → Nat), ts.Nodup → v ∈ ts →
      (ts.map fun u => (if v = u then k else 0) + f u).sum = k + (ts.map f).sum := by
    intro ts
    induction ts with
    | nil => intro v k f _ h; cases h
    | cons x xs ih =>
      intro v k f hn hv
      rw [List.nodup_cons] at hn
      simp only [List.map_cons, List.sum_cons]
      by_cases e : v = x
      · subst e
        have : (xs.map fun u => (if v = u then k else 0) + f u) = xs.map f := List.map_congr_left fun u hu => by
          rw [if_neg (by rintro rfl; exact hn.1 hu), Nat.zero_add]
        rw [this, if_pos rfl]; omega
      · rw [if_neg e, ih v k f hn.2 (by rcases List.mem_cons.1 hv with h | h
                                        · exact absurd h e
                                        · exact h)]
        omega
  induction as with
  | nil => intro s s' h e _ _; simp [taken, traffic, takenBy, zero]
  | cons a as ih =>
    intro s s' h e hf hc
    simp only [Sys.run, Option.bind_eq_some_iff, Option.map_eq_some_iff] at e
    obtain ⟨⟨s1, h1⟩, e1, ⟨s2, h2⟩, e2, e3⟩ := e
    cases e3
    have hc' : ∀ t, .call t .get ∈ as → t ∈ ts := fun t ht => hc t (List.mem_cons_of_mem _ ht)
    have e0 := e1
    cases a with
    | call v op =>
      rw [taken_call _ e1]
      simp only [takenBy, e0, Nat.zero_add]
      simp only [Sys.exec, Option.map_eq_some_iff] at e1
      obtain ⟨s3, e1, e3⟩ := e1
      obtain ⟨rfl, rfl⟩ := Prod.mk.inj e3
      obtain ⟨hid, rfl⟩ := call_eq e1
      exact ih e2 (fetchers_call hid (fun h => hc v (by simp [h])) hf) hc'
    | move v c =>
      rw [taken_move _ e1]
      simp only [takenBy, e0]
      simp only [Sys.exec, Option.map_eq_some_iff] at e1
      obtain ⟨⟨s3, o3⟩, e1, e3⟩ := e1
      obtain ⟨rfl, rfl⟩ := Prod.mk.inj e3
      have hm : stepAt n s v c (s.loc v) = some (s3, o3) := e1
      rw [ih e2 (fetchers_step hw hm hf) hc']
      by_cases htm : v ∈ ts
      · rw [one ts v _ _ hn htm]
      · have hin : inFetch (s.loc v) = false := by
          cases hx : inFetch (s.loc v) with
          | false => rfl
          | true => exact absurd (hf.2 v hx) htm
        rw [(not_inFetch (s := s) hin 0).2.2.2 q]
        simp

theorem turn_share (r : Nat) (ts : List Nat) (hn : ts.Nodup) (hw : ∀ t, t < n → t ∈ ts) (as : List (Act Op))
    {s s' : State} {h : List (Event Op Out)} (e : (sys n).run s as = some (s', h)) (hf : fetchers n ts s) (hc : ∀ t, .call t .get ∈ as → t ∈ ts)
    (hal : always n (fun s => s.med.1 ≠ [] ∧ (r : Int) ≤ s.ratio) s as) (hlo : -2147483648 ≤ s.counter) :
    r * taken n .low s as ≤ ts.length * (taken n .med s as + ts.length + 2 * r) := by
  have hk : weigh counts ts s ≤ ts.length := weigh_le (fun l => by cases l <;> simp [counts]) ts s
  have key : ∀ us : List Nat, (∀ u ∈ us, u ∈ ts) →
      r * (us.map fun u => takenBy n u .low s as).sum ≤ us.length * (taken n .med s as + ts.length + 2 * r) := by
    intro us
    induction us with
    | nil => intro _; simp
    | cons u us ih =>
      intro hu
      have h1 := ih fun x hx => hu x (List.mem_cons_of_mem _ hx)
      have h2 := turn_run r u ts hn (hu u (by simp)) hw as e hf hc hal hlo
      have h3 := credit_le r s.counter (s.loc u)
      simp only [List.map_cons, List.sum_cons, List.length_cons, Nat.mul_add, Nat.add_mul, Nat.one_mul] at h1 ⊢
      omega
  rw [takenBy_sum .low ts hn hw as e hf hc]
  exact key ts fun _ h => h

end Verif.WorkQueue
