import Verif.Conc.HappensBefore

/-
Lemmas for linearizability with respect to "happens before": the sets of steps known, and the histories.
-/
namespace Verif.Conc
variable {Q Op Out : Type} {log : List (List Nat)} {k k0 : List Nat}

/-- a set of steps with everything that happens before them -/
def Known (log : List (List Nat)) (k : List Nat) : Prop := ∀ m ∈ k, ∃ km, log[m]? = some km ∧ km ⊆ k

/-- the sets of steps recorded are such sets -/
def LogOk (log : List (List Nat)) : Prop := ∀ n k, log[n]? = some k → n ∈ k ∧ (∀ m ∈ k, m ≤ n) ∧ Known log k

theorem getElem?_old {x : List Nat} {n : Nat} (h : log[n]? = some k) : (log ++ [x])[n]? = some k := by
  rw [List.getElem?_append_left (List.getElem?_eq_some_iff.1 h).1]; exact h

theorem getElem?_new (log : List (List Nat)) (x : List Nat) : (log ++ [x])[log.length]? = some x := by simp

theorem getElem?_snoc {x : List Nat} {n : Nat} (h : (log ++ [x])[n]? = some k) : log[n]? = some k ∨ (n = log.length ∧ k = x) := by
  by_cases hn : n < log.length
  · rw [List.getElem?_append_left hn] at h; exact .inl h
  · have : n < (log ++ [x]).length := (List.getElem?_eq_some_iff.1 h).1
    simp only [List.length_append, List.length_cons, List.length_nil] at this
    have e : n = log.length := by omega
    subst e
    rw [getElem?_new] at h
    exact .inr ⟨rfl, (Option.some.inj h).symm⟩

theorem Known.lt (h : Known log k) {m : Nat} (hm : m ∈ k) : m < log.length := by
  obtain ⟨km, h1, _⟩ := h m hm
  exact (List.getElem?_eq_some_iff.1 h1).1

theorem Known.old (h : Known log k) (x : List Nat) : Known (log ++ [x]) k := by
  intro m hm
  obtain ⟨km, h1, h2⟩ := h m hm
  exact ⟨km, getElem?_old h1, h2⟩

theorem Known.append {k' : List Nat} (h : Known log k) (h' : Known log k') : Known log (k ++ k') := by
  intro m hm
  rcases List.mem_append.1 hm with hm | hm
  · obtain ⟨km, h1, h2⟩ := h m hm
    exact ⟨km, h1, fun x hx => List.mem_append_left _ (h2 hx)⟩
  · obtain ⟨km, h1, h2⟩ := h' m hm
    exact ⟨km, h1, fun x hx => List.mem_append_right _ (h2 hx)⟩

theorem Known.nil : Known log [] := nofun

/-- a step and what happens before it -/
theorem Known.step (h : Known log k0) : Known (log ++ [log.length :: k0]) (log.length :: k0) := by
  intro m hm
  rcases List.mem_cons.1 hm with rfl | hm
  · exact ⟨_, getElem?_new _ _, fun x hx => hx⟩
  · obtain ⟨km, h1, h2⟩ := h m hm
    exact ⟨km, getElem?_old h1, fun x hx => List.mem_cons_of_mem _ (h2 hx)⟩

theorem LogOk.step (h : LogOk log) (h0 : Known log k0) : LogOk (log ++ [log.length :: k0]) := by
  intro n k hk
  rcases getElem?_snoc hk with hk | ⟨rfl, rfl⟩
  · obtain ⟨h1, h2, h3⟩ := h n k hk
    exact ⟨h1, h2, h3.old _⟩
  · refine ⟨by simp, fun m hm => ?_, h0.step⟩
    rcases List.mem_cons.1 hm with rfl | hm
    · exact Nat.le_refl _
    · exact Nat.le_of_lt (h0.lt hm)

/-- what is known of a step includes what was known in it -/
theorem Known.sub (h : Known log k) {m : Nat} (hm : m ∈ k) {km : List Nat} (e : log[m]? = some km) : km ⊆ k := by
  obtain ⟨km', h1, h2⟩ := h m hm
  rw [e] at h1; cases h1; exact h2

/-- a call of a linearization with the step in which it takes effect -/
structure Pt (Op Out : Type) where
  x : Entry Op Out
  at_ : Nat

/-- The history `h` with a linearization `P`: `st` says what a thread is doing, `cur` when its current call has begun. -/
structure Hist (log : List (List Nat)) (seen : Nat → List Nat) (h : List (Nat × Event Op Out)) (st : Nat → Status Op Out) (cur : Nat → Nat)
    (P : List (Pt Op Out)) : Prop where
  lt : ∀ n e, (n, e) ∈ h → n < log.length
  uniq : ∀ n e e', (n, e) ∈ h → (n, e') ∈ h → e = e'
  open_ : ∀ t n op, (n, .call t op) ∈ h → (st t ≠ .idle ∧ n = cur t) ∨ ∃ m o, n < m ∧ (m, .ret t o) ∈ h
  busy : ∀ t, st t ≠ .idle → cur t ∈ seen t ∧ ∀ m o, (m, .ret t o) ∈ h → m < cur t
  pend : ∀ t op, st t = .pending op → (cur t, .call t op) ∈ h ∧ ∀ p ∈ P, p.x.call ≠ cur t
  done : ∀ t o, st t = .done o → ∃ op, (cur t, .call t op) ∈ h ∧ ∃ p ∈ P, p.x = ⟨cur t, op, o⟩ ∧ p.at_ ∈ seen t
  pts : ∀ p ∈ P, (∃ k, log[p.at_]? = some k ∧ p.x.call ∈ k) ∧ ∃ t, (p.x.call, .call t p.x.op) ∈ h
  once : (P.map (·.x.call)).Nodup
  complete : ∀ n m t op o, Completed h n m t op o → ∃ p ∈ P, p.x = ⟨n, op, o⟩ ∧ ∃ k, log[m]? = some k ∧ p.at_ ∈ k
  order : P.Pairwise fun p p' => ∀ k, log[p.at_]? = some k → p'.at_ ∉ k

namespace Hist
variable {seen : Nat → List Nat} {h : List (Nat × Event Op Out)} {st st' : Nat → Status Op Out} {cur : Nat → Nat} {P : List (Pt Op Out)} {t : Nat}

theorem order_old (H : Hist log seen h st cur P) (x : List Nat) : P.Pairwise fun p p' => ∀ k, (log ++ [x])[p.at_]? = some k → p'.at_ ∉ k := by
  refine List.Pairwise.imp_of_mem ?_ H.order
  intro p p' hp _ hpp k hk
  obtain ⟨⟨k', h1, _⟩, _⟩ := H.pts p hp
  rw [getElem?_old h1] at hk
  cases hk
  exact hpp _ h1

theorem pts_old (H : Hist log seen h st cur P) (x : List Nat) (p : Pt Op Out) (hp : p ∈ P) : ∃ k, (log ++ [x])[p.at_]? = some k ∧ p.x.call ∈ k := by
  obtain ⟨⟨k', h1, h2⟩, _⟩ := H.pts p hp
  exact ⟨k', getElem?_old h1, h2⟩

theorem complete_old (H : Hist log seen h st cur P) (x : List Nat) (n m t : Nat) (op : Op) (o : Out) (hc : Completed h n m t op o) :
    ∃ p ∈ P, p.x = ⟨n, op, o⟩ ∧ ∃ k, (log ++ [x])[m]? = some k ∧ p.at_ ∈ k := by
  obtain ⟨p, h1, h2, k, h3, h4⟩ := H.complete n m t op o hc
  exact ⟨p, h1, h2, k, getElem?_old h3, h4⟩

theorem mem_upd (hs : seen t ⊆ k) (u : Nat) {m : Nat} (hm : m ∈ seen u) : m ∈ upd seen t k u := by
  by_cases hu : u = t
  · subst hu; rw [upd_same]; exact hs hm
  · rw [upd_ne _ _ hu]; exact hm

/-- a step that is not seen -/
theorem silent (H : Hist log seen h st cur P) (hs : seen t ⊆ k) (hst : ∀ u, st' u = st u) : Hist (log ++ [k]) (upd seen t k) h st' cur P where
  lt n e hn := by have := H.lt n e hn; simp; omega
  uniq := H.uniq
  open_ u n op hn := by rw [hst u]; exact H.open_ u n op hn
  busy u hu := by
    rw [hst u] at hu
    exact ⟨mem_upd hs u (H.busy u hu).1, (H.busy u hu).2⟩
  pend u op hu := by rw [hst u] at hu; exact H.pend u op hu
  done u o hu := by
    rw [hst u] at hu
    obtain ⟨op, h1, p, h2, h3, h4⟩ := H.done u o hu
    exact ⟨op, h1, p, h2, h3, mem_upd hs u h4⟩
  pts p hp := ⟨H.pts_old k p hp, (H.pts p hp).2⟩
  once := H.once
  complete := H.complete_old k
  order := H.order_old k

/-- a call takes effect -/
theorem lin (H : Hist log seen h st cur P) (hl : LogOk log) (hs : seen t ⊆ k) (hn : log.length ∈ k) {A B : List (Pt Op Out)} (hP : P = A ++ B) {op : Op} {o : Out}
    (hp : st t = .pending op) (hst : ∀ u, st' u = upd st t (.done o) u) (hB : ∀ p ∈ B, p.at_ ∉ k) :
    Hist (log ++ [k]) (upd seen t k) h st' cur (A ++ ⟨⟨cur t, op, o⟩, log.length⟩ :: B) := by
  obtain ⟨hcall, hnew⟩ := H.pend t op hp
  have hcur : cur t ∈ k := hs (H.busy t (by rw [hp]; nofun)).1
  have hsub : ∀ p, p ∈ A ++ ⟨⟨cur t, op, o⟩, log.length⟩ :: B → p ∈ P ∨ p = ⟨⟨cur t, op, o⟩, log.length⟩ := by
    intro p h; subst hP; simp at h ⊢; rcases h with h | h | h
    · exact .inl (.inl h)
    · exact .inr h
    · exact .inl (.inr h)
  have hsup : ∀ p ∈ P, p ∈ A ++ ⟨⟨cur t, op, o⟩, log.length⟩ :: B := by
    intro p h; subst hP; simp at h ⊢; rcases h with h | h
    · exact .inl h
    · exact .inr (.inr h)
  refine ⟨fun n e hn => by have := H.lt n e hn; simp; omega, H.uniq, ?_, ?_, ?_, ?_, ?_, ?_, ?_, ?_⟩
  · intro u n op' hn
    rcases H.open_ u n op' hn with ⟨h1, h2⟩ | h1
    · refine .inl ⟨?_, h2⟩
      rw [hst u]
      by_cases hu : u = t
      · subst hu; rw [upd_same]; nofun
      · rw [upd_ne _ _ hu]; exact h1
    · exact .inr h1
  · intro u hu
    have hu' : st u ≠ .idle := by
      rw [hst u] at hu
      by_cases e : u = t
      · subst e; rw [hp]; nofun
      · rwa [upd_ne _ _ e] at hu
    exact ⟨mem_upd hs u (H.busy u hu').1, (H.busy u hu').2⟩
  · intro u op' hu
    rw [hst u] at hu
    by_cases e : u = t
    · subst e; rw [upd_same] at hu; cases hu
    · rw [upd_ne _ _ e] at hu
      refine ⟨(H.pend u op' hu).1, fun p hp' => ?_⟩
      rcases hsub p hp' with h1 | rfl
      · exact (H.pend u op' hu).2 p h1
      · intro e'
        have h2 := (H.pend u op' hu).1
        simp only at e'
        rw [← e'] at h2
        cases H.uniq _ _ _ hcall h2
        exact e rfl
  · intro u o' hu
    rw [hst u] at hu
    by_cases e : u = t
    · subst e; rw [upd_same] at hu; cases hu
      exact ⟨op, hcall, ⟨⟨cur u, op, o⟩, log.length⟩, by simp, rfl, by rw [upd_same]; exact hn⟩
    · rw [upd_ne _ _ e] at hu
      obtain ⟨op', h1, p, h2, h3, h4⟩ := H.done u o' hu
      exact ⟨op', h1, p, hsup p h2, h3, mem_upd hs u h4⟩
  · intro p hp'
    rcases hsub p hp' with h1 | rfl
    · exact ⟨H.pts_old k p h1, (H.pts p h1).2⟩
    · exact ⟨⟨k, getElem?_new _ _, hcur⟩, t, hcall⟩
  · have ho := H.once
    rw [hP, List.map_append] at ho
    rw [List.map_append, List.map_cons]
    rw [List.nodup_append] at ho ⊢
    obtain ⟨h1, h2, h3⟩ := ho
    refine ⟨h1, ?_, ?_⟩
    · rw [List.nodup_cons]
      refine ⟨fun hm => ?_, h2⟩
      obtain ⟨p, hp1, hp2⟩ := List.mem_map.1 hm
      exact hnew p (by rw [hP]; exact List.mem_append_right _ hp1) hp2
    · intro a ha b hb
      rcases List.mem_cons.1 hb with rfl | hb
      · obtain ⟨p, hp1, hp2⟩ := List.mem_map.1 ha
        rw [← hp2]
        exact hnew p (by rw [hP]; exact List.mem_append_left _ hp1)
      · exact h3 a ha b hb
  · intro n m u op' o' hc
    obtain ⟨p, h1, h2, h3⟩ := H.complete_old k n m u op' o' hc
    exact ⟨p, hsup p h1, h2, h3⟩
  · have ho := H.order_old k
    rw [hP, List.pairwise_append] at ho
    obtain ⟨h1, h2, h3⟩ := ho
    rw [List.pairwise_append, List.pairwise_cons]
    refine ⟨h1, ⟨fun p hp' k' hk' => ?_, h2⟩, fun a ha b hb => ?_⟩
    · simp only at hk'
      rw [getElem?_new] at hk'; cases hk'
      exact hB p hp'
    · rcases List.mem_cons.1 hb with rfl | hb
      · intro k' hk' hm
        simp only at hm
        obtain ⟨⟨ka, h4, _⟩, _⟩ := H.pts a (by rw [hP]; exact List.mem_append_left _ ha)
        rw [getElem?_old h4] at hk'; cases hk'
        have h5 := (hl _ _ h4).2.1 _ hm
        have h6 : a.at_ < log.length := (List.getElem?_eq_some_iff.1 h4).1
        omega
      · exact h3 a ha b hb

/-- a thread begins a call -/
theorem call (H : Hist log seen h st cur P) (hs : seen t ⊆ k) (hn : log.length ∈ k) {op : Op} (hp : st t = .idle)
    (hst : ∀ u, st' u = upd st t (.pending op) u) :
    Hist (log ++ [k]) (upd seen t k) (h ++ [(log.length, .call t op)]) st' (upd cur t log.length) P := by
  have hmem : ∀ n e, (n, e) ∈ h ++ [(log.length, .call t op)] → (n, e) ∈ h ∨ (n = log.length ∧ e = .call t op) := by
    intro n e he; simpa using he
  refine ⟨?_, ?_, ?_, ?_, ?_, ?_, ?_, H.once, ?_, H.order_old k⟩
  · intro n e he
    rcases hmem n e he with he | ⟨rfl, rfl⟩
    · have := H.lt n e he; simp; omega
    · simp
  · intro n e e' he he'
    rcases hmem n e he with he | ⟨rfl, rfl⟩
    · rcases hmem n e' he' with he' | ⟨rfl, rfl⟩
      · exact H.uniq n e e' he he'
      · have := H.lt _ _ he; omega
    · rcases hmem _ e' he' with he' | ⟨_, rfl⟩
      · have := H.lt _ _ he'; omega
      · rfl
  · intro u n op' he
    rcases hmem _ _ he with he | ⟨rfl, e⟩
    · rcases H.open_ u n op' he with ⟨h1, h2⟩ | ⟨m, o, h1, h2⟩
      · have hu : u ≠ t := by rintro rfl; exact h1 hp
        refine .inl ⟨?_, ?_⟩
        · rw [hst u, upd_ne _ _ hu]; exact h1
        · rw [upd_ne _ _ hu]; exact h2
      · exact .inr ⟨m, o, h1, by simp [h2]⟩
    · cases e
      exact .inl ⟨by rw [hst, upd_same]; nofun, by rw [upd_same]⟩
  · intro u hu
    by_cases e : u = t
    · subst e
      rw [upd_same, upd_same]
      refine ⟨hn, fun m o he => ?_⟩
      rcases hmem _ _ he with he | ⟨_, e⟩
      · exact H.lt _ _ he
      · cases e
    · rw [hst u, upd_ne _ _ e] at hu
      rw [upd_ne _ _ e, upd_ne _ _ e]
      refine ⟨(H.busy u hu).1, fun m o he => ?_⟩
      rcases hmem _ _ he with he | ⟨_, e⟩
      · exact (H.busy u hu).2 m o he
      · cases e
  · intro u op' hu
    by_cases e : u = t
    · subst e
      rw [hst, upd_same] at hu; cases hu
      rw [upd_same]
      refine ⟨by simp, fun p hp' he => ?_⟩
      obtain ⟨_, u, hu⟩ := H.pts p hp'
      rw [he] at hu
      have := H.lt _ _ hu; omega
    · rw [hst u, upd_ne _ _ e] at hu
      rw [upd_ne _ _ e]
      exact ⟨by simp [(H.pend u op' hu).1], (H.pend u op' hu).2⟩
  · intro u o hu
    by_cases e : u = t
    · subst e
      rw [hst, upd_same] at hu; cases hu
    · rw [hst u, upd_ne _ _ e] at hu
      rw [upd_ne _ _ e, upd_ne _ _ e]
      obtain ⟨op', h1, p, h2, h3, h4⟩ := H.done u o hu
      exact ⟨op', by simp [h1], p, h2, h3, h4⟩
  · intro p hp'
    obtain ⟨u, hu⟩ := (H.pts p hp').2
    exact ⟨H.pts_old k p hp', u, by simp [hu]⟩
  · rintro n m u op' o ⟨h1, h2, h3, h4⟩
    rcases hmem _ _ h2 with h2 | ⟨_, e⟩
    · rcases hmem _ _ h1 with h1 | ⟨rfl, _⟩
      · exact H.complete_old k n m u op' o ⟨h1, h2, h3, fun j o' a b c => h4 j o' a b (by simp [c])⟩
      · have := H.lt _ _ h2; omega
    · cases e

/-- a call returns -/
theorem ret (H : Hist log seen h st cur P) (hs : seen t ⊆ k) {o : Out} (hp : st t = .done o) (hst : ∀ u, st' u = upd st t .idle u) :
    Hist (log ++ [k]) (upd seen t k) (h ++ [(log.length, .ret t o)]) st' cur P := by
  have hmem : ∀ n e, (n, e) ∈ h ++ [(log.length, .ret t o)] → (n, e) ∈ h ∨ (n = log.length ∧ e = .ret t o) := by
    intro n e he; simpa using he
  refine ⟨?_, ?_, ?_, ?_, ?_, ?_, ?_, H.once, ?_, H.order_old k⟩
  · intro n e he
    rcases hmem n e he with he | ⟨rfl, rfl⟩
    · have := H.lt n e he; simp; omega
    · simp
  · intro n e e' he he'
    rcases hmem n e he with he | ⟨rfl, rfl⟩
    · rcases hmem n e' he' with he' | ⟨rfl, rfl⟩
      · exact H.uniq n e e' he he'
      · have := H.lt _ _ he; omega
    · rcases hmem _ e' he' with he' | ⟨_, rfl⟩
      · have := H.lt _ _ he'; omega
      · rfl
  · intro u n op' he
    rcases hmem _ _ he with he1 | ⟨_, e⟩
    · rcases H.open_ u n op' he1 with ⟨h1, h2⟩ | ⟨m, o, h1, h2⟩
      · by_cases hu : u = t
        · subst hu
          exact .inr ⟨log.length, o, H.lt _ _ he1, by simp⟩
        · exact .inl ⟨by rw [hst u, upd_ne _ _ hu]; exact h1, h2⟩
      · exact .inr ⟨m, o, h1, by simp [h2]⟩
    · cases e
  · intro u hu
    by_cases e : u = t
    · subst e; rw [hst, upd_same] at hu; exact absurd rfl hu
    · rw [hst u, upd_ne _ _ e] at hu
      rw [upd_ne _ _ e]
      refine ⟨(H.busy u hu).1, fun m o he => ?_⟩
      rcases hmem _ _ he with he | ⟨_, e'⟩
      · exact (H.busy u hu).2 m o he
      · cases e'; exact absurd rfl e
  · intro u op' hu
    by_cases e : u = t
    · subst e; rw [hst, upd_same] at hu; cases hu
    · rw [hst u, upd_ne _ _ e] at hu
      exact ⟨by simp [(H.pend u op' hu).1], (H.pend u op' hu).2⟩
  · intro u o hu
    by_cases e : u = t
    · subst e; rw [hst, upd_same] at hu; cases hu
    · rw [hst u, upd_ne _ _ e] at hu
      rw [upd_ne _ _ e]
      obtain ⟨op', h1, p, h2, h3, h4⟩ := H.done u o hu
      exact ⟨op', by simp [h1], p, h2, h3, h4⟩
  · intro p hp'
    obtain ⟨u, hu⟩ := (H.pts p hp').2
    exact ⟨H.pts_old k p hp', u, by simp [hu]⟩
  · rintro n m u op' o' ⟨h1, h2, h3, h4⟩
    rcases hmem _ _ h1 with h1 | ⟨_, e⟩
    · rcases hmem _ _ h2 with h2 | ⟨rfl, e⟩
      · exact H.complete_old k n m u op' o' ⟨h1, h2, h3, fun j o' a b c => h4 j o' a b (by simp [c])⟩
      · cases e
        obtain ⟨op, h5, p, h6, h7, h8⟩ := H.done t o hp
        rcases H.open_ t n op' h1 with ⟨_, rfl⟩ | ⟨j, o', h9, h10⟩
        · cases H.uniq _ _ _ h1 h5
          exact ⟨p, h6, h7, k, getElem?_new _ _, hs h8⟩
        · exact absurd (List.mem_append_left _ h10) (h4 j o' h9 (H.lt _ _ h10))
    · cases e

theorem inj (H : Hist log seen h st cur P) {p2 p' : Pt Op Out} (h1 : p2 ∈ P) (hp' : p' ∈ P) (h2 : p2.x.call = p'.x.call) : p2 = p' := by
  have inj : ∀ (l : List (Pt Op Out)), (l.map (·.x.call)).Nodup → p2 ∈ l → p' ∈ l → p2.x.call = p'.x.call → p2 = p' := by
    intro l
    induction l with
    | nil => intro _ h; cases h
    | cons a l ih =>
      intro hn ha hb he
      rw [List.map_cons, List.nodup_cons] at hn
      rcases List.mem_cons.1 ha with e1 | h1
      · rcases List.mem_cons.1 hb with e2 | h2
        · rw [e1, e2]
        · exact absurd (List.mem_map.2 ⟨p', h2, by rw [← he, e1]⟩) hn.1
      · rcases List.mem_cons.1 hb with e2 | h2
        · exact absurd (List.mem_map.2 ⟨p2, h1, by rw [he, e2]⟩) hn.1
        · exact ih hn.2 h1 h2 he
  exact inj P H.once h1 hp' h2

/-- the linearization -/
theorem linearized (H : Hist log seen h st cur P) (hl : LogOk log) {sp : Spec Q Op Out} (hlegal : ∃ q, Runs sp sp.init (P.map (·.x)) q) :
    LinearizedBy sp h (fun m n => m ≠ n ∧ ∃ k, log[n]? = some k ∧ m ∈ k) (P.map (·.x)) where
  legal := hlegal
  calls x hx := by
    obtain ⟨p, hp, rfl⟩ := List.mem_map.1 hx
    exact (H.pts p hp).2
  once := by rw [List.map_map]; exact H.once
  complete n m t op o hc := by
    obtain ⟨p, h1, h2, _⟩ := H.complete n m t op o hc
    exact List.mem_map.2 ⟨p, h1, h2⟩
  order := by
    rw [List.pairwise_map]
    refine List.Pairwise.imp_of_mem ?_ H.order
    rintro p p' hp hp' hpp m t hc ⟨_, k, hk, hm⟩
    obtain ⟨p2, h1, h2, km, h3, h4⟩ := H.complete _ m t _ _ hc
    have e : p2 = p' := by
      exact H.inj h1 hp' (by rw [h2])
    subst e
    obtain ⟨⟨kp, h5, h6⟩, _⟩ := H.pts p hp
    have h7 : km ⊆ k := (hl _ _ hk).2.2.sub hm h3
    have h8 : k ⊆ kp := (hl _ _ h5).2.2.sub h6 hk
    exact hpp kp h5 (h8 (h7 h4))

end Hist

end Verif.Conc
