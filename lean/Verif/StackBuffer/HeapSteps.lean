import Verif.StackBuffer.HeapLemmas

/- Sessions of the class with pointers. -/
namespace Verif.StackBuffer

variable {c : Prop}

theorem Sees.stale {h : Heap} {o b} (k : Sees h o b) : b.stale = o.stale := by
  obtain ⟨f1, f2, f3, _⟩ := k.fields
  simp only [Buf.stale, Obj.stale, Buf.rawBlockCapacity, f3, f1]
  congr 1
  cases hd : o.data with
  | none => rfl
  | some p =>
    have := k.live p hd
    cases hb : h.blk p with
    | none => rw [hb] at this; cases this
    | some m => simp [hb]

theorem Sees.cap {h : Heap} {o b} (k : Sees h o b) : b.capacity = o.cap := k.fields.2.2.2.2.2.1

theorem Sees.acap {h : Heap} {o b} (k : Sees h o b) : b.rawBlockCapacity = o.actualCapacity := k.fields.2.2.1

theorem Holds.careful {s v} (k : Holds c s v) {fails : Bool} {op : OOp} (ha : op.allowed fails s.objs = true) (hm : ∀ i, op ≠ .moveAssign i i) :
    op.careful v = true := by
  cases op with
  | new i n => simp only [OOp.allowed, OOp.careful, Bool.and_eq_true, Option.isNone_iff_eq_none] at ha ⊢; exact ⟨k.getNone ha.1, ha.2⟩
  | newDefault i => simp only [OOp.allowed, OOp.careful, Option.isNone_iff_eq_none] at ha ⊢; exact k.getNone ha
  | copyNew i j =>
    simp only [OOp.allowed, OOp.careful, Bool.and_eq_true, Option.isNone_iff_eq_none] at ha ⊢
    exact ⟨k.getNone ha.1, by rw [k.dom]; exact ha.2⟩
  | moveNew i j =>
    simp only [OOp.allowed, OOp.careful, Bool.and_eq_true, Option.isNone_iff_eq_none] at ha ⊢
    exact ⟨k.getNone ha.1, by rw [k.dom]; exact ha.2⟩
  | copyAssign i j =>
    simp only [OOp.allowed, OOp.careful, Bool.and_eq_true] at ha ⊢
    refine ⟨ha.1, ?_⟩
    have h2 := ha.2
    cases hi : s.objs i with
    | none => rw [hi] at h2; simp at h2
    | some a =>
      cases hj : s.objs j with
      | none => rw [hi, hj] at h2; simp at h2
      | some b =>
        rw [hi, hj] at h2
        simp only [Bool.and_eq_true] at h2
        obtain ⟨x, hx, kx⟩ := k.get hi
        obtain ⟨y, hy, ky⟩ := k.get hj
        rw [hx, hy]
        simp only [kx.stale, ky.cap, kx.acap]
        exact h2.1
  | moveAssign i j =>
    simp only [OOp.allowed, OOp.careful, Bool.and_eq_true, k.dom] at ha ⊢
    exact ⟨⟨decide_eq_true fun e => hm i (by rw [← e]), ha.1⟩, ha.2⟩
  | swap i j => simpa only [OOp.allowed, OOp.careful, k.dom] using ha
  | resize i n =>
    simp only [OOp.allowed, OOp.careful] at ha ⊢
    cases hi : s.objs i with
    | none => rw [hi] at ha; cases ha
    | some a =>
      rw [hi] at ha
      obtain ⟨x, hx, kx⟩ := k.get hi
      rw [hx]
      simpa only [kx.stale, kx.acap] using ha
  | capacity i => simpa only [OOp.allowed, OOp.careful, k.dom] using ha
  | call i op => simpa only [OOp.allowed, OOp.careful, k.dom] using ha
  | destroy i => simpa only [OOp.allowed, OOp.careful, k.dom] using ha

theorem upd_upd_ne {α : Type} {w : Nat → Option α} {i j a b x} (h : i ≠ j) :
    upd (upd (upd w i x) i a) j b = upd (upd w i a) j b := by
  funext n; unfold upd; split
  · rfl
  · split
    · rfl
    · rfl

/-- A call with memory as values and the same call with pointers. -/
theorem Holds.exec {s v} (k : Holds c s v) {fresh : Int → UInt8} {op : OOp} {o v'} (hc : op.careful v = true)
    (hz : c → ∀ i, op ≠ .new i 0) (e : op.exec fresh v = some (o, v')) (hcap : ∀ i b, v i = some b → 0 ≤ b.actualCapacity) :
    ∃ s', s.exec fresh false op = some (o, s') ∧ Holds c s' v' := by
  have hnone : ∀ i, v i = none → s.objs i = none := fun i hi => by
    have := k.dom i
    rw [hi] at this; simpa using this.symm
  have hsome : ∀ i b, v i = some b → ∃ a, s.objs i = some a ∧ Sees s.heap a b := fun i b hi => by
    have := k.dom i
    rw [hi] at this
    obtain ⟨a, ha⟩ := Option.isSome_iff_exists.1 (this.symm.trans rfl)
    exact ⟨a, ha, k.sees i a b ha hi⟩
  cases op with
  | new i n =>
    simp only [OOp.careful, Bool.and_eq_true, Option.isNone_iff_eq_none] at hc
    simp only [OOp.exec, Option.map_eq_some_iff] at e
    obtain ⟨b, e1, e2⟩ := e
    cases e2
    obtain ⟨h', o', f1, f2, f3⟩ := Sees.ofSize (c := c) (h := s.heap) e1 fun hc h0 => hz hc i (by rw [h0])
    refine ⟨_, by simp only [Store.exec, f1]; rfl, ?_⟩
    exact k.set (by rw [hnone i hc.1]; rfl) f3 f2
  | newDefault i =>
    simp only [OOp.careful, Option.isNone_iff_eq_none] at hc
    cases e
    refine ⟨_, rfl, ?_⟩
    refine k.set (by rw [hnone i hc]; rfl) (.same rfl rfl) ⟨rfl, fun _ => rfl, ?_⟩
    intro p hp; cases hp
  | copyNew i j =>
    simp only [OOp.careful, Bool.and_eq_true, Option.isNone_iff_eq_none] at hc
    simp only [OOp.exec, Option.bind_eq_some_iff, Option.map_eq_some_iff] at e
    obtain ⟨b, hj, b', e1, e2⟩ := e
    cases e2
    obtain ⟨a, ha, ka⟩ := hsome j b hj
    obtain ⟨h', o', f1, f2, f3⟩ := ka.copyCtor (c := c) k.fresh e1
    refine ⟨_, by simp only [Store.exec, ha, Option.bind_some, f1]; rfl, ?_⟩
    exact k.set (by rw [hnone i hc.1]; rfl) f3 f2
  | moveNew i j =>
    simp only [OOp.careful, Bool.and_eq_true, Option.isNone_iff_eq_none] at hc
    simp only [OOp.exec, Option.map_eq_some_iff] at e
    obtain ⟨b, hj, e2⟩ := e
    cases e2
    obtain ⟨a, ha, ka⟩ := hsome j b hj
    refine ⟨_, by simp only [Store.exec, ha, Option.map_some]; rfl, ?_⟩
    refine k.hand (a' := a.moveCtor.1) ?_ (by rw [hnone i hc.1]; rfl) ha hj rfl (Int.le_refl _) ⟨rfl, fun _ => rfl, ?_⟩
    · rintro rfl; rw [hc.1] at hj; cases hj
    · intro p hp; cases hp
  | copyAssign i j =>
    simp only [OOp.careful, Bool.and_eq_true, decide_eq_true_eq] at hc
    simp only [OOp.exec, Option.bind_eq_some_iff, Option.map_eq_some_iff] at e
    obtain ⟨b1, hi, b2, hj, b', e1, e2⟩ := e
    cases e2
    obtain ⟨a1, ha1, k1⟩ := hsome i b1 hi
    obtain ⟨a2, ha2, k2⟩ := hsome j b2 hj
    obtain ⟨h', o', f1, f2, f3⟩ := k1.copyAssign (c := c) k2 k.fresh (fun p h1 h2 => hc.1 (k.inj i j _ _ p ha1 ha2 h1 h2)) e1
    refine ⟨⟨h', upd s.objs i (some o')⟩, by simp only [Store.exec, ha1, ha2, Option.bind_some, f1, Option.map_some], ?_⟩
    exact k.set (by rw [ha1]; rfl) f3 f2
  | moveAssign i j =>
    simp only [OOp.careful, Bool.and_eq_true, decide_eq_true_eq] at hc
    simp only [OOp.exec, Option.bind_eq_some_iff, Option.map_eq_some_iff] at e
    obtain ⟨b1, hi, b2, hj, e2⟩ := e
    cases e2
    obtain ⟨a1, ha1, k1⟩ := hsome i b1 hi
    obtain ⟨a2, ha2, k2⟩ := hsome j b2 hj
    obtain ⟨h', f1, f2⟩ := k1.release (c := c) (o' := Obj.default) rfl (Int.le_refl _)
    have hne := hc.1.1
    have k3 : Holds c ⟨h', upd s.objs i (some Obj.default)⟩ (upd v i (some Buf.default)) :=
      k.set (by rw [ha1]; rfl) f2 ⟨rfl, fun _ => rfl, (fun p hp => by cases hp)⟩
    refine ⟨_, by simp only [Store.exec, if_neg hne, ha1, ha2, Option.bind_some, Obj.moveAssign, f1, Option.map_some]; rfl, ?_⟩
    have := k3.hand (i := i) (j := j) (a' := a2) (b := b2) (b' := ⟨none, 0, a2.actualCapacity, none, 0, 0, 0, 0⟩)
      (bj := ⟨none, true, 0, b2.actualCapacity, 0, 0, 0, 0⟩) hne (by simp [upd, Obj.default])
      (by simp only [upd, if_neg (Ne.symm hne)]; exact ha2) (by simp only [upd, if_neg (Ne.symm hne)]; exact hj) rfl
      (by have := hcap j b2 hj; rw [k2.fields.2.2.1] at this; exact this)
      ⟨by simp only [Obj.buf, k2.fields.2.2.1]; rfl, fun _ => rfl, (fun p hp => by cases hp)⟩
    rw [upd_upd_ne hne, upd_upd_ne hne] at this
    exact this
  | swap i j =>
    simp only [OOp.exec, Option.bind_eq_some_iff, Option.map_eq_some_iff] at e
    obtain ⟨b1, hi, b2, hj, e2⟩ := e
    cases e2
    obtain ⟨a1, ha1, k1⟩ := hsome i b1 hi
    obtain ⟨a2, ha2, k2⟩ := hsome j b2 hj
    exact ⟨_, by simp only [Store.exec, ha1, ha2, Option.bind_some, Option.map_some], k.swap ha1 ha2 hi hj⟩
  | resize i n =>
    simp only [OOp.exec, Option.bind_eq_some_iff, Option.map_eq_some_iff] at e
    obtain ⟨b, hi, r, e1, e2⟩ := e
    obtain ⟨a, ha, ka⟩ := hsome i b hi
    obtain ⟨r', f1, f2⟩ := ka.resize (c := c) k.fresh e1
    cases f2 with
    | ok ks ch =>
      cases e2
      exact ⟨_, by simp only [Store.exec, ha, Option.bind_some, f1, Option.map_some], k.set (by rw [ha]; rfl) ch ks⟩
    | thrown ks ch =>
      cases e2
      exact ⟨_, by simp only [Store.exec, ha, Option.bind_some, f1, Option.map_some], k.set (by rw [ha]; rfl) ch ks⟩
  | capacity i =>
    simp only [OOp.exec, Option.map_eq_some_iff] at e
    obtain ⟨b, hi, e2⟩ := e
    cases e2
    obtain ⟨a, ha, ka⟩ := hsome i b hi
    exact ⟨_, by simp only [Store.exec, ha, Option.map_some, ka.cap], k⟩
  | call i op =>
    simp only [OOp.exec, Option.bind_eq_some_iff, Option.map_eq_some_iff] at e
    obtain ⟨b, hi, ⟨r, b'⟩, e1, e2⟩ := e
    cases e2
    obtain ⟨a, ha, ka⟩ := hsome i b hi
    obtain ⟨h', o', f1, f2, f3⟩ := ka.call (c := c) e1
    exact ⟨_, by simp only [Store.exec, ha, Option.bind_some, f1, Option.map_some], k.set (by rw [ha]; rfl) f3 f2⟩
  | destroy i =>
    simp only [OOp.exec, Option.map_eq_some_iff] at e
    obtain ⟨b, hi, e2⟩ := e
    cases e2
    obtain ⟨a, ha, ka⟩ := hsome i b hi
    obtain ⟨h', f1, f2⟩ := ka.release (c := c) (o' := Obj.default) rfl (Int.le_refl _)
    have k3 : Holds c ⟨h', upd s.objs i (some Obj.default)⟩ (upd v i (some Buf.default)) :=
      k.set (by rw [ha]; rfl) f2 ⟨rfl, fun _ => rfl, (fun p hp => by cases hp)⟩
    have k4 := k3.drop (i := i) (o := Obj.default) (by simp [upd]) rfl
    have hu : ∀ {α : Type} (w : Nat → Option α) x, upd (upd w i x) i none = upd w i none := by
      intro α w x; funext n; unfold upd; split <;> rfl
    rw [hu, hu] at k4
    exact ⟨_, by simp only [Store.exec, ha, Option.bind_some, Obj.destroy, f1, Option.map_some], k4⟩

theorem Holds.step {s v w} (k : Holds c s v) (hw : WRep v w) (fresh : Int → UInt8) (op : OOp) (fails : Bool) (hz : c → ∀ i, op ≠ .new i 0) :
    ∃ o s' v' w', s.step fresh op fails = some (o, s') ∧ MStep w op fails o w' ∧ Holds c s' v' ∧ WRep v' w' := by
  unfold Store.step
  by_cases ha : op.allowed fails s.objs = true
  rotate_left
  · rw [if_neg ha]; exact ⟨_, _, _, _, rfl, .ok (.skipped w op) (.inr (.inr rfl)), k, hw⟩
  rw [if_pos ha]
  have hcap : ∀ i b, v i = some b → 0 ≤ b.actualCapacity := fun i b hi => by
    obtain ⟨es, _, e⟩ := hw.get hi
    have := e.cap0; have := e.capA; omega
  by_cases hm : ∃ i, op = .moveAssign i i
  · obtain ⟨i, rfl⟩ := hm
    simp only [OOp.allowed, Bool.and_self, Option.isSome_iff_exists] at ha
    obtain ⟨a, ha⟩ := ha
    obtain ⟨b, hb, kb⟩ := k.get ha
    have h0 : 0 ≤ a.actualCapacity := by have := hcap i b hb; rw [kb.fields.2.2.1] at this; exact this
    obtain ⟨h', f1, f2⟩ := kb.release (c := c) (o' := ⟨none, 0, a.actualCapacity, none, 0, 0, 0, 0⟩) rfl h0
    obtain ⟨es, e1, e2⟩ := hw.get hb
    refine ⟨_, _, upd v i (some ⟨none, true, 0, a.actualCapacity, 0, 0, 0, 0⟩), _, ?_, .moveSelf w i fails _ e1,
      k.set (by rw [ha]; rfl) f2 ⟨rfl, fun _ => rfl, (fun p hp => by cases hp)⟩, hw.set i (Owns.movedFrom h0) rfl⟩
    simp only [Store.exec, if_true, ha, Option.bind_some, Obj.moveSelf, f1, Option.map_some]
  have hc := k.careful ha fun i e => hm ⟨i, e⟩
  obtain ⟨o, v', w', e1, e2, e3⟩ := hw.step fresh op
  rw [OOp.step, if_pos hc] at e1
  obtain ⟨s', e4, e5⟩ := k.exec hc hz e1 hcap
  cases hfl : fails with
  | false => exact ⟨o, s', v', w', e4, .ok e2 (.inl rfl), e5, e3⟩
  | true =>
    subst hfl
    cases op with
    | new i n => exact ⟨_, _, _, _, rfl, .noConstruct w _ rfl, k, hw⟩
    | newDefault i => exact ⟨o, s', v', w', e4, .ok e2 (.inr (.inl rfl)), e5, e3⟩
    | copyNew i j =>
      simp only [OOp.allowed, Bool.and_eq_true, Option.isSome_iff_exists] at ha
      obtain ⟨_, a, ha⟩ := ha
      exact ⟨_, _, _, _, by simp only [Store.exec, ha, Option.bind_some, if_true], .noConstruct w _ rfl, k, hw⟩
    | moveNew i j => exact ⟨o, s', v', w', e4, .ok e2 (.inr (.inl rfl)), e5, e3⟩
    | copyAssign i j =>
      refine ⟨o, s', v', w', ?_, .ok e2 (.inr (.inl rfl)), e5, e3⟩
      simp only [Store.exec, Option.bind_eq_some_iff] at e4 ⊢
      obtain ⟨a, ha1, b, hb1, e6⟩ := e4
      refine ⟨a, ha1, b, hb1, ?_⟩
      simp only [OOp.allowed, ha1, hb1, Bool.and_eq_true, Bool.not_true, Bool.false_or, decide_eq_true_eq] at ha
      obtain ⟨y, hy, ky⟩ := k.get hb1
      obtain ⟨es, _, ow⟩ := hw.get hy
      have hst := ow.stated
      rw [ky.fields.2.1, ky.fields.2.2.2.2.2.1] at hst
      have hna : ∀ a' : Obj, a'.actualCapacity = a.actualCapacity → a'.allocates b.statedSize = false := by
        intro a' ha'
        simp only [Obj.allocates, decide_eq_false_iff_not]
        have := ha.2.2
        intro hh; omega
      rw [← e6]
      simp only [Obj.copyAssign]
      rw [hna { a with origin := b.origin, next := b.next, ni := b.ni, cap := b.cap, count := b.count } rfl]; rfl
    | moveAssign i j => exact ⟨o, s', v', w', e4, .ok e2 (.inr (.inl rfl)), e5, e3⟩
    | swap i j => exact ⟨o, s', v', w', e4, .ok e2 (.inr (.inl rfl)), e5, e3⟩
    | resize i n =>
      simp only [OOp.exec, Option.bind_eq_some_iff, Option.map_eq_some_iff] at e1
      obtain ⟨b, hi, r, e6, e7⟩ := e1
      have := k.dom i
      rw [hi] at this
      obtain ⟨a, ha'⟩ := Option.isSome_iff_exists.1 (this.symm.trans rfl)
      have ka := k.sees i a b ha' hi
      obtain ⟨es, f1, f2⟩ := hw.get hi
      rcases ka.resize_fails (c := c) k.fresh e6 with ⟨g1, g2, g3, g4⟩ | ⟨r', g1, g2⟩
      · refine ⟨.threw, s, v, w, ?_, .noResize w i n _ _ f1 ⟨g2, ?_⟩, k, hw⟩
        · simp only [Store.exec, ha', Option.bind_some, g1, Option.map_some]
          rw [upd_self ha']
        · rw [ka.cap]
          have := f2.capA
          rw [ka.fields.2.2.1, ka.fields.2.2.2.2.2.1] at this
          omega
      · cases g2 with
        | ok ks ch =>
          cases e7
          exact ⟨_, _, _, _, by simp only [Store.exec, ha', Option.bind_some, g1, Option.map_some], .ok e2 (.inr (.inl rfl)),
            k.set (by rw [ha']; rfl) ch ks, e3⟩
        | thrown ks ch =>
          cases e7
          exact ⟨_, _, _, _, by simp only [Store.exec, ha', Option.bind_some, g1, Option.map_some], .ok e2 (.inr (.inl rfl)),
            k.set (by rw [ha']; rfl) ch ks, e3⟩
    | capacity i => exact ⟨o, s', v', w', e4, .ok e2 (.inr (.inl rfl)), e5, e3⟩
    | call i op => exact ⟨o, s', v', w', e4, .ok e2 (.inr (.inl rfl)), e5, e3⟩
    | destroy i => exact ⟨o, s', v', w', e4, .ok e2 (.inr (.inl rfl)), e5, e3⟩

theorem Holds.run {s v w} (k : Holds c s v) (hw : WRep v w) (fresh : Nat → Int → UInt8) (ops : List (OOp × Bool))
    (hz : c → ∀ i f, (OOp.new i 0, f) ∉ ops) :
    ∃ os s' v' w', s.run fresh ops = some (os, s') ∧ MSession w ops os w' ∧ Holds c s' v' ∧ WRep v' w' := by
  induction ops generalizing s v w with
  | nil => exact ⟨_, _, _, _, rfl, .nil w, k, hw⟩
  | cons op ops ih =>
    obtain ⟨op, fails⟩ := op
    obtain ⟨o, s1, v1, w1, h1, h2, h3, h4⟩ := k.step hw (fresh ops.length) op fails
      fun hc i e => hz hc i fails (by rw [e]; exact List.mem_cons_self ..)
    obtain ⟨os, s2, v2, w2, h5, h6, h7, h8⟩ := ih h3 h4 fun hc i f hm => hz hc i f (List.mem_cons_of_mem _ hm)
    exact ⟨_, _, _, _, by simp [Store.run, h1, h5], .cons h2 h6, h7, h8⟩

end Verif.StackBuffer
