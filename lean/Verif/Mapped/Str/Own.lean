import Verif.Mapped.Str.Lemmas

/-
Helper lemmas: no call leaves a key that is not a view of one of the container's own strings, and the keys have
different contents.
-/
namespace Verif.Mapped.Str
open Verif.Mapped Verif.Block Verif.Block.Vector
open Verif.Mapped.Vector (Obs Ideal MV)

variable {S V : Type} {E : Env S V}

/-- all keys are views of own strings, with different contents -/
structure SMV.Fine (E : Env S V) (m : SMV S) (h : Heap String) : Prop where
  ok : m.Ok E h
  wf : FMap.WF (strings E.order h m.lookup)

theorem SMV.Fine.data {m : SMV S} {h : Heap String} (f : m.Fine E h) (d : S) : SMV.Fine E { m with data := d } h := ⟨f.ok, f.wf⟩

theorem SMV.Fine.add {m : SMV S} {h : Heap String} (f : m.Fine E h) {k : String} {x : V} {r : SMV S × Heap String × Nat}
    (he : m.add E h k x = some r) : r.1.Fine E r.2.1 := by
  obtain ⟨J, hJ⟩ := add_lift f.ok k x
  have he' := he
  simp only [SMV.add, Option.bind_eq_some_iff, Option.map_eq_some_iff] at he'
  obtain ⟨d, h1, _⟩ := he'
  obtain ⟨n, h', e, ok, hb⟩ := hJ d h1
  rw [he] at e; cases e
  refine ⟨ok, ?_⟩
  have : strings E.order h' n.lookup = _ := congrArg MV.lookup hb
  rw [this]
  exact FMap.emplace_wf f.wf _ _

theorem SMV.Fine.lookup {m : SMV S} {h : Heap String} (f : m.Fine E h) (d : S) {l : FMap View}
    (h1 : ∀ u ∈ l.map (·.1), u ∈ m.lookup.map (·.1)) (h2 : FMap.WF (strings E.order h l)) :
    SMV.Fine E { m with data := d, lookup := l } h := ⟨f.ok.keys h1, h2⟩

theorem strings_erase_wf {N : Nat} {h : Heap String} {l : FMap View} (w : FMap.WF (strings N h l)) (v : View) :
    FMap.WF (strings N h (FMap.erase l v)) := by
  have h1 := List.Sublist.map (fun e : View × Nat => (nameOf N h e.1, e.2)) (List.filter_sublist (p := fun e => decide (e.1 ≠ v)) (l := l))
  exact List.Nodup.sublist (List.Sublist.map _ h1) w

theorem Fine.step {m m' : SMV S} {h h' : Heap String} {o : Obs V} (f : m.Fine E h) {op : Op V}
    (he : exec E m h op = some (m', h', o)) : m'.Fine E h' := by
  cases op <;> simp only [exec, Option.map_eq_some_iff] at he
  case insert k x =>
    obtain ⟨r, h1, h2⟩ := he
    cases h2
    simp only [SMV.insert, Option.bind_eq_some_iff] at h1
    obtain ⟨g, _, h3⟩ := h1
    split at h3
    · cases h3; exact f
    · obtain ⟨r, h4, h5⟩ := Option.map_eq_some_iff.1 h3
      cases h5
      exact f.add h4
  case insertNoKey x =>
    obtain ⟨r, h1, h2⟩ := he
    cases h2
    simp only [SMV.insertNoKey, Option.map_eq_some_iff] at h1
    obtain ⟨d, _, h3⟩ := h1
    cases h3
    exact f.data d
  case insertOrAssign k x =>
    obtain ⟨r, h1, h2⟩ := he
    cases h2
    simp only [SMV.insertOrAssign, Option.bind_eq_some_iff] at h1
    obtain ⟨g, _, h3⟩ := h1
    split at h3
    · obtain ⟨r, h4, h5⟩ := Option.map_eq_some_iff.1 h3
      cases h5
      exact f.data _
    · exact f.add h3
  case find k => obtain ⟨_, _, h2⟩ := he; cases h2; exact f
  case get i => obtain ⟨_, _, h2⟩ := he; cases h2; exact f
  case set i x =>
    obtain ⟨r, h1, h2⟩ := he
    cases h2
    obtain ⟨d, _, h3⟩ := Option.map_eq_some_iff.1 h1
    cases h3
    exact f.data d
  case «at» i => obtain ⟨_, _, h2⟩ := he; cases h2; exact f
  case back => obtain ⟨_, _, h2⟩ := he; cases h2; exact f
  case removeIndex i =>
    obtain ⟨r, h1, h2⟩ := he
    cases h2
    simp only [SMV.removeIndex] at h1
    split at h1
    · cases h1; exact f
    · simp only [Option.bind_eq_some_iff, Option.map_eq_some_iff] at h1
      obtain ⟨q, _, ind, _, g, _, h3⟩ := h1
      cases h3
      have hfst := Vector.shiftLoop_fst q.2 i m.lookup none
      have hks : (MV.shiftLoop q.2 i m.lookup none).1.map (·.1) = m.lookup.map (·.1) := by
        rw [hfst, List.map_map]; rfl
      have wfl : FMap.WF (strings E.order h (MV.shiftLoop q.2 i m.lookup none).1) := by
        rw [hfst, strings_mapVal m.lookup (fun j => if q.2 = true then Binds.shift i j else j)]
        exact FMap.mapVal_wf f.wf (fun j => if q.2 = true then Binds.shift i j else j)
      cases g with
      | none => exact f.lookup q.1 (fun u hu => hks ▸ hu) wfl
      | some e =>
        refine f.lookup q.1 (fun u hu => ?_) (strings_erase_wf wfl _)
        rw [← hks]
        exact (List.Sublist.map _ List.filter_sublist).subset hu
  case remove k =>
    obtain ⟨r, h1, h2⟩ := he
    cases h2
    simp only [SMV.remove, Option.bind_eq_some_iff] at h1
    obtain ⟨g, _, h3⟩ := h1
    split at h3
    · cases h3; exact f
    · rename_i e _
      obtain ⟨q, _, h5⟩ := Option.map_eq_some_iff.1 h3
      cases h5
      refine f.lookup q.1 (fun u hu => ?_) (strings_erase_wf ?_ _)
      · have := (List.Sublist.map _ List.filter_sublist).subset hu
        split at this
        · rw [keys_mapVal _ (fun j => if j > e.2 then j - 1 else j)] at this; exact this
        · exact this
      · split
        · rw [strings_mapVal m.lookup (fun j => if j > e.2 then j - 1 else j)]
          exact FMap.mapVal_wf f.wf (fun j => if j > e.2 then j - 1 else j)
        · exact f.wf
  case apply => obtain ⟨_, _, h2⟩ := he; cases h2; exact f
  case modify g =>
    obtain ⟨r, h1, h2⟩ := he
    cases h2
    obtain ⟨d, _, h3⟩ := Option.map_eq_some_iff.1 h1
    cases h3
    exact f.data _
  case transform g =>
    obtain ⟨r, h1, h2⟩ := he
    cases h2
    obtain ⟨d, _, h3⟩ := Option.map_eq_some_iff.1 h1
    cases h3
    exact f.data _
  case size => cases he; exact f
  case clear =>
    obtain ⟨r, h1, h2⟩ := he
    cases h2
    obtain ⟨d, _, h3⟩ := Option.map_eq_some_iff.1 h1
    cases h3
    exact f.lookup d (by simp) .nil

theorem Fine.run (ops : List (Op V)) : ∀ {m m' : SMV S} {h h' : Heap String} {os : List (Obs V)}, m.Fine E h →
    run E m h ops = some (m', h', os) → m'.Fine E h' := by
  induction ops with
  | nil => intro m m' h h' os f he; cases he; exact f
  | cons op ops ih =>
    intro m m' h h' os f he
    simp only [Str.run, Option.bind_eq_some_iff, Option.map_eq_some_iff] at he
    obtain ⟨⟨m1, h1, o⟩, e1, ⟨m2, h2, os2⟩, e2, e3⟩ := he
    cases e3
    exact ih (Fine.step f e1) e2

theorem Fine.init : (SMV.init E).Fine E Heap.empty := ⟨SRepC.init, .nil⟩

end Verif.Mapped.Str
