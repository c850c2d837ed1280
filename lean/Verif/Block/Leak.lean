import Verif.Block.HeapLemmas

/-
Blocks that were allocated and forgotten: what an observer of the allocator sees when a constructor throws without undoing what it did.
-/
namespace Verif.Block
variable {X : Type}

/-- Between `h` and `h'` exactly the blocks `L`, none of which was allocated before, were allocated and not given back.  They hold
exactly the elements `xs`, in order, from position `off` of the first block on, in blocks of `bs` cells; everything else is as it
was. -/
structure Leaked (bs off : Nat) (h h' : Heap X) (L : List Nat) (xs : List X) : Prop where
  nodup : L.Nodup
  live : ∀ b, h'.live b = true ↔ h.live b = true ∨ b ∈ L
  new : ∀ b, b ∈ L → h.live b = false
  old : ∀ b, h.live b = true → ∀ j, h'.cells b j = h.cells b j
  cells : ∀ k b, L[k]? = some b → ∀ j, j < bs → h'.cells b j = if k * bs + j < off then none else xs[k * bs + j - off]?
  fits : xs = [] ∨ off + xs.length ≤ L.length * bs

theorem Leaked.refl (bs off : Nat) (h : Heap X) : Leaked bs off h h [] [] :=
  ⟨.nil, by simp, by simp, by simp, by simp, .inl rfl⟩

theorem Leaked.ofFrame {bs off : Nat} {h h' : Heap X} {L : List Nat} {xs : List X} (w : h.Wf) (f : Heap.Frame h h' [] L)
    (nd : L.Nodup) (hl : ∀ b, b ∈ L → h'.live b = true)
    (hc : ∀ k b, L[k]? = some b → ∀ j, j < bs → h'.cells b j = if k * bs + j < off then none else xs[k * bs + j - off]?)
    (hf : xs = [] ∨ off + xs.length ≤ L.length * bs) : Leaked bs off h h' L xs := by
  refine ⟨nd, fun b => ⟨fun hb => ?_, fun hb => ?_⟩, fun b hb => ?_, fun b hb j => (f.keep b (w.live b hb) (by simp)).2 j, hc, hf⟩
  · rcases f.noleak b hb with h1 | ⟨h1, _⟩
    · exact .inr h1
    · exact .inl (by rw [← (f.keep b h1 (by simp)).1]; exact hb)
  · rcases hb with hb | hb
    · rw [(f.keep b (w.live b hb) (by simp)).1]; exact hb
    · exact hl b hb
  · rcases f.fresh b hb with h1 | h1
    · simp at h1
    · cases hlv : h.live b with
      | false => rfl
      | true => have := w.live b hlv; omega

end Verif.Block
