/-
Byte-level memory used by the CircularBuffer and StackBuffer models.

A block of memory is a size and a total map from offsets to bytes; every access goes
through `read` / `write`, which return `none` (undefined behaviour) as soon as one byte of
the access lies outside `[0, size)`.
-/
namespace Verif

/-- A memory block obtained from `new unsigned char[size]` (or handed in by the user of a
raw buffer).  Bytes outside `[0,size)` exist only as a convenience of the encoding; they
cannot be observed through `read` and cannot be changed through `write`. -/
structure Mem where
  size : Int
  byte : Int → UInt8

namespace Mem

/-- Reading `n` bytes at offset `off` (the source side of a `memcpy`); `none` = out of
bounds. -/
def read (m : Mem) (off : Int) (n : Nat) : Option (List UInt8) :=
  if 0 ≤ off ∧ off + n ≤ m.size then
    some ((List.range n).map fun i : Nat => m.byte (off + (i : Int)))
  else none

/-- Writing bytes at offset `off` (the destination side of a `memcpy`); `none` = out of
bounds. -/
def write (m : Mem) (off : Int) (bs : List UInt8) : Option Mem :=
  if 0 ≤ off ∧ off + bs.length ≤ m.size then
    some { m with byte := fun j =>
            if off ≤ j ∧ j < off + bs.length then bs.getD (j - off).toNat 0 else m.byte j }
  else none

/-- `memmove(block+dst, block+src, n)` inside one block (overlap allowed).  A negative
count would be converted to a huge `size_t` in C++; it is undefined behaviour here. -/
def move (m : Mem) (dst src : Int) (n : Int) : Option Mem :=
  if 0 ≤ n then (m.read src n.toNat).bind fun bs => m.write dst bs else none

/-- a block with no bytes: what a null pointer can be used for -/
def null : Mem := ⟨0, fun _ => 0⟩

end Mem

/-- The four bytes `memcpy(p, &v, sizeof(int))` stores for the 32-bit two's complement
`int` value `v` on a little-endian machine. -/
def encI32 (v : Int) : List UInt8 :=
  let n := (v % 4294967296).toNat
  [UInt8.ofNat (n % 256), UInt8.ofNat (n / 256 % 256),
   UInt8.ofNat (n / 65536 % 256), UInt8.ofNat (n / 16777216 % 256)]

/-- The `int` obtained by `memcpy(&v, p, sizeof(int))` from four bytes. -/
def decI32 (bs : List UInt8) : Int :=
  let n : Nat := (bs.getD 0 0).toNat + 256 * (bs.getD 1 0).toNat
    + 65536 * (bs.getD 2 0).toNat + 16777216 * (bs.getD 3 0).toNat
  if n < 2147483648 then (n : Int) else (n : Int) - 4294967296

/-- Reading an `int` from memory. -/
def Mem.readI32 (m : Mem) (off : Int) : Option Int :=
  (m.read off 4).map decI32

/-- Writing an `int` to memory. -/
def Mem.writeI32 (m : Mem) (off : Int) (v : Int) : Option Mem :=
  m.write off (encI32 v)

/-! ### Lemmas -/

@[simp] theorem encI32_length (v : Int) : (encI32 v).length = 4 := rfl

theorem decI32_encI32 (v : Int) (h1 : -2147483648 ≤ v) (h2 : v < 2147483648) :
    decI32 (encI32 v) = v := by
  unfold decI32 encI32
  simp only [List.getD_cons_zero, List.getD_cons_succ, UInt8.toNat_ofNat', Nat.reducePow]
  split <;> omega

namespace Mem

theorem read_eq_some {m : Mem} {off : Int} {n : Nat} {bs : List UInt8} :
    m.read off n = some bs ↔
      (0 ≤ off ∧ off + n ≤ m.size ∧ bs.length = n ∧
        ∀ i : Nat, i < n → bs[i]? = some (m.byte (off + i))) := by
  unfold read
  constructor
  · intro h
    split at h
    · rename_i hb
      cases h
      refine ⟨hb.1, hb.2, by simp, ?_⟩
      intro i hi
      simp [hi]
    · cases h
  · rintro ⟨h0, h1, hl, hb⟩
    rw [if_pos ⟨h0, h1⟩]
    congr 1
    apply List.ext_getElem?
    intro i
    by_cases hi : i < n
    · rw [hb i hi]; simp [hi]
    · have : bs.length ≤ i := by omega
      simp [this, hi]

theorem read_bounds {m : Mem} {off : Int} {n : Nat} {bs : List UInt8}
    (h : m.read off n = some bs) : 0 ≤ off ∧ off + n ≤ m.size ∧ bs.length = n := by
  have := read_eq_some.1 h
  exact ⟨this.1, this.2.1, this.2.2.1⟩

theorem read_isSome {m : Mem} {off : Int} {n : Nat} (h0 : 0 ≤ off) (h1 : off + n ≤ m.size) :
    ∃ bs, m.read off n = some bs := by
  unfold read; rw [if_pos ⟨h0, h1⟩]; exact ⟨_, rfl⟩

/-- Reads depend only on the bytes in the range and on the bounds. -/
theorem read_congr {m m' : Mem} {off off' : Int} {n : Nat} {bs : List UInt8}
    (h : m.read off n = some bs) (h0 : 0 ≤ off') (h1 : off' + n ≤ m'.size)
    (hb : ∀ i : Nat, i < n → m'.byte (off' + i) = m.byte (off + i)) :
    m'.read off' n = some bs := by
  have h := read_eq_some.1 h
  refine read_eq_some.2 ⟨h0, h1, h.2.2.1, ?_⟩
  intro i hi
  rw [hb i hi]; exact h.2.2.2 i hi

theorem write_eq {m : Mem} {off : Int} {bs : List UInt8} (h0 : 0 ≤ off)
    (h1 : off + bs.length ≤ m.size) :
    ∃ m', m.write off bs = some m' := by
  unfold write; rw [if_pos ⟨h0, h1⟩]; exact ⟨_, rfl⟩

theorem write_spec {m m' : Mem} {off : Int} {bs : List UInt8} (h : m.write off bs = some m') :
    0 ≤ off ∧ off + bs.length ≤ m.size ∧ m'.size = m.size ∧
    (∀ j, (j < off ∨ off + bs.length ≤ j) → m'.byte j = m.byte j) ∧
    m'.read off bs.length = some bs := by
  unfold write at h
  split at h
  · rename_i hb
    cases h
    refine ⟨hb.1, hb.2, rfl, ?_, ?_⟩
    · intro j hj
      have : ¬ (off ≤ j ∧ j < off + bs.length) := by omega
      simp [this]
    · refine read_eq_some.2 ⟨hb.1, hb.2, rfl, ?_⟩
      intro i hi
      have h2 : off ≤ off + (i : Int) ∧ off + (i : Int) < off + bs.length := by omega
      have h3 : (off + (i : Int) - off).toNat = i := by omega
      simp only [h2, and_self, if_true, h3]
      simp [List.getD_eq_getElem?_getD, hi]
  · cases h

theorem write_size {m m' : Mem} {off : Int} {bs : List UInt8} (h : m.write off bs = some m') :
    m'.size = m.size := (write_spec h).2.2.1

/-- A read that does not overlap a write is unaffected. -/
theorem read_write_disjoint {m m' : Mem} {off off' : Int} {bs ds : List UInt8} {n : Nat}
    (hw : m.write off bs = some m') (hr : m.read off' n = some ds)
    (hd : off' + n ≤ off ∨ off + bs.length ≤ off') : m'.read off' n = some ds := by
  have hs := write_spec hw
  have hb := read_bounds hr
  refine read_congr hr hb.1 (by rw [hs.2.2.1]; exact hb.2.1) ?_
  intro i hi
  apply hs.2.2.2.1
  omega

theorem readI32_of_read {m : Mem} {off v : Int} (h : m.read off 4 = some (encI32 v))
    (h1 : -2147483648 ≤ v) (h2 : v < 2147483648) : m.readI32 off = some v := by
  simp [readI32, h, decI32_encI32 v h1 h2]

theorem read_append {m : Mem} {p : Int} {a b : List UInt8} :
    m.read p (a.length + b.length) = some (a ++ b) ↔
      m.read p a.length = some a ∧ m.read (p + a.length) b.length = some b := by
  rw [read_eq_some, read_eq_some, read_eq_some]
  constructor
  · rintro ⟨h0, h1, h2, h3⟩
    refine ⟨⟨h0, by omega, rfl, ?_⟩, by omega, by omega, rfl, ?_⟩
    · intro i hi
      rw [← h3 i (by omega), List.getElem?_append_left hi]
    · intro i hi
      have := h3 (a.length + i) (by omega)
      rw [List.getElem?_append_right (by omega)] at this
      rw [show a.length + i - a.length = i by omega] at this
      rw [this]
      congr 2; omega
  · rintro ⟨⟨h0, h1, h2, h3⟩, g0, g1, g2, g3⟩
    refine ⟨h0, by omega, by simp, ?_⟩
    intro i hi
    by_cases hia : i < a.length
    · rw [List.getElem?_append_left hia, h3 i hia]
    · rw [List.getElem?_append_right (by omega), g3 (i - a.length) (by omega)]
      congr 2; omega

theorem move_eq {m : Mem} {dst src n : Int} (hn : 0 ≤ n) (hs : 0 ≤ src)
    (hs' : src + n ≤ m.size) (hd : 0 ≤ dst) (hd' : dst + n ≤ m.size) :
    ∃ m', m.move dst src n = some m' ∧ m'.size = m.size ∧
      (∀ j, 0 ≤ j → j < n → m'.byte (dst + j) = m.byte (src + j)) ∧
      (∀ j, (j < dst ∨ dst + n ≤ j) → m'.byte j = m.byte j) := by
  obtain ⟨k, rfl⟩ := Int.eq_ofNat_of_zero_le hn
  obtain ⟨bs, hbs⟩ := read_isSome (m := m) (n := k) hs hs'
  have hb := read_eq_some.1 hbs
  obtain ⟨m', hm'⟩ := write_eq (m := m) (off := dst) (bs := bs) hd (by rw [hb.2.2.1]; exact hd')
  have hw := write_spec hm'
  have hr := read_eq_some.1 hw.2.2.2.2
  rw [hb.2.2.1] at hw hr
  refine ⟨m', ?_, hw.2.2.1, ?_, hw.2.2.2.1⟩
  · unfold move; rw [if_pos hn]; simp [hbs, hm']
  · intro j hj hjn
    obtain ⟨i, rfl⟩ := Int.eq_ofNat_of_zero_le hj
    have hi : i < k := by omega
    have e1 := hr.2.2.2 i hi
    have e2 := hb.2.2.2 i hi
    rw [e1] at e2
    exact Option.some.inj e2

end Mem
end Verif
