import Verif.FoldSliceThm

/-!
# C64: slices of constant buffers. Examples
-/

namespace Slinky.FS

open Slinky Slinky.Copy

/-- 10 x 8 elements of 4 bytes, with 2 elements of padding in each row. -/
def exCb : Buf := ⟨some 1000, 4, [⟨0, 9, 4, -1⟩, ⟨5, 12, 48, -1⟩]⟩

theorem exCb_addr (x y : Int) : exCb.address [x, y] = some (1000 + (x * 4 + (y - 5) * 48)) := by
  simp only [Buf.address, exCb, Buf.offset, Dim.flatOffset, Dim.unfolded]; norm_num

/-- A row: the slice of dimension 1 at 7. -/
theorem ex_indices : indices exCb.dims [.undef, .const 7] = some [none, some 7] := by rfl

theorem ex_keep : keep [none, some 7] exCb.dims = [⟨0, 9, 4, -1⟩] := by rfl

theorem ex_inB {is : List Int} (h : InB (keep [none, some 7] exCb.dims) is) : ∃ x, is = [x] ∧ 0 ≤ x ∧ x ≤ 9 := by
  rw [ex_keep] at h
  match is, h with
  | [x], h => simp [InB] at h; exact ⟨x, rfl, h⟩

theorem ex_ok : Ok 5000 exCb [none, some 7] where
  base := by decide
  elem := by decide
  nonempty := ⟨[0], by simp [ex_keep, InB]⟩
  size := by decide +kernel
  plain := by intro d hd; simp [exCb] at hd; rcases hd with rfl | rfl <;> exact .inl rfl
  kept := by intro d hd; simp [ex_keep] at hd; subst hd; simp [Dim.unfolded]
  apart := by
    intro is js a b hi hj hne ha hb
    obtain ⟨x, rfl, h1, h2⟩ := ex_inB hi
    obtain ⟨y, rfl, h3, h4⟩ := ex_inB hj
    simp only [fill, exCb_addr, Option.some.injEq] at ha hb
    have : x ≠ y := fun e => hne (by rw [e])
    show a + 4 ≤ b ∨ b + 4 ≤ a
    omega
  fresh := by
    intro is js a hi hc ha
    obtain ⟨x, rfl, h1, h2⟩ := ex_inB hi
    rw [ex_keep]
    simp only [Buf.offset, Dim.flatOffset, Dim.unfolded, or_true, if_true]
    right
    show a + 4 ≤ _
    match js, hc, ha with
    | [], _, ha => simp [Buf.address, exCb, Buf.offset] at ha; omega
    | [u], hc, ha =>
      simp [Buf.contains, Buf.containsL, exCb, Dim.contains, Dim.containsI] at hc
      simp [Buf.address, exCb, Buf.offset, Dim.flatOffset, Dim.unfolded] at ha
      omega
    | [u, v], hc, ha =>
      simp [Buf.contains, Buf.containsL, exCb, Dim.contains, Dim.containsI] at hc
      rw [exCb_addr] at ha
      simp only [Option.some.injEq] at ha
      omega
    | u :: v :: t :: r, hc, ha =>
      simp [Buf.contains, Buf.containsL, exCb, Dim.contains, Dim.containsI] at hc
      simp [Buf.address, exCb, Buf.offset, Dim.flatOffset, Dim.unfolded] at ha
      omega

/-- The theorem applies: the folded slice is the row. -/
example (m : Copy.Mem) : ∃ b m', foldSlice 5000 exCb [.undef, .const 7] m = some (some (b, m')) ∧ b.dims = (sliceBack 0 [none, some 7] exCb).dims ∧
    b.elem = (sliceBack 0 [none, some 7] exCb).elem ∧ (b.base.isSome ↔ (sliceBack 0 [none, some 7] exCb).base.isSome) ∧
    ∀ is a s, b.InBounds is → b.address is = some a → (sliceBack 0 [none, some 7] exCb).address is = some s → ∀ k, 0 ≤ k → k < exCb.elem → m' (a + k) = m (s + k) :=
  foldSlice_same_partial ex_indices ex_ok

/-- It is the row at 1096: `1000 + (7 - 5) * 48`. -/
example : sliceBack 0 [none, some 7] exCb = ⟨some 1096, 4, [⟨0, 9, 4, -1⟩]⟩ := by rfl

/-- Out of bounds, there is no data. -/
example (m : Copy.Mem) : foldSlice 5000 exCb [.undef, .const 13] m = some (some (⟨none, 4, [⟨0, 9, 4, -1⟩]⟩, m)) :=
  foldSlice_outOfBounds (vs := [none, some 13]) (by rfl) (by rfl)

/-- An index that is not a constant is not folded. -/
example (m : Copy.Mem) : foldSlice 5000 exCb [.undef, .v 3] m = some none := by rfl

/-- A constant whose rows are reversed. -/
def negCb : Buf := ⟨some 1012, 4, [⟨0, 3, -4, -1⟩, ⟨0, 1, 16, -1⟩]⟩

/-- Counterexample: if a stride is negative, the folded slice (and any copy of the constant, `raw_buffer::make`) is written before the memory that was
allocated for it. -/
theorem negative_stride_counterexample :
    (foldSlice 5000 negCb [.undef, .const 1] (fun a => if a = 1024 then 9 else 0)).map (fun r => r.map fun r => (r.1, r.2 4996)) =
      some (some (⟨some 5000, 4, [⟨0, 3, -4, -1⟩]⟩, 9)) ∧
    (Buf.mk (some 5000) 4 [⟨0, 3, -4, -1⟩]).InBounds [1] ∧ (Buf.mk (some 5000) 4 [⟨0, 3, -4, -1⟩]).address [1] = some 4996 := by
  refine ⟨by decide +kernel, by simp [Buf.InBounds, InB], by rfl⟩

/-- Counterexample: a slice without elements has no data, but the slice of the constant has (which matters only for the address). -/
theorem empty_counterexample (m : Copy.Mem) :
    foldSlice 5000 ⟨some 1000, 4, [⟨0, 9, 4, -1⟩, ⟨0, -1, 40, -1⟩]⟩ [.const 3] m = some (some (⟨none, 4, [⟨0, -1, 40, -1⟩]⟩, m)) ∧
    sliceBack 0 [some 3] ⟨some 1000, 4, [⟨0, 9, 4, -1⟩, ⟨0, -1, 40, -1⟩]⟩ = ⟨some 1012, 4, [⟨0, -1, 40, -1⟩]⟩ := by
  refine ⟨by rfl, by rfl⟩

end Slinky.FS
