import Verif.CopyApi

/-!
# C26: examples and counterexamples

The examples show that the conditions of the theorems in `CopyApi` are met by buffers that are not trivial. The counterexamples show why the
conditions that say "partial" are there: without them, the property is false of the code.
-/

namespace Slinky
namespace Copy

open Track (InR PlainB Cov FirstOk Trackable)

/-- The destination: 4 x 2 elements of 1 byte at address 0, the rows 4 bytes apart. -/
def exDst : Buf := ⟨some 0, 1, [⟨0, 3, 1, -1⟩, ⟨0, 1, 4, -1⟩]⟩

/-- The source: 2 x 1 elements at address 100, in bounds of the destination only in part. -/
def exSrc : Buf := ⟨some 100, 1, [⟨1, 2, 1, -1⟩, ⟨1, 1, 2, -1⟩]⟩

/-- A source that covers the destination, transposed, with a broadcast. -/
def exWide : Buf := ⟨some 100, 1, [⟨-1, 5, 3, -1⟩, ⟨0, 0, 0, 0⟩]⟩

/-- The padding: a scalar at address 200. -/
def exPad : Buf := ⟨some 200, 1, []⟩

theorem exDst_inB {is : List Int} (h : exDst.InBounds is) : ∃ x y, is = [x, y] ∧ 0 ≤ x ∧ x ≤ 3 ∧ 0 ≤ y ∧ y ≤ 1 := by
  have h : InB exDst.dims is := h
  unfold exDst at h
  match is, h with
  | [x, y], h =>
    simp [InB] at h
    exact ⟨x, y, rfl, by omega, by omega, by omega, by omega⟩

theorem exDst_addr (x y : Int) : exDst.address [x, y] = some (x + y * 4) := by
  simp [Buf.address, exDst, Buf.offset, Dim.flatOffset, Dim.unfolded]

theorem exDst_good : GoodDst exDst where
  first := by
    intro d hd
    simp [exDst] at hd
    rcases hd with rfl | rfl <;> simp [Dim.unfolded]
  elem := by decide
  nonempty := ⟨[0, 0], by simp [Buf.InBounds, exDst, InB]⟩
  base := by decide

theorem exDst_separate {f : List Int → Option Int} (h : ∀ is a, exDst.InBounds is → f is = some a → 8 ≤ a) : Separate exDst f where
  dst_dst := by
    intro is js a b hi hj hne ha hb
    obtain ⟨x, y, rfl, _⟩ := exDst_inB hi
    obtain ⟨z, w, rfl, _⟩ := exDst_inB hj
    rw [exDst_addr] at ha hb
    simp only [Option.some.injEq] at ha hb
    have : ¬ (x = z ∧ y = w) := fun h => hne (by rw [h.1, h.2])
    unfold Apart
    show a + 1 ≤ b ∨ b + 1 ≤ a
    omega
  dst_src := by
    intro is js a b hi hj ha hb
    obtain ⟨x, y, rfl, _⟩ := exDst_inB hi
    rw [exDst_addr] at ha
    simp only [Option.some.injEq] at ha
    have := h js b hj hb
    unfold Apart
    show a + 1 ≤ b ∨ b + 1 ≤ a
    omega

theorem exPad_view (is : List Int) : exPad.view is = some 200 := by
  simp [Buf.view, exPad, Buf.contains, Buf.containsL, Buf.address, Buf.offset]

theorem exSrc_view {x y a : Int} (h : exSrc.view [x, y] = some a) : 100 ≤ a ∧ a ≤ 103 := by
  simp [Buf.view, exSrc, Buf.contains, Buf.containsL, Dim.contains, Dim.containsI, Buf.address, Buf.offset, Dim.flatOffset, Dim.unfolded] at h
  omega

theorem exWide_view {x y a : Int} (h : exWide.view [x, y] = some a) : 100 ≤ a := by
  simp [Buf.view, exWide, Buf.contains, Buf.containsL, Dim.contains, Dim.containsI, Buf.address, Buf.offset, Dim.flatOffset, Dim.unfolded] at h
  omega

/-- `copy_correct_partial` applies to a broadcast source. -/
example (m : Mem) : ∃ m', copy exWide exDst ⟨none, 1, []⟩ m = some m' ∧ CopiedFrom exDst exWide.view m m' := by
  refine copy_correct_partial exWide exDst ⟨none, 1, []⟩ m exDst_good rfl ?_ (by decide) rfl ?_ (.inl rfl) (exDst_separate ?_)
  · intro d hd
    simp [exWide] at hd
    rcases hd with rfl | rfl <;> simp [Dim.Plain, Dim.unfolded]
  · intro is hi
    obtain ⟨x, y, rfl, _⟩ := exDst_inB hi
    simp [exWide, Buf.contains, Buf.containsL, Dim.contains, Dim.containsI]
    omega
  · intro is a hi ha
    obtain ⟨x, y, rfl, _⟩ := exDst_inB hi
    have := exWide_view ha
    omega

/-- `copy_padded_partial` applies to a source that is smaller than the destination. -/
example (m : Mem) : ∃ m', copy exSrc exDst exPad m = some m' ∧ CopiedFrom exDst (paddedSource exSrc exPad) m m' := by
  refine copy_padded_partial exSrc exDst exPad m exDst_good rfl ?_ (.inl ?_) (by decide) (by decide) rfl rfl ?_ (by decide) ?_ rfl (exDst_separate ?_)
  · intro d hd
    simp [exSrc] at hd
    rcases hd with rfl | rfl <;> simp [Dim.Plain, Dim.unfolded]
  · decide
  · intro d hd
    simp [exPad] at hd
  · intro is hi
    simp [exPad, Buf.contains, Buf.containsL]
  · intro is a hi ha
    obtain ⟨x, y, rfl, _⟩ := exDst_inB hi
    unfold paddedSource at ha
    split at ha
    · have := exSrc_view ha
      omega
    · rw [exPad_view] at ha
      simp only [Option.some.injEq] at ha
      omega

/-- The part of the destination that is in bounds. -/
def exPart : Buf := ⟨some 5, 1, [⟨1, 2, 1, -1⟩, ⟨1, 1, 4, -1⟩]⟩

/-- `copy_in_place_partial` applies to a source that is a part of the destination. -/
example (m : Mem) : ∃ m', copy exPart exDst exPad m = some m' ∧ CopiedFrom exDst (paddingSource exPart.dims exPad) m m' := by
  refine copy_in_place_partial exPart exDst exPad m exDst_good rfl ?_ (.inl ?_) (by decide) (by decide) rfl rfl ?_ (by decide) ?_ rfl ?_ (exDst_separate ?_)
  · intro d hd
    simp [exPart] at hd
    rcases hd with rfl | rfl <;> simp [Dim.Plain, Dim.unfolded]
  · decide
  · intro d hd
    simp [exPad] at hd
  · intro is hi
    simp [exPad, Buf.contains, Buf.containsL]
  · intro is hi hr
    obtain ⟨x, y, rfl, hx⟩ := exDst_inB hi
    simp [exPart, InR, Dim.isBroadcast] at hr
    have h1 : exPart.contains [x, y] = true := by simp [exPart, Buf.contains, Buf.containsL, Dim.contains, Dim.containsI]; omega
    have h2 : exDst.contains [x, y] = true := by simp [exDst, Buf.contains, Buf.containsL, Dim.contains, Dim.containsI]; omega
    simp only [Buf.view, h1, h2, if_true]
    simp [exPart, exDst, Buf.address, Buf.offset, Dim.flatOffset, Dim.unfolded]
    omega
  · intro is a hi ha
    unfold paddingSource at ha
    split at ha
    · simp at ha
    · rw [exPad_view] at ha
      simp only [Option.some.injEq] at ha
      omega

/-- `pad_correct_partial` applies to bounds in the middle of the destination. -/
example (m : Mem) : ∃ m', pad [⟨1, 2, 1, -1⟩] exDst exPad m = some m' ∧ CopiedFrom exDst (outsideSource [⟨1, 2, 1, -1⟩] exPad) m m' := by
  refine pad_correct_partial [⟨1, 2, 1, -1⟩] exDst exPad m exDst_good ?_ rfl ?_ (by decide) ?_ rfl (exDst_separate ?_)
  · decide
  · intro d hd
    simp [exPad] at hd
  · intro is hi
    simp [exPad, Buf.contains, Buf.containsL]
  · intro is a hi ha
    unfold outsideSource at ha
    split at ha
    · simp at ha
    · rw [exPad_view] at ha
      simp only [Option.some.injEq] at ha
      omega

/-! ### Counterexamples -/

/-- If `dst` has no elements, but its first dimension is not empty, and is not in the bounds of `src`, the assertion at buffer.cc:374 fails,
although there is nothing to copy. -/
theorem copy_empty_counterexample (m : Mem) :
    (∀ is, ¬ (⟨some 0, 1, [⟨0, 3, 1, -1⟩, ⟨0, -1, 4, -1⟩]⟩ : Buf).InBounds is) ∧
    copy ⟨some 100, 1, [⟨1, 2, 1, -1⟩, ⟨0, 0, 2, -1⟩]⟩ ⟨some 0, 1, [⟨0, 3, 1, -1⟩, ⟨0, -1, 4, -1⟩]⟩ ⟨none, 1, []⟩ m = none := by
  constructor
  · intro is h
    have h : InB [⟨0, 3, 1, -1⟩, ⟨0, -1, 4, -1⟩] is := h
    match is, h with
    | [x, y], h =>
      simp [InB] at h
      omega
  · rfl

/-- A source with one dimension, with the bounds of the first dimension of `dst`, and stride 0. The other dimension of `dst` is an implicit
broadcast, so all the elements of `dst` are in bounds. -/
def bugSrc : Buf := ⟨some 100, 1, [⟨0, 1, 0, -1⟩]⟩

/-- The destination: 2 x 2 elements. -/
def bugDst : Buf := ⟨some 0, 1, [⟨0, 1, 1, -1⟩, ⟨0, 1, 2, -1⟩]⟩

/-- The index `[0, 1]` is in the bounds of `src`, but the element is padding after the copy: `optimize_dims` has fused the dimensions of `dst`
to one from 0 to 3, but the dimension of `src` is still from 0 to 1, because the dimension it is fused with is implicit. -/
theorem copy_pad_counterexample :
    bugDst.InBounds [0, 1] ∧ InR bugSrc.dims [0, 1] ∧ bugSrc.view [0, 1] = some 100 ∧ bugDst.view [0, 1] = some 2 ∧
    ∃ m : Mem, m 100 = 1 ∧ m 200 = 9 ∧ (copy bugSrc bugDst exPad m).map (fun m' => m' 2) = some 9 := by
  refine ⟨by simp [Buf.InBounds, bugDst, InB], by simp [bugSrc, InR], by decide +kernel, by decide +kernel, ?_⟩
  exact ⟨fun a => if a = 100 then 1 else if a = 200 then 9 else 0, rfl, rfl, by decide +kernel⟩

/-- So the theorem without the condition `Trackable` is false, although the elements are separate. -/
theorem copy_pad_false : ¬ ∀ m m' : Mem, copy bugSrc bugDst exPad m = some m' → CopiedFrom bugDst (paddedSource bugSrc exPad) m m' := by
  intro h
  obtain ⟨h1, h2, h3, h4, m, h5, h6, h7⟩ := copy_pad_counterexample
  cases hc : copy bugSrc bugDst exPad m with
  | none => rw [hc] at h7; simp at h7
  | some m' =>
    rw [hc] at h7
    simp only [Option.map_some, Option.some.injEq] at h7
    obtain ⟨a, ha, hk⟩ := (h m m' hc).elems [0, 1] 100 h1 (by unfold paddedSource; rw [if_pos h2, h3])
    have ha2 : a = 2 := by
      have : bugDst.address [0, 1] = some 2 := by decide +kernel
      rw [this] at ha
      simp only [Option.some.injEq] at ha
      exact ha.symm
    have := hk 0 (by decide) (by decide)
    rw [ha2] at this
    simp only [Int.add_zero] at this
    rw [h7, h5] at this
    exact absurd this (by decide)

/-- The dimension of `in_bounds` is from 0 to 0 with a stride, so it is not a broadcast; but `pad` sets its stride to 0, so that it becomes
one, and the element at `[1]`, which is out of bounds, is not padded. -/
theorem pad_zero_counterexample :
    ¬ InBoundsOf [⟨0, 0, 1, -1⟩] [1] ∧ (⟨some 0, 1, [⟨0, 3, 1, -1⟩]⟩ : Buf).InBounds [1] ∧
    ∃ m : Mem, m 200 = 9 ∧ m 1 = 0 ∧ (pad [⟨0, 0, 1, -1⟩] ⟨some 0, 1, [⟨0, 3, 1, -1⟩]⟩ exPad m).map (fun m' => m' 1) = some 0 := by
  refine ⟨fun h => ?_, by simp [Buf.InBounds, InB], fun a => if a = 200 then 9 else 0, rfl, rfl, by decide +kernel⟩
  have := h 0 ⟨0, 0, 1, -1⟩ 1 rfl rfl
  simp [Dim.isBroadcast] at this

end Copy
end Slinky
