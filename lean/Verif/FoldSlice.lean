import Verif.CopyApi
import Verif.Expr

/-!
# Slices of constant buffers (`slinky/builder/simplify.cc`, `fold_slice_of_const_buffer`)
-/

namespace Slinky.FS

open Slinky Slinky.Copy

/-! ## The code -/

/-- buffer.h:73-74 `dim(min, max)`: the stride is `auto_stride`, not folded. -/
def point (v : Int) : Dim := ⟨v, v, 2 ^ 63 - 1, Dim.unfolded⟩

/-- simplify.cc:220-227: the indices, if they are all undefined or constants. Indices beyond the rank are ignored. -/
def indices : List Dim → List Expr → Option (List (Option Int))
  | _ :: ds, .undef :: es => (indices ds es).map (none :: ·)
  | _ :: ds, .const c :: es => (indices ds es).map (some c :: ·)
  | _ :: _, _ :: _ => none
  | _, _ => some []

/-- simplify.cc:224-226 `is_slice_in_bounds` -/
def inBounds : List Dim → List (Option Int) → Bool
  | d :: ds, some v :: vs => d.contains v && inBounds ds vs
  | _ :: ds, none :: vs => inBounds ds vs
  | _, _ => true

/-- simplify.cc:231-240: the dims, where a dimension that is sliced is one point. -/
def pin : List Dim → List (Option Int) → List Dim
  | _ :: ds, some v :: vs => point v :: pin ds vs
  | d :: ds, none :: vs => d :: pin ds vs
  | ds, _ => ds

/-- simplify.cc:252-258: slice the dimensions, the last first. The first index is of dimension `d`. -/
def sliceBack : Nat → List (Option Int) → Buf → Buf
  | _, [], b => b
  | d, none :: vs, b => sliceBack (d + 1) vs b
  | d, some v :: vs, b => (sliceBack (d + 1) vs b).slice d v

/-- buffer.cc:91-111 `raw_buffer::make`, with dims; `new`: the memory that is allocated (after the dims, aligned). -/
def make (new : Int) (elem : Int) (dims : List Dim) : Buf := ⟨if (Buf.mk none elem dims).sizeBytes = 0 then none else some new, elem, dims⟩

/-- simplify.cc:218-260 `fold_slice_of_const_buffer`: the buffer, and the memory after it. `none`: the copy has undefined behaviour; `some none`: an index is
not constant. -/
def foldSlice (new : Int) (cb : Buf) (es : List Expr) (m : Copy.Mem) : Option (Option (Buf × Copy.Mem)) :=
  match indices cb.dims es with
  | none => some none
  | some vs =>
    if inBounds cb.dims vs then
      let b := make new cb.elem (pin cb.dims vs)
      (copy cb b ⟨none, cb.elem, []⟩ m).map fun m' => some (sliceBack 0 vs b, m')
    else some (some (sliceBack 0 vs ⟨none, cb.elem, pin cb.dims vs⟩, m))

/-! ## Specification -/

/-- The index of the constant, given an index of the slice. -/
def fill : List (Option Int) → List Int → List Int
  | some v :: vs, is => v :: fill vs is
  | none :: vs, i :: is => i :: fill vs is
  | none :: _, [] => []
  | [], is => is

/-- The dimensions that are not sliced. -/
def keep : List (Option Int) → List Dim → List Dim
  | some _ :: vs, _ :: ds => keep vs ds
  | none :: vs, d :: ds => d :: keep vs ds
  | _, ds => ds

/-- The constant: it has elements, the size of the slice does not overflow, it is not folded (unless it is a broadcast); the dimensions that are not sliced have no stride 0, and elements of the
slice do not overlap. The memory `new` of the result does not overlap with the constant. -/
structure Ok (new : Int) (cb : Buf) (vs : List (Option Int)) : Prop where
  base : cb.base.isSome
  elem : 0 < cb.elem
  nonempty : ∃ is, InB (keep vs cb.dims) is
  size : (Buf.mk none cb.elem (pin cb.dims vs)).sizeBytes ≠ 0
  plain : ∀ d ∈ cb.dims, d.fold = Dim.unfolded ∨ d.stride = 0
  kept : ∀ d ∈ keep vs cb.dims, d.fold = Dim.unfolded ∧ d.stride ≠ 0
  apart : ∀ is js a b, InB (keep vs cb.dims) is → InB (keep vs cb.dims) js → is ≠ js → cb.address (fill vs is) = some a → cb.address (fill vs js) = some b →
    a + cb.elem ≤ b ∨ b + cb.elem ≤ a
  fresh : ∀ is js a, InB (keep vs cb.dims) is → cb.contains js = true → cb.address js = some a →
    new + Buf.offset (keep vs cb.dims) is + cb.elem ≤ a ∨ a + cb.elem ≤ new + Buf.offset (keep vs cb.dims) is

end Slinky.FS
