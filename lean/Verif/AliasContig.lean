import Verif.Buffer
import Verif.Copy

/-!
# Aliases of buffers that are copied by a call of `memcpy` (`slinky/builder/optimizations.cc`, `copy_aliaser`)

Simplifications: expressions are their values; the bounds of the two buffers are numbers.
-/

namespace Slinky.ACo

/-- optimizations.cc:661-671 `make_contiguous_dims`: dimensions with the bounds of a buffer, and ascending strides without gaps (`stride`: the size of an element) -/
def contiguous : Int → List Dim → List Dim
  | _, [] => []
  | stride, d :: r => ⟨d.min, d.max, stride, Dim.unfolded⟩ :: contiguous (stride * (d.max - d.min + 1)) r

/-- optimizations.cc:685, 693, 191-197 (`at`: `buffer_mins`), evaluate.cc:207-225 `buffer_at` -/
def atMins (b : Buf) : Option Int :=
  if b.contains (b.dims.map Dim.min) = true then b.address (b.dims.map Dim.min) else none

/-- optimizations.cc:333-340 `alias_compatible`, 590-604 `visit(const allocate*)`: the alias of `target` that replaces an allocation with the dimensions `dims`.
`shared`: the allocation was made bigger by another alias (`shared_alloc_syms`). -/
def alias_ (target : Buf) (elem : Int) (dims : List Dim) (shared : Bool) : Option Buf :=
  if shared then none else some ⟨atMins target, elem, contiguous elem dims⟩

/-! ## Specification -/

/-- The number of elements -/
def count : List Dim → Int
  | [] => 1
  | d :: r => (d.max - d.min + 1) * count r

/-- `x` is an index of an element. -/
def InB : List Dim → List Int → Prop
  | [], [] => True
  | d :: r, i :: x => d.min ≤ i ∧ i ≤ d.max ∧ InB r x
  | _, _ => False

/-- The index in the order of the elements: the first dimension is the innermost. -/
def flat : List Dim → List Int → Int
  | d :: r, i :: x => (i - d.min) + (d.max - d.min + 1) * flat r x
  | _, _ => 0

end Slinky.ACo
