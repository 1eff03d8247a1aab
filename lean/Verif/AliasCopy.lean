import Verif.Buffer
import Mathlib.Algebra.BigOperators.Group.Finset.Basic
import Mathlib.Data.Fintype.BigOperators
import Mathlib.Data.List.FinRange

/-!
# Replacing an allocation by an alias of the other buffer of a copy (`slinky/builder/optimizations.cc`, `copy_aliaser`)

Expressions are their values: the dimensions of the two buffers are numbers, and what the code proves (`prove_true`) is what is true. An index of the source
of the copy is `scale * dst_x[d] + offset`, or a constant. Simplifications: there is no padding; the allocation that is replaced does not ask for strides; no
other alias was made before; the buffers are not in crops, slices or transposes.
-/

namespace Slinky.AC

open Finset

/-- The index of the source of a copy: `scale * dst_x[dim] + off`, or the constant `off`. -/
structure Lin (n : Nat) where
  dim : Option (Fin n)
  scale : Int
  off : Int

/-- A buffer (buffer.h:173-470 `raw_buffer`) with `n` dimensions. `base = none`: `nullptr`. -/
structure FBuf (n : Nat) where
  base : Option Int
  dims : Fin n → Dim

/-- buffer.h:281 `address_at` -/
def FBuf.address {n : Nat} (b : FBuf n) (x : Fin n → Int) : Option Int := b.base.map (· + ∑ d, (b.dims d).flatOffset (x d))

/-- evaluate.cc:207-225 `buffer_at` -/
def FBuf.bufferAt {n : Nat} (b : FBuf n) (x : Fin n → Int) : Option Int :=
  if ∀ d, (b.dims d).contains (x d) = true then b.address x else none

/-! ## The code -/

variable {m n : Nat}

/-- optimizations.cc:176-190 `is_copy_dst_dim`: the only index of the source that depends on the index `d` of the destination (`some none`: there is none). -/
def dstDim (c : Fin m → Lin n) (d : Fin n) : Option (Option (Fin m)) :=
  match (List.finRange m).filter (fun s => decide ((c s).dim = some d)) with
  | [] => some none
  | [s] => some (some s)
  | _ => none

/-- optimizations.cc:156 `is_copy`: `at` (`align_up`: arithmetic.h) -/
def copyAt (l : Lin n) (s : Dim) : Int := (s.min - l.off + l.scale - 1) / l.scale * l.scale + l.off

/-- optimizations.cc:157 `is_copy`: `src_dim.bounds.min` -/
def copyMin (l : Lin n) (s : Dim) : Int := (copyAt l s - l.off) / l.scale

/-- optimizations.cc:438-456 `alias_compatible`: fold factors -/
def foldOk (alloc al : Dim) : Bool :=
  if alloc.fold ≠ Dim.unfolded then
    decide (al.fold = Dim.unfolded) || (decide (alloc.fold ≤ al.fold) && decide (al.min % al.fold = alloc.min % alloc.fold))
  else decide (al.fold = Dim.unfolded) || decide (alloc.extent ≤ al.fold)

/-- optimizations.cc:732-734 `alias_copy_dst`: where the alias starts in the source -/
def dstAt (c : Fin m → Lin n) (S : Fin m → Dim) (D : Fin n → Dim) (s : Fin m) : Int :=
  match (c s).dim with
  | none => (c s).off
  | some d => copyAt (c s) (S s) - copyMin (c s) (S s) + (D d).min

/-- optimizations.cc:743 `alias_copy_dst`, 118-125 and 150-151 `is_copy`: the dimension `d` of the alias -/
def dstDims (c : Fin m → Lin n) (S : Fin m → Dim) (D : Fin n → Dim) (d : Fin n) : Dim :=
  match dstDim c d with
  | some (some s) => ⟨(D d).min, (D d).max, (S s).stride * (c s).scale, (S s).fold⟩
  | _ => ⟨(D d).min, (D d).max, 0, Dim.unfolded⟩

/-- optimizations.cc:703-753 `alias_copy_dst`, 590-604 `visit(const allocate*)`: the allocation `D` that is the destination of a copy of `src` is replaced
by an alias of `src`. -/
def aliasDst (c : Fin m → Lin n) (src : FBuf m) (D : Fin n → Dim) : Option (FBuf n) :=
  if (∀ d, (dstDim c d).isSome) ∧ (∀ s, 0 ≤ (c s).scale) ∧ (∀ d, foldOk (D d) (dstDims c src.dims D d) = true) then
    some ⟨src.bufferAt (dstAt c src.dims D), dstDims c src.dims D⟩
  else none

/-- optimizations.cc:755-812 `alias_copy_src`: does the code handle the copy? Every index of the destination is in one index of the source, with an offset, and
all dimensions of the source are found. -/
def srcOk (c : Fin m → Lin n) : Bool :=
  decide (∀ d, (match dstDim c d with
    | some (some s) => decide ((c s).scale = 1)
    | _ => false) = true) && decide (∀ s, (c s).dim.isSome)

/-- optimizations.cc:798 `alias_copy_src`: where the alias starts in the destination -/
def srcAt (c : Fin m → Lin n) (S : Fin m → Dim) (d : Fin n) : Int :=
  match dstDim c d with
  | some (some s) => (S s).min - (c s).off
  | _ => 0

/-- optimizations.cc:793-797 `alias_copy_src`: the dimension `s` of the alias -/
def srcDims (c : Fin m → Lin n) (S : Fin m → Dim) (D : Fin n → Dim) (s : Fin m) : Dim :=
  match (c s).dim with
  | some d => ⟨max (S s).min ((D d).min + (c s).off), min (S s).max ((D d).max + (c s).off), (D d).stride, (D d).fold⟩
  | none => S s

/-- optimizations.cc:362-380 `alias_compatible`: is the allocation in bounds of the alias? -/
def inBounds (c : Fin m → Lin n) (S : Fin m → Dim) (D : Fin n → Dim) : Bool :=
  decide (∀ s, (srcDims c S D s).min ≤ (S s).min ∧ (S s).max ≤ (srcDims c S D s).max)

/-- optimizations.cc:554-561 `visit(const allocate*)`: the dimension `d` of the destination is made bigger. -/
def growDim (c : Fin m → Lin n) (S : Fin m → Dim) (D : Fin n → Dim) (d : Fin n) : Dim :=
  match dstDim c d with
  | some (some s) =>
    { D d with
      min := min (D d).min (srcAt c S d)
      max := max (D d).max (srcAt c S d + ((srcDims c S D s).max - (srcDims c S D s).min + 1) - 1) }
  | _ => D d

/-- optimizations.cc:544-563, 362-373: the bounds that the destination is allocated with. `none`: the source is not replaced; `fixed`: the destination is an input or
an output. -/
def aliasSrcDims (c : Fin m → Lin n) (S : Fin m → Dim) (D : Fin n → Dim) (fixed : Bool) : Option (Fin n → Dim) :=
  if srcOk c = true ∧ (∀ s, foldOk (S s) (srcDims c S D s) = true) then
    if inBounds c S D = true then some D
    else if fixed then none
    else some (growDim c S D)
  else none

/-- optimizations.cc:590-604 `visit(const allocate*)`: the alias of the destination `dst` (that is allocated with the bounds of `aliasSrcDims`) that replaces
the allocation `S` of the source. -/
def aliasSrc (c : Fin m → Lin n) (S : Fin m → Dim) (D : Fin n → Dim) (dst : FBuf n) : FBuf m :=
  ⟨dst.bufferAt (srcAt c S), fun s => { srcDims c S D s with min := (S s).min, max := (S s).max }⟩

/-! ## Specification -/

/-- The copy: the element of the destination at `x` is the element of the source at this index. -/
def srcIdx (c : Fin m → Lin n) (x : Fin n → Int) (s : Fin m) : Int :=
  match (c s).dim with
  | none => (c s).off
  | some d => (c s).scale * x d + (c s).off

/-- `x` is an index of a buffer with the dimensions `D`. -/
def Within (D : Fin n → Dim) (x : Fin n → Int) : Prop := ∀ d, (D d).min ≤ x d ∧ x d ≤ (D d).max

end Slinky.AC
