import Verif.Arith

/-!
# Model of `slinky/runtime/buffer.h`: dimensions and buffers

Simplifications, for the whole file: addresses and indices are unbounded integers (the C++ uses 64-bit integers, and
overflow is undefined behaviour; `validate_buffer` and `init_strides` check for it and are modelled with the checks in
`Strides.lean`); a buffer owns the list of its dimensions (in the C++, `dims` is a pointer to an array that is mutated in
place; aliasing of that array between buffers is not modelled).
-/

namespace Slinky

/-- buffer.h:59-147 `dim` -/
structure Dim where
  min : Int
  max : Int
  stride : Int
  fold : Int
deriving DecidableEq, Repr

namespace Dim

/-- buffer.h:70 `dim::unfolded` -/
def unfolded : Int := -1
/-- buffer.h:83,147 `dim::broadcast` -/
def broadcast : Dim := ⟨0, 0, 0, 0⟩
/-- buffer.h:89 `extent` -/
def extent (d : Dim) : Int := if d.max + 1 > d.min then d.max + 1 - d.min else 0
/-- buffer.h:92 `empty` -/
def empty (d : Dim) : Bool := decide (d.max < d.min)
/-- buffer.h:114-117 `translate` -/
def translate (d : Dim) (o : Int) : Dim := { d with min := d.min + o, max := d.max + o }
/-- buffer.h:120 `contains(a, b)` -/
def containsI (d : Dim) (a b : Int) : Bool := decide (d.stride = 0) || (decide (d.min ≤ a) && decide (b ≤ d.max))
/-- buffer.h:121 `contains(x)` -/
def contains (d : Dim) (x : Int) : Bool := d.containsI x x
/-- buffer.h:124-131 `flat_offset_bytes`. The positive modulus of the C++ is Euclidean (theorem
`euclideanModPositiveModulus_spec`). -/
def flatOffset (d : Dim) (i : Int) : Int :=
  if d.stride = 0 ∨ d.fold = unfolded then (i - d.min) * d.stride else (i % d.fold) * d.stride
/-- buffer.h:134-137 `is_folded(min, max)` -/
def isFolded (d : Dim) (a b : Int) : Bool :=
  if d.stride = 0 ∨ d.fold ≤ 0 then false else decide (a / d.fold ≠ b / d.fold)
/-- buffer.h:141 `is_broadcast` -/
def isBroadcast (d : Dim) : Bool := decide (d.min = 0 ∧ d.max = 0 ∧ d.stride = 0)
/-- buffer.h:143 `is_point()` -/
def isPoint (d : Dim) : Bool := decide (d.min = d.max)
/-- buffer.h:144 `is_point(x)` -/
def isPointAt (d : Dim) (x : Int) : Bool := decide (d.min = x ∧ d.max = x)

end Dim

/-- buffer.h:173-470 `raw_buffer`. `base = none`: `nullptr`. -/
structure Buf where
  base : Option Int
  elem : Int
  dims : List Dim
deriving DecidableEq, Repr

namespace Buf

/-- buffer.h `rank` -/
def rank (b : Buf) : Nat := b.dims.length
/-- buffer.h:238 `dim(i)`: dimensions beyond the rank are broadcasts -/
def dim (b : Buf) (i : Nat) : Dim := (b.dims[i]?).getD Dim.broadcast

/-- buffer.h:274-280 `flat_offset_bytes(span)`, and the overloads 175-200 -/
def offset : List Dim → List Int → Int
  | d :: ds, i :: is => d.flatOffset i + offset ds is
  | _, _ => 0
/-- buffer.h:281 `address_at(span)` (offset_bytes of a null pointer is null) -/
def address (b : Buf) (is : List Int) : Option Int := b.base.map (· + offset b.dims is)
/-- buffer.h:282-288 `contains(span)` -/
def containsL : List Dim → List Int → Bool
  | d :: ds, i :: is => d.contains i && containsL ds is
  | _, _ => true
/-- buffer.h:282-288 `contains(span)` -/
def contains (b : Buf) (is : List Int) : Bool := containsL b.dims is

/-- buffer.h:295-300 `translate(span)`; `none`: the assertion that there are at most `rank` offsets fails. -/
def translateL : List Dim → List Int → Option (List Dim)
  | ds, [] => some ds
  | [], _ :: _ => none
  | d :: ds, o :: os => (translateL ds os).map (d.translate o :: ·)
/-- buffer.h:295-300 `translate(span)` -/
def translate (b : Buf) (os : List Int) : Option Buf := (translateL b.dims os).map fun ds => { b with dims := ds }

/-- buffer.h:344-360 `slice(d)`: remove dimension `d` -/
def sliceDim (b : Buf) (d : Nat) : Buf :=
  if d ≥ b.rank then b else { b with dims := b.dims.eraseIdx d }
/-- buffer.h:361-377 `slice(d, at)` -/
def slice (b : Buf) (d : Nat) (x : Int) : Buf :=
  if d ≥ b.rank then b
  else
    let base := match b.base with
      | none => none
      | some p => if (b.dim d).contains x then some (p + (b.dim d).flatOffset x) else none
    sliceDim { b with base := base } d

/-- buffer.h:395-417 `crop(d, min, max)` -/
def crop (b : Buf) (d : Nat) (mn mx : Int) : Buf :=
  if d ≥ b.rank then b
  else
    let dd := b.dim d
    let mn := Max.max mn dd.min
    let mx := Min.min mx dd.max
    let base := match b.base with
      | none => none
      | some p =>
        if mx ≥ mn then (if dd.fold = Dim.unfolded then some (p + dd.flatOffset mn) else some p) else none
    { b with base := base, dims := b.dims.set d { dd with min := mn, max := mx } }

end Buf

/-! ### Slicing several dimensions at once -/

/-- The array of dimensions, while it is being mutated: `dims[j] = v`. -/
def setAt (a : Nat → Dim) (j : Nat) (v : Dim) : Nat → Dim := fun k => if k = j then v else a k

/-- buffer.h:333-335 `for (j = d; j + 1 < next_d; ++j) dims[j - s] = dims[j + 1]`, `n` iterations from `j`. -/
def moveDown (s : Nat) : Nat → Nat → (Nat → Dim) → (Nat → Dim)
  | 0, _, a => a
  | n + 1, j, a => moveDown s n (j + 1) (setAt a (j - s) (a (j + 1)))

/-- buffer.h:323-336: the loop over the remaining dimensions `ds`, the first of which is the `s`-th not leading one. Returns
the array and the number of dimensions sliced; `none`: an assertion fails. -/
def sliceLoop (rank : Nat) : List Nat → Nat → (Nat → Dim) → Option ((Nat → Dim) × Nat)
  | [], s, a => some (a, s)
  | d :: ds, s, a =>
    if d ≥ rank then some (a, s)
    else
      let next := ds.head?.getD rank
      if next > d ∧ next ≤ rank then
        sliceLoop rank ds (s + 1) (moveDown s (next - 1 - d) d a)
      else none

/-- buffer.h:310-317 the number of leading dimensions in `ds`. -/
def countLeading : Nat → List Nat → Nat
  | n, d :: ds => if d = n then countLeading (n + 1) ds else n
  | n, [] => n

/-- buffer.h:303-338 `slice(span ds)`: remove the dimensions `ds`, which are in ascending order. `none`: an assertion
fails. -/
def Buf.sliceDims (b : Buf) (ds : List Nat) : Option Buf :=
  match ds with
  | [d] => some (b.sliceDim d)
  | ds =>
    let lead := Min.min (countLeading 0 ds) b.rank
    (sliceLoop b.rank (ds.drop lead) 0 b.dim).map fun (a, s) =>
      { b with dims := (List.range (b.rank - (lead + s))).map fun k => a (lead + k) }

/-! ### Fusing and sorting dimensions -/

/-- buffer.h:764-772 `can_fuse(inner, outer)` -/
def canFuse (i o : Dim) : Bool :=
  if i.empty then false
  else if o.min = o.max ∧ o.stride ≠ 0 then true
  else
    let next := i.stride * (i.max - i.min + 1)
    if next ≠ o.stride then false else decide (next = 0) || decide (i.fold = Dim.unfolded)

/-- buffer.h:775-787 `fuse(inner, outer)` -/
def fuseDim (i o : Dim) : Dim :=
  if o.isBroadcast then o
  else
    let e := i.extent
    { min := o.min * e, max := (o.max + 1) * e - 1, stride := i.stride,
      fold := if o.fold ≠ Dim.unfolded then o.fold * e else i.fold }

/-- buffer.h:800-826 `fuse<fuse_type::remove>(inner, outer, buf)`. -/
def fuseBuf (inner outer : Nat) (b : Buf) : Buf :=
  if outer ≥ b.rank then b
  else if inner ≥ b.rank then b.sliceDim outer
  else ({ b with dims := b.dims.set inner (fuseDim (b.dim inner) (b.dim outer)) } : Buf).sliceDim outer

/-- buffer.h:832 `same_bounds(a, b)` -/
def Dim.sameBounds (a b : Dim) : Bool := decide (a.min = b.min ∧ a.max = b.max)

/-- buffer.h:835-839 `same_bounds(d, buf0, buf1, bufs...)`: only compared with the first buffer. -/
def sameBounds (d : Nat) (b0 : Buf) (bs : List Buf) : Bool :=
  bs.all fun b => decide (b0.rank ≤ d) || decide (b.rank ≤ d) || (b0.dim d).sameBounds (b.dim d)

/-- buffer.h:842-846 `can_fuse(inner, outer, bufs...)` -/
def canFuseAll (inner outer : Nat) (bs : List Buf) : Bool := bs.all fun b => canFuse (b.dim inner) (b.dim outer)

/-- A set of buffers: the first, and the others (`raw_buffer& buf, Bufs&... bufs`). -/
structure Bufs where
  first : Buf
  rest : List Buf
deriving DecidableEq, Repr

/-- All the buffers. -/
def Bufs.all (bs : Bufs) : List Buf := bs.first :: bs.rest
/-- Update all the buffers. -/
def Bufs.map (f : Buf → Buf) (bs : Bufs) : Bufs := ⟨f bs.first, bs.rest.map f⟩

/-- buffer.h:857-875 `attempt_fuse`; `ok inner outer`: the dimensions are in the same set. -/
def attemptFuse (ok : Nat → Nat → Bool) (inner outer : Nat) (bs : Bufs) : Bufs :=
  if ok inner outer && sameBounds inner bs.first bs.rest && canFuseAll inner outer bs.all then
    bs.map (fuseBuf inner outer)
  else bs

/-- buffer.h:930-932, 938-940 the loop of `fuse_contiguous_dims`: `for (d = n; d > 0; --d)`. -/
def fuseLoop (ok : Nat → Nat → Bool) : Nat → Bufs → Bufs
  | 0, bs => bs
  | d + 1, bs => fuseLoop ok d (attemptFuse ok d (d + 1) bs)

/-- buffer.h:927-942 `fuse_contiguous_dims` (the number of fused dimensions is not modelled) -/
def fuseContiguous (ok : Nat → Nat → Bool) (bs : Bufs) : Bufs := fuseLoop ok (bs.first.rank - 1) bs

/-- `std::swap(l[i], l[j])` -/
def swapL {α : Type} (l : List α) (i j : Nat) : List α :=
  match l[i]?, l[j]? with
  | some a, some b => (l.set i b).set j a
  | _, _ => l

/-- buffer.h:877-882 `swap_dims` -/
def swapDims (i j : Nat) (b : Buf) : Buf := { b with dims := swapL b.dims i j }

/-- buffer.h:907-913 `sort_dims`, the inner loop over `j` (`n` iterations); also returns `modified`. -/
def sortInner (ok : Nat → Nat → Bool) (i : Nat) : Nat → Nat → Bufs × Bool → Bufs × Bool
  | 0, _, bs => bs
  | n + 1, j, (bs, m) =>
    if ok i j && decide ((bs.first.dim i).stride > (bs.first.dim j).stride) then
      sortInner ok i n (j + 1) (bs.map (swapDims i j), true)
    else sortInner ok i n (j + 1) (bs, m)

/-- buffer.h:906-914 `sort_dims`, the outer loop over `i` (`n` iterations). -/
def sortOuter (ok : Nat → Nat → Bool) (rank : Nat) : Nat → Nat → Bufs × Bool → Bufs × Bool
  | 0, _, bs => bs
  | n + 1, i, bs => sortOuter ok rank n (i + 1) (sortInner ok i (rank - (i + 1)) (i + 1) bs)

/-- buffer.h:900 `std::min({buf.rank, bufs.rank...})` -/
def Bufs.minRank (bs : Bufs) : Nat := bs.rest.foldl (fun r b => Min.min r b.rank) bs.first.rank
/-- buffer.h:961 `std::max({buf.rank, bufs.rank...})` -/
def Bufs.maxRank (bs : Bufs) : Nat := bs.rest.foldl (fun r b => Max.max r b.rank) bs.first.rank

/-- buffer.h:896-920 `sort_dims`; the result also says if the order of the dimensions was changed. -/
def sortDims (ok : Nat → Nat → Bool) (bs : Bufs) : Bufs × Bool :=
  sortOuter ok bs.minRank (bs.minRank - 1) 0 (bs, false)

/-- buffer.h:945-953 `optimize_dims(dim_sets, buf, bufs...)` -/
def optimizeDimsSets (ok : Nat → Nat → Bool) (bs : Bufs) : Bufs :=
  match sortDims ok (fuseContiguous ok bs) with
  | (bs, true) => fuseContiguous ok bs
  | (bs, false) => bs

/-- buffer.h:963-970 the loop that removes dimensions of extent 1: `for (d = n - 1; d >= 0; --d)`. -/
def slicePoints : Nat → Bufs → Bufs
  | 0, bs => bs
  | d + 1, bs =>
    let x := (bs.first.dim d).min
    slicePoints d
      (if (bs.first.dim d).isPoint && bs.rest.all (fun b => (b.dim d).isPointAt x) then bs.map (·.slice d x) else bs)

/-- buffer.h:955-983 `optimize_dims(buf, bufs...)` -/
def optimizeDims (bs : Bufs) : Bufs :=
  let ok := fun _ _ => true
  match sortDims ok (fuseContiguous ok (fuseContiguous ok (slicePoints bs.maxRank bs))) with
  | (bs, true) => fuseContiguous ok bs
  | (bs, false) => bs

end Slinky
