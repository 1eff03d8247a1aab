import Verif.MakeViewThm

/-!
# The metadata of buffers that the simplifier declares

What the simplifier does to the dimensions of `allocate` and `make_buffer` before anything else: constants that are defaults are
left out, fold factors that do nothing are dropped, broadcasts at the end are dropped, and metadata that are known to be those of
another buffer are written as those (`mutate_dim`, `mutate_buffer`, `canonicalize_buffer`).
-/

namespace Slinky.SD

open Slinky VW

/-! ## The code -/

/-- simplify.cc:1613 a fold factor that is the constant `unfolded` is left out. -/
def dropUnfolded (f : Expr) : Expr := if f = .const Dim.unfolded then .undef else f

/-- simplify.cc:1614-1618: is the fold factor `f` dropped because the bounds are within one fold? -/
def dropsFold (prove : Expr → Bool) (D : DimE) (f : Expr) : Bool :=
  f.defined && decide (f ≠ .const 0) && decide (D.stride ≠ .const 0) && !(decide (D.bounds.min = .const 0) && decide (D.bounds.max = .const 0)) &&
    prove (mkBin .eq (mkBin .div D.bounds.min f) (mkBin .div D.bounds.max f))

/-- simplify.cc:1606-1626 `mutate_dim`, after its expressions were simplified (1610-1612). `prove`: `prove_true`. -/
def mutateDim (prove : Expr → Bool) (D : DimE) : DimE :=
  ⟨D.bounds, if D.stride = .const Dim.autoStride then .undef else D.stride,
    if dropsFold prove D (dropUnfolded D.fold) then .undef else dropUnfolded D.fold⟩

/-- simplify.cc:1640-1644: remove broadcasts at the end; `bcast`: `prove_constant_true(is_broadcast())`. -/
def popBcast (bcast : DimE → Bool) (ds : List DimE) : List DimE := (ds.reverse.dropWhile bcast).reverse

/-- simplify.cc:1628-1648 `mutate_buffer`: the dimensions. -/
def mutateDims (prove : Expr → Bool) (bcast : DimE → Bool) (ds : List DimE) : List DimE := popBcast bcast (ds.map (mutateDim prove))

/-- simplify.cc:1703-1712 `is_buffer_meta`; an undefined `dflt` is the default of the parameter. -/
def isMeta (prove : Expr → Bool) (x value : Expr) (sym : Nat) (f : Field) (k : Int) (dflt : Expr) : Bool :=
  if !x.defined && !value.defined then true
  else if x = .var sym f k then true
  else if prove (mkBin .eq x (if value.defined then value else .var sym f k)) then true
  else !x.defined && dflt.defined && prove (mkBin .eq (if value.defined then value else .var sym f k) dflt)

/-- simplify.cc:1715-1720 `is_buffer_dim(d, src, sym, dim)`; `S` is what is known of dimension `k` of `sym`. -/
def isDim (prove : Expr → Bool) (D S : DimE) (sym : Nat) (k : Nat) : Bool :=
  isMeta prove D.bounds.min S.bounds.min sym .min k .undef && isMeta prove D.bounds.max S.bounds.max sym .max k .undef &&
    isMeta prove D.stride S.stride sym .stride k (.const Dim.autoStride) &&
    isMeta prove D.fold S.fold sym .foldFactor k (.const Dim.unfolded)

/-- expr.cc `buffer_dim(sym, k)` -/
def bufferDim (sym : Nat) (k : Nat) : DimE := ⟨.bounds (.var sym .min k) (.var sym .max k), .var sym .stride k, .var sym .foldFactor k⟩

/-- simplify.cc:1734-1743: one dimension of `canonicalize_buffer`: dimension `d` of the source is tried first. -/
def canonDim (prove : Expr → Bool) (sym : Nat) (src : List DimE) (d : Nat) (D : DimE) : DimE :=
  match ((List.range src.length).filter (· = d) ++ (List.range src.length).filter (· ≠ d)).find? fun k =>
      match src[k]? with
      | some S => isDim prove D S sym k
      | none => false with
  | some k => bufferDim sym k
  | none => D

/-- simplify.cc:1733-1744: the dimensions of `canonicalize_buffer`, from dimension `d`. -/
def canonDims (prove : Expr → Bool) (sym : Nat) (src : List DimE) : Nat → List DimE → List DimE
  | _, [] => []
  | d, D :: ds => canonDim prove sym src d D :: canonDims prove sym src (d + 1) ds

/-- simplify.cc:1724-1729 `canonicalize_buffer_meta`, of the element size. -/
def canonElem (prove : Expr → Bool) (sym : Nat) (x value : Expr) : Expr :=
  if x.defined && decide (x ≠ .var sym .elemSize (-1)) && prove (mkBin .eq x value) then .var sym .elemSize (-1) else x

/-! ## Specification -/

/-- What is proved is true. -/
structure Sound (w : World) (l : List Ev) (ρ : SEnv) (prove : Expr → Bool) : Prop where
  /-- Nothing that is proved has the value 0. -/
  nonzero : ∀ e, prove e = true → evalI w l ρ e ≠ some 0
  /-- Nothing is proved of an undefined expression. -/
  undef : ∀ a b, a.defined = false ∨ b.defined = false → prove (mkBin .eq a b) = false

/-- An expression, if it is defined, has the value `v`. -/
def Known (w : World) (l : List Ev) (ρ : SEnv) (e : Expr) (v : Int) : Prop := e.defined = true → evalI w l ρ e = some v

/-- What is known of the dimension is true. -/
structure KnownDim (w : World) (l : List Ev) (ρ : SEnv) (S : DimE) (d : Dim) : Prop where
  min : Known w l ρ S.bounds.min d.min
  max : Known w l ρ S.bounds.max d.max
  stride : Known w l ρ S.stride d.stride
  fold : Known w l ρ S.fold d.fold

/-- `E` addresses the elements of `D` in the same order: the same elements, with the same distances from the first one. -/
structure SameDim (D E : Dim) : Prop where
  min : E.min = D.min
  max : E.max = D.max
  stride : E.stride = D.stride
  offset : ∀ i, D.min ≤ i → i ≤ D.max → E.flatOffset i - E.flatOffset D.min = D.flatOffset i - D.flatOffset D.min

/-- A dimension that a buffer may have: a fold factor is positive, and the numbers are in range. -/
structure GoodDim (D : Dim) : Prop where
  fold : 0 < D.fold ∨ D.fold = Dim.unfolded ∨ D.stride = 0
  rmin : InRange 64 D.min
  rmax : InRange 64 D.max
  rfold : InRange 64 D.fold
  low : minOf 64 < D.min ∧ minOf 64 < D.max

end Slinky.SD
