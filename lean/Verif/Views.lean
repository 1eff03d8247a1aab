import Verif.SemLe
import Verif.SubstProps
import Verif.BufferProps
import Verif.ImplementCopyProps

/-!
# Views of views

The simplifier replaces a crop of a crop, a slice of a crop and a transpose of a transpose by a view of the original buffer (`visit_crop`, `visit_slice` and
`visit(const transpose*)` of the simplifier).
-/

namespace Slinky.VW

open Slinky

/-! ## The code -/

/-- A crop that is in scope (`info->decl`): `crop_buffer` or `crop_dim`. -/
inductive CropDecl
  | buffer (src : Nat) (bounds : List Interval)
  | dim (src d : Nat) (bounds : Interval)

/-- The buffer that is cropped. -/
def CropDecl.src : CropDecl → Nat
  | .buffer s _ => s
  | .dim s _ _ => s

/-- substitute.cc:920-926 `make_dims_from_bounds` -/
def dimsOf (bs : List Interval) : List DimExpr := bs.map fun i => ⟨i.min, i.max, .undef, .undef⟩

/-- substitute.cc:908-914 `substitute_buffer` of an interval, with the buffer itself as `def`. (If both ends become the same node, the C++ takes the interval
for a point; here it is not one, but has the same value.) -/
def substBufI (x : Nat) (dims : List DimExpr) (i : Interval) : Interval :=
  ⟨substituteBuffer i.min x .undef dims (some x), substituteBuffer i.max x .undef dims (some x), i.same⟩

/-- `std::vector<interval_expr>::resize`, to a size that is not smaller. -/
def padTo (n : Nat) (bs : List Interval) : List Interval := bs ++ List.replicate (n - bs.length) .unbounded

/-- simplify.cc:2124-2147: the bounds of a crop of `x`, if `x` is a crop: the bounds of a crop of the buffer that `x` is a crop of. `none`: the box
intersection is undefined. -/
def CropDecl.merge (x : Nat) (bs : List Interval) : CropDecl → Option (List Interval)
  | .buffer _ cb => boxInter cb (padTo (max bs.length cb.length) (bs.map (substBufI x (dimsOf cb))))
  | .dim _ d c => some ((padTo (max bs.length (d + 1)) (bs.map (substBufI x (dimsOf (List.replicate d .unbounded ++ [c]))))).modify d fun j => c.inter j)

/-- simplify.cc:2123-2151: the loop (at most `n` times). `decl x`: the declaration of `x`, if it is a crop outside of no loop of the body
(`info->decl.defined() && info->loop_depth == 0`). -/
def mergeCrops (decl : Nat → Option CropDecl) : Nat → Nat → List Interval → Option (Nat × List Interval)
  | 0, x, bs => some (x, bs)
  | n + 1, x, bs => match decl x with
    | none => some (x, bs)
    | some c => (c.merge x bs).bind (mergeCrops decl n c.src)

/-- simplify.cc:2177-2180, 2195-2196: remove the undefined bounds at the end. -/
def popUndefI (bs : List Interval) : List Interval := (bs.reverse.dropWhile fun i => !i.min.defined && !i.max.defined).reverse

/-- simplify.cc:2200-2201 -/
def countDef (bs : List Interval) : Nat := bs.countP fun i => i.min.defined || i.max.defined

/-- simplify.cc:2182-2230: the new declaration. `none`: the crop does nothing, and its symbol becomes another name of the buffer. (The simplification of the
bounds is `mutateCrop` of C53.) -/
def makeCrop (src : Nat) (bs : List Interval) : Option Head :=
  match (popUndefI bs).getLast? with
  | none => none
  | some i => some (if countDef (popUndefI bs) = 1 then .cropDim src ((popUndefI bs).length - 1) i else .cropBuffer src (popUndefI bs))

/-- simplify.cc:2247-2260 `prove_slice_unaffected_by_crop` of a `crop_buffer`; `prove` is `prove_true`. -/
def unaffected (prove : Expr → Bool) : List Interval → List Expr → Bool
  | [], _ => true
  | i :: is, [] => !(i.min.defined || i.max.defined) && unaffected prove is []
  | i :: is, e :: es => prove (i.contains e) && unaffected prove is es

/-- simplify.cc:2247-2265 `prove_slice_unaffected_by_crop` -/
def CropDecl.unaffected (prove : Expr → Bool) (es : List Expr) : CropDecl → Bool
  | .buffer _ cb => VW.unaffected prove cb es
  | .dim _ d c => match es[d]? with
    | none => !(c.min.defined || c.max.defined)
    | some e => prove (c.contains e)

/-- simplify.cc:2271-2290: the buffer to slice instead of `x`. -/
def sliceSrc (prove : Expr → Bool) (decl : Nat → Option CropDecl) (es : List Expr) : Nat → Nat → Nat
  | 0, x => x
  | n + 1, x => match decl x with
    | none => x
    | some c => if c.unaffected prove es then sliceSrc prove decl es n c.src else x

/-- simplify.cc:2314-2316: remove the undefined indices at the end. -/
def popUndefE (es : List Expr) : List Expr := (es.reverse.dropWhile fun e => !e.defined).reverse

/-- simplify.cc:2300-2309: the index of a dimension that is known to be a broadcast is dropped. (The simplification of the other indices is C17.) -/
def clearBcast (bcast : Nat → Bool) : Nat → List Expr → List Expr
  | _, [] => []
  | d, e :: es => (if e.defined && bcast d then .undef else e) :: clearBcast bcast (d + 1) es

/-- simplify.cc:2294-2312: the indices of the new slice. `rank`: `none` if it is not known. -/
def sliceAt (rank : Option Nat) (bcast : Nat → Bool) (es : List Expr) : List Expr :=
  clearBcast bcast 0 (match rank with
    | none => es
    | some r => es.take r)

/-- simplify.cc:2318-2360: the new declaration. `none`: nothing is sliced. -/
def makeSlice (src : Nat) (es : List Expr) : Option Head :=
  match (popUndefE es).getLast? with
  | none => none
  | some e => some (if (popUndefE es).countP (·.defined) = 1 then .sliceDim src ((popUndefE es).length - 1) e else .sliceBuffer src (popUndefE es))

/-- span.h:181-187 `permute(p, x, new_dim)` (`newDim`: stmt.h:405) -/
def permute (newDim : Nat) (p t : List Nat) : List Nat := p.map fun d => (t[d]?).getD newDim

/-- simplify.cc:2387-2402: the loop (at most `n` times). `decl x`: the source and the dimensions of `x`, if it is a transpose of another buffer. -/
def mergeTranspose (newDim : Nat) (decl : Nat → Option (Nat × List Nat)) : Nat → Nat → List Nat → Nat × List Nat
  | 0, x, p => (x, p)
  | n + 1, x, p => match decl x with
    | none => (x, p)
    | some (src, t) => mergeTranspose newDim decl n src (permute newDim p t)

/-- simplify.cc:2406-2409: dimensions at the end that the buffer does not have (`rank`: `none` if it is not known). -/
def popRank (rank : Option Nat) (p : List Nat) : List Nat :=
  match rank with
  | none => p
  | some r => (p.reverse.dropWhile fun d => decide (r ≤ d)).reverse

/-- simplify.cc:2411-2417: does the transpose do nothing? -/
def noopTranspose (rank : Option Nat) (p : List Nat) : Bool :=
  match rank with
  | none => false
  | some r => decide (p = List.range p.length) && decide (r ≤ p.length)

/-! ## Specification -/

/-- The buffer that a crop declares. -/
def CropDecl.value (w : World) (l : List Ev) (ρ : SEnv) (b : Buf) : CropDecl → Option Buf
  | .buffer _ cb => cropS w l ρ 0 cb b
  | .dim _ d c => (evalIvDefS w l ρ c (b.dim d).min (b.dim d).max).map fun v => b.crop d v.1 v.2

/-- A buffer that has memory has no empty dimension. -/
def Solid (b : Buf) : Prop := b.base ≠ none → ∀ d < b.rank, (b.dim d).min ≤ (b.dim d).max

/-- The bounds of all dimensions. -/
def CropDecl.box : CropDecl → List Interval
  | .buffer _ cb => cb
  | .dim _ d c => List.replicate d .unbounded ++ [c]

/-- The declaration. -/
def CropDecl.head : CropDecl → Head
  | .buffer s bs => .cropBuffer s bs
  | .dim s d i => .cropDim s d i

/-- The declaration of a slice. -/
inductive SliceDecl
  | buffer (src : Nat) (at_ : List Expr)
  | dim (src d : Nat) (at_ : Expr)

/-- The buffer that is sliced. -/
def SliceDecl.src : SliceDecl → Nat
  | .buffer s _ => s
  | .dim s _ _ => s

/-- The indices of all dimensions (simplify.cc:2368-2373). -/
def SliceDecl.indices : SliceDecl → List Expr
  | .buffer _ es => es
  | .dim _ d e => List.replicate d .undef ++ [e]

/-- The declaration. -/
def SliceDecl.head : SliceDecl → Head
  | .buffer s es => .sliceBuffer s es
  | .dim s d e => .sliceDim s d e

/-- A transposed buffer. -/
def Buf.transpose (p : List Nat) (b : Buf) : Buf := ⟨b.base, b.elem, (p.map b.dim).take (trimRank (p.map b.dim))⟩

/-- A dimension, where the fold factor of a broadcast does not matter. -/
def normD (D : Dim) : Dim := if D.isBroadcast then Dim.broadcast else D

/-- The same buffer, but the fold factors of broadcasts may be different. -/
def SameView (a b : Buf) : Prop := a.base = b.base ∧ a.elem = b.elem ∧ a.dims.map normD = b.dims.map normD

/-- The declarations of transposes are true, and `newDim` is not a dimension of a buffer. -/
def DeclaredT (newDim : Nat) (ρ : SEnv) (decl : Nat → Option (Nat × List Nat)) : Prop :=
  ∀ x src t, decl x = some (src, t) → ∃ b, ρ.buf? src = some b ∧ b.rank ≤ newDim ∧ ρ.buf? x = some (VW.Buf.transpose t b)

/-- The declarations are true: the buffer of the symbol is the crop of the source, with the bounds evaluated now. Only dimensions that the buffer has are
cropped. -/
def Declared (w : World) (l : List Ev) (ρ : SEnv) (decl : Nat → Option CropDecl) : Prop :=
  ∀ x c, decl x = some c → ∃ b bx, ρ.buf? c.src = some b ∧ ρ.buf? x = some bx ∧ Solid b ∧ c.value w l ρ b = some bx ∧ c.box.length ≤ b.rank

/-- The bounds of a dimension of a crop are those of the cropped buffer: the crop does not go beyond the buffer that is cropped. -/
def Exact (w : World) (l : List Ev) (ρ : SEnv) (x : Nat) (c : CropDecl) (d : Nat) : Prop :=
  ∀ b i, ρ.buf? x = some b → c.box[d]? = some i →
    (i.min.defined = true → evalI w l ρ i.min = some (b.dim d).min) ∧ (i.max.defined = true → evalI w l ρ i.max = some (b.dim d).max)

/-- A field of a buffer in the bounds of a crop: not the size, and the bounds only of dimensions where the crop does not go beyond the buffer. -/
def FieldOK (w : World) (l : List Ev) (ρ : SEnv) (decl : Nat → Option CropDecl) (x : Nat) (f : Field) (d : Int) : Prop :=
  ∀ c, decl x = some c → f = .rank ∨ f = .elemSize ∨
    (0 ≤ d ∧ (f = .stride ∨ f = .foldFactor ∨ ((f = .min ∨ f = .max) ∧ Exact w l ρ x c d.toNat)))

/-- An expression without `let` and `buffer_at`, whose fields are as above. -/
def ExprOK (w : World) (l : List Ev) (ρ : SEnv) (decl : Nat → Option CropDecl) (e : Expr) : Prop :=
  e.Plain [] ∧ ∀ x, FieldsOK x (FieldOK w l ρ decl x) e

/-- Bounds with such ends. -/
def IvOK (w : World) (l : List Ev) (ρ : SEnv) (decl : Nat → Option CropDecl) (i : Interval) : Prop :=
  i.WF ∧ ExprOK w l ρ decl i.min ∧ ExprOK w l ρ decl i.max

end Slinky.VW
