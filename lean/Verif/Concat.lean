import Verif.ImplementCopyMem
import Verif.Subst

/-!
# Model of `func::make_copy`, `make_concat` and `make_stack` (builder/pipeline.cc:139-252) and of the pass `implement_copies`

A func that is a copy has one output and some inputs; an input can be cropped, and the output can be cropped or sliced for each input. `make_concat`
and `make_stack` make such funcs.

Simplifications:
* `sanitize_user_exprs` has already been applied to the expressions of the user (pipeline.cc:792 does it to the statement);
* the new symbols (`ctx.insert_unique`) are consecutive numbers.
-/

namespace Slinky.CC

/-- pipeline.h:146-163 `func::input`. An entry of `outputSlice` that is not sliced is undefined. -/
structure Input where
  sym : Nat
  bounds : List Interval
  inputCrop : List Interval := []
  outputCrop : List Interval := []
  outputSlice : List Expr := []

/-- pipeline.h:165-171 `func::output` -/
structure Output where
  sym : Nat
  dims : List Nat

/-- expr_stmt.cc:379 `range` -/
def rangeE (begin_ end_ : Expr) : Interval := ⟨begin_, mkBin .sub end_ (.const 1), false⟩

/-- expr_stmt.cc:309-317 `interval_expr::operator-=` -/
def subI (i : Interval) (o : Expr) : Interval :=
  if i.isPoint then .point (mkBin .sub i.min o)
  else ⟨if i.min.defined then mkBin .sub i.min o else i.min, if i.max.defined then mkBin .sub i.max o else i.max, false⟩

/-- pipeline.cc:139-162 `make_copy_func`; the index of `src` in a dimension is the minimum of its bounds. -/
def makeCopyFunc (impl : Nat) (src : Input) (dst : Output) (pad : Option Nat) : Stmt :=
  let copy := .copy impl src.sym (src.bounds.map Interval.min) dst.sym dst.dims pad
  let copy := if src.inputCrop = [] then copy else .cropBuffer src.sym src.sym src.inputCrop copy
  let copy := if src.outputCrop = [] then copy else .cropBuffer dst.sym dst.sym src.outputCrop copy
  if src.outputSlice = [] then copy else .sliceBuffer dst.sym dst.sym src.outputSlice copy

/-- pipeline.cc:178-190 `func::make_call`, for copies. `pad` is the second input of a padded copy. -/
def makeCall (impl : Nat) (inputs : List Input) (dst : Output) : Option Nat → Stmt
  | some pad => (inputs.head?.map fun i => makeCopyFunc impl i dst (some pad)).getD .undef
  | none => blockMake (inputs.map fun i => makeCopyFunc impl i dst none)

/-- pipeline.cc:201-217: input number `i` of `make_concat`, from `lo` = `bounds[i]` to `hi` = `bounds[i + 1]`. -/
def concatInput (src : Nat) (dst : Output) (dim : Nat) (lo hi : Expr) : Input where
  sym := src
  bounds := (dst.dims.map fun x => Interval.point (.var x .none 0)).modify dim (subI · lo)
  inputCrop := List.replicate dim .unbounded ++ [rangeE (.const 0) (mkBin .sub hi lo)]
  outputCrop := List.replicate dim .unbounded ++ [rangeE lo hi]

/-- pipeline.cc:200-220: the inputs of `make_concat`. -/
def concatInputs (dst : Output) (dim : Nat) : List Nat → List Expr → List Input
  | src :: srcs, lo :: hi :: bs => concatInput src dst dim lo hi :: concatInputs dst dim srcs (hi :: bs)
  | _, _ => []

/-- pipeline.cc:194-222 `func::make_concat`, and the call of the func. -/
def makeConcat (impl : Nat) (srcs : List Nat) (dst : Output) (dim : Nat) (bounds : List Expr) : Stmt :=
  makeCall impl (concatInputs dst dim srcs bounds) dst none

/-- pipeline.cc:231-248: input number `i` of `make_stack`; `src` is the symbol and the rank. -/
def stackInput (src : Nat × Nat) (dst : Output) (dim i : Nat) : Input where
  sym := src.1
  bounds := ((dst.dims.map fun x => Interval.point (.var x .none 0)).eraseIdx dim).take src.2
  outputSlice := List.replicate dim .undef ++ [.const i]

/-- pipeline.cc:230-249: the inputs of `make_stack`, from number `i`. -/
def stackInputs (dst : Output) (dim : Nat) : List (Nat × Nat) → Nat → List Input
  | src :: srcs, i => stackInput src dst dim i :: stackInputs dst dim srcs (i + 1)
  | [], _ => []

/-- pipeline.cc:224-252 `func::make_stack`, and the call of the func; a `dim` that is too large is the last dimension. -/
def makeStack (impl : Nat) (srcs : List (Nat × Nat)) (dst : Output) (dim : Nat) : Stmt :=
  let dim := min (dst.dims.length - 1) dim
  makeCall impl (stackInputs dst dim srcs 0) { dst with dims := dst.dims.eraseIdx dim } none

section
variable (simp : Expr → Expr) (lb : Expr → Option Int)

mutual
/-- optimizations.cc:1371-1374 `implement_copies`; `n` is the next new symbol. -/
def implS : Stmt → Nat → Stmt × Nat
  | .copy t src xs dst ys pad, n => (implementCopy simp lb n t src xs dst ys pad, n + 1)
  | .lets bs b c, n => let r := implS b n; (.lets bs r.1 c, r.2)
  | .block ss, n => let r := implL ss n; (blockMake r.1, r.2)
  | .loop x wk i st b, n => let r := implS b n; (.loop x wk i st r.1, r.2)
  | .allocate x st e ds b, n => let r := implS b n; (.allocate x st e ds r.1, r.2)
  | .makeBuffer x p e ds b, n => let r := implS b n; (.makeBuffer x p e ds r.1, r.2)
  | .constantBuffer x v b, n => let r := implS b n; (.constantBuffer x v r.1, r.2)
  | .cloneBuffer x y b, n => let r := implS b n; (.cloneBuffer x y r.1, r.2)
  | .cropBuffer x y is b, n => let r := implS b n; (.cropBuffer x y is r.1, r.2)
  | .cropDim x y d i b, n => let r := implS b n; (.cropDim x y d i r.1, r.2)
  | .sliceBuffer x y es b, n => let r := implS b n; (.sliceBuffer x y es r.1, r.2)
  | .sliceDim x y d e b, n => let r := implS b n; (.sliceDim x y d e r.1, r.2)
  | .transpose x y ds b, n => let r := implS b n; (.transpose x y ds r.1, r.2)
  | .async x t b, n => let r := implS t n; let r' := implS b r.2; (.async x r.1 r'.1, r'.2)
  | .undef, n => (.undef, n)
  | .call t is os xs, n => (.call t is os xs, n)
  | .check c, n => (.check c, n)
/-- See `implS`, for the statements of a block. -/
def implL : Stmts → Nat → List Stmt × Nat
  | .nil, n => ([], n)
  | .cons s ss, n => let r := implS s n; let r' := implL ss r.2; (r.1 :: r'.1, r'.2)
end
end

/-! ## Specification -/

/-- The address of the element of the concatenation at `x`: the element of the source that has `x` in its range, moved to the start of that range.
`bs` are the ends of the ranges. -/
def concatAt (dim : Nat) (x : List Int) : List Buf → List Int → Option Int
  | S :: Ss, lo :: hi :: bs =>
    if lo ≤ x.getD dim 0 ∧ x.getD dim 0 < hi then S.view (x.set dim (x.getD dim 0 - lo)) else concatAt dim x Ss (hi :: bs)
  | _, _ => none

/-- The address of the element of the stack at `x`: the index in dimension `dim` is the number of the source. -/
def stackAt (dim : Nat) (x : List Int) (Ss : List Buf) : Option Int :=
  if 0 ≤ x.getD dim 0 then (Ss[(x.getD dim 0).toNat]?).bind fun S => S.view (x.eraseIdx dim) else none

end Slinky.CC
