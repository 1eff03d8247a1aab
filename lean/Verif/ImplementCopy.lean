import Verif.Subst
import Verif.Stmt

/-!
# Model of `implement_copy` (optimizations.cc:39-190, 1309-1374)

A `copy_stmt` says `dst(x, y, ..) = src(f(x, y, ..), g(x, y, ..), ..)`. The pass makes loops over the indices of `dst` around a call of the function
that implements copies (`slinky::copy`), with a view of `src`. The indices that can be left to that function ("pass through") have no loop; they
become dimensions of the view.

Simplifications:
* `simplify` and `evaluate_constant_lower_bound` are parameters (they are modelled in `Simplifier.lean` and `ConstEval.lean`);
* the new symbol (`ctx.insert_unique`) is a parameter;
* an undefined padding is not an output of the call (in the code it is an undefined symbol);
* the indices `src_x` and the dimensions are paired by position, and `transpose::new_dim` is `none`.
-/

namespace Slinky

/-- expr_stmt.cc:708 `buffer_min` -/
def bufMin (b d : Nat) : Expr := .var b .min d
/-- expr_stmt.cc:709 `buffer_max` -/
def bufMax (b d : Nat) : Expr := .var b .max d
/-- expr_stmt.cc:715 `buffer_bounds` -/
def bufBounds (b d : Nat) : Interval := ⟨bufMin b d, bufMax b d, false⟩
/-- expr_stmt.cc:736-742 `buffer_at` -/
def bufAt (b : Nat) (xs : List Expr) : Expr := .call .bufferAt (.cons (.var b .none 0) (.ofList xs))

/-- optimizations.cc:40-48 `select_or_undef` -/
def selectOrUndef (c t f : Expr) : Expr :=
  if t.defined && f.defined then .select c t f
  else if t.defined then t
  else f

/-- expr_stmt.cc:388-397 `select(expr, interval_expr, interval_expr)` -/
def Interval.sel (c : Expr) (t f : Interval) : Interval :=
  if t.isPoint && f.isPoint then .point (.select c t.min f.min)
  else ⟨.select c t.min f.min, .select c t.max f.max, false⟩

/-- optimizations.cc:50-56 `select(expr, dim_expr, dim_expr)` -/
def DimE.sel (c : Expr) (t f : DimE) : DimE := ⟨t.bounds.sel c f.bounds, selectOrUndef c t.stride f.stride, selectOrUndef c t.fold f.fold⟩

/-- optimizations.cc:59-101 `is_linear`: `a` and `b` such that `y = a * x + b`. -/
def isLinear (x : Nat) (y : Expr) : Option (Expr × Expr) :=
  if y = .var x .none 0 then some (.const 1, .const 0)
  else if Dep.var ∉ dependsOn y x then some (.const 0, y)
  else match y with
    | .bin .add p q =>
      match isLinear x p, isLinear x q with
      | some (aa, ab), some (ba, bb) => some (mkBin .add aa ba, mkBin .add ab bb)
      | _, _ => none
    | .bin .sub p q =>
      match isLinear x p, isLinear x q with
      | some (aa, ab), some (ba, bb) => some (mkBin .sub aa ba, mkBin .sub ab bb)
      | _, _ => none
    | .bin .mul p q =>
      match isLinear x p, decide (Dep.var ∉ dependsOn q x) with
      | some (a, b), true => some (mkBin .mul a q, mkBin .mul b q)
      | _, _ =>
        match isLinear x q, decide (Dep.var ∉ dependsOn p x) with
        | some (a, b), true => some (mkBin .mul a p, mkBin .mul b p)
        | _, _ => none
    | _ => none

/-- optimizations.cc:129-133 the indices of `dst` other than `d` are replaced by their minimum; `i` is the number of the first index. -/
def substOthers (dst d : Nat) : List Nat → Nat → Expr → Expr
  | [], _, e => e
  | x :: xs, i, e => substOthers dst d xs (i + 1) (if i = d then e else substitute e x (bufMin dst i))

/-- What `is_copy` returns: the index `at`, and the dimension of the view of `src`. -/
structure CopyDim where
  at_ : Expr
  dim : DimE

section
variable (simp : Expr → Expr) (lb : Expr → Option Int)

/-- optimizations.cc:134-164 `is_copy`, the last branch: `x` is `dst_x[d]`, and `e` is `src_x` after the substitution. -/
def isCopyLinear (src k dst x d : Nat) (e : Expr) : Option CopyDim :=
  match isLinear x (simp e) with
  | none => none
  | some (a, b) =>
    let scale := simp a
    let offset := simp b
    match lb scale with
    | none => none
    | some v =>
      if v < 0 then none
      else
        let stride := mkBin .mul (.var src .stride k) scale
        let fold := .var src .foldFactor k
        if anyDep (dependsOn offset dst) then
          some ⟨mkBin .add (mkBin .mul (bufMin dst d) scale) offset, ⟨bufBounds dst d, stride, fold⟩⟩
        else
          let at_ := mkBin .add (alignUpE (mkBin .sub (bufMin src k) offset) scale) offset
          some ⟨at_, ⟨⟨mkBin .div (mkBin .sub at_ offset) scale, mkBin .div (mkBin .sub (bufMax src k) offset) scale, false⟩, stride, fold⟩⟩

/-- optimizations.cc:105-166 `is_copy` -/
def isCopy (src k dst : Nat) (dstX : List Nat) (x d : Nat) : Expr → Option CopyDim
  | .select c t f =>
    match isCopy src k dst dstX x d t, isCopy src k dst dstX x d f with
    | some t, some f => some ⟨.select c t.at_ f.at_, .sel c t.dim f.dim⟩
    | _, _ => none
  | e =>
    if Dep.var ∉ dependsOnAny e dstX then some ⟨e, ⟨bufBounds dst d, .const 0, .undef⟩⟩
    else isCopyLinear simp lb src k dst x d (substOthers dst d dstX 0 e)

/-- optimizations.cc:176-190 `is_copy_dst_dim`: the only index of `src` that depends on `x` (`k` is the number of the first index). `some none`: there
is none. `none`: there is more than one. -/
def isCopyDstDim (x : Nat) : List Expr → Nat → Option (Option Nat)
  | [], _ => some none
  | e :: es, k =>
    if anyDep (dependsOn e x) then
      match isCopyDstDim x es (k + 1) with
      | some none => some (some k)
      | _ => none
    else isCopyDstDim x es (k + 1)

/-- optimizations.cc:1339-1347 may the index `x`, number `d`, of `dst` pass through? The index of `src` that it is for, and `is_copy`. -/
def copyStep (src : Nat) (srcX : List Expr) (dst : Nat) (dstX : List Nat) (x d : Nat) : Option (Option Nat × CopyDim) :=
  match isCopyDstDim x srcX 0 with
  | none => none
  | some none => (isCopy simp lb src 0 dst dstX x d .undef).map (none, ·)
  | some (some k) => (isCopy simp lb src k dst dstX x d ((srcX[k]?).getD .undef)).map (some k, ·)

/-- What the loop over the indices of `dst` computes: `src_x`, `src_dims`, and which indices pass through. -/
structure CopyDims where
  srcX : List Expr
  dims : List DimE
  pass : List Bool

/-- optimizations.cc:1349-1351 the index number `k` of `src` is replaced by `at`, if there is one. -/
def setCopyX (k : Option Nat) (at_ : Expr) (sx : List Expr) : List Expr :=
  match k with
  | some k => if at_.defined then sx.set k at_ else sx
  | none => sx

/-- optimizations.cc:1330-1353 the loop over the indices of `dst`; `d` is the number of the first index, and `sx` is `src_x`. -/
def copyDims (src : Nat) (srcX : List Expr) (dst : Nat) (dstX : List Nat) : List Nat → Nat → List Expr → CopyDims
  | [], _, sx => ⟨sx, [], []⟩
  | x :: xs, d, sx =>
    match copyStep simp lb src srcX dst dstX x d with
    | none =>
      let r := copyDims src srcX dst dstX xs (d + 1) sx
      ⟨r.srcX, r.dims, false :: r.pass⟩
    | some (k, c) =>
      let r := copyDims src srcX dst dstX xs (d + 1) (setCopyX k c.at_ sx)
      ⟨r.srcX, c.dim :: r.dims, true :: r.pass⟩

/-- optimizations.cc:1363-1368 the indices that are left need loops and slices; `d` is the number of the first index. -/
def copyLoops (dst : Nat) : List Nat → List Bool → Nat → Stmt → Stmt
  | x :: xs, p :: ps, d, s =>
    copyLoops dst xs ps (d + 1) (if p then s else .loop x (.const 1) (bufBounds dst d) (.const 1) (.sliceDim dst dst d (.var x .none 0) s))
  | _, _, _, s => s

/-- optimizations.cc:1309-1370 `implement_copy`; `fresh` is the new symbol. -/
def implementCopy (fresh target src : Nat) (srcX : List Expr) (dst : Nat) (dstX : List Nat) (pad : Option Nat) : Stmt :=
  let r := copyDims simp lb src srcX dst dstX dstX 0 srcX
  .cloneBuffer fresh dst (copyLoops fresh dstX r.pass 0
    (.makeBuffer src (bufAt src r.srcX) (.var src .elemSize 0) r.dims (.call target [] (src :: fresh :: pad.toList) [])))

end

end Slinky
