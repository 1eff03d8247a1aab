import Verif.Simplifier
import Verif.DependsOn
import Verif.Stmt

/-!
# Model of the decisions of `slide_and_fold_storage` (slinky/builder/slide_and_fold_storage.cc)

`slideDim` is one iteration of the loop over the dimensions in `slide_and_fold_buffer`, `slideAndFoldBuffer` the whole function.
`scaleFold` and `resolveFold` are what is done to a fold factor at a call (`visit_call_or_copy`) and at the end of the loop
(`resolve_worker_count`). The traversal of the statement, and the bounds of the crops (`merge_crop`, `substitute_bounds`), are
not modelled here.
-/

namespace Slinky

/-- The tools of the pass: the simplifier with the bounds and the alignments of the variables in scope
(slide_and_fold_storage.cc:244-245 `expr_bounds`, `expr_alignment`). -/
structure SlideCfg where
  cfg : SimpCfg
  fuel : Nat
  bounds : Nat → Option Interval
  align : Nat → Option MR

/-- `simplify(e, expr_bounds, expr_alignment)` -/
def SlideCfg.simp (S : SlideCfg) (e : Expr) : Expr := simplify S.cfg S.fuel e S.bounds S.align
/-- `prove_true(e, expr_bounds, expr_alignment)` -/
def SlideCfg.prove (S : SlideCfg) (e : Expr) : Bool := proveTrue S.cfg S.fuel e S.bounds S.align

/-- simplify.cc:44 `deep_is_point` -/
def deepIsPoint (i : Interval) : Bool := i.isPoint || matchE i.min i.max

/-- simplify.cc:519-524: `[select(b < a, b + 1, a), b]` is rewritten to `[a, b]`. The patterns `b < a` and `b + 1` match up to
the order of the operands of `+`. -/
def emptyCase (i : Interval) : Interval :=
  match i.min with
  | .select (.bin .lt b a) c a' =>
    if (matchE c (.bin .add b (.const 1)) || matchE c (.bin .add (.const 1) b)) && matchE a' a && matchE b i.max then ⟨a, b, false⟩ else i
  | _ => i

/-- simplify.cc:508-528, 2486-2489 `simplify(interval_expr)` -/
def SlideCfg.simpI (S : SlideCfg) (i : Interval) : Interval :=
  if deepIsPoint i then .point (S.simp i.min)
  else
    let r := emptyCase ⟨S.simp i.min, S.simp i.max, false⟩
    -- `ensure_is_point`
    if matchE r.min r.max then .point r.min else r

/-- slide_and_fold_storage.cc:180-189 `dim_fold_info` -/
structure FoldInfo where
  factor : Expr := posInfE
  overlap : Expr := .undef
  loopId : Int := -1
deriving DecidableEq, Repr

/-- slide_and_fold_storage.cc:205-239 `loop_info`: what `slide_and_fold_buffer` uses of it. `min` is `bounds.min`. -/
structure SlideLoop where
  sym : Nat
  origMin : Nat
  min : Expr
  step : Expr
  dataParallel : Bool
  loopId : Int
deriving DecidableEq, Repr

/-- slide_and_fold_storage.cc:325-333 `constant_fold_factor` -/
def SlideCfg.foldFactor (S : SlideCfg) (loop : SlideLoop) (e : Expr) : Expr :=
  let f := S.simp (constantUpperBound S.cfg.trust (S.simp e))
  if isFinite f && !anyDep (dependsOn f loop.sym) then f else .undef

/-- slide_and_fold_storage.cc:146-166 `where_true_upper_bound` -/
def SlideCfg.whereTrueUpperBound (S : SlideCfg) (cond : Expr) (x : Nat) (guess : Expr) : Expr :=
  match (List.range 10).find? fun ix => S.prove (substitute cond x (mkBin .sub guess (.const (ix : Nat)))) with
  | some ix => S.simp (mkBin .sub guess (.const (ix : Nat)))
  | none => negInfE

/-- The bounds of the previous iteration (slide_and_fold_storage.cc:377-380). -/
def prevBounds (loop : SlideLoop) (cur : Interval) : Interval :=
  ⟨substitute cur.min loop.sym (mkBin .sub (.v loop.sym) loop.step), substitute cur.max loop.sym (mkBin .sub (.v loop.sym) loop.step), cur.same⟩

/-- What the loop over the dimensions changes: the loop, the bounds of the dimension, its fold and `did_overlapped_fold`. -/
structure SlideRes where
  loop : SlideLoop
  bounds : Interval
  fold : FoldInfo
  did : Bool
deriving DecidableEq, Repr

/-- slide_and_fold_storage.cc:401 `is_monotonic_increasing` -/
def monotonicE (prev cur : Interval) : Expr := mkBin .and (mkBin .le prev.min cur.min) (mkBin .le prev.max cur.max)

/-- slide_and_fold_storage.cc:409-421: the fold of a dimension in which we slide. -/
def SlideCfg.slideFold (S : SlideCfg) (loop : SlideLoop) (cur : Interval) (newMin : Expr) (fold : FoldInfo) (did : Bool) : FoldInfo × Bool :=
  if did then (fold, did)
  else
    let f := S.foldFactor loop (boundsOf S.cfg S.fuel cur.extent S.bounds S.align).max
    if f.defined then
      (⟨f, simplify S.cfg S.fuel (constantUpperBound S.cfg.trust
          (boundsOf S.cfg S.fuel (mkBin .add (mkBin .sub cur.max newMin) (.const 1)) S.bounds S.align).max) S.bounds (fun _ => none),
        loop.loopId⟩, true)
    else (fold, did)

/-- slide_and_fold_storage.cc:358-443: one dimension. -/
def SlideCfg.slideDim (S : SlideCfg) (loop : SlideLoop) (b : Interval) (fold : FoldInfo) (did : Bool) : SlideRes :=
  -- Skip if we already folded this dimension.
  if isFinite fold.factor then ⟨loop, b, fold, did⟩
  else if !(anyDep (dependsOn b.min loop.sym) || anyDep (dependsOn b.max loop.sym)) then ⟨loop, b, fold, did⟩
  else
    let cur := S.simpI b
    let prev := prevBounds loop cur
    if S.prove (prev.inter cur).empty then
      -- `bounds_of` without the alignments
      let f := S.foldFactor loop (boundsOf S.cfg S.fuel cur.extent S.bounds (fun _ => none)).max
      if f.defined then ⟨loop, b, ⟨f, f, loop.loopId⟩, did⟩ else ⟨loop, b, fold, did⟩
    else if S.prove (monotonicE prev cur) then
      let newMin := S.simp (mkBin .add prev.max (.const 1))
      let fd := S.slideFold loop cur newMin fold did
      let newLoopMin := S.whereTrueUpperBound (mkBin .le newMin (substitute cur.min loop.sym loop.min)) loop.sym loop.min
      if isNegInf newLoopMin then
        ⟨{ loop with dataParallel := false },
          ⟨.select (mkBin .le (.v loop.sym) (.v loop.origMin)) cur.min newMin, b.max, false⟩, fd.1, fd.2⟩
      else ⟨{ loop with min := newLoopMin, dataParallel := false }, ⟨newMin, b.max, false⟩, fd.1, fd.2⟩
    else ⟨loop, b, fold, did⟩

/-- slide_and_fold_storage.cc:344-355: is there already a fold of a dimension with overlap? -/
def didOverlappedFold (folds : List FoldInfo) : Bool := folds.any fun i => isFinite i.factor && !matchE i.factor i.overlap

/-- slide_and_fold_storage.cc:362-443: the loop over the dimensions. -/
def SlideCfg.slideDims (S : SlideCfg) : SlideLoop → List Interval → List FoldInfo → Bool → SlideLoop × List Interval × List FoldInfo
  | loop, [], folds, _ => (loop, [], folds)
  | loop, b :: bs, folds, did =>
    let r := S.slideDim loop b (folds.headD {}) did
    let rest := S.slideDims r.loop bs folds.tail r.did
    -- `vector_at` only grows the vector if something is written
    (rest.1, r.bounds :: rest.2.1, if folds.isEmpty && decide (r.fold = {}) && rest.2.2.isEmpty then [] else r.fold :: rest.2.2)

mutual
/-- slide_and_fold_storage.cc:120-134 `check_if_produced` -/
def producedBy (x : Nat) : Stmt → Bool
  | .undef => false
  | .call _ _ outs _ => outs.contains x
  | .copy _ _ _ dst _ _ => dst == x
  | .lets _ b _ => producedBy x b
  | .block ss => producedByL x ss
  | .loop _ _ _ _ b => producedBy x b
  | .allocate _ _ _ _ b => producedBy x b
  | .makeBuffer _ _ _ _ b => producedBy x b
  | .constantBuffer _ _ b => producedBy x b
  | .cloneBuffer _ _ b => producedBy x b
  | .cropBuffer _ _ _ b => producedBy x b
  | .cropDim _ _ _ _ b => producedBy x b
  | .sliceBuffer _ _ _ b => producedBy x b
  | .sliceDim _ _ _ _ b => producedBy x b
  | .transpose _ _ _ b => producedBy x b
  | .async _ t b => producedBy x t || producedBy x b
  | .check _ => false
/-- `check_if_produced` in a block -/
def producedByL (x : Nat) : Stmts → Bool
  | .nil => false
  | .cons s ss => producedBy x s || producedByL x ss
end

/-- slide_and_fold_storage.cc:336-445 `slide_and_fold_buffer`: `loop` is the innermost loop, if there is one. -/
def SlideCfg.slideAndFoldBuffer (S : SlideCfg) (output : Nat) (body : Stmt) (loop : Option SlideLoop) (bounds : Option (List Interval))
    (folds : Option (List FoldInfo)) : Option SlideLoop × Option (List Interval) × Option (List FoldInfo) :=
  match loop, bounds with
  | some l, some bs =>
    if !producedBy output body then (loop, bounds, folds)
    else
      let r := S.slideDims l bs (folds.getD []) (didOverlappedFold (folds.getD []))
      (some r.1, some r.2.1, if folds.isNone && r.2.2.isEmpty then none else some r.2.2)
  | _, _ => (loop, bounds, folds)

/-- slide_and_fold_storage.cc:483-508: the fold at a call that produces the buffer, given the variable for the number of workers. -/
def SlideCfg.scaleFold (S : SlideCfg) (loop : SlideLoop) (workers : Nat) (i : FoldInfo) : FoldInfo :=
  if i.loopId ≠ loop.loopId || !isFinite i.factor || anyDep (dependsOn i.factor loop.sym) then i
  else
    let e := mkBin .add i.factor (mkBin .mul (mkBin .sub (.v workers) (.const 1)) i.overlap)
    { i with factor := simplify S.cfg S.fuel e (fun _ => none) (fun _ => none) }

/-- slide_and_fold_storage.cc:604-626 `resolve_worker_count`: the fold at the end of the loop; `count` is `max_workers` of the new loop. -/
def SlideCfg.resolveFold (S : SlideCfg) (dataParallel : Bool) (workers : Nat) (count : Expr) (i : FoldInfo) : FoldInfo :=
  if !anyDep (dependsOn i.factor workers) then i
  else if dataParallel && !proveTrue S.cfg S.fuel (mkBin .eq count (.const 1)) (fun _ => none) (fun _ => none) then { i with factor := .undef }
  else { i with factor := substitute i.factor workers count }

end Slinky
