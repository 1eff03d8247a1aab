import Verif.Subst

/-!
# Model of `interval_expr`, `box_expr` and of the predicates and builders on expressions (slinky/runtime/expr_stmt.cc)
-/

namespace Slinky

/-! ### Predicates and builders -/

/-- expr_stmt.cc `is_positive_infinity` -/
def isPosInf : Expr → Bool
  | .call .posInf _ => true
  | _ => false
/-- expr_stmt.cc `is_negative_infinity` -/
def isNegInf : Expr → Bool
  | .call .negInf _ => true
  | _ => false
/-- expr_stmt.cc `is_indeterminate` -/
def isIndeterminate : Expr → Bool
  | .call .indeterminate _ => true
  | _ => false
/-- expr_stmt.cc `is_infinity` -/
def isInfinity (e : Expr) : Int := if isPosInf e then 1 else if isNegInf e then -1 else 0
/-- expr_stmt.cc `is_finite` -/
def isFinite : Expr → Bool
  | .const _ => true
  | .call .bufferAt _ => true
  | _ => false

/-- expr.h:598-606 `as_constant` -/
def asConst : Expr → Option Int
  | .const c => some c
  | _ => none

/-- expr.h `is_zero` -/
def isZero (e : Expr) : Bool := asConst e == some 0
/-- expr.h `is_one` -/
def isOne (e : Expr) : Bool := asConst e == some 1
/-- expr.h `is_true` -/
def isTrue (e : Expr) : Bool := match asConst e with | some c => c != 0 | none => false
/-- expr.h `is_false` -/
def isFalse (e : Expr) : Bool := isZero e

/-- expr_stmt.cc:659-667 `is_positive` -/
def isPositive : Expr → Bool
  | .call .posInf _ => true
  | .call .abs (.cons a _) => isPositive a
  | .const c => decide (0 < c)
  | _ => false
/-- expr_stmt.cc:669-674 `is_non_negative` -/
def isNonNegative : Expr → Bool
  | .call .posInf _ => true
  | .call .abs _ => true
  | .const c => decide (0 ≤ c)
  | _ => false
/-- expr_stmt.cc:676-680 `is_negative` -/
def isNegative : Expr → Bool
  | .call .negInf _ => true
  | .const c => decide (c < 0)
  | _ => false
/-- expr_stmt.cc:682-686 `is_non_positive` -/
def isNonPositive : Expr → Bool
  | .call .negInf _ => true
  | .const c => decide (c ≤ 0)
  | _ => false

/-- expr.h `is_boolean_node` -/
def isBooleanNode : Expr → Bool
  | .bin .lt _ _ | .bin .le _ _ | .bin .eq _ _ | .bin .ne _ _ | .bin .and _ _ | .bin .or _ _ | .not _ => true
  | _ => false
/-- expr_stmt.cc `is_boolean` -/
def isBoolean (e : Expr) : Bool := isBooleanNode e || isOne e || isZero e
/-- expr_stmt.cc `boolean` -/
def boolean (e : Expr) : Expr :=
  if !e.defined || isBoolean e then e
  else match asConst e with
    | some c => .const (if c ≠ 0 then 1 else 0)
    | none => mkBin .ne e (.const 0)

/-- expr_stmt.cc:195 `expr::operator-` -/
def negE (e : Expr) : Expr := mkBin .sub (.const 0) e
/-- expr_stmt.cc:179-183 `clamp` -/
def clampE (x a b : Expr) : Expr :=
  let x := if b.defined then mkBin .min x b else x
  if a.defined then mkBin .max x a else x
/-- expr_stmt.cc `align_down` -/
def alignDownE (x a : Expr) : Expr := mkBin .mul (mkBin .div x a) a
/-- expr_stmt.cc `align_up` -/
def alignUpE (x a : Expr) : Expr := mkBin .mul (mkBin .div (mkBin .sub (mkBin .add x a) (.const 1)) a) a
/-- expr_stmt.cc:212-220 `min(span<expr>)` -/
def minSpan : List Expr → Expr
  | [] => .undef
  | [x] => x
  | x :: xs => mkBin .min x (minSpan xs)
/-- expr_stmt.cc:222-230 `max(span<expr>)` -/
def maxSpan : List Expr → Expr
  | [] => .undef
  | [x] => x
  | x :: xs => mkBin .max x (maxSpan xs)

/-! ### Intervals -/

/-- expr.h:300-345 `interval_expr`. `same`: the two ends are the same node (`min.same_as(max)`, pointer identity). -/
structure Interval where
  min : Expr
  max : Expr
  same : Bool
deriving DecidableEq, Repr

/-- expr.h:309 `is_point` -/
def Interval.isPoint (i : Interval) : Bool := i.min.defined && i.same
/-- expr.h:304 the interval of one point -/
def Interval.point (e : Expr) : Interval := ⟨e, e, true⟩
/-- The interval without bounds, `interval_expr()` (the two null pointers are the same). -/
def Interval.unbounded : Interval := ⟨.undef, .undef, true⟩
/-- expr_stmt.cc:391 `bounds(min, max)` of two separately built expressions -/
def Interval.bounds (a b : Expr) : Interval := ⟨a, b, false⟩
/-- expr_stmt.cc:390 `range` -/
def Interval.range (b e : Expr) : Interval := .bounds b (mkBin .sub e (.const 1))
/-- expr_stmt.cc:392 `min_extent` -/
def Interval.minExtent (b e : Expr) : Interval := .bounds b (mkBin .sub (mkBin .add b e) (.const 1))

/-- apply an operation to a defined end -/
def mapEnd (f : Expr → Expr) (e : Expr) : Expr := if e.defined then f e else .undef

/-- expr_stmt.cc:252 `extent` -/
def Interval.extent (i : Interval) : Expr := mkBin .add (mkBin .sub i.max i.min) (.const 1)
/-- expr_stmt.cc:253 `empty` -/
def Interval.empty (i : Interval) : Expr := mkBin .lt i.max i.min
/-- expr_stmt.cc:255-265 `contains` -/
def Interval.contains (i : Interval) (x : Expr) : Expr :=
  if i.min.defined && i.max.defined then mkBin .and (mkBin .le i.min x) (mkBin .le x i.max)
  else if i.min.defined then mkBin .le i.min x
  else if i.max.defined then mkBin .le x i.max
  else .const 1

/-- expr_stmt.cc:350-354 `operator|=` -/
def Interval.union (a b : Interval) : Interval :=
  .bounds (if a.min.defined && b.min.defined then mkBin .min a.min b.min else .undef)
    (if a.max.defined && b.max.defined then mkBin .max a.max b.max else .undef)

/-- expr_stmt.cc:356-368 `operator&=` -/
def Interval.inter (a b : Interval) : Interval :=
  ⟨if a.min.defined && b.min.defined then mkBin .max a.min b.min else if !a.min.defined then b.min else a.min,
    if a.max.defined && b.max.defined then mkBin .min a.max b.max else if !a.max.defined then b.max else a.max,
    -- both ends may come from the same operand
    (!a.min.defined && !a.max.defined && b.same) || (!b.min.defined && !b.max.defined && a.same)⟩

/-- expr_stmt.cc:267-284 `operator*=`, 286-303 `operator/=` -/
def Interval.scale (op : BinOp) (i : Interval) (s : Expr) : Interval :=
  if i.isPoint then .point (mkBin op i.min s)
  else if isNonNegative s then .bounds (mapEnd (mkBin op · s) i.min) (mapEnd (mkBin op · s) i.max)
  else if isNegative s then .bounds (mapEnd (mkBin op · s) i.max) (mapEnd (mkBin op · s) i.min)
  else
    let a := mapEnd (mkBin op · s) i.min
    let b := mapEnd (mkBin op · s) i.max
    (Interval.bounds a b).union (.bounds b a)
/-- expr_stmt.cc:305-313 `operator+=`, 315-323 `operator-=` -/
def Interval.shift (op : BinOp) (i : Interval) (s : Expr) : Interval :=
  if i.isPoint then .point (mkBin op i.min s)
  else .bounds (mapEnd (mkBin op · s) i.min) (mapEnd (mkBin op · s) i.max)
/-- expr_stmt.cc:346-348 unary `operator-` -/
def Interval.neg (i : Interval) : Interval := .bounds (mapEnd negE i.max) (mapEnd negE i.min)
/-- expr_stmt.cc:395 `operator-(expr, interval_expr)` -/
def Interval.rsub (a : Expr) (i : Interval) : Interval := i.neg.shift .add a
/-- expr_stmt.cc:398-407 `select` of intervals -/
def Interval.select (c : Expr) (t f : Interval) : Interval :=
  if t.isPoint && f.isPoint then .point (.select c t.min f.min)
  else .bounds (.select c t.min f.min) (.select c t.max f.max)
/-- expr_stmt.cc:397 `clamp(expr, interval_expr)` -/
def Interval.clamp (x : Expr) (i : Interval) : Expr := clampE x i.min i.max
/-- expr_stmt.cc `align(interval_expr, expr)` -/
def Interval.align (i : Interval) (a : Expr) : Interval :=
  .bounds (alignDownE i.min a) (mkBin .sub (alignUpE (mkBin .add i.max (.const 1)) a) (.const 1))

/-! ### Boxes -/

/-- expr_stmt.cc:409-415 `operator|(box_expr, box_expr)`: `a` is extended with unbounded intervals; dimensions of `a`
beyond `b` are kept. -/
def boxUnion : List Interval → List Interval → List Interval
  | as, [] => as
  | [], b :: bs => Interval.unbounded.union b :: boxUnion [] bs
  | a :: as, b :: bs => a.union b :: boxUnion as bs

/-- expr_stmt.cc:417-426 `operator&(box_expr, box_expr)`; `none`: `a` is longer than `b` and the second loop reads `b[i]`
beyond the end of `b`, undefined behaviour. -/
def boxInter : List Interval → List Interval → Option (List Interval)
  | [], [] => some []
  | _ :: _, [] => none
  | [], b :: bs => (boxInter [] bs).map (Interval.unbounded.inter b :: ·)
  | a :: as, b :: bs => (boxInter as bs).map (a.inter b :: ·)

end Slinky
