import Verif.ConstEvalMore

/-!
# Model of the bounds of single nodes (slinky/builder/simplify_bounds.cc): `bounds_of`

The bounds of a node, from the bounds of its operands. The ends of an interval are expressions; `Interval.same` records
whether the two ends are the same node (`is_point`).

Simplification: the code computes with infinite ends using the rules of simplify_rules.h about infinities, for example
`inf + x` is `inf` again. Here, an operation with an infinite, indeterminate or undefined operand is indeterminate (no
information), except that `max(-inf, x)` and `min(inf, x)` are `x`,
and that the max of two lower bounds (the min of two upper bounds) ignores one that says nothing.

`SimpCfg` collects the guards that the C++ does not have, see the fields; `cppCfg` is the C++.
-/

namespace Slinky

/-- The guards. -/
structure SimpCfg where
  /-- may this rule be applied to this match? (see `applyRules`) -/
  g : Rule → MCtx → Bool
  /-- is the bound of an operand of a logical operator trusted? (see `ce`) -/
  trust : Expr → Int → Bool
  /-- may the bounds of the sum of staircases be used? (they are computed with 32 bit integers) -/
  stair : Int → Int → Int → Int → Int → Int → Bool
  /-- the functions of the host, for calls with constant arguments -/
  ev : Fn → List (Option Int) → Int
  /-- learn `a < x` and `a < y` from `a < max(x, y)`, and similar? -/
  splitMinMax : Bool
  /-- replace a condition that is true, but is not a boolean, by 1? -/
  factNonBool : Bool
  /-- learn the alignment modulo 0 from `x % 0 == r`? -/
  learnModZero : Bool
  /-- compute the alignment of `a % b` even if the alignment of `b` is not normalized? -/
  modUnnormalized : Bool
  /-- drop an index 0 of `buffer_at` in a dimension whose fold factor is known? -/
  foldZero : Bool
  /-- let the bounds of the body of a let refer to its variables? -/
  leakLets : Bool

/-- The C++. -/
def cppCfg (ev : Fn → List (Option Int) → Int) : SimpCfg := ⟨gTrue, trustAll, fun _ _ _ _ _ _ => true, ev, true, true, true, true, true, true⟩

/-- The constants of two staircases fit in 32 bits. -/
def fits32 (a b c d e f : Int) : Bool :=
  decide (InRange 32 a ∧ InRange 32 b ∧ InRange 32 c ∧ InRange 32 d ∧ InRange 32 e ∧ InRange 32 f)

/-- The guarded version, which is unconditionally right. -/
def safeCfg (ev : Fn → List (Option Int) → Int) : SimpCfg := ⟨gSafe, trustSafe, fits32, ev, false, false, false, false, false, false⟩

/-- no information -/
def noInfo : Expr := .call .indeterminate .nil
/-- expr.h `positive_infinity()` -/
def posInfE : Expr := .call .posInf .nil
/-- expr.h `negative_infinity()` -/
def negInfE : Expr := .call .negInf .nil

/-- `simplify(static_cast<const T*>(nullptr), a, b)` (C14), see the head of the file for infinities. -/
def sB (cfg : SimpCfg) (op : BinOp) (a b : Expr) : Expr :=
  if a.ok && b.ok then simplifyBin cfg.g op a b
  else if op = .max ∧ a = negInfE then b
  else if op = .max ∧ b = negInfE then a
  else if op = .min ∧ a = posInfE then b
  else if op = .min ∧ b = posInfE then a
  else noInfo

/-- `simplify` of a negation -/
def sNot (cfg : SimpCfg) (a : Expr) : Expr := if a.ok then simplifyNot cfg.g a else noInfo
/-- `simplify` of a select -/
def sSel (cfg : SimpCfg) (c t f : Expr) : Expr := if c.ok && t.ok && f.ok then simplifySelect cfg.g c t f else noInfo
/-- `simplify` of a call of `abs` -/
def sAbs (cfg : SimpCfg) (a : Expr) : Expr := if a.ok then simplifyCall cfg.ev cfg.g .abs (.cons a .nil) else noInfo

/-- `max` of two lower bounds; one that is infinite or indeterminate says nothing. -/
def loMax (cfg : SimpCfg) (a b : Expr) : Expr := if !a.ok then b else if !b.ok then a else sB cfg .max a b
/-- `min` of two upper bounds; one that is infinite or indeterminate says nothing. -/
def hiMin (cfg : SimpCfg) (a b : Expr) : Expr := if !a.ok then b else if !b.ok then a else sB cfg .min a b

/-- simplify_bounds.cc:22-29 `simplify(op_simplified, op, a, b)`: if the operands are those of `op`, it is already
simplified. -/
def opS (cfg : SimpCfg) (op : BinOp) (orig : Option (Expr × Expr)) (a b : Expr) : Expr :=
  if orig = some (a, b) then .bin op a b else sB cfg op a b

/-- simplify_bounds.cc:31-41 `bounds_of_linear` -/
def boundsLinear (cfg : SimpCfg) (op : BinOp) (orig : Option (Expr × Expr)) (a b : Interval) : Interval :=
  if a.isPoint && b.isPoint then .point (opS cfg op orig a.min b.min)
  else .bounds (opS cfg op orig a.min b.min) (opS cfg op orig a.max b.max)

/-- simplify_bounds.cc:43-55 `bounds_of_less` -/
def boundsLess (cfg : SimpCfg) (op : BinOp) (orig : Option (Expr × Expr)) (a b : Interval) : Interval :=
  if a.isPoint && b.isPoint then .point (opS cfg op orig a.min b.min)
  else .bounds (opS cfg op orig a.max b.min) (opS cfg op orig a.min b.max)

/-- The pattern `staircase(x, c0, c1, c2)`. -/
def stairPat : Pat := .stair (.wild 0) (.cst 0) (.cst 1) (.cst 2)

/-- The parts of a staircase. -/
def asStair (e : Expr) : Option (Expr × Int × Int × Int) :=
  match matchAny stairPat e with
  | some c =>
    match c.vars 0, c.consts 0, c.consts 1, c.consts 2 with
    | some x, some a, some b, some c => some (x, a, b, c)
    | _, _, _, _ => none
  | none => none

/-- simplify_bounds.cc:58-80 `tighten_correlated_bounds_stairs` -/
def tightenStairs (cfg : SimpCfg) (i : Interval) (a b : Expr) (sign : Int) : Interval :=
  match asStair a, asStair b with
  | some (x, la, lb, lc), some (y, ra, rb, rc) =>
    if !matchE x y then i
    else if !cfg.stair la lb lc ra rb (rc * sign) then i
    else
      let sb := staircaseSumBounds32 la lb lc ra rb (rc * sign)
      let mn := match sb.min with | some c => loMax cfg i.min (.const c) | none => i.min
      let mx := match sb.max with | some c => hiMin cfg i.max (.const c) | none => i.max
      ⟨mn, mx, i.same && sb.min.isNone && sb.max.isNone⟩
  | _, _ => i

/-- simplify_bounds.cc:82-102 `tighten_correlated_bounds_min_max`; `simp` is the simplifier without bounds. -/
def tightenMinMax (cfg : SimpCfg) (simp : Expr → Expr) (i : Interval) (a b : Expr) (sign : Int) : Interval :=
  if sign ≠ -1 then i
  else
    match a, b with
    | .bin .min aa ab, .bin .max ba bb =>
      let m := mkBin .min (mkBin .min (mkBin .sub aa ba) (mkBin .sub ab bb)) (mkBin .min (mkBin .sub aa bb) (mkBin .sub ab ba))
      ⟨i.min, hiMin cfg (simp m) i.max, false⟩
    | _, _ => i

/-- simplify_bounds.cc:104-109 `tighten_correlated_bounds` -/
def tighten (cfg : SimpCfg) (simp : Expr → Expr) (i : Interval) (orig : Option (Expr × Expr)) (sign : Int) : Interval :=
  match orig with
  | some (a, b) => tightenMinMax cfg simp (tightenStairs cfg i a b sign) a b sign
  | none => i

/-- simplify_bounds.cc:132-142 `simple_or_unbounded`: is it simple? -/
def isSimple : Expr → Bool
  | .var _ _ _ | .const _ => true
  | _ => false

/-- simplify_bounds.cc:132-142 `simple_or_unbounded` -/
def simpleOrUnbounded (mn mx : Expr) : Interval :=
  .bounds (if isSimple mn then mn else negInfE) (if isSimple mx then mx else posInfE)

/-- simplify_bounds.cc:145-157 `constant_interval`, the min -/
def cLo (cfg : SimpCfg) (e : Expr) : Option Int := if e.ok then evaluateConstantLowerBound cfg.trust e else none
/-- simplify_bounds.cc:145-157 `constant_interval`, the max -/
def cHi (cfg : SimpCfg) (e : Expr) : Option Int := if e.ok then evaluateConstantUpperBound cfg.trust e else none
/-- simplify_bounds.cc:153 `is_positive` -/
def isPos (cfg : SimpCfg) (i : Interval) : Bool := match cLo cfg i.min with | some c => decide (c > 0) | none => false
/-- simplify_bounds.cc:154 `is_negative` -/
def isNeg (cfg : SimpCfg) (i : Interval) : Bool := match cHi cfg i.max with | some c => decide (c < 0) | none => false
/-- simplify_bounds.cc:155 `is_non_negative` -/
def isNonNeg (cfg : SimpCfg) (i : Interval) : Bool := match cLo cfg i.min with | some c => decide (c ≥ 0) | none => false
/-- simplify_bounds.cc:156 `is_non_positive` -/
def isNonPos (cfg : SimpCfg) (i : Interval) : Bool := match cHi cfg i.max with | some c => decide (c ≤ 0) | none => false

/-- simplify_bounds.cc:161-217 `bounds_of(const mul*, ..)` -/
def boundsMul (cfg : SimpCfg) (orig : Option (Expr × Expr)) (a b : Interval) : Interval :=
  let s := opS cfg .mul orig
  if a.isPoint && b.isPoint then .point (s a.min b.min)
  else if isNonNeg cfg a && isNonNeg cfg b then .bounds (s a.min b.min) (s a.max b.max)
  else if isNonPos cfg a && isNonPos cfg b then .bounds (s a.max b.max) (s a.min b.min)
  else if b.isPoint then
    if isNonNeg cfg b then .bounds (s a.min b.min) (s a.max b.min)
    else if isNonPos cfg b then .bounds (s a.max b.min) (s a.min b.min)
    else simpleOrUnbounded (sB cfg .min (s a.min b.min) (s a.max b.min)) (sB cfg .max (s a.min b.min) (s a.max b.min))
  else if a.isPoint then
    if isNonNeg cfg a then .bounds (s a.min b.min) (s a.min b.max)
    else if isNonPos cfg a then .bounds (s a.min b.max) (s a.min b.min)
    else simpleOrUnbounded (sB cfg .min (s a.min b.min) (s a.min b.max)) (sB cfg .max (s a.min b.min) (s a.min b.max))
  else
    simpleOrUnbounded
      (sB cfg .min (sB cfg .min (s a.min b.min) (s a.min b.max)) (sB cfg .min (s a.max b.min) (s a.max b.max)))
      (sB cfg .max (sB cfg .max (s a.min b.min) (s a.min b.max)) (sB cfg .max (s a.max b.min) (s a.max b.max)))

/-- simplify_bounds.cc:221 `negate(expr)` -/
def sNeg (cfg : SimpCfg) (a : Expr) : Expr := sB cfg .sub (.const 0) a
/-- simplify_bounds.cc:222-228 `negate(interval_expr)` -/
def negateI (cfg : SimpCfg) (i : Interval) : Interval :=
  if i.isPoint then .point (sNeg cfg i.min) else .bounds (sNeg cfg i.max) (sNeg cfg i.min)
/-- simplify_bounds.cc:230-235 `union_x_negate_x` -/
def unionNeg (cfg : SimpCfg) (i : Interval) : Interval :=
  .bounds (sB cfg .min i.min (sNeg cfg i.max)) (sB cfg .max i.max (sNeg cfg i.min))

/-- simplify_bounds.cc:239-278 `bounds_of(const div*, ..)` -/
def boundsDiv (cfg : SimpCfg) (orig : Option (Expr × Expr)) (a b : Interval) : Interval :=
  let s := opS cfg .div orig
  if b.isPoint && isZero b.min then .bounds (.const 0) (.const 0)
  else if b.isPoint && a.isPoint then .point (s a.min b.min)
  else if b.isPoint && isNonNeg cfg b then .bounds (s a.min b.min) (s a.max b.min)
  else if b.isPoint && isNonPos cfg b then .bounds (s a.max b.min) (s a.min b.min)
  else if b.isPoint then unionNeg cfg a
  else if isPos cfg b then
    if isNonNeg cfg a then .bounds (s a.min b.max) (s a.max b.min)
    else if isNonPos cfg a then .bounds (s a.min b.min) (s a.max b.max)
    else .bounds (s (unionNeg cfg a).min b.min) (s (unionNeg cfg a).max b.min)
  else if isNeg cfg b then
    if isNonNeg cfg a then .bounds (s a.max b.max) (s a.min b.min)
    else if isNonPos cfg a then .bounds (s a.max b.min) (s a.min b.max)
    else .bounds (s (unionNeg cfg a).max b.max) (s (unionNeg cfg a).min b.max)
  else unionNeg cfg a

/-- simplify_bounds.cc:279-305 `bounds_of(const mod*, ..)` (the branch at line 291 is dead code). -/
def boundsMod (cfg : SimpCfg) (orig : Option (Expr × Expr)) (a b : Interval) : Interval :=
  if a.isPoint && b.isPoint then .point (opS cfg .mod orig a.min b.min)
  else
    let mb :=
      if isNonNeg cfg b then b.max
      else if b.isPoint then sAbs cfg b.max
      else sB cfg .max (sAbs cfg b.min) (sAbs cfg b.max)
    .bounds (.const 0) (sB cfg .max (sB cfg .sub mb (.const 1)) (.const 0))

/-- simplify_bounds.cc:320-333 `bounds_of(const equal*, ..)` -/
def boundsEq (cfg : SimpCfg) (orig : Option (Expr × Expr)) (a b : Interval) : Interval :=
  if a.isPoint && b.isPoint then .point (opS cfg .eq orig a.min b.min)
  else .bounds (.const 0) (sB cfg .and (sB cfg .le a.min b.max) (sB cfg .le b.min a.max))

/-- simplify_bounds.cc:334-343 `bounds_of(const not_equal*, ..)` -/
def boundsNe (cfg : SimpCfg) (orig : Option (Expr × Expr)) (a b : Interval) : Interval :=
  if a.isPoint && b.isPoint then .point (opS cfg .ne orig a.min b.min)
  else .bounds (sB cfg .or (sB cfg .lt a.max b.min) (sB cfg .lt b.max a.min)) (.const 1)

/-- simplify_bounds.cc:113-350 `bounds_of` of a binary operator; `orig`: the operands of `op`, if it is not null. -/
def boundsBin (cfg : SimpCfg) (simp : Expr → Expr) (op : BinOp) (orig : Option (Expr × Expr)) (a b : Interval) : Interval :=
  match op with
  | .add => tighten cfg simp (boundsLinear cfg .add orig a b) orig 1
  | .sub => tighten cfg simp (boundsLinear cfg .sub orig a ⟨b.max, b.min, b.same⟩) orig (-1)
  | .mul => boundsMul cfg orig a b
  | .div => boundsDiv cfg orig a b
  | .mod => boundsMod cfg orig a b
  | .min => boundsLinear cfg .min orig a b
  | .max => boundsLinear cfg .max orig a b
  | .lt => boundsLess cfg .lt orig a b
  | .le => boundsLess cfg .le orig a b
  | .eq => boundsEq cfg orig a b
  | .ne => boundsNe cfg orig a b
  | .and => boundsLinear cfg .and orig a b
  | .or => boundsLinear cfg .or orig a b

/-- simplify_bounds.cc:351-359 `bounds_of(const logical_not*, ..)`. (The first case, that the bounds of the operand are the
negation itself, does not arise.) -/
def boundsNot (cfg : SimpCfg) (a : Interval) : Interval :=
  if a.isPoint then .point (sNot cfg a.min) else .bounds (sNot cfg a.max) (sNot cfg a.min)

/-- simplify_bounds.cc:361-380 `bounds_of(const select*, ..)`; `orig`: the operands of `op`. -/
def boundsSelect (cfg : SimpCfg) (orig : Option (Expr × Expr × Expr)) (c t f : Interval) : Interval :=
  if c.isPoint && t.isPoint && f.isPoint then
    if orig = some (c.min, t.min, f.min) then .point (.select c.min t.min f.min) else .point (sSel cfg c.min t.min f.min)
  else if isTrue c.min then t
  else if isFalse c.max then f
  else if c.isPoint then Interval.select c.min t f
  else .bounds (sB cfg .min t.min f.min) (sB cfg .max t.max f.max)

/-- simplify_bounds.cc:382-399 `bounds_of(const call*, ..)` of `abs` -/
def boundsAbs (cfg : SimpCfg) (a : Interval) : Interval :=
  if a.min.ok && isNonNegative a.min then a
  else if a.max.ok && isNonPositive a.max then negateI cfg a
  else if a.isPoint then .bounds (.const 0) (sAbs cfg a.min)
  else .bounds (.const 0) (sB cfg .max (sAbs cfg a.min) (sAbs cfg a.max))

/-- simplify_exprs.cc:394-410 `simplify_intersection` -/
def simplifyIntersection (cfg : SimpCfg) (a b : Interval) : Interval :=
  let mn := if a.min.defined && b.min.defined then loMax cfg a.min b.min else if !a.min.defined then b.min else a.min
  let mx := if a.max.defined && b.max.defined then hiMin cfg a.max b.max else if !a.max.defined then b.max else a.max
  ⟨mn, mx, matchE mn mx⟩

end Slinky
