import Verif.DependsOn
import Verif.Compare

/-!
# Model of substitution in expressions (`slinky/builder/substitute.cc`, `slinky/builder/node_mutator.cc`) and of the
expression builders (`make_bin_op`, expr_stmt.cc:55-66)
-/

namespace Slinky

/-- expr.h:441-453 `T::commutative` -/
def BinOp.comm : BinOp → Bool
  | .add | .mul | .min | .max | .eq | .ne | .and | .or => true
  | _ => false

/-- expr.h:297 `should_commute` -/
def shouldCommute (a b : Expr) : Bool := decide (b.tag < a.tag)

/-- expr_stmt.cc:55-66 `make_bin_op`: the constructors of binary operators put the operands of commutative operators in a
canonical order. -/
def mkBin (op : BinOp) (a b : Expr) : Expr := if op.comm && shouldCommute a b then .bin op b a else .bin op a b

/-- node_mutator.cc:27-36 `mutate_binary`, given the mutated operands. -/
def rebuildBin (op : BinOp) (a b a' b' : Expr) : Expr := if a' = a ∧ b' = b then .bin op a b else mkBin op a' b'

/-- substitute.cc:697-700 remove trailing undefined arguments. -/
def popUndef : Exprs → Exprs
  | .nil => .nil
  | .cons e es =>
    match popUndef es with
    | .nil => if e.defined then .cons e .nil else .nil
    | es' => .cons e es'

/-- substitute.cc:679-695 the loop over the dimensions, from dimension `d`, on arguments already padded with undefined
arguments to the rank: an undefined argument becomes the replaced `buffer_min`, a `buffer_min` of the same buffer and
dimension becomes undefined. `rep d` is `mutate_variable(nullptr, buf, buffer_field::min, d)`. -/
def bufAtArgs (rep : Nat → Expr) (z : Nat) : Nat → Exprs → Exprs
  | _, .nil => .nil
  | d, .cons e es =>
    .cons (if e = .undef then rep d else if e = .var z .min d then .undef else e) (bufAtArgs rep z (d + 1) es)

/-- `args.resize(n)` (only to grow) -/
def padArgs : Nat → Exprs → Exprs
  | 0, es => es
  | n + 1, .nil => .cons .undef (padArgs n .nil)
  | n + 1, .cons e es => .cons e (padArgs n es)

/-- substitute.cc:674-701, the treatment of the arguments of `buffer_at` after they have been mutated. `rank z` is
`get_target_buffer_rank(z)`, `rep z d` is `mutate_variable(nullptr, z, buffer_field::min, d)`. Simplification: the C++
asserts that the first argument is a variable if it is defined. -/
def fixBufferAt (rank : Nat → Nat) (rep : Nat → Nat → Expr) : Fn → Exprs → Exprs
  | .bufferAt, .cons (.var z .none i) es =>
    .cons (.var z .none i) (popUndef (bufAtArgs (rep z) z 0 (padArgs (rank z) es)))
  | _, es => es

/-! ### `substitute(expr, var, expr)` -/

/-- substitute.cc:803 `var_substitutor::enter_decl`: may the substitution continue in the scope of `x`? -/
def enterDecl (t : Nat) (r : Expr) (x : Nat) : Bool := x ≠ t && !anyDep (dependsOn r x)

mutual
/-- substitute.cc:793-830 `var_substitutor`, with the visitors of `substitutor` (440-483, 665-706) and `node_mutator`
(node_mutator.cc:136-190). Where the C++ asserts that the replacement is a variable, the result is undefined here. -/
def substE (t : Nat) (r : Expr) : Expr → Expr
  | .undef => .undef
  | .var y f d =>
    if y = t then
      match f, r with
      | .none, r => r
      | f, .var z .none _ => .var z f d
      | _, _ => .undef
    else .var y f d
  | .const c => .const c
  | .lets bs b =>
    .lets (substBinds t r bs) (if bs.toList.all (fun p => enterDecl t r p.1) then substE t r b else b)
  | .bin op a b => rebuildBin op a b (substE t r a) (substE t r b)
  | .not a => .not (substE t r a)
  | .select c u v => .select (substE t r c) (substE t r u) (substE t r v)
  | .call fn as => .call fn (fixBufferAt (fun _ => 0) (fun _ _ => .undef) fn (substArgs t r as))
/-- See `substE`. -/
def substArgs (t : Nat) (r : Expr) : Exprs → Exprs
  | .nil => .nil
  | .cons e es => .cons (substE t r e) (substArgs t r es)
/-- substitute.cc:440-461 `mutate_let`: stop at the first declaration that cannot be entered. -/
def substBinds (t : Nat) (r : Expr) : Binds → Binds
  | .nil => .nil
  | .cons x e bs => .cons x (substE t r e) (if enterDecl t r x then substBinds t r bs else bs)
end

/-- substitute.cc:883-886 `substitute(const expr& e, var target, const expr& replacement)`. -/
def substitute (e : Expr) (t : Nat) (r : Expr) : Expr :=
  match r with
  | .var z .none d => if z = t then e else substE t (.var z .none d) e
  | r => substE t r e

/-! ### `substitute_buffer` -/

/-- expr.h `dim_expr` -/
structure DimExpr where
  min : Expr
  max : Expr
  stride : Expr
  foldFactor : Expr

/-- expr.h `dim_expr::get_field` -/
def DimExpr.getField (d : DimExpr) : Field → Expr
  | .min => d.min
  | .max => d.max
  | .stride => d.stride
  | .foldFactor => d.foldFactor
  | _ => .undef

/-- substitute.cc:854-879 `buffer_substitutor::mutate_variable` for the target. `dflt` is `def`. Unreachable for
`size_bytes` in the C++ (undefined here). -/
def bufRepl (elemSize : Expr) (dims : List DimExpr) (dflt : Option Nat) (f : Field) (d : Int) : Expr :=
  let other := match dflt with | some x => .var x f d | none => .undef
  match f with
  | .rank => match dflt with | some x => .var x .rank (-1) | none => .const dims.length
  | .elemSize => if elemSize.defined then elemSize else other
  | .min | .max | .stride | .foldFactor =>
    if d < dims.length then
      match dims[d.toNat]? with
      | some dim => if (dim.getField f).defined || dflt.isNone then dim.getField f else other
      | none => other
    else if dflt.isSome then other else .const 0
  | _ => .undef

mutual
/-- substitute.cc:834-880 `buffer_substitutor` with target `t`; `R f d` is `mutate_variable` and `n` the number of
dimensions. -/
def substBufE (t : Nat) (R : Field → Int → Expr) (n : Nat) : Expr → Expr
  | .undef => .undef
  | .var y f d => if y = t ∧ f ≠ .none then R f d else .var y f d
  | .const c => .const c
  | .lets bs b =>
    .lets (substBufBinds t R n bs) (if bs.toList.all (fun p => p.1 ≠ t) then substBufE t R n b else b)
  | .bin op a b => rebuildBin op a b (substBufE t R n a) (substBufE t R n b)
  | .not a => .not (substBufE t R n a)
  | .select c u v => .select (substBufE t R n c) (substBufE t R n u) (substBufE t R n v)
  | .call fn as =>
    .call fn (fixBufferAt (fun z => if z = t then n else 0) (fun z d => if z = t then R .min d else .undef) fn
      (substBufArgs t R n as))
/-- See `substBufE`. -/
def substBufArgs (t : Nat) (R : Field → Int → Expr) (n : Nat) : Exprs → Exprs
  | .nil => .nil
  | .cons e es => .cons (substBufE t R n e) (substBufArgs t R n es)
/-- See `substBinds`; `enter_decl` is `x != target` (substitute.cc:845). -/
def substBufBinds (t : Nat) (R : Field → Int → Expr) (n : Nat) : Binds → Binds
  | .nil => .nil
  | .cons x e bs => .cons x (substBufE t R n e) (if x ≠ t then substBufBinds t R n bs else bs)
end

/-- substitute.cc:905-907 `substitute_buffer` -/
def substituteBuffer (e : Expr) (t : Nat) (elemSize : Expr) (dims : List DimExpr) (dflt : Option Nat) : Expr :=
  substBufE t (bufRepl elemSize dims dflt) dims.length e

/-! ### `substitute(expr, expr, expr)` -/

mutual
/-- substitute.cc:935-960 `expr_substitutor`: replaces every subexpression that matches the target, ignoring scopes. -/
def substExpr (t r : Expr) : Expr → Expr
  | .undef => if matchE .undef t then r else .undef
  | .var x f d => if matchE (.var x f d) t then r else .var x f d
  | .const c => if matchE (.const c) t then r else .const c
  | .lets bs b => if matchE (.lets bs b) t then r else .lets (substExprBinds t r bs) (substExpr t r b)
  | .bin op a b => if matchE (.bin op a b) t then r else rebuildBin op a b (substExpr t r a) (substExpr t r b)
  | .not a => if matchE (.not a) t then r else .not (substExpr t r a)
  | .select c u v => if matchE (.select c u v) t then r else .select (substExpr t r c) (substExpr t r u) (substExpr t r v)
  | .call fn as => if matchE (.call fn as) t then r else .call fn (substExprArgs t r as)
/-- See `substExpr`. -/
def substExprArgs (t r : Expr) : Exprs → Exprs
  | .nil => .nil
  | .cons e es => .cons (substExpr t r e) (substExprArgs t r es)
/-- See `substExpr`. -/
def substExprBinds (t r : Expr) : Binds → Binds
  | .nil => .nil
  | .cons x e bs => .cons x (substExpr t r e) (substExprBinds t r bs)
end

end Slinky
