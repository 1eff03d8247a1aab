import Verif.Expr

/-!
# Model of the structural comparison of expressions (`matcher`, `compare`, `match`; slinky/builder/substitute.cc:30-440)

The result -1/0/1 of the C++ is `Ordering.lt/eq/gt`. Pointer-equality shortcuts (`e == op`) are not modelled: expressions
are values here. For calls to user functions the C++ compares node addresses; `Fn.user k` carries that identity.
-/

namespace Slinky

/-- expr.h:63-86: the position of the node type in `expr_node_type` (a null expression is `none` = 0). -/
def BinOp.tag : BinOp → Nat
  | .add => 3 | .sub => 4 | .mul => 5 | .div => 6 | .mod => 7 | .min => 8 | .max => 9 | .eq => 10 | .ne => 11
  | .lt => 12 | .le => 13 | .and => 14 | .or => 15

/-- expr.h:63-86 `expr_node_type` of a node. -/
def Expr.tag : Expr → Nat
  | .undef => 0
  | .var _ _ _ => 1
  | .lets _ _ => 2
  | .bin op _ _ => op.tag
  | .not _ => 16
  | .select _ _ _ => 17
  | .call _ _ => 18
  | .const _ => 19

/-- expr.h:123-135 the value of the enumerator. -/
def Field.tag : Field → Nat
  | .none => 0 | .rank => 1 | .elemSize => 2 | .sizeBytes => 3 | .min => 4 | .max => 5 | .stride => 6 | .foldFactor => 7

/-- expr.h:88-121 the value of the enumerator. -/
def Fn.tag : Fn → Nat
  | .user _ => 0 | .negInf => 1 | .posInf => 2 | .indeterminate => 3 | .abs => 4 | .andThen => 5 | .orElse => 6
  | .bufferAt => 7 | .semInit => 8 | .semSignal => 9 | .semWait => 10 | .waitFor => 11 | .traceBegin => 12
  | .traceEnd => 13 | .free => 14 | .validateBuffer => 15

/-- The identity of a call node with a user target (0 if there is no target). -/
def Fn.ident : Fn → Nat
  | .user k => k
  | _ => 0

/-- substitute.cc:43-52 `try_match(T, T)` on scalars. -/
def cmp3 (a b : Int) : Ordering := if a < b then .lt else if b < a then .gt else .eq

mutual
/-- substitute.cc:96-113 `try_match(const base_expr_node*, const base_expr_node*)` and the visitors 160-242. -/
def cmpE : Expr → Expr → Ordering
  | .var x f d, .var x' f' d' => (cmp3 x x').then ((cmp3 f.tag f'.tag).then (cmp3 d d'))
  | .const c, .const c' => cmp3 c c'
  | .lets bs b, .lets bs' b' => ((cmp3 bs.length bs'.length).then (cmpBinds bs bs')).then (cmpE b b')
  | .bin op a b, .bin op' a' b' => (cmp3 op.tag op'.tag).then ((cmpE a a').then (cmpE b b'))
  | .not a, .not a' => cmpE a a'
  | .select c t f, .select c' t' f' => (cmpE c c').then ((cmpE t t').then (cmpE f f'))
  | .call fn as, .call fn' as' =>
    (cmp3 fn.tag fn'.tag).then (((cmp3 as.length as'.length).then (cmpArgs as as')).then (cmp3 fn.ident fn'.ident))
  | e, e' => cmp3 e.tag e'.tag
/-- substitute.cc:150-158 the loop of `try_match_container` (sizes are compared first, by the caller). -/
def cmpArgs : Exprs → Exprs → Ordering
  | .cons e es, .cons e' es' => (cmpE e e').then (cmpArgs es es')
  | _, _ => .eq
/-- substitute.cc:143-158 the loop of `try_match_container` for pairs. -/
def cmpBinds : Binds → Binds → Ordering
  | .cons x e bs, .cons x' e' bs' => ((cmp3 x x').then (cmpE e e')).then (cmpBinds bs bs')
  | _, _ => .eq
end

/-- substitute.cc:417 `match` -/
def matchE (a b : Expr) : Bool := cmpE a b == .eq

/-- substitute.h `node_less`: `compare(a, b) < 0` -/
def nodeLess (a b : Expr) : Bool := cmpE a b == .lt

end Slinky
