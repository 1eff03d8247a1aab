import Verif.SimplifyExprs

/-!
# Model of the constant evaluator (slinky/builder/simplify.cc:2513-2827): `constant_lower_bound`, `evaluate_constant`, ...

The evaluator mutates an expression looking for a lower bound (`s < 0`), an upper bound (`s > 0`), or folding constants
(`s = 0`). The callers only use the result if it is a constant.

`trust a c` is a guard that the C++ does not have (`trustAll` is the C++): when `c` is a bound of the operand `a` of a
logical operator, may the evaluator treat `a` as a boolean, i.e. conclude from `c ≠ 0` that `a` is true, or from `c = 0` that
it is false? See `evaluate_not_counterexample` for what happens when it may not.

Simplification: "is this the same node" (`same_as`) is structural equality.
-/

namespace Slinky

/-- simplify.cc:32-41 `strip_boolean` -/
def stripBoolean : Expr → Expr
  | .bin .ne a b => if isZero b then stripBoolean a else .bin .ne a b
  | e => e

/-- expr.h:484-491 `make_or_eval_binary` -/
def makeOrEval (op : BinOp) (a b : Int) : Expr :=
  if binaryOverflows op a b then mkBin op (.const a) (.const b) else .const (op.denote a b)

/-- simplify.cc:2559-2572 `set_binary_result`: `oa`, `ob` are the original operands, `a`, `b` the mutated ones. -/
def ceBinRes (op : BinOp) (oa ob a b : Expr) : Expr :=
  match asConst a, asConst b with
  | some ca, some cb => makeOrEval op ca cb
  | _, _ => if !(a.defined && b.defined) then .undef else rebuildBin op oa ob a b

/-- simplify.cc:2536-2555 `visit_min_max`, given the mutated operands. -/
def ceMinMax (op : BinOp) (take : Bool) (oa ob a b : Expr) : Expr :=
  match asConst a, asConst b with
  | some ca, some cb => .const (op.denote ca cb)
  | some _, none => if take then a else if !b.defined then .undef else rebuildBin op oa ob a b
  | none, some _ => if take then b else if !a.defined then .undef else rebuildBin op oa ob a b
  | none, none => if !(a.defined && b.defined) then .undef else rebuildBin op oa ob a b

/-- `max(x, y)` with the operands in canonical order, visited; `rx`, `ry` are the mutated operands. -/
def ceMax2 (take : Bool) (x y rx ry : Expr) : Expr :=
  if shouldCommute x y then ceMinMax .max take y x ry rx else ceMinMax .max take x y rx ry

/-- simplify.cc:2577-2581 `sign_of` -/
def signOf (x : Expr) : Int := if isPositive x then 1 else if isNegative x then -1 else 0

/-- The constants 0 and 1, which bound any logical operation (simplify.cc:2641, 2661, 2690, 2718). -/
def boolBound (s : Int) : Expr := .const (if s < 0 then 0 else 1)

/-- See the head of the file: a bound `r` of the operand `o` is only used if it can be trusted. Exact values (`s = 0`) can
always be used. -/
def trusted (trust : Expr → Int → Bool) (s : Int) (o r : Expr) : Expr :=
  match asConst r with
  | some c => if s ≠ 0 ∧ trust o c = false then .undef else r
  | none => r

/-- simplify.cc:2674-2699 `visit_logical_and_or`, 2736-2768 `and_then` and `or_else`, given the stripped mutated operands.
`mk` builds the result from new operands, `same` is the original. -/
def ceAndOr (isAnd : Bool) (s : Int) (mk : Expr → Expr → Expr) (a b : Expr) : Expr :=
  let p := if (asConst b).isSome then (b, a) else (a, b)
  match asConst p.1 with
  | some ca => if ca ≠ 0 then boolean (if isAnd then p.2 else p.1) else boolean (if isAnd then p.1 else p.2)
  | none => if s ≠ 0 then boolBound s else if !(a.defined && b.defined) then .undef else mk a b

mutual
/-- simplify.cc:2513-2775 `constant_evaluator::mutate(x, sign)`; `req`: `constant_required`. -/
def ce (trust : Expr → Int → Bool) (req : Bool) (s : Int) : Expr → Expr
  | .undef => .undef
  -- simplify.cc:2534
  | .var x f d => if req then .undef else .var x f d
  | .const c => .const c
  -- node_mutator.cc:13-28 `mutate_let`
  | .lets bs b => .lets (ceBinds trust req s bs) (ce trust req s b)
  -- simplify.cc:2556-2557
  | .bin .min a b => ceMinMax .min (decide (s > 0)) a b (ce trust req s a) (ce trust req s b)
  | .bin .max a b => ceMinMax .max (decide (s < 0)) a b (ce trust req s a) (ce trust req s b)
  -- simplify.cc:2574-2575
  | .bin .add a b => ceBinRes .add a b (ce trust req s a) (ce trust req s b)
  | .bin .sub a b => ceBinRes .sub a b (ce trust req s a) (ce trust req (-s) b)
  -- simplify.cc:2583-2609
  | .bin .mul a b =>
    let ra := ce trust req 0 a
    let rb := ce trust req 0 b
    if s = 0 ∨ isZero ra = true ∨ isZero rb = true ∨ ((asConst ra).isSome ∧ (asConst rb).isSome) then
      ceBinRes .mul a b ra rb
    else if signOf ra ≠ 0 then ceBinRes .mul a b ra (ce trust req (s * signOf ra) b)
    else if signOf rb ≠ 0 then ceBinRes .mul a b (ce trust req (s * signOf rb) a) rb
    else if !(ra.defined && rb.defined) then .undef
    else .bin .mul a b
  | .bin .div a b =>
    let ra := ce trust req 0 a
    let rb := ce trust req 0 b
    if s = 0 ∨ isZero ra = true ∨ isZero rb = true ∨ ((asConst ra).isSome ∧ (asConst rb).isSome) then
      ceBinRes .div a b ra rb
    else if signOf rb ≠ 0 then ceBinRes .div a b (ce trust req (s * signOf rb) a) rb
    else if !(ra.defined && rb.defined) then .undef
    else .bin .div a b
  -- simplify.cc:2611-2629
  | .bin .mod a b =>
    if s = 0 then ceBinRes .mod a b (ce trust req s a) (ce trust req s b)
    else if s < 0 then .const 0
    else
      -- max(0, max(-b, b) - 1)
      let nb := negE b
      let rnb := ceBinRes .sub (.const 0) b (.const 0) (ce trust req (-s) b)
      let m := mkBin .max nb b
      let rm := ceMax2 false nb b rnb (ce trust req s b)
      let r := ceMinMax .max false (mkBin .sub m (.const 1)) (.const 0)
        (ceBinRes .sub m (.const 1) rm (.const 1)) (.const 0)
      if r ≠ mkBin .max (.const 0) (mkBin .sub m (.const 1)) then r
      else if req then .undef else .bin .mod a b
  -- simplify.cc:2631-2642
  | .bin .eq a b => if s = 0 then ceBinRes .eq a b (ce trust req s a) (ce trust req s b) else boolBound s
  | .bin .ne a b => if s = 0 then ceBinRes .ne a b (ce trust req s a) (ce trust req s b) else boolBound s
  -- simplify.cc:2644-2672
  | .bin .lt a b => ceLess trust req s .lt a b (ce trust req (-s) a) (ce trust req s b)
  | .bin .le a b => ceLess trust req s .le a b (ce trust req (-s) a) (ce trust req s b)
  -- simplify.cc:2701-2706
  | .bin .and a b =>
    let ns := min s 0
    ceAndOr true s (fun ra rb => rebuildBin .and a b ra rb)
      (trusted trust ns a (stripBoolean (ce trust req ns a))) (trusted trust ns b (stripBoolean (ce trust req ns b)))
  | .bin .or a b =>
    let ns := max s 0
    ceAndOr false s (fun ra rb => rebuildBin .or a b ra rb)
      (trusted trust ns a (stripBoolean (ce trust req ns a))) (trusted trust ns b (stripBoolean (ce trust req ns b)))
  -- simplify.cc:2708-2722
  | .not a =>
    let ra := trusted trust s a (stripBoolean (ce trust req (-s) a))
    match asConst ra with
    | some c => .const (if c ≠ 0 then 0 else 1)
    | none => if s ≠ 0 then boolBound s else if !ra.defined then .undef else .not ra
  -- simplify.cc:2723-2746
  | .select c t f =>
    let rc := stripBoolean (ce trust req 0 c)
    match asConst rc with
    | some cc => if cc ≠ 0 then ce trust req s t else ce trust req s f
    | none =>
      let rt := ce trust req s t
      let rf := ce trust req s f
      match asConst rt, asConst rf with
      | some ct, some cf =>
        if s < 0 then .const (min ct cf) else if s > 0 then .const (max ct cf)
        else if !rc.defined then .undef else .select rc rt rf
      | _, _ => if !(rc.defined && rt.defined && rf.defined) then .undef else .select rc rt rf
  -- simplify.cc:2747-2775
  | .call .abs as =>
    match as with
    | .cons x .nil =>
      -- max(0, max(x, -x))
      let nx := negE x
      let rnx := ceBinRes .sub (.const 0) x (.const 0) (ce trust req (-s) x)
      let m := mkBin .max x nx
      let rm := ceMax2 (decide (s < 0)) x nx (ce trust req s x) rnx
      let r := ceMinMax .max (decide (s < 0)) m (.const 0) rm (.const 0)
      if r ≠ mkBin .max (.const 0) m then r
      else if req then .undef
      else if s = 0 then .call .abs (.cons (ce trust req s x) .nil)
      else .call .abs as
    | _ => .undef
  | .call .andThen as =>
    match as with
    | .cons a (.cons b .nil) =>
      let ns := min s 0
      ceAndOr true s (fun ra rb => .call .andThen (.cons ra (.cons rb .nil)))
        (trusted trust ns a (stripBoolean (ce trust req ns a))) (trusted trust ns b (stripBoolean (ce trust req ns b)))
    | _ => .undef
  | .call .orElse as =>
    match as with
    | .cons a (.cons b .nil) =>
      let ns := max s 0
      ceAndOr false s (fun ra rb => .call .orElse (.cons ra (.cons rb .nil)))
        (trusted trust ns a (stripBoolean (ce trust req ns a))) (trusted trust ns b (stripBoolean (ce trust req ns b)))
    | _ => .undef
  | .call fn as =>
    if req then .undef else if s = 0 then .call fn (ceArgs trust req s as) else .call fn as
/-- simplify.cc:2644-2672 `visit_less`, given the mutated operands. -/
def ceLess (trust : Expr → Int → Bool) (req : Bool) (s : Int) (op : BinOp) (oa ob a b : Expr) : Expr :=
  match asConst a, asConst b with
  | some ca, some cb => .const (op.denote ca cb)
  | _, _ =>
    if s ≠ 0 then boolBound s
    else if !a.defined || !b.defined then .undef
    else rebuildBin op oa ob a b
/-- The arguments. -/
def ceArgs (trust : Expr → Int → Bool) (req : Bool) (s : Int) : Exprs → Exprs
  | .nil => .nil
  | .cons e es => .cons (ce trust req s e) (ceArgs trust req s es)
/-- The values of lets. -/
def ceBinds (trust : Expr → Int → Bool) (req : Bool) (s : Int) : Binds → Binds
  | .nil => .nil
  | .cons x e bs => .cons x (ce trust req s e) (ceBinds trust req s bs)
end

/-- The guard of the C++: operands of logical operators are always treated as booleans. -/
def trustAll : Expr → Int → Bool := fun _ _ => true

/-- simplify.cc:2788 `constant_lower_bound` -/
def constantLowerBound (trust : Expr → Int → Bool) (e : Expr) : Expr := ce trust false (-1) e
/-- simplify.cc:2789 `constant_upper_bound` -/
def constantUpperBound (trust : Expr → Int → Bool) (e : Expr) : Expr := ce trust false 1 e
/-- simplify.cc:2790 `evaluate_constant` -/
def evaluateConstant (trust : Expr → Int → Bool) (e : Expr) : Option Int := asConst (ce trust true 0 e)
/-- simplify.cc:2791-2793 `evaluate_constant_lower_bound` -/
def evaluateConstantLowerBound (trust : Expr → Int → Bool) (e : Expr) : Option Int := asConst (ce trust true (-1) e)
/-- simplify.cc:2794-2796 `evaluate_constant_upper_bound` -/
def evaluateConstantUpperBound (trust : Expr → Int → Bool) (e : Expr) : Option Int := asConst (ce trust true 1 e)

/-- simplify.cc:715-727 `prove_constant_true` -/
def proveConstantTrue (trust : Expr → Int → Bool) (e : Expr) : Bool :=
  if !e.defined then false
  else
    match evaluateConstant trust e with
    | some c => decide (c ≠ 0)
    | none =>
      (match asConst (constantLowerBound trust e) with | some a => decide (a > 0) | none => false) ||
      (match asConst (constantUpperBound trust e) with | some b => decide (b < 0) | none => false)

/-- simplify.cc:729-741 `prove_constant_false` -/
def proveConstantFalse (trust : Expr → Int → Bool) (e : Expr) : Bool :=
  if !e.defined then false
  else
    match evaluateConstant trust e with
    | some c => decide (c = 0)
    | none =>
      match asConst (constantLowerBound trust e), asConst (constantUpperBound trust e) with
      | some a, some b => decide (a = 0 ∧ b = 0)
      | _, _ => false

end Slinky
