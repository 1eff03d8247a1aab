import Verif.Interval
import Verif.Compare

/-!
# Model of the pattern matching and rewriting engine (slinky/builder/rewrite.h)

The C++ engine is written with expression templates; here patterns and replacements are data (`Pat`), so that the rule
tables of simplify_rules.h (module `Rules`, generated by tools/rules2lean.py) are values, and the engine is a function.
-/

namespace Slinky

/-- rewrite.h:746-757: the predicates on matched expressions. -/
inductive PredKind | isFinite | isConstant | isZero | isNonNegative | isNonPositive | isBoolean
deriving DecidableEq, Repr

/-- The patterns and replacements of rewrite.h. -/
inductive Pat
  /-- rewrite.h:113 `pattern_wildcard` -/
  | wild (i : Nat)
  /-- rewrite.h:143 `pattern_constant` -/
  | cst (i : Nat)
  /-- a literal -/
  | lit (c : Int)
  /-- rewrite.h:179 `pattern_optional`, `may_be<d>(p)` -/
  | opt (p : Pat) (d : Int)
  /-- rewrite.h:207 `pattern_binary` -/
  | bin (op : BinOp) (a b : Pat)
  /-- rewrite.h:359 `pattern_unary<logical_not, A>` -/
  | not (a : Pat)
  /-- rewrite.h:403 `pattern_select` -/
  | select (c t f : Pat)
  /-- rewrite.h:446 `pattern_call` without arguments -/
  | call0 (fn : Fn)
  /-- rewrite.h:446 `pattern_call` with one argument -/
  | call1 (fn : Fn) (a : Pat)
  /-- rewrite.h:446 `pattern_call` with two arguments -/
  | call2 (fn : Fn) (a b : Pat)
  /-- rewrite.h:503 `pattern_staircase` -/
  | stair (x a b c : Pat)
  /-- rewrite.h:607 `replacement_eval` -/
  | eval (p : Pat)
  /-- rewrite.h:627 `replacement_boolean` -/
  | boolean (p : Pat)
  /-- rewrite.h:580 `replacement_predicate`, applied to a wildcard -/
  | pred (k : PredKind) (i : Nat)
  /-- rewrite.h:648 `replacement_staircase_sum_bound`, `bound_sign = -1` -/
  | stairMin (a1 b1 c1 a2 b2 c2 : Pat)
  /-- rewrite.h:648 `replacement_staircase_sum_bound`, `bound_sign = 1` -/
  | stairMax (a1 b1 c1 a2 b2 c2 : Pat)
deriving DecidableEq, Repr

/-! ### Matching -/

/-- rewrite.h:29-42 `match_context`: what the wildcards and constants have matched so far (`none`: nothing yet; the C++
keeps that set in a template parameter). `variant` and `variant_bits` are passed separately. -/
structure MCtx where
  vars : Nat → Option Expr
  consts : Nat → Option Int

/-- The context at the start of a match. -/
def MCtx.empty : MCtx := ⟨fun _ => none, fun _ => none⟩

/-- rewrite.h:56-110 `pattern_info<T>::type`, `none` for `expr_node_type::none`. -/
def Pat.ty : Pat → Option Nat
  | .wild _ => none
  | .cst _ | .lit _ | .eval _ | .pred _ _ => some 19
  | .stairMin .. | .stairMax .. => some 19
  | .opt p _ => p.ty
  | .bin op _ _ => some op.tag
  | .not _ => some 16
  | .select _ _ _ => some 17
  | .call0 _ | .call1 _ _ | .call2 _ _ _ => some 18
  | .stair .. => none
  | .boolean _ => none

/-- rewrite.h:224-225 `could_commute` -/
def couldCommute (op : BinOp) (a b : Pat) : Bool :=
  op.comm && (a.ty == none || b.ty == none || a.ty == b.ty)

/-- rewrite.h:240-265: the default of an optional pattern. -/
def Pat.dflt : Pat → Option Int
  | .opt _ d => some d
  | _ => none

/-- rewrite.h:43-47, 152-160, 190-193 `match` of a pattern against an `index_t`. -/
def matchC : Pat → Int → MCtx → Option MCtx
  | .lit c, x, ctx => if c = x then some ctx else none
  | .cst i, x, ctx =>
    match ctx.consts i with
    | some c => if c = x then some ctx else none
    | none => some { ctx with consts := fun j => if j = i then some x else ctx.consts j }
  | .opt p _, x, ctx => matchC p x ctx
  | _, _, _ => none

/-- Sequencing of two matches: the second is tried if the first succeeds; the number of variant bits used is kept either
way. -/
def seqM (r : Option MCtx × Nat) (f : MCtx → Nat → Option MCtx × Nat) : Option MCtx × Nat :=
  match r.1 with
  | none => (none, r.2)
  | some c => f c r.2

/-- The `match` overloads for an `expr_ref` (rewrite.h:48-558). `v` is `ctx.variant`, `n` is `ctx.variant_bits`; the result
is the context if the match succeeded, and the number of variant bits used. Simplifications: the arithmetic that
canonicalizes a negative divisor in a staircase (rewrite.h:550) is exact; a call with the wrong number of arguments (an
assertion in the C++) does not match. -/
def matchP (v : Nat) : Pat → Expr → MCtx → Nat → Option MCtx × Nat
  | .wild i, e, ctx, n =>
    match ctx.vars i with
    | some e' => if matchE e e' then (some ctx, n) else (none, n)
    | none => (some { ctx with vars := fun j => if j = i then some e else ctx.vars j }, n)
  | .lit c, e, ctx, n => if asConst e = some c then (some ctx, n) else (none, n)
  | .cst i, e, ctx, n =>
    match asConst e with
    | some c => (matchC (.cst i) c ctx, n)
    | none => (none, n)
  | .opt p _, e, ctx, n => matchP v p e ctx n
  | .bin op a b, e, ctx, n =>
    match (match e with | .bin op' x y => if op' = op then some (x, y) else none | _ => none) with
    | some (x, y) =>
      -- rewrite.h:228-240 `match_binary`
      if couldCommute op a b then
        if v.testBit n then seqM (matchP v a y ctx (n + 1)) (fun c k => matchP v b x c k)
        else seqM (matchP v a x ctx (n + 1)) (fun c k => matchP v b y c k)
      else seqM (matchP v a x ctx n) (fun c k => matchP v b y c k)
    | none =>
      match a.dflt, b.dflt with
      | some d, _ => seqM (matchP v a (.const d) ctx n) (fun c k => matchP v b e c k)
      | none, some d => seqM (matchP v a e ctx n) (fun c k => matchP v b (.const d) c k)
      | none, none => (none, n)
  | .not a, e, ctx, n =>
    match e with
    | .not x => matchP v a x ctx n
    | _ => (none, n)
  | .select c t f, e, ctx, n =>
    match e with
    | .select x y z => seqM (seqM (matchP v c x ctx n) (fun k j => matchP v t y k j)) (fun k j => matchP v f z k j)
    | _ => (none, n)
  | .call0 fn, e, ctx, n =>
    match e with
    | .call fn' .nil => if fn' = fn then (some ctx, n) else (none, n)
    | _ => (none, n)
  | .call1 fn a, e, ctx, n =>
    match e with
    | .call fn' (.cons x .nil) => if fn' = fn then matchP v a x ctx n else (none, n)
    | _ => (none, n)
  | .call2 fn a b, e, ctx, n =>
    match e with
    | .call fn' (.cons x (.cons y .nil)) =>
      if fn' = fn then seqM (matchP v a x ctx n) (fun c k => matchP v b y c k) else (none, n)
    | _ => (none, n)
  | .stair px pa pb pc, e, ctx, n =>
    -- rewrite.h:516-558: peel off a multiply by c, then a divide by a constant b, then an addition of a
    let (r, e1) := match e with
      | .bin .mul x y => (matchP v pc y ctx n, x)
      | _ => ((matchC pc 1 ctx, n), e)
    seqM r fun ctx n =>
      match (match e1 with
        | .bin .div x y => (asConst y).map fun b => (b, x)
        | _ => some (1, e1)) with
      | none => (none, n)
      | some (b, e2) =>
        match e2 with
        | .bin .add x y =>
          seqM (seqM (matchC pb b ctx, n) (fun c k => matchP v px x c k)) (fun c k => matchP v pa y c k)
        | .bin .sub x y =>
          match asConst x with
          | some ac =>
            seqM (seqM (matchC pb (-b) ctx, n) (fun c k => matchP v px y c k))
              (fun c k => (matchC pa ((b.natAbs : Int) - 1 - ac) c, k))
          | none => (none, n)
        | _ => seqM (seqM (matchC pb b ctx, n) (fun c k => matchP v px e2 c k)) (fun c k => (matchC pa 0 c, k))
  | _, _, _, n => (none, n)

/-- The number of commutative nodes of a pattern whose operands are not in a canonical order. -/
def Pat.numComm : Pat → Nat
  | .opt p _ => p.numComm
  | .bin op a b => (if couldCommute op a b then 1 else 0) + a.numComm + b.numComm
  | .not a => a.numComm
  | .select c t f => c.numComm + t.numComm + f.numComm
  | .call1 _ a => a.numComm
  | .call2 _ a b => a.numComm + b.numComm
  | .stair x a b c => x.numComm + a.numComm + b.numComm + c.numComm
  | _ => 0

/-- rewrite.h:800-806, the loop over the variants. `fuel` bounds the number of iterations. -/
def matchLoop (p : Pat) (e : Expr) : Nat → Nat → Nat → Option MCtx
  | 0, _, _ => none
  | fuel + 1, variant, count =>
    if variant < count then
      match matchP variant p e MCtx.empty 0 with
      | (some ctx, _) => some ctx
      | (none, bits) => matchLoop p e fuel (variant + 1) (Max.max count (2 ^ bits))
    else none

/-- rewrite.h:792-808 `match_any_variant`. There are at most `2 ^ p.numComm` iterations (theorem `matchLoop_fuel`). -/
def matchAny (p : Pat) (e : Expr) : Option MCtx := matchLoop p e (2 ^ p.numComm) 0 1

/-! ### Substitution -/

/-- The result of substituting in a replacement is an `index_t` or an `expr`, depending on the type of the replacement. -/
inductive PV
  | num (c : Int)
  | ex (e : Expr)

/-- The conversion of `index_t` to `expr`. -/
def PV.toE : PV → Expr
  | .num c => .const c
  | .ex e => e

/-- expr.h:483-497 `binary_overflows<T>`: only additions, subtractions and multiplications are checked. -/
def binaryOverflows : BinOp → Int → Int → Bool
  | .add, a, b => !decide (InRange 64 (a + b))
  | .sub, a, b => !decide (InRange 64 (a - b))
  | .mul, a, b => !decide (InRange 64 (a * b))
  | _, _, _ => false

/-- rewrite.h:272-346 `substitute_binary` on expressions: some operations on constants are simplified eagerly. -/
def substBinE (op : BinOp) (a b : Expr) : Expr :=
  match op with
  | .add => if isZero a then b else if isZero b then a else mkBin .add a b
  | .sub => if isZero b then a else mkBin .sub a b
  | .mul => if isZero a || isOne b then a else if isZero b || isOne a then b else mkBin .mul a b
  | .div => if isZero a || isOne b then a else if isZero b then .const 0 else mkBin .div a b
  | .mod => if isZero a then a else if isOne b then .const 0 else mkBin .mod a b
  | .and =>
    if isTrue a || isFalse b then boolean b else if isTrue b || isFalse a then boolean a else mkBin .and a b
  | .or =>
    if isTrue a || isFalse b then boolean a else if isTrue b || isFalse a then boolean b else mkBin .or a b
  | op => mkBin op a b

/-- rewrite.h:272-346 `substitute_binary`. `none`: the computation overflowed. Division of constants is exact (the C++
does not check `INT64_MIN / -1`, which overflows). -/
def substBin (op : BinOp) : PV → PV → Option PV
  | .num a, .num b => if binaryOverflows op a b then none else some (.num (op.denote a b))
  | a, b => some (.ex (substBinE op a.toE b.toE))

/-- rewrite.h:746-757 -/
def PredKind.fn : PredKind → Expr → Bool
  | .isFinite => Slinky.isFinite
  | .isConstant => fun e => (asConst e).isSome
  | .isZero => Slinky.isZero
  | .isNonNegative => Slinky.isNonNegative
  | .isNonPositive => Slinky.isNonPositive
  | .isBoolean => Slinky.isBoolean

/-- `std::numeric_limits<index_t>::max()` -/
def i64max : Int := 2 ^ 63 - 1
/-- `std::numeric_limits<index_t>::min()` -/
def i64min : Int := - 2 ^ 63

/-- rewrite.h:661-676: the value of `staircase_sum_min`. -/
def stairMinVal (a1 b1 c1 a2 b2 c2 : Int) : Int := (staircaseSumBounds32 a1 b1 c1 a2 b2 c2).min.getD i64min
/-- rewrite.h:661-676: the value of `staircase_sum_max`. -/
def stairMaxVal (a1 b1 c1 a2 b2 c2 : Int) : Int := (staircaseSumBounds32 a1 b1 c1 a2 b2 c2).max.getD i64max

/-- The value of a constant. -/
def PV.asC : PV → Option Int
  | .num c => some c
  | .ex _ => none

/-- rewrite.h:560-573 `substitute(pattern_staircase)`, given the operands. -/
def substStair (x : Expr) (a b c : Int) : Expr :=
  let x := if a ≠ 0 then mkBin .add x (.const a) else x
  let x := if b ≠ 1 then mkBin .div x (.const b) else x
  if c ≠ 1 then mkBin .mul x (.const c) else x

/-- The `substitute` overloads of rewrite.h. `none`: `overflowed` was set (or the replacement uses a wildcard that the
pattern does not have, which does not compile in the C++). -/
def substP (ctx : MCtx) : Pat → Option PV
  | .wild i => (ctx.vars i).map .ex
  | .cst i => (ctx.consts i).map .num
  | .lit c => some (.num c)
  | .opt p _ => substP ctx p
  | .bin op a b => do substBin op (← substP ctx a) (← substP ctx b)
  | .not a => do
    match ← substP ctx a with
    | .num c => some (.num (if c = 0 then 1 else 0))
    | .ex e => some (.ex (.not e))
  | .select c t f => do some (.ex (.select (← substP ctx c).toE (← substP ctx t).toE (← substP ctx f).toE))
  | .call0 fn => some (.ex (.call fn .nil))
  | .call1 fn a => do some (.ex (.call fn (.cons (← substP ctx a).toE .nil)))
  | .call2 fn a b => do some (.ex (.call fn (.cons (← substP ctx a).toE (.cons (← substP ctx b).toE .nil))))
  | .stair x a b c => do
    some (.ex (substStair (← substP ctx x).toE (← (← substP ctx a).asC) (← (← substP ctx b).asC) (← (← substP ctx c).asC)))
  | .eval p => do some (.num (← (← substP ctx p).asC))
  | .boolean p => do some (.ex (Slinky.boolean (← substP ctx p).toE))
  | .pred k i => (ctx.vars i).map fun e => .num (if k.fn e then 1 else 0)
  | .stairMin a1 b1 c1 a2 b2 c2 => do
    some (.num (stairMinVal (← (← substP ctx a1).asC) (← (← substP ctx b1).asC) (← (← substP ctx c1).asC)
      (← (← substP ctx a2).asC) (← (← substP ctx b2).asC) (← (← substP ctx c2).asC)))
  | .stairMax a1 b1 c1 a2 b2 c2 => do
    some (.num (stairMaxVal (← (← substP ctx a1).asC) (← (← substP ctx b1).asC) (← (← substP ctx c1).asC)
      (← (← substP ctx a2).asC) (← (← substP ctx b2).asC) (← (← substP ctx c2).asC)))

/-! ### Rules -/

/-- Side conditions under which a rule is an identity, beyond the predicates in the C++ (see `Side.Holds`). `none` for
almost all rules. -/
inductive Side | none | range | fit32 | exact
deriving DecidableEq, Repr

/-- One `apply(pattern, replacement, predicate, replacement, predicate, ...)` of simplify_rules.h. The last predicate may
be missing. -/
structure Rule where
  pat : Pat
  alts : List (Pat × Option Pat)
  side : Side

/-- rewrite.h:826-853 `find_replacement`: the first replacement whose predicate is true, and such that neither the predicate
nor the replacement overflow. -/
def findRepl (ctx : MCtx) : List (Pat × Option Pat) → Option Expr
  | [] => none
  | (r, none) :: rest =>
    match substP ctx r with
    | some v => some v.toE
    | none => findRepl ctx rest
  | (r, some pr) :: rest =>
    match substP ctx pr with
    | some (.num p) =>
      if p ≠ 0 then
        match substP ctx r with
        | some v => some v.toE
        | none => findRepl ctx rest
      else findRepl ctx rest
    | _ => findRepl ctx rest

/-- rewrite.h:863-870 `base_rewriter::operator()`: apply one rule to an expression. `g` is not in the C++ (where it is
always true): it is the place where the theorems say which applications of the rules with a side condition are justified. -/
def applyRule (g : Rule → MCtx → Bool) (r : Rule) (e : Expr) : Option Expr :=
  match matchAny r.pat e with
  | none => none
  | some ctx => if g r ctx then findRepl ctx r.alts else none

/-- simplify_rules.h, `apply(...) || apply(...) || ...`: the first rule that applies. -/
def applyRules (g : Rule → MCtx → Bool) : List Rule → Expr → Option Expr
  | [], _ => none
  | r :: rs, e =>
    match applyRule g r e with
    | some e' => some e'
    | none => applyRules g rs e

end Slinky
