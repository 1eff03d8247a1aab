import Verif.Arith

/-!
# Model of slinky expressions (`slinky/runtime/expr.h`) and of their evaluation (`slinky/runtime/evaluate.cc`)
-/

namespace Slinky

/-- expr.h:123-135 `buffer_field`. -/
inductive Field | none | rank | elemSize | sizeBytes | min | max | stride | foldFactor
deriving DecidableEq, Repr, Inhabited

/-- expr.h:422-447, the binary operators, in the order of `expr_node_type` (expr.h:63-86). -/
inductive BinOp | add | sub | mul | div | mod | min | max | eq | ne | lt | le | and | or
deriving DecidableEq, Repr, Inhabited

/-- expr.h:88-121 `intrinsic`. `user k` is `intrinsic::none` with a user `target`; two calls to user functions compare
equal only if they are the same node (substitute.cc:233-242), `k` stands for that identity. -/
inductive Fn
  | user (k : Nat)
  | negInf | posInf | indeterminate | abs | andThen | orElse | bufferAt
  | semInit | semSignal | semWait | waitFor | traceBegin | traceEnd | free | validateBuffer
deriving DecidableEq, Repr, Inhabited

mutual
/-- expr.h:210-268, 390-540. `undef` is the null `expr`; lists are inlined as mutual inductives. -/
inductive Expr
  | undef
  | var (sym : Nat) (field : Field) (dim : Int)
  | const (c : Int)
  | lets (bs : Binds) (body : Expr)
  | bin (op : BinOp) (a b : Expr)
  | not (a : Expr)
  | select (c t f : Expr)
  | call (fn : Fn) (args : Exprs)
/-- `std::vector<expr>` -/
inductive Exprs
  | nil
  | cons (e : Expr) (es : Exprs)
/-- `std::vector<std::pair<var, expr>>` -/
inductive Binds
  | nil
  | cons (x : Nat) (e : Expr) (bs : Binds)
end

deriving instance DecidableEq for Expr, Exprs, Binds
deriving instance Repr for Expr, Exprs, Binds

instance : Inhabited Expr := ⟨.undef⟩

/-- expr.h:247 `expr::defined` -/
def Expr.defined : Expr → Bool
  | .undef => false
  | _ => true

/-- The external world an expression can read: buffer metadata reachable through a pointer, and the results of calls that
are not interpreted here (user functions, which expr.h:511 requires to be pure functions of the inputs, `buffer_at`, ...),
as functions of the values of the arguments (`none` for an undefined argument). `undef` is the (arbitrary) value of
evaluating an undefined expression, which the C++ does not allow. -/
structure Mem where
  field : Int → Field → Int → Int
  call : Fn → List (Option Int) → Int
  undef : Int

/-- An environment: the values of the variables (`eval_context`, evaluate.h:46-93). -/
abbrev Env := Nat → Int

/-- `context.set` -/
def Env.set (ρ : Env) (x : Nat) (v : Int) : Env := fun y => if y = x then v else ρ y

/-- 1 for true and 0 for false. -/
def b2i (p : Prop) [Decidable p] : Int := if p then 1 else 0

/-- Mathematical meaning of a binary operator (expr.h:456-471): exact integers, Euclidean division, division and modulo by
zero are 0. -/
def BinOp.denote : BinOp → Int → Int → Int
  | .add, a, b => a + b
  | .sub, a, b => a - b
  | .mul, a, b => a * b
  | .div, a, b => ediv a b
  | .mod, a, b => emod a b
  | .min, a, b => Min.min a b
  | .max, a, b => Max.max a b
  | .eq, a, b => b2i (a = b)
  | .ne, a, b => b2i (a ≠ b)
  | .lt, a, b => b2i (a < b)
  | .le, a, b => b2i (a ≤ b)
  | .and, a, b => b2i (a ≠ 0 ∧ b ≠ 0)
  | .or, a, b => b2i (a ≠ 0 ∨ b ≠ 0)

/-- Mathematical meaning of a call, given the values of its arguments. -/
def Fn.denote (m : Mem) : Fn → List (Option Int) → Int
  | .abs, [some x] => (x.natAbs : Int)
  | .andThen, xs => b2i (∀ x ∈ xs, x.getD m.undef ≠ 0)
  | .orElse, xs => b2i (∃ x ∈ xs, x.getD m.undef ≠ 0)
  | f, xs => m.call f xs

mutual
/-- The mathematical value of an expression: this is the specification that the machine evaluator `evalM` and all
expression transformations are compared against. -/
def eval (m : Mem) (ρ : Env) : Expr → Int
  | .undef => m.undef
  | .var x .none _ => ρ x
  | .var x f d => m.field (ρ x) f d
  | .const c => c
  | .lets bs b => eval m (evalBinds m ρ bs) b
  | .bin op a b => op.denote (eval m ρ a) (eval m ρ b)
  | .not a => b2i (eval m ρ a = 0)
  | .select c t f => if eval m ρ c ≠ 0 then eval m ρ t else eval m ρ f
  | .call fn as => fn.denote m (evalArgs m ρ as)
/-- The values of a list of arguments. -/
def evalArgs (m : Mem) (ρ : Env) : Exprs → List (Option Int)
  | .nil => []
  | .cons e es => (if e.defined then some (eval m ρ e) else none) :: evalArgs m ρ es
/-- The environment after a list of lets: later lets see earlier ones (expr.h:372-375). -/
def evalBinds (m : Mem) (ρ : Env) : Binds → Env
  | .nil => ρ
  | .cons x e bs => evalBinds m (ρ.set x (eval m ρ e)) bs
end

/-- expr.h:456-471 `make_binary<T>(index_t, index_t)` on 64-bit integers; `none`: overflow, undefined behaviour. -/
def BinOp.machine : BinOp → Int → Int → Option Int
  | .add, a, b => chk 64 (a + b)
  | .sub, a, b => chk 64 (a - b)
  | .mul, a, b => chk 64 (a * b)
  | .div, a, b => euclideanDiv 64 a b
  | .mod, a, b => euclideanMod 64 a b
  | .min, a, b => some (if b < a then b else a)
  | .max, a, b => some (if a < b then b else a)
  | .eq, a, b => some (if a = b then 1 else 0)
  | .ne, a, b => some (if a ≠ b then 1 else 0)
  | .lt, a, b => some (if a < b then 1 else 0)
  | .le, a, b => some (if a ≤ b then 1 else 0)
  | .and, a, b => some (if a ≠ 0 ∧ b ≠ 0 then 1 else 0)
  | .or, a, b => some (if a ≠ 0 ∨ b ≠ 0 then 1 else 0)

/-- Is the value of the call computed by the host (the default branch of evaluate.cc:319-352)? The infinities and
`indeterminate` are unreachable in the evaluator. -/
def Fn.isHost : Fn → Bool
  | .negInf | .posInf | .indeterminate | .abs | .andThen | .orElse => false
  | _ => true

mutual
/-- evaluate.cc:77-352 `evaluator::eval(const expr&)`. The context is mutated and passed along; the result is the value
and the context afterwards, or `none` if the evaluation has undefined behaviour (overflow, evaluating an undefined
expression or an infinity). -/
def evalM (m : Mem) : Env → Expr → Option (Int × Env)
  | _, .undef => none
  | ρ, .var x .none _ => some (ρ x, ρ)
  | ρ, .var x f d => some (m.field (ρ x) f d, ρ)
  | ρ, .const c => some (c, ρ)
  | ρ, .lets bs b => do
    -- evaluate.cc:159-181: set the lets in order remembering the old values, evaluate the body, and then restore the old
    -- values in the same (forward) order.
    let (olds, ρ1) ← evalBindsM m ρ bs
    let (v, ρ2) ← evalM m ρ1 b
    some (v, olds.foldl (fun ρ p => ρ.set p.1 p.2) ρ2)
  | ρ, .bin op a b => do
    let (x, ρ1) ← evalM m ρ a
    let (y, ρ2) ← evalM m ρ1 b
    let v ← op.machine x y
    some (v, ρ2)
  | ρ, .not a => do
    let (x, ρ1) ← evalM m ρ a
    some (if x = 0 then 1 else 0, ρ1)
  | ρ, .select c t f => do
    let (x, ρ1) ← evalM m ρ c
    if x ≠ 0 then evalM m ρ1 t else evalM m ρ1 f
  | ρ, .call .andThen as => evalShortM m true ρ as
  | ρ, .call .orElse as => evalShortM m false ρ as
  | ρ, .call .abs as =>
    match as with
    | .cons e .nil => do
      let (x, ρ1) ← evalM m ρ e
      let v ← chk 64 (x.natAbs : Int)
      some (v, ρ1)
    | _ => none
  | ρ, .call fn as =>
    if fn.isHost then do
      let (xs, ρ1) ← evalArgsM m ρ as
      let v ← chk 64 (m.call fn xs)
      some (v, ρ1)
    else none
/-- evaluate.cc:188-198 `eval_short_circuit_op` -/
def evalShortM (m : Mem) (isAnd : Bool) : Env → Exprs → Option (Int × Env)
  | ρ, .nil => some (if isAnd then 1 else 0, ρ)
  | ρ, .cons e es => do
    let (x, ρ1) ← evalM m ρ e
    if x = 0 ∧ isAnd then some (0, ρ1)
    else if x ≠ 0 ∧ ¬ isAnd then some (1, ρ1)
    else evalShortM m isAnd ρ1 es
/-- The arguments of calls, evaluated in order; undefined arguments are skipped. Simplification: `buffer_at`
(evaluate.cc:207-224) skips arguments beyond the rank of the buffer. -/
def evalArgsM (m : Mem) : Env → Exprs → Option (List (Option Int) × Env)
  | ρ, .nil => some ([], ρ)
  | ρ, .cons e es =>
    if e.defined then do
      let (x, ρ1) ← evalM m ρ e
      let (xs, ρ2) ← evalArgsM m ρ1 es
      some (some x :: xs, ρ2)
    else do
      let (xs, ρ2) ← evalArgsM m ρ es
      some (none :: xs, ρ2)
/-- evaluate.cc:170-173: the loop that sets the lets, returning the old values. -/
def evalBindsM (m : Mem) : Env → Binds → Option (List (Nat × Int) × Env)
  | ρ, .nil => some ([], ρ)
  | ρ, .cons x e bs => do
    let (v, ρ1) ← evalM m ρ e
    let (olds, ρ2) ← evalBindsM m (ρ1.set x v) bs
    some ((x, ρ1 x) :: olds, ρ2)
end

/-- The symbols bound by a list of lets. -/
def Binds.syms : Binds → List Nat
  | .nil => []
  | .cons x _ bs => x :: bs.syms

/-- Number of lets. -/
def Binds.length : Binds → Nat
  | .nil => 0
  | .cons _ _ bs => bs.length + 1
/-- Number of arguments. -/
def Exprs.length : Exprs → Nat
  | .nil => 0
  | .cons _ es => es.length + 1

/-- Arguments as a Lean list. -/
def Exprs.toList : Exprs → List Expr
  | .nil => []
  | .cons e es => e :: es.toList
/-- Arguments from a Lean list. -/
def Exprs.ofList : List Expr → Exprs
  | [] => .nil
  | e :: es => .cons e (.ofList es)
/-- Lets as a Lean list. -/
def Binds.toList : Binds → List (Nat × Expr)
  | .nil => []
  | .cons x e bs => (x, e) :: bs.toList
/-- Lets from a Lean list. -/
def Binds.ofList : List (Nat × Expr) → Binds
  | [] => .nil
  | (x, e) :: bs => .cons x e (.ofList bs)

/-- expr.h:280-281 a scalar variable -/
def Expr.v (x : Nat) : Expr := .var x .none (-1)

end Slinky
