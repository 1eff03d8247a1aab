import Verif.BoundsOfThm
import Verif.ModRemProps
import Verif.DependsOn

/-!
# Model of the simplifier of expressions (slinky/builder/simplify.cc, class `simplifier`)

`visit` is one step of the recursion: it gets the recursive call `rec` as an argument; `mutateN` ties the knot with fuel.
Without fuel, an expression is returned as it is, with no information about it. (The C++ has no bound on the recursion.)

The mutable tables `vars` and `buffers`, with scoped updates, are a value `SState` that is passed down.

Simplifications:
* `a.same_as(b)` (the same node) is modelled as equality of the expressions.
* Known values and points that contain infinities or undefined operands (`Expr.ok` is false) are ignored.
* The C++ requires that no let declares a variable that is already known. Here, what is known about a variable that is
  declared again, or in terms of it, is forgotten.
* `INT64_MIN * -1` in `constant_adder` is exact. If the alignment of an intersection or a quotient overflows, then the
  first operand, or nothing, is used.
* Semaphore operations with undefined semaphores are not simplified.
* `SimpCfg` has the guards, see there.
-/

namespace Slinky

/-! ### Occurrences of variables -/

mutual
/-- depends_on.h `depends_on(e, x).any()` -/
def freeInB (x : Nat) : Expr → Bool
  | .undef => false
  | .var y _ _ => y == x
  | .const _ => false
  | .lets bs b => freeInBindsB x bs || (!bs.syms.contains x && freeInB x b)
  | .bin _ a b => freeInB x a || freeInB x b
  | .not a => freeInB x a
  | .select c t f => freeInB x c || (freeInB x t || freeInB x f)
  | .call _ as => freeInArgsB x as
/-- See `freeInB`. -/
def freeInArgsB (x : Nat) : Exprs → Bool
  | .nil => false
  | .cons e es => freeInB x e || freeInArgsB x es
/-- See `freeInB`. -/
def freeInBindsB (x : Nat) : Binds → Bool
  | .nil => false
  | .cons y e bs => freeInB x e || (x != y && freeInBindsB x bs)
end

/-! ### The state -/

/-- simplify.cc:253-341 `expr_info`; `known` is `undef` if no value is known. -/
structure SInfo where
  bounds : Interval
  align : MR
  known : Expr
deriving DecidableEq, Repr

/-- `expr_info()` -/
def SInfo.empty : SInfo := ⟨.unbounded, {}, .undef⟩

/-- simplify.cc:269-276 `expr_info(expr v)` -/
def SInfo.ofExpr (v : Expr) : SInfo :=
  ⟨.point v, match asConst v with | some c => ⟨0, c⟩ | none => {}, v⟩

/-- expr.h `interval_expr::as_point` -/
def asPoint (i : Interval) : Option Expr := if i.isPoint && i.min.ok then some i.min else none

/-- `as_constant(bounds.as_point())` -/
def pointConst (i : Interval) : Option Int :=
  match asPoint i with
  | some e => asConst e
  | none => none

/-- simplify.cc:286-289 `expr_info::value` -/
def SInfo.value (i : SInfo) : Option Expr :=
  if i.known.defined then (if i.known.ok then some i.known else none) else asPoint i.bounds

/-- simplify.cc:303-309 `expr_info::merge` -/
def SInfo.merge (cfg : SimpCfg) (i : SInfo) (b : Interval) (al : MR) : SInfo :=
  let bs := simplifyIntersection cfg i.bounds b
  ⟨bs, (MR.inter i.align al).getD i.align, match pointConst bs with | some c => .const c | none => i.known⟩

/-- simplify.cc:316-326: the min, rounded up to the alignment -/
def trimLo (al : MR) (e : Expr) : Option Int :=
  match asConst e with
  | some c =>
    let d := al.r - c % al.m
    if InRange 64 d ∧ InRange 64 (c + d % al.m) then some (c + d % al.m) else none
  | none => none

/-- simplify.cc:327-338: the max, rounded down to the alignment -/
def trimHi (al : MR) (e : Expr) : Option Int :=
  match asConst e with
  | some c =>
    let d := c % al.m - al.r
    if InRange 64 d ∧ InRange 64 (c - d % al.m) then some (c - d % al.m) else none
  | none => none

/-- simplify.cc:311-339, the bounds -/
def trimBounds (i : SInfo) : Interval :=
  if i.align.m = 0 then .point (.const i.align.r)
  else if i.align.m > 1 then
    let lo := trimLo i.align i.bounds.min
    let hi := trimHi i.align i.bounds.max
    ⟨match lo with | some c => .const c | none => i.bounds.min,
      match hi with | some c => .const c | none => i.bounds.max, i.bounds.same && lo.isNone && hi.isNone⟩
  else i.bounds

/-- simplify.cc:311-345 `trim_bounds_using_alignment` -/
def SInfo.trim (i : SInfo) : SInfo :=
  ⟨trimBounds i, match pointConst (trimBounds i) with | some c => ⟨0, c⟩ | none => i.align, i.known⟩

/-- simplify.cc:352-375 `dim_info` -/
structure SDim where
  min : SInfo := .empty
  max : SInfo := .empty
  stride : SInfo := .empty
  fold : SInfo := .empty

/-- simplify.cc:358-366 `dim_info::field` -/
def SDim.get (d : SDim) : Field → SInfo
  | .max => d.max
  | .stride => d.stride
  | .foldFactor => d.fold
  | _ => d.min

/-- Update a field. -/
def SDim.set (d : SDim) (f : Field) (i : SInfo) : SDim :=
  match f with
  | .max => { d with max := i }
  | .stride => { d with stride := i }
  | .foldFactor => { d with fold := i }
  | _ => { d with min := i }

/-- simplify.cc:377-432 `buffer_info`; `rank` is negative if it is not known, `decl`: is there a declaration? -/
structure SBuf where
  elemSize : SInfo
  dims : List SDim
  rank : Int
  decl : Bool

/-- simplify.cc:431 `buffer_info(var sym)` -/
def SBuf.ofSym (x : Nat) : SBuf := ⟨.ofExpr (.var x .elemSize (-1)), [], -1, false⟩

/-- simplify.cc:435-437: what is known about the variables and buffers; `proving`: only the bounds are of interest. -/
structure SState where
  vars : Nat → Option SInfo
  bufs : Nat → Option SBuf
  proving : Bool

/-- `simplifier()` -/
def SState.empty : SState := ⟨fun _ => none, fun _ => none, false⟩

/-- simplify.cc:453-471 `simplifier(bounds, alignment)` -/
def SState.init (bounds : Nat → Option Interval) (align : Nat → Option MR) : SState :=
  ⟨fun x => match bounds x, align x with
    | none, none => none
    | some b, none => some ⟨b, {}, .undef⟩
    | none, some a => some ⟨.unbounded, a, .undef⟩
    | some b, some a => some ⟨b, a, .undef⟩, fun _ => none, false⟩

/-- `set_value_in_scope(vars, x, i)` -/
def SState.setVar (s : SState) (x : Nat) (i : SInfo) : SState :=
  { s with vars := fun y => if y = x then some i else s.vars y }
/-- `set_value_in_scope(buffers, x, b)` -/
def SState.setBuf (s : SState) (x : Nat) (b : SBuf) : SState :=
  { s with bufs := fun y => if y = x then some b else s.bufs y }

/-- An expression that does not mention `x`, or nothing. -/
def dropE (x : Nat) (e : Expr) : Expr := if freeInB x e then .undef else e
/-- Forget bounds that mention `x`. -/
def dropI (x : Nat) (i : Interval) : Interval := ⟨dropE x i.min, dropE x i.max, i.same⟩
/-- Forget what mentions `x`. -/
def SInfo.drop (x : Nat) (i : SInfo) : SInfo := ⟨dropI x i.bounds, i.align, dropE x i.known⟩
/-- Forget what mentions `x`. -/
def SDim.drop (x : Nat) (d : SDim) : SDim := ⟨d.min.drop x, d.max.drop x, d.stride.drop x, d.fold.drop x⟩
/-- Forget what mentions `x`. -/
def SBuf.drop (x : Nat) (b : SBuf) : SBuf := ⟨b.elemSize.drop x, b.dims.map (SDim.drop x), b.rank, b.decl⟩
/-- Forget `x` and what mentions it. -/
def SState.drop (s : SState) (x : Nat) : SState :=
  { s with
    vars := fun y => if y = x then none else (s.vars y).map (SInfo.drop x)
    bufs := fun y => if y = x then none else (s.bufs y).map (SBuf.drop x) }

/-! ### Adding a constant -/

/-- simplify.cc:101-212 `constant_adder`: `e + c`, if that needs no new nodes; `n` counts the constants that were cancelled. -/
def addConst (c : Int) : Expr → Int → Option Expr × Int
  | .const d, n => (if InRange 64 (d + c) then some (.const (d + c)) else none, n)
  | .lets bs b, n =>
    let r := addConst c b n
    (r.1.map (.lets bs), r.2)
  | .bin .add a b, n =>
    if b = .const (-c) then (some a, n + 1)
    else
      let ra := addConst c a n
      match ra.1 with
      | some a' => (some (mkBin .add a' b), ra.2)
      | none =>
        let rb := addConst c b ra.2
        (rb.1.map (mkBin .add a), rb.2)
  | .bin .sub a b, n =>
    if b = .const c then (some a, n + 1)
    else
      let ra := addConst c a n
      match ra.1 with
      | some a' => (some (mkBin .sub a' b), ra.2)
      | none =>
        let rb := addConst (-c) b ra.2
        (rb.1.map (mkBin .sub a), rb.2)
  | .bin .min a b, n =>
    let ra := addConst c a n
    let rb := addConst c b ra.2
    match ra.1, rb.1 with
    | some a', some b' => (some (mkBin .min a' b'), rb.2)
    | some a', none => if rb.2 > n then (some (mkBin .min a' (mkBin .add b (.const c))), rb.2 - 1) else (none, rb.2)
    | none, some b' => if rb.2 > n then (some (mkBin .min (mkBin .add a (.const c)) b'), rb.2 - 1) else (none, rb.2)
    | none, none => (none, rb.2)
  | .bin .max a b, n =>
    let ra := addConst c a n
    let rb := addConst c b ra.2
    match ra.1, rb.1 with
    | some a', some b' => (some (mkBin .max a' b'), rb.2)
    | some a', none => if rb.2 > n then (some (mkBin .max a' (mkBin .add b (.const c))), rb.2 - 1) else (none, rb.2)
    | none, some b' => if rb.2 > n then (some (mkBin .max (mkBin .add a (.const c)) b'), rb.2 - 1) else (none, rb.2)
    | none, none => (none, rb.2)
  | .select q t f, n =>
    let rt := addConst c t n
    match rt.1 with
    | some t' =>
      let rf := addConst c f rt.2
      (rf.1.map (.select q t'), rf.2)
    | none => (none, rt.2)
  | .bin .mul a b, n =>
    match asConst b with
    | some d =>
      if d ≠ 0 ∧ c % d = 0 then
        let ra := addConst (c / d) a n
        (ra.1.map (mkBin .mul · b), ra.2)
      else (none, n)
    | none => (none, n)
  | _, n => (none, n)

/-- simplify.cc:214-217 `add_constant` -/
def addConstant (a : Expr) (c : Int) : Option Expr := if c = 0 then some a else (addConst c a 0).1

/-! ### Learning from conditions -/

/-- The state and the facts (`class knowledge`, simplify.cc:532-541). -/
abbrev Know := SState × List (Expr × Expr)

/-- Update the element `d` of a list, which is extended if necessary (simplify.cc:383-386 `buffer_info::dim`). -/
def updDim (f : SDim → SDim) : Nat → List SDim → List SDim
  | 0, [] => [f {}]
  | 0, d :: ds => f d :: ds
  | n + 1, [] => {} :: updDim f n []
  | n + 1, d :: ds => d :: updDim f n ds

/-- Is this a field of a dimension? -/
def Field.ofDim : Field → Bool
  | .min | .max | .stride | .foldFactor => true
  | _ => false

/-- An end that does not read metadata of buffers, or nothing. -/
def pureEnd (e : Expr) : Expr := if e.defined && !isPure e then .undef else e

/-- simplify.cc:543-593 `knowledge::add_var_info` -/
def addVarInfo (cfg : SimpCfg) (x : Nat) (f : Field) (d : Int) (b : Interval) (al : MR) (k : Know) : Know :=
  if f = .none then (k.1.setVar x (((k.1.vars x).getD .empty).merge cfg b al), k.2)
  else
    let b' : Interval := ⟨pureEnd b.min, pureEnd b.max, b.same⟩
    if !b'.min.defined && !b'.max.defined && al.m = 1 then k
    else
      let i := (k.1.bufs x).getD (.ofSym x)
      if d ≥ 0 then
        if f.ofDim then
          (k.1.setBuf x { i with dims := updDim (fun s => s.set f ((s.get f).merge cfg b' al)) d.toNat i.dims }, k.2)
        else (k.1.setBuf x i, k.2)
      else if f = .elemSize then (k.1.setBuf x { i with elemSize := i.elemSize.merge cfg b' al }, k.2)
      else if f = .rank then
        (k.1.setBuf x { i with rank := match pointConst b' with | some c => c | none => i.rank }, k.2)
      else (k.1.setBuf x i, k.2)

/-- Learn about an expression, if it is a variable. -/
def learnVar (cfg : SimpCfg) (e : Expr) (b : Interval) (k : Know) : Know :=
  match e with
  | .var x f d => addVarInfo cfg x f d b {} k
  | _ => k

/-- Is it a variable (or a field of a buffer)? -/
def isVarE : Expr → Bool
  | .var _ _ _ => true
  | _ => false

/-- Remember a fact. -/
def addFact (c v : Expr) (k : Know) : Know := (k.1, k.2 ++ [(c, v)])

/-- simplify.cc:612-633 `learn_from_equal` -/
def learnEqual (cfg : SimpCfg) (a b : Expr) (k : Know) : Know :=
  let k1 :=
    match a with
    | .var x f d => addVarInfo cfg x f d (.point b) {} k
    | .bin .mod (.var x f d) (.const md) =>
      match asConst b with
      | some r => if md ≠ 0 || cfg.learnModZero then addVarInfo cfg x f d .unbounded ⟨md, r⟩ k else k
      | none => k
    | .bin .mod _ _ => k
    | _ => addFact (mkBin .eq a b) (.const 1) k
  learnVar cfg b (.point a) k1

/-- The operands of nested `max` (or, for `op` = min, `min`). -/
def leaves (op : BinOp) : Expr → List Expr
  | .bin o a b => if o = op then leaves op a ++ leaves op b else [.bin o a b]
  | e => [e]

/-- simplify.cc:645-654 -/
def learnLess1 (cfg : SimpCfg) (a b : Expr) (k : Know) : Know :=
  let k1 := learnVar cfg a ⟨.undef, sB cfg .add b (.const (-1)), false⟩ k
  let k2 := learnVar cfg b ⟨sB cfg .add a (.const 1), .undef, false⟩ k1
  if isVarE a || isVarE b then k2 else addFact (mkBin .lt a b) (.const 1) k2

/-- simplify.cc:668-677 -/
def learnLe1 (cfg : SimpCfg) (a b : Expr) (k : Know) : Know :=
  let k1 := learnVar cfg a ⟨.undef, b, false⟩ k
  let k2 := learnVar cfg b ⟨a, .undef, false⟩ k1
  if isVarE a || isVarE b then k2 else addFact (mkBin .le a b) (.const 1) k2

/-- simplify.cc:635-644, 658-667: learn from the operands of `max` on the right and `min` on the left. (They should not be
learned from: `a < max(x, y)` does not imply `a < x`.) -/
def learnSplit (cfg : SimpCfg) (f : Expr → Expr → Know → Know) (a b : Expr) (k : Know) : Know :=
  if cfg.splitMinMax then
    (leaves .max b).foldl (fun k b => (leaves .min a).foldl (fun k a => f a b k) k) k
  else f a b k

/-- simplify.cc:635-655 `learn_from_less` -/
def learnLess (cfg : SimpCfg) (a b : Expr) (k : Know) : Know := learnSplit cfg (learnLess1 cfg) a b k
/-- simplify.cc:656-678 `learn_from_less_equal` -/
def learnLe (cfg : SimpCfg) (a b : Expr) (k : Know) : Know := learnSplit cfg (learnLe1 cfg) a b k

/-- simplify.cc:680-714 `learn_from_true` (`b` = true) and `learn_from_false` (`b` = false) -/
def learn (cfg : SimpCfg) : Bool → Expr → Know → Know
  | true, .bin .and a b, k => learn cfg true b (learn cfg true a k)
  | true, .not a, k => learn cfg false a k
  | true, .bin .lt a b, k => learnLess cfg a b k
  | true, .bin .le a b, k => learnLe cfg a b k
  | true, .bin .eq a b, k => learnEqual cfg a b k
  | true, .const _, k => k
  | true, .var x f d, k => if f = .none || !cfg.factNonBool then k else addFact (.var x f d) (.const 1) k
  | true, c, k => if isBoolean c || cfg.factNonBool then addFact c (.const 1) k else k
  | false, .bin .or a b, k => learn cfg false b (learn cfg false a k)
  | false, .not a, k => learn cfg true a k
  | false, .bin .lt a b, k => learnLe cfg b a k
  | false, .bin .le a b, k => learnLess cfg b a k
  | false, .bin .ne a b, k => learnEqual cfg a b k
  | false, .const _, k => k
  | false, c, k => addFact c (.const 0) k

/-- simplify.cc:718-723 `knowledge::substitute`. (Facts about variables that are declared inside the expression are
skipped: the C++ requires that there are none.) -/
def applyFacts : List (Expr × Expr) → Expr → Expr
  | [], e => e
  | (c, v) :: fs, e => applyFacts fs (if (boundVars e).all (fun x => !freeInB x c) then substExpr c v e else e)

/-! ### The steps of the simplifier -/

/-- The recursive call. -/
abbrev Rec := SState → Expr → Expr × SInfo

/-- The simplifier without bounds. -/
def Rec.simp (rec : Rec) (e : Expr) : Expr := (rec .empty e).1

/-- simplify.cc:441-446 `set_result` -/
def setR (e : Expr) (i : SInfo) : Expr × SInfo :=
  (e, ⟨⟨i.bounds.min, i.bounds.max, i.bounds.same || matchE i.bounds.min i.bounds.max⟩, i.align, i.known⟩)

/-- simplify.cc:736-748 `prove_constant_true` -/
def pTrue (cfg : SimpCfg) (e : Expr) : Bool := e.ok && proveConstantTrue cfg.trust e
/-- simplify.cc:750-761 `prove_constant_false` -/
def pFalse (cfg : SimpCfg) (e : Expr) : Bool := e.ok && proveConstantFalse cfg.trust e
/-- simplify.cc:764-772 `attempt_to_prove` -/
def attemptI (cfg : SimpCfg) (i : Interval) : Option Bool :=
  if pTrue cfg i.min then some true else if pFalse cfg i.max then some false else none

/-- simplify.cc:490-497 `mutate_boolean` -/
def mutateBool (cfg : SimpCfg) (rec : Rec) (s : SState) (e : Expr) : Expr × SInfo :=
  let r := rec s e
  let e' := stripBoolean r.1
  (e', if isBoolean e' then r.2
    else { r.2 with bounds := boundsBin cfg rec.simp .ne none r.2.bounds (.point (.const 0)) })

/-- simplify.cc:775-783 `where_true` -/
def whereTrue (cfg : SimpCfg) (rec : Rec) (s : SState) (e : Expr) : Interval :=
  (mutateBool cfg rec { s with proving := true } e).2.bounds
/-- simplify.cc:786 `prove_true` -/
def proveTrueS (cfg : SimpCfg) (rec : Rec) (s : SState) (e : Expr) : Bool := pTrue cfg (whereTrue cfg rec s e).min
/-- simplify.cc:787 `prove_false` -/
def proveFalseS (cfg : SimpCfg) (rec : Rec) (s : SState) (e : Expr) : Bool := pFalse cfg (whereTrue cfg rec s e).max

/-- Replace missing ends. -/
def fillI (i : Interval) (lo hi : Expr) : Interval :=
  ⟨if i.min.defined then i.min else lo, if i.max.defined then i.max else hi, i.same && i.min.defined⟩

/-- simplify.cc:835-854, a scalar variable -/
def visitScalar (rec : Rec) (s : SState) (x : Nat) (d : Int) : Expr × SInfo :=
  let e : Expr := .var x .none d
  match s.vars x with
  | some i =>
    if i.known.ok then rec s i.known
    else
      match pointConst i.bounds with
      | some c => setR (.const c) ⟨.point (.const c), {}, .undef⟩
      | none => setR e ⟨fillI i.bounds e e, i.align, .undef⟩
  | none => setR e ⟨.point e, {}, .undef⟩

/-- simplify.cc:791-796, 858-866: the symbol of a buffer, if it is a substitution -/
def visitSymbol (s : SState) (x : Nat) : Nat :=
  match s.vars x with
  | some i =>
    match i.known with
    | .var y .none _ => y
    | _ => x
  | none => x

/-- simplify.cc:1120-1122 `should_substitute` -/
def shouldSubstitute : Expr → Bool
  | .const _ => true
  | .var _ f _ => f == .none
  | _ => false

/-- simplify.cc:800-818: what is known about the field of the buffer -/
def fieldInfo (b : SBuf) (f : Field) (d : Int) : Option SInfo :=
  if f = .elemSize then some b.elemSize
  else if f.ofDim && decide (0 ≤ d) then (b.dims[d.toNat]?).map (·.get f)
  else none

/-- simplify.cc:790-834, a field of a buffer -/
def visitField (rec : Rec) (s : SState) (x : Nat) (f : Field) (d : Int) : Expr × SInfo :=
  let y := visitSymbol s x
  let e : Expr := .var y f d
  let lo : Expr := if f = .rank ∨ f = .elemSize then .const 0 else e
  match s.bufs y with
  | none => setR e ⟨fillI .unbounded lo e, {}, .undef⟩
  | some b =>
    if f.ofDim ∧ 0 ≤ b.rank ∧ b.rank ≤ d then rec s (.const 0)
    else
      match fieldInfo b f d with
      | none => setR e ⟨fillI .unbounded lo e, {}, .undef⟩
      | some i =>
        match i.value with
        | some v =>
          if (!b.decl || shouldSubstitute v || isVarE v || s.proving) && !matchE v (.var x f d) then rec s v
          else setR e ⟨fillI i.bounds lo e, i.align, .undef⟩
        | none => setR e ⟨fillI i.bounds lo e, i.align, .undef⟩

/-- simplify.cc:886-890 -/
def lessEq (cfg : SimpCfg) (a aMax b bMin : Expr) : Bool :=
  pFalse cfg (sB cfg .lt bMin aMax) || (!matchE a aMax && pFalse cfg (sB cfg .lt bMin a)) ||
    (!matchE b bMin && pFalse cfg (sB cfg .lt b aMax))

/-- simplify.cc:872-917 `visit_min_max` -/
def visitMinMax (cfg : SimpCfg) (rec : Rec) (s : SState) (op : BinOp) (a0 b0 : Expr) : Expr × SInfo :=
  let a := rec s a0
  let b := rec s b0
  if !a.1.defined || !b.1.defined then (.undef, .empty)
  else if lessEq cfg a.1 a.2.bounds.max b.1 b.2.bounds.min then (if op = .min then setR a.1 a.2 else setR b.1 b.2)
  else if lessEq cfg b.1 b.2.bounds.max a.1 a.2.bounds.min then (if op = .min then setR b.1 b.2 else setR a.1 a.2)
  else
    let r := simplifyBin cfg.g op a.1 b.1
    if r = .bin op a0 b0 then
      setR r ⟨boundsBin cfg rec.simp op (some (a0, b0)) a.2.bounds b.2.bounds, MR.union a.2.align b.2.align, .undef⟩
    else rec s r

/-- simplify.cc:922-926 `modulus_of`. (The remainders are 64 bit integers.) -/
def modulusOf (cfg : SimpCfg) (op : BinOp) (a b : MR) : MR :=
  match op with
  | .add => MR.add a b
  | .sub => MR.sub a b
  | .mul => MR.mul a b
  | .div => if InRange 64 a.r ∧ InRange 64 b.r then (MR.div a b).getD {} else {}
  | .mod => if cfg.modUnnormalized || decide (b.m ∣ b.r → b.r = 0) then MR.mod a b else {}
  | _ => {}

/-- simplify.cc:941-957: `(x/c0)*c1`, if x is a multiple of c0 -/
def mulRule (rec : Rec) (s : SState) (a b : Expr) : Option Expr :=
  match a, b with
  | .bin .div x0 (.const c0), .const c1 =>
    if c0 = 0 then none
    else
      let x := rec s x0
      if x.2.align.m > 0 ∧ x.2.align.m.tmod c0 = 0 ∧ x.2.align.r.tmod c0 = 0 then
        some (mkBin .div (mkBin .mul x.1 (.const c1)) (.const c0))
      else none
  | _, _ => none

/-- The pattern `x + c0`. -/
def addPat : Pat := .bin .add (.wild 0) (.cst 0)
/-- The pattern `c0 - x`. -/
def subPat : Pat := .bin .sub (.cst 0) (.wild 0)

/-- The parts of `(x + c0)/c1` or `(c0 - x)/c1`. -/
def divParts (p : Pat) (a b : Expr) : Option (Expr × Int × Int) :=
  match matchAny p a, asConst b with
  | some c, some c1 =>
    match c.vars 0, c.consts 0 with
    | some x, some c0 => some (x, c0, c1)
    | _, _ => none
  | _, _ => none

/-- simplify.cc:972: `(x + c0)/c1`, if the sum is aligned. (A constant that overflows is not used.) -/
def divRuleAdd (al : MR) (a b : Expr) : Option Expr :=
  match divParts addPat a b with
  | some (x, c0, c1) =>
    let q := ediv al.r c1 - ediv (al.r - c0) c1
    if emod al.m c1 = 0 ∧ InRange 64 (al.r - c0) ∧ InRange 64 q then
      some (substBinE .add (substBinE .div x (.const c1)) (.const q))
    else none
  | none => none

/-- simplify.cc:973: `(c0 - x)/c1`, if the difference is aligned. -/
def divRuleSub (al : MR) (a b : Expr) : Option Expr :=
  match divParts subPat a b with
  | some (x, c0, c1) =>
    let q := ediv al.r c1 + ediv (c0 - al.r) c1
    if emod al.m c1 = 0 ∧ InRange 64 (c0 - al.r) ∧ InRange 64 q then
      some (substBinE .sub (.const q) (substBinE .div x (.const c1)))
    else none
  | none => none

/-- simplify.cc:967-980: division of a sum with a constant, if the sum is aligned. -/
def divRule (al : MR) (a b : Expr) : Option Expr :=
  match divRuleAdd al a b with
  | some r => some r
  | none => divRuleSub al a b

/-- simplify.cc:981-990: `a % c0`, if `a` is aligned -/
def modRule (al : MR) (b : Expr) : Option Expr :=
  match b with
  | .const c0 => if emod al.m c0 = 0 then some (.const (emod al.r c0)) else none
  | _ => none

/-- simplify.cc:940-990: the rules that use the alignment -/
def alignRule (rec : Rec) (s : SState) (op : BinOp) (a b : Expr) (al : MR) : Option Expr :=
  match op with
  | .mul => mulRule rec s a b
  | .div => divRule al a b
  | .mod => modRule al b
  | _ => none

/-- simplify.cc:928-1000 `visit_binary` -/
def visitBin (cfg : SimpCfg) (rec : Rec) (s : SState) (op : BinOp) (a0 b0 : Expr) : Expr × SInfo :=
  let a := rec s a0
  let b := rec s b0
  if !a.1.defined || !b.1.defined then (.undef, .empty) else
  match alignRule rec s op a.1 b.1 a.2.align with
  | some r => rec s r
  | none =>
    let r := simplifyBin cfg.g op a.1 b.1
    if r = .bin op a0 b0 then
      setR r (SInfo.trim ⟨boundsBin cfg rec.simp op (some (a0, b0)) a.2.bounds b.2.bounds,
        modulusOf cfg op a.2.align b.2.align, .undef⟩)
    else rec s r

/-- simplify.cc:1001-1013 `visit(const add*)` -/
def visitAdd (cfg : SimpCfg) (rec : Rec) (s : SState) (a0 b0 : Expr) : Expr × SInfo :=
  let r := match asConst b0 with | some c => addConstant a0 c | none => none
  match r with
  | some e => rec s e
  | none => visitBin cfg rec s .add a0 b0

/-- The result if a condition was proven. -/
def provenR (b : Bool) : Expr × SInfo := setR (.const (if b then 1 else 0)) ⟨.point (.const (if b then 1 else 0)), {}, .undef⟩

/-- simplify.cc:1019-1047 `visit_logical` -/
def visitLogical (cfg : SimpCfg) (rec : Rec) (s : SState) (op : BinOp) (coerce : Bool) (a0 b0 : Expr) : Expr × SInfo :=
  let a := if coerce then mutateBool cfg rec s a0 else rec s a0
  let b := if coerce then mutateBool cfg rec s b0 else rec s b0
  let r := simplifyBin cfg.g op a.1 b.1
  if !a.1.defined || !b.1.defined then (.undef, .empty)
  else if r = .bin op a0 b0 then
    let bs := boundsBin cfg rec.simp op (some (a0, b0)) a.2.bounds b.2.bounds
    match attemptI cfg bs with
    | some p => provenR p
    | none =>
      match attemptI cfg (boundsBin cfg rec.simp op (some (a0, b0)) (.point a.1) b.2.bounds) with
      | some p => provenR p
      | none =>
        match attemptI cfg (boundsBin cfg rec.simp op (some (a0, b0)) a.2.bounds (.point b.1)) with
        | some p => provenR p
        | none => setR r ⟨bs, {}, .undef⟩
  else rec s r

/-- simplify.cc:1055-1070 `visit(const logical_not*)` -/
def visitNot (cfg : SimpCfg) (rec : Rec) (s : SState) (a0 : Expr) : Expr × SInfo :=
  let a := mutateBool cfg rec s a0
  if !a.1.defined then (.undef, .empty) else
  match attemptI cfg a.2.bounds with
  | some p => provenR (!p)
  | none =>
    let r := simplifyNot cfg.g a.1
    if r = .not a0 then setR r ⟨boundsNot cfg a.2.bounds, {}, .undef⟩ else rec s r

/-- simplify.cc:1084-1091, 1092-1099: a branch of a select, with what was learned from the condition -/
def visitBranch (rec : Rec) (k : Know) (e : Expr) : Expr × SInfo :=
  let r := rec k.1 e
  let l := applyFacts k.2 r.1
  if l = r.1 then r else rec k.1 l

/-- simplify.cc:1072-1118 `visit(const select*)` -/
def visitSelect (cfg : SimpCfg) (rec : Rec) (s : SState) (c0 t0 f0 : Expr) : Expr × SInfo :=
  let c := mutateBool cfg rec s c0
  if !c.1.defined then (.undef, .empty) else
  match attemptI cfg c.2.bounds with
  | some p => rec s (if p then t0 else f0)
  | none =>
    let t := visitBranch rec (learn cfg true c.1 (s, [])) t0
    let f := visitBranch rec (learn cfg false c.1 (s, [])) f0
    let r := simplifySelect cfg.g c.1 t.1 f.1
    if r = .select c0 t0 f0 then
      setR r (SInfo.trim ⟨boundsSelect cfg (some (c0, t0, f0)) c.2.bounds t.2.bounds f.2.bounds,
        MR.union t.2.align f.2.align, .undef⟩)
    else rec s r

/-- The simplified arguments. -/
def visitArgs (rec : Rec) (s : SState) : Exprs → Exprs
  | .nil => .nil
  | .cons e es => .cons (if e.defined then (rec s e).1 else .undef) (visitArgs rec s es)

/-- The first `n` arguments (`args.resize`). -/
def takeArgs : Nat → Exprs → Exprs
  | 0, _ => .nil
  | _, .nil => .nil
  | n + 1, .cons e es => .cons e (takeArgs n es)

/-- simplify.cc:1152-1164: can the index `a` in the dimension `d` be dropped? -/
def dropIndex (cfg : SimpCfg) (rec : Rec) (s : SState) (d : SDim) (a : Expr) : Bool :=
  a.ok &&
    ((match d.fold.value, d.min.value with
      | none, some mn => proveTrueS cfg rec s (mkBin .eq a mn)
      | _, _ => false) ||
     (cfg.foldZero && d.fold.value.isSome && proveTrueS cfg rec s (mkBin .eq a (.const 0))) ||
     (match d.min.value, d.max.value, d.stride.value with
      | some mn, some mx, some st =>
        pTrue cfg (mkBin .and (mkBin .and (mkBin .eq mn (.const 0)) (mkBin .eq mx (.const 0))) (mkBin .eq st (.const 0)))
      | _, _, _ => false))

/-- simplify.cc:1150-1165: drop indices that are the default value. -/
def dropIndices (cfg : SimpCfg) (rec : Rec) (s : SState) : List SDim → Exprs → Exprs
  | d :: ds, .cons a as => .cons (if dropIndex cfg rec s d a then .undef else a) (dropIndices cfg rec s ds as)
  | _, as => as

/-- simplify.cc:1136-1166 the arguments of `buffer_at` -/
def bufferAtArgs (cfg : SimpCfg) (rec : Rec) (s : SState) : Exprs → Exprs
  | .cons (.var x .none d) as =>
    match s.bufs x with
    | some b =>
      .cons (.var x .none d) (dropIndices cfg rec s b.dims (if 0 ≤ b.rank then takeArgs b.rank.toNat as else as))
    | none => .cons (.var x .none d) as
  | as => as

/-- Are the semaphores of a semaphore operation defined? See `SemArgs`. -/
def semArgsB : Exprs → Bool
  | .cons a (.cons _ .nil) => a.defined
  | .cons a (.cons _ es) => a.defined && semArgsB es
  | _ => false

/-- `simplify(op, intrinsic, target, args)` -/
def simpCall (cfg : SimpCfg) (fn : Fn) (as : Exprs) : Expr :=
  if fn.isSem && !semArgsB as then .call fn as else simplifyCall cfg.ev cfg.g fn as

/-- simplify.cc:1173-1180: build the call. `i` are the bounds, if it is unchanged. -/
def finishVisitCall (cfg : SimpCfg) (rec : Rec) (s : SState) (fn : Fn) (as0 as : Exprs) (i : Interval) : Expr × SInfo :=
  let r := simpCall cfg fn as
  if r = .call fn as0 then setR r ⟨i, {}, .undef⟩ else rec s r

/-- simplify.cc:1124-1181 `visit(const call*)` -/
def visitCall (cfg : SimpCfg) (rec : Rec) (s : SState) (fn : Fn) (as0 : Exprs) : Expr × SInfo :=
  match fn, as0 with
  | .bufferAt, as0 =>
    finishVisitCall cfg rec s .bufferAt as0 (bufferAtArgs cfg rec s (visitArgs rec s as0)) (.point (.call .bufferAt as0))
  | .abs, .cons a0 .nil =>
    let a := rec s a0
    if pTrue cfg (mkBin .le (.const 0) a.2.bounds.min) then setR a.1 ⟨a.2.bounds, {}, .undef⟩
    else if pTrue cfg (mkBin .le a.2.bounds.max (.const 0)) then rec s (negE a.1)
    else finishVisitCall cfg rec s .abs (.cons a0 .nil) (.cons a.1 .nil) (boundsAbs cfg a.2.bounds)
  | fn, as0 => finishVisitCall cfg rec s fn as0 (visitArgs rec s as0) (.point (.call fn as0))

/-- simplify.cc:1201-1207: the value of a let: the name of the same value, if there is one. -/
def letValue (rev : List (Expr × Nat)) (e : Expr) : Expr :=
  match rev.find? (fun p => p.1 = e) with
  | some p => .v p.2
  | none => e

/-- simplify.cc:1208-1217: what is known about the variable of a let with the value `v`. -/
def letInfo (v : Expr) (i : SInfo) : SInfo := if shouldSubstitute v then ⟨.unbounded, {}, v⟩ else i

/-- simplify.cc:1201-1207: the values that have a name, after `let x = e`. -/
def letRev (rev : List (Expr × Nat)) (x : Nat) (e : Expr) : List (Expr × Nat) :=
  (if (rev.find? (fun p => p.1 = e)).isSome || freeInB x e then [] else [(e, x)]) ++
    rev.filter (fun p => !freeInB x p.1 && p.2 != x)

/-- simplify.cc:1196-1220: the values of the lets. `rev` are the values that have a name. All lets are kept here: those that
are substituted are removed by `pruneLets`. -/
def visitBinds (rec : Rec) : SState → List (Expr × Nat) → Binds → SState × Binds
  | s, _, .nil => (s, .nil)
  | s, rev, .cons x e bs =>
    let r := rec s e
    let v := letValue rev r.1
    let t := visitBinds rec ((s.drop x).setVar x ((letInfo v r.2).drop x)) (letRev rev x r.1) bs
    (t.1, .cons x v t.2)

/-- simplify.cc:1226-1241: remove the lets that are not used. -/
def pruneLets : Binds → Expr → Binds
  | .nil, _ => .nil
  | .cons x e bs, b =>
    let bs' := pruneLets bs b
    if freeInB x (.lets bs' b) then .cons x e bs' else bs'

/-- Concatenation of lets. -/
def Binds.app : Binds → Binds → Binds
  | .nil, cs => cs
  | .cons x e bs, cs => .cons x e (bs.app cs)

/-- simplify.cc:1243-1256: flatten nested lets. (Lets without variables, which the simplifier of the C++ never returns, are
not flattened.) -/
def flattenLets (bs : Binds) : Expr → Expr
  | .lets (.cons x e cs) b => flattenLets (bs.app (.cons x e cs)) b
  | b => if bs = .nil then b else .lets bs b

/-- Forget the bounds that mention variables of lets. -/
def SInfo.dropLets : Binds → SInfo → SInfo
  | .nil, i => i
  | .cons x _ bs, i => (i.dropLets bs).drop x

/-- simplify.cc:1183-1260 `visit_let` -/
def visitLets (cfg : SimpCfg) (rec : Rec) (s : SState) (bs : Binds) (b : Expr) : Expr × SInfo :=
  let p := visitBinds rec s [] bs
  let r := rec p.1 b
  setR (flattenLets (pruneLets p.2 r.1) r.1)
    { bounds := if cfg.leakLets then r.2.bounds else (r.2.dropLets p.2).bounds, align := r.2.align, known := .undef }

/-- One step of the simplifier. -/
def visit (cfg : SimpCfg) (rec : Rec) (s : SState) : Expr → Expr × SInfo
  | .undef => (.undef, .empty)
  | .const c => setR (.const c) ⟨.point (.const c), ⟨0, c⟩, .undef⟩
  | .var x f d => if f = .none then visitScalar rec s x d else visitField rec s x f d
  | .lets bs b => visitLets cfg rec s bs b
  | .bin op a b =>
    match op with
    | .min | .max => visitMinMax cfg rec s op a b
    | .add => visitAdd cfg rec s a b
    | .sub | .mul | .div | .mod => visitBin cfg rec s op a b
    | .lt | .le | .eq | .ne => visitLogical cfg rec s op false a b
    | .and | .or => visitLogical cfg rec s op true a b
  | .not a => visitNot cfg rec s a
  | .select c t f => visitSelect cfg rec s c t f
  | .call fn as => visitCall cfg rec s fn as

/-- simplify.cc:473-484 `mutate`, with fuel -/
def mutateN (cfg : SimpCfg) : Nat → Rec
  | 0 => fun _ e => (e, .empty)
  | n + 1 => visit cfg (mutateN cfg n)

/-! ### The API -/

/-- simplify.cc:2476-2478 `simplify(expr, bounds, alignment)` -/
def simplify (cfg : SimpCfg) (n : Nat) (e : Expr) (bounds : Nat → Option Interval) (align : Nat → Option MR) : Expr :=
  (mutateN cfg n (.init bounds align) e).1

/-- simplify.cc:2491-2497 `bounds_of(expr, bounds, alignment)` -/
def boundsOf (cfg : SimpCfg) (n : Nat) (e : Expr) (bounds : Nat → Option Interval) (align : Nat → Option MR) : Interval :=
  (mutateN cfg n (.init bounds align) e).2.bounds

/-- simplify.cc:2817-2820 `prove_true` -/
def proveTrue (cfg : SimpCfg) (n : Nat) (e : Expr) (bounds : Nat → Option Interval) (align : Nat → Option MR) : Bool :=
  proveTrueS cfg (mutateN cfg n) (.init bounds align) e

/-- simplify.cc:2822-2825 `prove_false` -/
def proveFalse (cfg : SimpCfg) (n : Nat) (e : Expr) (bounds : Nat → Option Interval) (align : Nat → Option MR) : Bool :=
  proveFalseS cfg (mutateN cfg n) (.init bounds align) e

/-- simplify.cc:2811-2815 `attempt_to_prove` -/
def attemptToProve (cfg : SimpCfg) (n : Nat) (e : Expr) (bounds : Nat → Option Interval) (align : Nat → Option MR) :
    Option Bool :=
  attemptI cfg (whereTrue cfg (mutateN cfg n) (.init bounds align) e)

end Slinky
