import Verif.SimplifierApi

/-!
# Model of the simplification of crops (builder/simplify.cc:1940-2111, 508-529)

The simplifier replaces the bounds of a crop of dimension `dim` of the buffer `buf` by simpler bounds, using what it knows about the bounds of that
dimension (`mutate_crop_bounds`). Here `rec` and `s` are the simplifier of expressions and its state (`mutateN` in Simplifier.lean).

Simplification: the offsets of `enumerate_bounds` are exact integers (in the code they are `index_t`). The result of `remove_redundant_bounds` is
`none` where the code returns the same node.
-/

namespace Slinky

namespace CB

variable (cfg : SimpCfg) (rec : Rec) (s : SState)

/-- simplify.cc:473-484 `mutate` of an expression that may be undefined -/
def mutE (e : Expr) : Expr := if e.defined then (rec s e).1 else .undef

/-- simplify.cc:1950-1952 `add_offset` -/
def addOffset (off : Int) (x : Expr) : Expr := if off ≠ 0 then simplifyBin cfg.g .add x (.const off) else x

/-- simplify.cc:1941-1965 `enumerate_bounds<op>`, the expressions that are inserted in the set, in order. `stripped`: a constant was removed from
this expression already. -/
def enumL (op : BinOp) : Expr → Bool → Int → List Expr
  | .undef, _, _ => []
  | .bin o a b, stripped, off =>
    if o = op then enumL op a false off ++ enumL op b false off
    else match asConst b with
      | some c => if o = .add ∧ !stripped then enumL op a true (off + c) else [addOffset cfg off (.bin o a b)]
      | none => [addOffset cfg off (.bin o a b)]
  | .select c t f, _, off => if off ≠ 0 then [.select c (addOffset cfg off t) (addOffset cfg off f)] else [.select c t f]
  | x, _, off => [addOffset cfg off x]

/-- Insert in a set that is ordered by `node_less`. -/
def insSet (x : Expr) : List Expr → List Expr
  | [] => [x]
  | y :: ys => match cmpE x y with
    | .lt => x :: y :: ys
    | .eq => y :: ys
    | .gt => y :: insSet x ys

/-- simplify.cc:1941-1965 `enumerate_bounds<op>` -/
def enumB (op : BinOp) (x : Expr) : List Expr := (enumL cfg op x false 0).foldl (fun l e => insSet e l) []

/-- simplify.cc:1969-1976 `is_redundant` -/
def redundant (op : BinOp) (bounds : List Expr) (x : Expr) : Bool :=
  bounds.any fun i => proveTrueS cfg rec s (if op = .min then mkBin .le i x else mkBin .le x i)

/-- simplify.cc:2018-2020 `div`; base/arithmetic.h:57-73 `ceil_div`, `floor_div` -/
def scaleDown (op : BinOp) (a b : Expr) : Expr :=
  if op = .min then mkBin .div (mkBin .sub (mkBin .add a b) (.const 1)) b else mkBin .div a b

/-- A select in which at least one side changed. -/
def selRes (c t f : Expr) (t' f' : Option Expr) : Option Expr :=
  if t'.isNone && f'.isNone then none else some (.select c (t'.getD t) (f'.getD f))

/-- simplify.cc:1967-2047 `remove_redundant_bounds<op>` -/
def rrb (op : BinOp) : Expr → List Expr → Expr → Option Expr
  | .bin o a b, bs, d =>
    if o = op then
      if redundant cfg rec s op bs a && redundant cfg rec s op bs b then some d
      else if redundant cfg rec s op bs a then some ((rrb op b bs d).getD b)
      else if redundant cfg rec s op bs b then some ((rrb op a bs d).getD a)
      else none
    else if redundant cfg rec s op bs (.bin o a b) then some d
    else match asConst b with
      | none => none
      | some _ =>
        if o = .add then bs.findSome? fun i => (rrb op a [mutE rec s (mkBin .sub i b)] (mkBin .sub d b)).map (mkBin .add · b)
        else if o = .div then bs.findSome? fun i => (rrb op a [mutE rec s (mkBin .mul i b)] (mkBin .mul d b)).map (mkBin .div · b)
        else if o = .mul then bs.findSome? fun i => (rrb op a [mutE rec s (scaleDown op i b)] (scaleDown op d b)).map (mkBin .mul · b)
        else none
  | .select c t f, bs, d =>
    if redundant cfg rec s op bs (.select c t f) then some d
    else match bs.findSome? (fun i => match i with
        | .select c' t' f' => if matchE c c' then selRes c t f (rrb op t [t'] d) (rrb op f [f'] d) else none
        | _ => none) with
      | some r => some r
      | none => selRes c t f (rrb op t bs d) (rrb op f bs d)
  | x, bs, d => if redundant cfg rec s op bs x then some d else none

/-- `select(b < a, b + 1, a)`, simplify.cc:521 -/
def emptyPat : Pat := .select (.bin .lt (.wild 1) (.wild 0)) (.bin .add (.wild 1) (.lit 1)) (.wild 0)
/-- `select(x < y, z, w)`, simplify.cc:2084 -/
def selPat : Pat := .select (.bin .lt (.wild 0) (.wild 1)) (.wild 2) (.wild 3)
/-- `x + min(y, z)`, simplify.cc:2092 -/
def addMinPat : Pat := .bin .add (.wild 0) (.bin .min (.wild 1) (.wild 2))

/-- The interval of two expressions, which is a point if they are the same (simplify.cc:47-51 `ensure_is_point`). -/
def mkIv (a b : Expr) : Interval := ⟨a, b, matchE a b⟩

/-- simplify.cc:516-525: an interval `[select(b < a, b + 1, a), b]` becomes `[a, b]`. -/
def dropEmptySelect (a b : Expr) : Interval :=
  match matchAny emptyPat a with
  | some c =>
    match c.vars 0, c.vars 1 with
    | some x, some y => if matchE y b then mkIv x y else mkIv a b
    | _, _ => mkIv a b
  | none => mkIv a b

/-- simplify.cc:508-529 `mutate` of an interval -/
def mutIv (x : Interval) : Interval :=
  if x.isPoint || matchE x.min x.max then .point (mutE rec s x.min) else dropEmptySelect (mutE rec s x.min) (mutE rec s x.max)

/-- simplify.cc:2053-2075: the bounds of the crop, simplified and without bounds that the buffer has anyway. -/
def cropMid (crop : Interval) (buf : Nat) (dim : Int) (bmin bmax : Expr) : Interval :=
  let r := mutIv rec s crop
  let lo := if r.min.defined then rrb cfg rec s .max r.min (enumB cfg .max bmin) (.var buf .min dim) else none
  let hi := if r.max.defined then rrb cfg rec s .min r.max (enumB cfg .min bmax) (.var buf .max dim) else none
  if lo.isNone && hi.isNone then r else mutIv rec s (mkIv (lo.getD r.min) (hi.getD r.max))

/-- `is_variable` -/
def isVar (e : Expr) (buf : Nat) (f : Field) (dim : Int) : Bool := e == .var buf f dim

/-- simplify.cc:2084-2091: the min of the crop if it is a select that tests if the buffer is empty. -/
def selParts (r : Interval) (buf : Nat) (dim : Int) : Option Expr :=
  match matchAny selPat r.min with
  | some c =>
    match c.vars 0, c.vars 1, c.vars 3 with
    | some x, some y, some w => some (if isVar x buf .max dim && isVar y buf .min dim then w else r.min)
    | _, _, _ => none
  | none => none

/-- simplify.cc:2092-2099: the parts `x`, `u`, `z` of the min of a crop of the form `x + min(u, z)`, where `u` is the max of the buffer or of the
crop. -/
def addMinParts (r : Interval) (buf : Nat) (dim : Int) : Option (Expr × Expr × Expr) :=
  match matchAny addMinPat r.min with
  | some c =>
    match c.vars 0, c.vars 1, c.vars 2 with
    | some x, some y, some z =>
      if isVar y buf .max dim || matchE y r.max then some (x, y, z)
      else if isVar z buf .max dim || matchE z r.max then some (x, z, y)
      else none
    | _, _, _ => none
  | none => none

/-- simplify.cc:2077-2099: the min of the crop without tests for empty crops. -/
def cropMin (r : Interval) (buf : Nat) (dim : Int) : Expr :=
  match selParts r buf dim with
  | some e => e
  | none =>
    match addMinParts r buf dim with
    | some (x, _, z) => mutE rec s (mkBin .add x z)
    | none => r.min

/-- simplify.cc:2101-2106: drop a bound which is not more than what is known of the buffer. -/
def dropBound (e : Expr) (c : Expr) : Expr := if e.defined && proveTrueS cfg rec s c then .undef else e

/-- simplify.cc:2049-2112 `mutate_crop_bounds`: the bounds of the crop and the bounds `{buffer.min, buffer.max}` of the cropped dimension that are
known after it, from the crop and the bounds that are known before. -/
def mutateCrop (crop : Interval) (buf : Nat) (dim : Int) (bmin bmax : Expr) : Interval × Expr × Expr :=
  if !crop.min.defined && !crop.max.defined then (crop, bmin, bmax)
  else
    let r := cropMid cfg rec s crop buf dim bmin bmax
    let lo := cropMin rec s r buf dim
    let bm := if bmin.defined then bmin else .var buf .min dim
    let bM := if bmax.defined then bmax else .var buf .max dim
    let lo' := dropBound cfg rec s lo (mkBin .le lo bm)
    let hi' := dropBound cfg rec s r.max (mkBin .le bM r.max)
    (mkIv lo' hi', if lo'.defined then mutE rec s (mkBin .max bm lo') else bmin, if hi'.defined then mutE rec s (mkBin .min bM hi') else bmax)

end CB

end Slinky
