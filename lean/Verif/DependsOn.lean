import Verif.Expr

/-!
# Model of `slinky/runtime/depends_on.cc` on expressions
-/

namespace Slinky

/-- depends_on.h:11-27 the flags of `depends_on_result`. A visit of an expression sets only the first four. -/
inductive Dep | var | base | bounds | dims | input | output | src | dst
deriving DecidableEq, Repr

/-- depends_on.cc:22-27 `var_deps`, most recent declaration first. `some k` points at the result for `k`, `none` at the
dummy result. -/
abbrev DepStack := List (Nat × Option Nat)

/-- depends_on.cc:43-55 `find_deps`. `unk`: `unknown_deps` is non-null. -/
def findDeps (unk : Bool) (st : DepStack) (s : Nat) : Option (Option Nat) :=
  match st.lookup s with
  | some slot => some slot
  | none => if unk then some (some s) else none

/-- depends_on.cc:58-65 `decl_needs_shadow` -/
def declNeedsShadow (unk : Bool) (st : DepStack) (s : Nat) : Bool :=
  match st.lookup s with
  | some slot => slot.isSome
  | none => unk

/-- The flags set on the result that `s` refers to, if it is not the dummy. -/
def emit (unk : Bool) (st : DepStack) (s : Nat) (ds : List Dep) : List (Nat × Dep) :=
  match findDeps unk st s with
  | some (some k) => ds.map (k, ·)
  | _ => []

/-- depends_on.cc:69-87 the flags set by reading a field. -/
def fieldDeps : Field → List Dep
  | .none => [.var]
  | .min | .max => [.bounds, .dims]
  | .stride | .foldFactor => [.dims]
  | .rank | .elemSize | .sizeBytes => [.var]

/-- depends_on.cc:110-117 one declaration of a let. -/
def pushDecl (unk : Bool) (st : DepStack) (x : Nat) : DepStack :=
  if declNeedsShadow unk st x then (x, none) :: st else st

mutual
/-- depends_on.cc:69-122: the visitor `dependencies` on expressions; returns all (result, flag) pairs that are set. -/
def depsE (unk : Bool) (st : DepStack) : Expr → List (Nat × Dep)
  | .undef => []
  | .var x f _ => emit unk st x (fieldDeps f)
  | .const _ => []
  | .lets bs b => depsBinds unk st bs ++ depsE unk (pushBinds unk st bs) b
  | .bin _ a b => depsE unk st a ++ depsE unk st b
  | .not a => depsE unk st a
  | .select c t f => depsE unk st c ++ depsE unk st t ++ depsE unk st f
  | .call .bufferAt as =>
    match as with
    | .nil => []
    | .cons b as =>
      (match b with
        | .var x .none _ => emit unk st x [.base, .dims, .bounds]
        | _ => []) ++ depsArgs unk st as
  | .call _ as => depsArgs unk st as
/-- The arguments of a call. -/
def depsArgs (unk : Bool) (st : DepStack) : Exprs → List (Nat × Dep)
  | .nil => []
  | .cons e es => depsE unk st e ++ depsArgs unk st es
/-- depends_on.cc:110-117 the values of the lets. -/
def depsBinds (unk : Bool) (st : DepStack) : Binds → List (Nat × Dep)
  | .nil => []
  | .cons x e bs => depsE unk st e ++ depsBinds unk (pushDecl unk st x) bs
/-- depends_on.cc:110-117 the declarations of the lets. -/
def pushBinds (unk : Bool) (st : DepStack) : Binds → DepStack
  | .nil => st
  | .cons x _ bs => pushBinds unk (pushDecl unk st x) bs
end

/-- depends_on.cc:323-327 `depends_on(expr_ref e, var x)`: the set of flags in the result. -/
def dependsOn (e : Expr) (x : Nat) : List Dep := (depsE false [(x, some x)] e).map Prod.snd

/-- depends_on.cc:342-350 `depends_on(expr_ref e, span<const var> xs)`: all `xs` share one result (here number 0). -/
def dependsOnAny (e : Expr) (xs : List Nat) : List Dep :=
  (depsE false ((xs.map (·, some 0)).reverse) e).map Prod.snd

/-- depends_on.h:33 `depends_on_result::any` -/
def anyDep (r : List Dep) : Bool := !r.isEmpty

/-- depends_on.cc:362 `can_substitute_buffer` -/
def canSubstituteBuffer (r : List Dep) : Bool := !((r.contains .input || r.contains .output || r.contains .src || r.contains .dst || r.contains .base) || r.contains .var)

/-- depends_on.cc:386-391 `find_dependencies`: the keys of the map (here with repetitions). -/
def findDependencies (e : Expr) : List Nat := (depsE true [] e).map Prod.fst

mutual
/-- depends_on.cc:364-368 `is_pure` (69-71, 90-92). -/
def isPure : Expr → Bool
  | .undef => true
  | .var _ f _ => f == .none
  | .const _ => true
  | .lets bs b => isPureBinds bs && isPure b
  | .bin _ a b => isPure a && isPure b
  | .not a => isPure a
  | .select c t f => isPure c && isPure t && isPure f
  | .call .bufferAt _ => false
  | .call _ as => isPureArgs as
/-- See `isPure`. -/
def isPureArgs : Exprs → Bool
  | .nil => true
  | .cons e es => isPure e && isPureArgs es
/-- See `isPure`. -/
def isPureBinds : Binds → Bool
  | .nil => true
  | .cons _ e bs => isPure e && isPureBinds bs
end

end Slinky
