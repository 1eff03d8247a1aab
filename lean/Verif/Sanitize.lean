import Verif.SemLe
import Verif.ImplementCopyThm

/-!
# The expressions of users

The expressions of a user (bounds of inputs, crops, steps of loops, scalars of calls) can use the metadata of the inputs and outputs of the pipeline.
The pipeline builder puts these expressions in the scope of crops and slices of the same symbols. So it replaces the metadata by new variables,
that it defines at the start of the pipeline (`sanitize_user_exprs`).
-/

namespace Slinky.SZ

open Slinky

/-! ## The code -/

/-- pipeline.cc:262-267: the state of `sanitize_user_exprs`: the replacements (a map in C++, here in the order of insertion), and the next symbol that
`insert_unique` makes (symbols.h). -/
structure San where
  repl : List (Expr × Nat)
  next : Nat

/-- pipeline.cc:289-292, 306-309: the variable that replaces the expression. -/
def San.var (s : San) (e : Expr) : Nat × San :=
  match s.repl.find? (fun p => decide (p.1 = e)) with
  | some p => (p.2, s)
  | none => (s.next, ⟨s.repl ++ [(e, s.next)], s.next + 1⟩)

mutual
/-- pipeline.cc:280-312 `sanitize_user_exprs::visit`, and `node_mutator` for the other expressions (left to right). -/
def sanE : Expr → San → Expr × San
  | .undef, s => (.undef, s)
  | .const c, s => (.const c, s)
  | .var x f d, s => if f = .none then (.var x f d, s) else (.v (s.var (.var x f d)).1, (s.var (.var x f d)).2)
  | .lets bs b, s => (.lets (sanB bs s).1 (sanE b (sanB bs s).2).1, (sanE b (sanB bs s).2).2)
  | .bin op a b, s => (.bin op (sanE a s).1 (sanE b (sanE a s).2).1, (sanE b (sanE a s).2).2)
  | .not a, s => (.not (sanE a s).1, (sanE a s).2)
  | .select c t f, s => (.select (sanE c s).1 (sanE t (sanE c s).2).1 (sanE f (sanE t (sanE c s).2).2).1, (sanE f (sanE t (sanE c s).2).2).2)
  | .call fn as, s => if fn = .bufferAt then (.v (s.var (.call fn as)).1, (s.var (.call fn as)).2) else (.call fn (sanA as s).1, (sanA as s).2)
/-- The arguments of calls. -/
def sanA : Exprs → San → Exprs × San
  | .nil, s => (.nil, s)
  | .cons e es, s => (.cons (sanE e s).1 (sanA es (sanE e s).2).1, (sanA es (sanE e s).2).2)
/-- The values of lets. -/
def sanB : Binds → San → Binds × San
  | .nil, s => (.nil, s)
  | .cons x e bs, s => (.cons x (sanE e s).1 (sanB bs (sanE e s).2).1, (sanB bs (sanE e s).2).2)
end

/-- All expressions of the user, in the order in which the builder sees them. -/
def sanL : List Expr → San → List Expr × San
  | [], s => ([], s)
  | e :: es, s => ((sanE e s).1 :: (sanL es (sanE e s).2).1, (sanL es (sanE e s).2).2)

/-- pipeline.cc:269-276 `define_replacements` (the order of the lets does not matter: none uses a symbol of another). -/
def San.define (s : San) (body : Stmt) : Stmt := .lets (.ofList (s.repl.map fun p => (p.2, p.1))) body false

/-! ## Specification -/

mutual
/-- The expressions that the user may give. `buf`: the inputs and outputs of the pipeline; `glob`: the lets of the pipeline; `n`: the symbols of the user are
below `n`. Metadata is of the inputs and outputs (pipeline.cc:286, 302-304), the arguments of `buffer_at` only use the inputs, outputs and lets of the pipeline. -/
def UserE (buf : Nat → Bool) (glob : Nat → Prop) (n : Nat) : Expr → Prop
  | .undef => True
  | .const _ => True
  | .var x f _ => x < n ∧ (f = .none ↔ buf x = false)
  | .lets bs b => UserB buf glob n bs ∧ UserE buf glob n b
  | .bin _ a b => UserE buf glob n a ∧ UserE buf glob n b
  | .not a => UserE buf glob n a
  | .select c t f => UserE buf glob n c ∧ UserE buf glob n t ∧ UserE buf glob n f
  | .call fn as => if fn = .bufferAt then as.LogFree ∧ ∀ y, FreeInArgs y as → y < n ∧ (buf y = true ∨ glob y) else UserA buf glob n as
/-- See `UserE`. -/
def UserA (buf : Nat → Bool) (glob : Nat → Prop) (n : Nat) : Exprs → Prop
  | .nil => True
  | .cons e es => UserE buf glob n e ∧ UserA buf glob n es
/-- See `UserE`. -/
def UserB (buf : Nat → Bool) (glob : Nat → Prop) (n : Nat) : Binds → Prop
  | .nil => True
  | .cons x e bs => UserE buf glob n e ∧ x < n ∧ buf x = false ∧ ¬ glob x ∧ UserB buf glob n bs
end

mutual
/-- The metadata and the addresses that the expression uses. -/
def metaE : Expr → List Expr
  | .var x f d => if f = .none then [] else [.var x f d]
  | .lets bs b => metaB bs ++ metaE b
  | .bin _ a b => metaE a ++ metaE b
  | .not a => metaE a
  | .select c t f => metaE c ++ metaE t ++ metaE f
  | .call fn as => if fn = .bufferAt then [.call fn as] else metaA as
  | _ => []
/-- See `metaE`. -/
def metaA : Exprs → List Expr
  | .nil => []
  | .cons e es => metaE e ++ metaA es
/-- See `metaE`. -/
def metaB : Binds → List Expr
  | .nil => []
  | .cons _ e bs => metaE e ++ metaB bs
end

/-- The environment, where the inputs and outputs are as at the start of the pipeline. -/
def atStart (buf : Nat → Bool) (ρ0 ρ : SEnv) : SEnv := fun y => if buf y then ρ0 y else ρ y

end Slinky.SZ
