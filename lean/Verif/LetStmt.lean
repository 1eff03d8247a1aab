import Verif.DependsSem
import Verif.Simplifier
import Verif.SimplifierInfo
import Verif.ImplementCopyThm

/-!
# Lets in statements

`visit_let` of the simplifier, for statements. (For expressions, see `Simplifier.lean`.)
-/

namespace Slinky.LT

open Slinky

/-! ## The code -/

/-- simplify.cc:1199-1205: the value of a let: the variable that has the same value, if there is one. -/
def named (rev : List (Expr × Nat)) (v : Expr) : Expr :=
  match rev.find? (fun p => decide (p.1 = v)) with
  | some p => .v p.2
  | none => v

/-- simplify.cc:1199-1205: `reverse_lets` after a let. -/
def revAdd (rev : List (Expr × Nat)) (v : Expr) (x : Nat) : List (Expr × Nat) :=
  match rev.find? (fun p => decide (p.1 = v)) with
  | some _ => rev
  | none => (v, x) :: rev

/-- simplify.cc:1195-1216: the loop over the lets. `simp σ e`: the simplified expression, where the variables of `σ` are known to have (and are replaced by)
the values of `σ`. The result: the lets that are left, and the values that are substituted. -/
def letLoop (simp : List (Nat × Expr) → Expr → Expr) : List (Nat × Expr) → List (Nat × Expr) → List (Expr × Nat) → List (Nat × Expr) × List (Nat × Expr)
  | [], σ, _ => ([], σ)
  | (x, e) :: ls, σ, rev =>
    if shouldSubstitute (named rev (simp σ e)) then letLoop simp ls (σ ++ [(x, named rev (simp σ e))]) (revAdd rev (simp σ e) x)
    else ((x, named rev (simp σ e)) :: (letLoop simp ls σ (revAdd rev (simp σ e) x)).1, (letLoop simp ls σ (revAdd rev (simp σ e) x)).2)

/-- simplify.cc:1221-1236: remove the lets that are not used, the last first; `used`: the body depends on the variable. -/
def prune (used : Nat → Bool) : List (Nat × Expr) → List (Nat × Expr)
  | [] => []
  | (x, e) :: ls => if used x || (prune used ls).any (fun p => freeInB x p.2) then (x, e) :: prune used ls else prune used ls

/-- simplify.cc:1238-1252: lets in lets become one let; a let without variables is its body. -/
def flatten (bs : List (Nat × Expr)) : Stmt → Stmt
  | .lets cs b _ => flatten (bs ++ cs.toList) b
  | s => if bs = [] then s else .lets (.ofList bs) s false

/-- simplify.cc:1183-1253 `visit_let`, for statements. -/
def visitLet (simp : List (Nat × Expr) → Expr → Expr) (simpS : List (Nat × Expr) → Stmt → Stmt) (bs : List (Nat × Expr)) (body : Stmt) : Stmt :=
  let r := letLoop simp bs [] []
  let b := simpS r.2 body
  flatten (prune (fun x => !(dependsOnS b x).isEmpty) r.1) b

/-! ## Specification -/

/-- The value of a number or a variable. -/
def simple (ρ : SEnv) : Expr → Val
  | .const c => .int c
  | .var y .none _ => ρ y
  | _ => .undef

/-- The environment with the variables that are substituted. -/
def extend (ρ : SEnv) (σ : List (Nat × Expr)) : SEnv := σ.foldl (fun ρ p => ρ.set p.1 (simple ρ p.2)) ρ

/-- The simplification of the value `e` of the let of `x` is right: it has the same value without the variables that are substituted, and `x` is a new
symbol. -/
structure StepOK (w : World) (v : Expr) (x : Nat) (e : Expr) (σ : List (Nat × Expr)) (rev : List (Expr × Nat)) : Prop where
  sound : ∀ ρ l u, evalS w l (extend ρ σ) e = some u → evalS w l ρ v = some u
  gone : ∀ p ∈ σ, ¬ FreeIn p.1 v
  newE : ¬ FreeIn x e
  newV : ¬ FreeIn x v
  newS : ∀ p ∈ σ, p.1 ≠ x ∧ ¬ FreeIn x p.2
  newR : ∀ p ∈ rev, p.2 ≠ x ∧ ¬ FreeIn x p.1

/-- All simplifications of values are right. -/
def StepsOK (w : World) (simp : List (Nat × Expr) → Expr → Expr) : List (Nat × Expr) → List (Nat × Expr) → List (Expr × Nat) → Prop
  | [], _, _ => True
  | (x, e) :: ls, σ, rev => StepOK w (simp σ e) x e σ rev ∧
    StepsOK w simp ls (if shouldSubstitute (named rev (simp σ e)) then σ ++ [(x, named rev (simp σ e))] else σ) (revAdd rev (simp σ e) x)

end Slinky.LT
