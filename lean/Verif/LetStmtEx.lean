import Verif.LetStmtThm

/-!
# C62: lets in statements. Examples
-/

namespace Slinky.LT

open Slinky

/-! ## The theorem applies -/

/-- A small simplifier: it replaces a variable that is known, simplify.cc:835-843 (the value is simplified again). -/
def putV (p : Nat × Expr) : Expr → Expr
  | .var y .none d => if y = p.1 then p.2 else .var y .none d
  | .bin op a b => .bin op (putV p a) (putV p b)
  | e => e

/-- All variables that are known, the last first (its value can use the others). -/
def put (σ : List (Nat × Expr)) (e : Expr) : Expr := σ.foldr putV e

/-- For a check. -/
def putS (σ : List (Nat × Expr)) : Stmt → Stmt
  | .check c => .check (put σ c)
  | s => s

/-- `x1 = x0 + 1, x2 = 3, x3 = x0 + 1, x4 = x3 + x2, x5 = x3 * x2` -/
def exBs : List (Nat × Expr) := [(1, .bin .add (.v 0) (.const 1)), (2, .const 3), (3, .bin .add (.v 0) (.const 1)), (4, .bin .add (.v 3) (.v 2)),
  (5, .bin .mul (.v 3) (.v 2))]
/-- `check(x4 < x3 + 9)` -/
def exBody : Stmt := .check (.bin .lt (.v 4) (.bin .add (.v 3) (.const 9)))

/-- `x2` is a number, `x3` is `x1`, `x5` is not used. -/
theorem ex_visitLet : visitLet put putS exBs exBody = .lets (.ofList [(1, .bin .add (.v 0) (.const 1)), (4, .bin .add (.v 1) (.const 3))])
    (.check (.bin .lt (.v 4) (.bin .add (.v 1) (.const 9)))) false := by rfl

theorem ex_sigma : (letLoop put exBs [] []).2 = [(2, .const 3), (3, .v 1)] := by rfl

theorem ex_steps (w : World) : StepsOK w put exBs [] [] := by
  refine ⟨⟨fun ρ l u h => h, by simp, by simp [FreeIn, Expr.v], by simp [put, FreeIn, Expr.v], by simp, by simp⟩,
    ⟨fun ρ l u h => h, ?_, by simp [FreeIn], ?_, ?_, ?_⟩,
    ⟨?_, ?_, by simp [FreeIn, Expr.v], ?_, ?_, ?_⟩, ⟨?_, ?_, by simp [FreeIn, Expr.v], ?_, ?_, ?_⟩, ⟨?_, ?_, by simp [FreeIn, Expr.v], ?_, ?_, ?_⟩, trivial⟩
  all_goals simp [put, putV, named, revAdd, shouldSubstitute, FreeIn, Expr.v, extend, simple, evalS, SEnv.set]
  all_goals grind

/-- The simplified statement does what the statement does. -/
example (w : World) (l : List Ev) (ρ : SEnv) (r : Int × List Ev) (h : sem w false (.lets (.ofList exBs) exBody false) ρ l = some r) :
    sem w false (visitLet put putS exBs exBody) ρ l = some r := by
  refine visitLet_sem_partial (ex_steps w) rfl ?_ ?_ ?_ ?_ h
  · intro ρ r h
    rw [ex_sigma] at h ⊢
    simp only [exBody, putS, put, putV, sem, List.foldr] at h ⊢
    revert h
    simp [evalI, extend, simple, evalS, SEnv.set, putV, Expr.v, isFree]
  · rw [ex_sigma]; simp [exBody, putS, put, putV, Stmt.BufOK, Expr.BufOK, Expr.v]
  · rw [ex_sigma]; simp [exBody, putS, put, putV, Stmt.ClosOK, Expr.v]
  · rw [ex_sigma]; simp [exBs, exBody, putS, put, putV, Stmt.Uses, Expr.v, ReadsO]

/-- And it has a meaning: with `x0 = 5`, the check passes. -/
example (w : World) : sem w false (.lets (.ofList exBs) exBody false) (fun x => if x = 0 then .int 5 else .undef) [] = some (0, [.check true]) := by rfl

/-! ## Counterexample: two names of a buffer

The value of a let that is a variable is replaced by the first let with the same value (simplify.cc:1199-1203), which is itself replaced by its value and
dropped. A variable that is used as a number is simplified until nothing changes (simplify.cc:835-843), but the symbol of a buffer is looked up once
(simplify.cc:773-783, 858-866). -/

/-- simplify.cc:773-783, 858-866: the symbol of a buffer. -/
def symOf (σ : List (Nat × Expr)) (x : Nat) : Nat :=
  match σ.find? (fun p => p.1 == x) with
  | some (_, .var y .none _) => y
  | _ => x

/-- A small simplifier: variables as in `put`, fields of buffers with `symOf`. -/
def putB (σ : List (Nat × Expr)) : Expr → Expr
  | .var y .none d => put σ (.var y .none d)
  | .var y f d => .var (symOf σ y) f d
  | .bin op a b => .bin op (putB σ a) (putB σ b)
  | e => e

/-- For a check. -/
def putBS (σ : List (Nat × Expr)) : Stmt → Stmt
  | .check c => .check (putB σ c)
  | s => s

/-- `let x1 = x0, x2 = x0 in check(buffer_min(x2, 0) < 5)` becomes `check(buffer_min(x1, 0) < 5)`: `x1` is not in scope. -/
theorem alias_counterexample :
    visitLet putB putBS [(1, .v 0), (2, .v 0)] (.check (.bin .lt (.var 2 .min 0) (.const 5))) = .check (.bin .lt (.var 1 .min 0) (.const 5)) ∧
    dependsOnS (.lets (.ofList [(1, .v 0), (2, .v 0)]) (.check (.bin .lt (.var 2 .min 0) (.const 5))) false) 1 = [] ∧
    dependsOnS (.check (.bin .lt (.var 1 .min 0) (.const 5))) 1 ≠ [] := by
  refine ⟨by rfl, by decide +kernel, by decide +kernel⟩

/-- The same lets with one lookup are right: the variable that is used as a number is `x0`. -/
example : visitLet putB putBS [(1, .v 0), (2, .v 0)] (.check (.bin .lt (.v 2) (.const 5))) = .check (.bin .lt (.v 0) (.const 5)) := by rfl

end Slinky.LT
