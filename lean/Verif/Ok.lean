import Verif.IntervalProps

/-!
# Expressions to which the simplifier theorems apply

`Expr.ok`: every operand is defined (only the arguments of calls other than `abs`, `and_then` and `or_else` may be
undefined), and there are no infinities or indeterminate values, which have no integer value and which the evaluator does
not support either (evaluate.cc:332-336).
-/

namespace Slinky

/-- The functions that may be called. -/
def Fn.isOk : Fn → Bool
  | .posInf | .negInf | .indeterminate => false
  | _ => true

/-- The functions whose arguments must be defined. -/
def Fn.strict : Fn → Bool
  | .abs | .andThen | .orElse => true
  | _ => false

mutual
/-- See above. -/
def Expr.ok : Expr → Bool
  | .undef => false
  | .var _ _ _ => true
  | .const _ => true
  | .lets bs b => bs.ok && b.ok
  | .bin _ a b => a.ok && b.ok
  | .not a => a.ok
  | .select c t f => c.ok && t.ok && f.ok
  | .call fn as => fn.isOk && as.ok fn.strict && (fn != .abs || as.length == 1)
/-- All arguments are good, or undefined if not `strict`. -/
def Exprs.ok (strict : Bool) : Exprs → Bool
  | .nil => true
  | .cons e es => ((!strict && !e.defined) || e.ok) && es.ok strict
/-- All values are good. -/
def Binds.ok : Binds → Bool
  | .nil => true
  | .cons _ e bs => e.ok && bs.ok
end

theorem ok_defined {e : Expr} (h : e.ok = true) : e.defined = true := by
  cases e <;> simp [Expr.ok, Expr.defined] at h ⊢

@[simp] theorem Expr.ok_const (c : Int) : (Expr.const c).ok = true := by simp [Expr.ok]

@[simp] theorem Expr.ok_bin (op a b) : (Expr.bin op a b).ok = (a.ok && b.ok) := by simp [Expr.ok]

@[simp] theorem ok_mkBin (op a b) : (mkBin op a b).ok = (a.ok && b.ok) := by
  unfold mkBin; split <;> simp [Expr.ok, Bool.and_comm]

theorem ok_boolean {e : Expr} (h : e.ok = true) : (boolean e).ok = true := by
  unfold boolean
  split
  · exact h
  · split
    · simp
    · simp [h]

theorem ok_isPosInf {e : Expr} (h : e.ok = true) : isPosInf e = false ∧ isNegInf e = false ∧ isIndeterminate e = false := by
  cases e <;> try exact ⟨rfl, rfl, rfl⟩
  case call fn as => cases fn <;> simp_all [Expr.ok, isPosInf, isNegInf, isIndeterminate, Fn.isOk]

theorem isNonNegative_ok (m : Mem) (ρ : Env) {e : Expr} (h : e.ok = true) (hn : isNonNegative e = true) :
    0 ≤ eval m ρ e := by
  cases e <;> simp [isNonNegative] at hn
  case const c => simpa [eval] using hn
  case call fn as =>
    cases fn <;> simp [isNonNegative] at hn
    · simp [Expr.ok, Fn.isOk] at h
    · cases as with
      | nil => simp [Expr.ok, Exprs.length] at h
      | cons a as =>
        cases as with
        | nil =>
          have hd : a.ok = true := by simp [Expr.ok, Exprs.ok, Fn.strict] at h; exact h.1.2
          simp only [eval, evalArgs, ok_defined hd, if_true, Fn.denote]; omega
        | cons _ _ => simp [Expr.ok, Exprs.length] at h

theorem isNonPositive_ok (m : Mem) (ρ : Env) {e : Expr} (h : e.ok = true) (hn : isNonPositive e = true) :
    eval m ρ e ≤ 0 := by
  cases e <;> simp [isNonPositive] at hn
  case const c => simpa [eval] using hn
  case call fn as =>
    cases fn <;> simp [isNonPositive] at hn
    simp [Expr.ok, Fn.isOk] at h

theorem asConst_eq {e : Expr} {c : Int} (h : asConst e = some c) : e = .const c := by
  cases e <;> simp [asConst] at h; rw [h]

end Slinky
